import Verif.TxLink
/-!
# C74: concurrent transactions act as if they ran one after the other
-/

namespace Tork.Tx

variable {K V R E : Type} [DecidableEq K]

/-- **C74**: whatever the interleaving of the statements of any transactions, with insertions, deletions and reads between them, with
transactions ended by the server at any moment: what was committed and what the callers were told is what happens when the transactions
run alone, one after the other, in the order in which they ended. Those that failed or were ended leave no trace. -/
theorem C74_serialisable {r0 : Store K V} {s : S K V R E} (h : Reach r0 s) : Serial r0 s.log s.rows := (inv_reach h).serial

/-- **C74**: nobody sees what is not committed: the committed rows change only when a transaction succeeds, or a row is inserted or deleted. -/
theorem C74_only_success_shows {s s' : S K V R E} (h : Step s s') (hr : s'.rows ≠ s.rows) :
    (∃ i p r, s'.log = s.log ++ [.tx i p (.ok r)]) ∨ (∃ k v, s'.log = s.log ++ [.insert k v]) ∨ ∃ k, s'.log = s.log ++ [.delete k] := by
  cases h with
  | commit i t r hi hc => exact .inl ⟨i, t.orig, r, rfl⟩
  | insert k v hk => exact .inr (.inl ⟨k, v, rfl⟩)
  | delete k hk => exact .inr (.inr ⟨k, rfl⟩)
  | _ => exact absurd rfl hr

/-- What is left of transaction `i` runs without interruption. -/
theorem runs_alone {r0 : Store K V} (c : TP K V R E) : ∀ {s : S K V R E}, Reach r0 s → ∀ {i : Nat} {t : Th K V R E}, s.th i = some t → t.cur = c →
    t.hand = none → (∀ k, s.lock k = none ∨ s.lock k = some i) → (∀ j, j ≠ i → s.th j = none) →
    ∃ s', Reach r0 s' ∧ s'.log = s.log ++ [.tx i t.orig (outcome (c.go (over s.rows t.buf)))] ∧ s'.rows = after s.rows (c.go (over s.rows t.buf)) ∧
      (∀ k, s'.lock k = none) ∧ ∀ j, s'.th j = none := by
  induction c with
  | commit r =>
    intro s hr i t hi hc hh hl ho
    refine ⟨_, hr.step (.commit i t r hi hc), rfl, rfl, fun k => ?_, fun j => ?_⟩
    · rcases hl k with h | h <;> simp [S.finish, release, h]
    · by_cases hj : j = i <;> simp [S.finish, upd, hj, ho j]
  | fail e =>
    intro s hr i t hi hc hh hl ho
    refine ⟨_, hr.step (.fail i t e hi hc), rfl, rfl, fun k => ?_, fun j => ?_⟩
    · rcases hl k with h | h <;> simp [S.finish, release, h]
    · by_cases hj : j = i <;> simp [S.finish, upd, hj, ho j]
  | touch k miss f next ih =>
    intro s hr i t hi hc hh hl ho
    cases hv : over s.rows t.buf k with
    | none =>
      have hg : (TP.touch k miss f next).go (over s.rows t.buf) = .error miss := by simp only [TP.go, hv]
      rw [hg]
      refine ⟨_, hr.step (.missing i t k miss f next hi hc hh hv), rfl, rfl, fun x => ?_, fun j => ?_⟩
      · rcases hl x with h | h <;> simp [S.finish, release, h]
      · by_cases hj : j = i <;> simp [S.finish, upd, hj, ho j]
    | some v =>
      have r1 := hr.step (.select i t k miss f next v hi hc hh (hl k) hv)
      have hl1 : ∀ x, (if x = k then some i else s.lock x) = none ∨ (if x = k then some i else s.lock x) = some i := fun x => by
        by_cases hx : x = k <;> simp [hx, hl x]
      cases hf : f v with
      | error e =>
        have hg : (TP.touch k miss f next).go (over s.rows t.buf) = .error e := by simp only [TP.go, hv, hf]
        rw [hg]
        refine ⟨_, r1.step (.refuse i { t with hand := some v } k miss f next v e (if_pos rfl) hc rfl hf), rfl, rfl, fun x => ?_, fun j => ?_⟩
        · rcases hl1 x with h | h <;> simp [S.finish, release, h]
        · by_cases hj : j = i <;> simp [S.finish, upd, hj, ho j]
      | ok u =>
        have hg : (TP.touch k miss f next).go (over s.rows t.buf) = (next v).go (over s.rows (set t.buf k u)) := by
          simp only [TP.go, hv, hf, over_set]
        rw [hg]
        have r2 := r1.step (.update i { t with hand := some v } k miss f next v u (if_pos rfl) hc rfl hf)
        exact ih v r2 (t := { t with hand := none, cur := next v, buf := set t.buf k u }) (if_pos rfl) rfl rfl hl1 fun j hj => by simp [upd, hj, ho j hj]

/-- Conversely, every transaction can run alone. -/
theorem run_one {r0 : Store K V} {s : S K V R E} (hr : Reach r0 s) (hl : ∀ k, s.lock k = none) (ht : ∀ j, s.th j = none) (i : Nat) (p : TP K V R E) :
    ∃ s', Reach r0 s' ∧ s'.log = s.log ++ [.tx i p (outcome (p.go s.rows))] ∧ s'.rows = after s.rows (p.go s.rows) ∧
      (∀ k, s'.lock k = none) ∧ ∀ j, s'.th j = none :=
  runs_alone p (hr.step (.begin i p (ht i))) (i := i) (t := { orig := p, cur := p }) (if_pos rfl) rfl rfl (fun k => .inl (hl k))
    fun j hj => by simp [upd, hj, ht j]

/-- Two callers add to the same row; their statements interleave. The hypothesis of `C74_serialisable` is met by more than serial runs. -/
def add (n : Nat) : TP Nat Nat Nat Unit := .touch 0 () (fun v => .ok (v + n)) fun v => .commit (v + n)

theorem interleaved_example : ∃ s : S Nat Nat Nat Unit, Reach (fun _ => some 10) s ∧ s.rows 0 = some 13 ∧
    s.log = [.tx 0 (add 1) (.ok 11), .tx 1 (add 2) (.ok 13)] := by
  have t := Reach.init (R := Nat) (E := Unit) (r0 := fun _ : Nat => some 10)
  have t := t.step (.begin 0 (add 1) rfl)
  have t := t.step (.begin 1 (add 2) rfl)
  have t := t.step (.select 0 { orig := add 1, cur := add 1 } 0 () (fun v => .ok (v + 1)) (fun v => .commit (v + 1)) 10 rfl rfl rfl (.inl rfl) rfl)
  have t := t.step (.update 0 { orig := add 1, cur := add 1, hand := some 10 } 0 () (fun v => .ok (v + 1)) (fun v => .commit (v + 1)) 10 11 rfl rfl rfl rfl)
  have t := t.step (.commit 0 { orig := add 1, cur := .commit 11, buf := set (fun _ => none) 0 11 } 11 rfl rfl)
  have t := t.step (.select 1 { orig := add 2, cur := add 2 } 0 () (fun v => .ok (v + 2)) (fun v => .commit (v + 2)) 11 rfl rfl rfl (.inl rfl) rfl)
  have t := t.step (.update 1 { orig := add 2, cur := add 2, hand := some 11 } 0 () (fun v => .ok (v + 2)) (fun v => .commit (v + 2)) 11 13 rfl rfl rfl rfl)
  have t := t.step (.commit 1 { orig := add 2, cur := .commit 13, buf := set (fun _ => none) 0 13 } 13 rfl rfl)
  exact ⟨_, t, rfl, rfl⟩

/-! ## No deadlock -/

/-- The transaction locks rows in increasing order of `rank`, above `b`. -/
def Ordered (rank : K → Nat) : Nat → TP K V R E → Prop
  | _, .commit _ => True
  | _, .fail _ => True
  | b, .touch k _ _ next => b < rank k ∧ ∀ v, Ordered rank (rank k) (next v)

/-- The row transaction `t` needs next. -/
def Th.wants (t : Th K V R E) : Option K :=
  match t.cur, t.hand with
  | .touch k _ _ _, none => some k
  | _, _ => none

structure Ranked (rank : K → Nat) (s : S K V R E) : Prop where
  ordered : ∀ i t, s.th i = some t → ∃ b, (t.hand = none → Ordered rank b t.cur) ∧
    (∀ v k miss f next, t.hand = some v → t.cur = .touch k miss f next → (∀ w, Ordered rank (rank k) (next w)) ∧ b = rank k) ∧
    ∀ k, s.lock k = some i → rank k ≤ b

theorem ranked_step {rank : K → Nat} {s s' : S K V R E} (h : Ranked rank s)
    (hp : ∀ i t, s'.th i = some t → Ordered rank 0 t.orig) (hl : ∀ k i, s.lock k = some i → s.th i ≠ none) (hs : Step s s') : Ranked rank s' := by
  have hfin : ∀ i rows e, s' = s.finish i rows e → Ranked rank s' := by
    intro i rows e he
    subst he
    refine ⟨fun j t hj => ?_⟩
    by_cases hji : j = i
    · simp [S.finish, upd, hji] at hj
    · obtain ⟨b, h1, h2, h3⟩ := h.ordered j t (by simpa [S.finish, upd, hji] using hj)
      exact ⟨b, h1, h2, fun k hk => h3 k (release_some.1 hk).1⟩
  cases hs with
  | begin i p hi =>
    refine ⟨fun j t hj => ?_⟩
    by_cases hji : j = i
    · have hp' := hp j t hj
      simp only [upd, hji, if_pos, Option.some.injEq] at hj
      subst hj
      exact ⟨0, fun _ => hp', (by intro v k miss f next hv; cases hv), fun k hk => absurd (hji ▸ hi) (hl k j hk)⟩
    · exact h.ordered j t (by simpa [upd, hji] using hj)
  | select i t k miss f next v hi hc hh hl hv =>
    refine ⟨fun j u hj => ?_⟩
    by_cases hji : j = i
    · simp only [upd, hji, if_pos, Option.some.injEq] at hj
      subst hj hji
      obtain ⟨b, h1, h2, h3⟩ := h.ordered j t hi
      have ho := h1 hh
      rw [hc] at ho
      refine ⟨rank k, (by intro h; cases h), fun w k' miss' f' next' _ hc' => ?_, fun x hx => ?_⟩
      · have : t.cur = .touch k' miss' f' next' := hc'
        rw [hc] at this
        cases this
        exact ⟨ho.2, rfl⟩
      · by_cases hxk : x = k
        · simp [hxk]
        · exact Nat.le_of_lt (Nat.lt_of_le_of_lt (h3 x (by simpa [hxk] using hx)) ho.1)
    · obtain ⟨b, h1, h2, h3⟩ := h.ordered j u (by simpa [upd, hji] using hj)
      refine ⟨b, h1, h2, fun x hx => h3 x ?_⟩
      by_cases hxk : x = k
      · simp only [hxk, if_pos, Option.some.injEq] at hx
        exact absurd hx.symm hji
      · simpa [hxk] using hx
  | update i t k miss f next v u hi hc hh hf =>
    refine ⟨fun j w hj => ?_⟩
    by_cases hji : j = i
    · simp only [upd, hji, if_pos, Option.some.injEq] at hj
      subst hj hji
      obtain ⟨b, h1, h2, h3⟩ := h.ordered j t hi
      obtain ⟨h4, h5⟩ := h2 v k miss f next hh hc
      exact ⟨b, fun _ => h5 ▸ h4 v, (by intro v k miss f next hv; cases hv), h3⟩
    · exact h.ordered j w (by simpa [upd, hji] using hj)
  | missing | refuse | fail | commit | abort => exact hfin _ _ _ rfl
  | insert k v hk => exact ⟨h.ordered⟩
  | delete k hk => exact ⟨h.ordered⟩
  | read k => exact ⟨h.ordered⟩

/-- States reached with transactions that lock in increasing order only. -/
inductive ReachO (rank : K → Nat) (r0 : Store K V) : S K V R E → Prop
  | init : ReachO rank r0 { rows := r0 }
  | step {s s' : S K V R E} : ReachO rank r0 s → Step s s' → (∀ i t, s'.th i = some t → Ordered rank 0 t.orig) → ReachO rank r0 s'

theorem ReachO.reach {rank : K → Nat} {r0 : Store K V} {s : S K V R E} (h : ReachO rank r0 s) : Reach r0 s := by
  induction h with
  | init => exact .init
  | step _ hs _ ih => exact .step ih hs

theorem ReachO.ranked {rank : K → Nat} {r0 : Store K V} {s : S K V R E} (h : ReachO rank r0 s) : Ranked rank s := by
  induction h with
  | init => exact ⟨fun _ _ h => nomatch h⟩
  | step hr hs ho ih => exact ranked_step ih ho (fun k i hk => ((inv_reach hr.reach).locked k i hk).2) hs

/-- A step of transaction `i` itself: a statement succeeds, or it ends by itself. -/
def Moves (s : S K V R E) (i : Nat) : Prop :=
  ∃ s' t, Step s s' ∧ s.th i = some t ∧ ((∃ u, s'.th i = some u ∧ (u.cur ≠ t.cur ∨ u.hand ≠ t.hand)) ∨ ∃ r, s'.log = s.log ++ [.tx i t.orig r])

theorem moves_or_wants {r0 : Store K V} {s : S K V R E} (h : Reach r0 s) {i : Nat} {t : Th K V R E} (hi : s.th i = some t) :
    Moves s i ∨ ∃ k j, t.wants = some k ∧ s.lock k = some j ∧ j ≠ i := by
  have inv := inv_reach h
  cases hc : t.cur with
  | commit r => exact .inl ⟨_, t, .commit i t r hi hc, hi, .inr ⟨_, rfl⟩⟩
  | fail e => exact .inl ⟨_, t, .fail i t e hi hc, hi, .inr ⟨_, rfl⟩⟩
  | touch k miss f next =>
    cases hh : t.hand with
    | some v =>
      cases hf : f v with
      | error e => exact .inl ⟨_, t, .refuse i t k miss f next v e hi hc hh hf, hi, .inr ⟨_, rfl⟩⟩
      | ok u => exact .inl ⟨_, t, .update i t k miss f next v u hi hc hh hf, hi, .inl ⟨_, if_pos rfl, .inr (by simp [hh])⟩⟩
    | none =>
      cases hv : over s.rows t.buf k with
      | none => exact .inl ⟨_, t, .missing i t k miss f next hi hc hh hv, hi, .inr ⟨_, rfl⟩⟩
      | some v =>
        cases hl : s.lock k with
        | none => exact .inl ⟨_, t, .select i t k miss f next v hi hc hh (.inl hl) hv, hi, .inl ⟨_, if_pos rfl, .inr (by simp [hh])⟩⟩
        | some j =>
          by_cases hji : j = i
          · exact .inl ⟨_, t, .select i t k miss f next v hi hc hh (.inr (hji ▸ hl)) hv, hi, .inl ⟨_, if_pos rfl, .inr (by simp [hh])⟩⟩
          · exact .inr ⟨k, j, by simp [Th.wants, hc, hh], hl, hji⟩

/-- **C74**: transactions that lock rows in increasing order of some rank do not block each other: while some are under way, at least one
of them can go on. -/
theorem C74_no_deadlock {rank : K → Nat} {r0 : Store K V} {s : S K V R E} (h : ReachO rank r0 s) {m : Nat} (hm : ∀ k, rank k ≤ m)
    {i : Nat} {t : Th K V R E} (hi : s.th i = some t) : ∃ j, Moves s j := by
  have inv := inv_reach h.reach
  have hr := h.ranked
  -- follow who waits for whom: the rank of the wanted row increases
  have key : ∀ n i t k, s.th i = some t → t.wants = some k → m ≤ rank k + n → ∃ j, Moves s j := by
    intro n
    induction n with
    | zero =>
      intro i t k hi hw hn
      rcases moves_or_wants h.reach hi with hmv | ⟨k', j, hw', hl, hji⟩
      · exact ⟨i, hmv⟩
      · rw [hw] at hw'; cases hw'
        obtain ⟨u, hu⟩ : ∃ u, s.th j = some u := by
          cases hu : s.th j with
          | none => exact absurd hu (inv.locked k j hl).2
          | some u => exact ⟨u, rfl⟩
        rcases moves_or_wants h.reach hu with hmv | ⟨k2, j2, hw2, _, _⟩
        · exact ⟨j, hmv⟩
        · obtain ⟨b, h1, _, h3⟩ := hr.ordered j u hu
          have : rank k ≤ b := h3 k hl
          cases hc : u.cur with
          | touch k3 miss f next =>
            cases hh : u.hand with
            | some v => simp [Th.wants, hc, hh] at hw2
            | none =>
              have ho := h1 hh
              rw [hc] at ho
              have := ho.1
              have := hm k3
              omega
          | commit r => simp [Th.wants, hc] at hw2
          | fail e => simp [Th.wants, hc] at hw2
    | succ n ih =>
      intro i t k hi hw hn
      rcases moves_or_wants h.reach hi with hmv | ⟨k', j, hw', hl, hji⟩
      · exact ⟨i, hmv⟩
      · rw [hw] at hw'; cases hw'
        obtain ⟨u, hu⟩ : ∃ u, s.th j = some u := by
          cases hu : s.th j with
          | none => exact absurd hu (inv.locked k j hl).2
          | some u => exact ⟨u, rfl⟩
        rcases moves_or_wants h.reach hu with hmv | ⟨k2, j2, hw2, _, _⟩
        · exact ⟨j, hmv⟩
        · obtain ⟨b, h1, _, h3⟩ := hr.ordered j u hu
          have h4 : rank k ≤ b := h3 k hl
          cases hc : u.cur with
          | touch k3 miss f next =>
            cases hh : u.hand with
            | some v => simp [Th.wants, hc, hh] at hw2
            | none =>
              have ho := h1 hh
              rw [hc] at ho
              have h5 := ho.1
              have : k3 = k2 := by simpa [Th.wants, hc, hh] using hw2
              subst this
              exact ih j u k3 hu hw2 (by omega)
          | commit r => simp [Th.wants, hc] at hw2
          | fail e => simp [Th.wants, hc] at hw2
  rcases moves_or_wants h.reach hi with hmv | ⟨k, j, hw, _, _⟩
  · exact ⟨i, hmv⟩
  · exact key m i t k hi hw (by omega)

/-! ## The transactions of the coordinator -/

/-- **C74**: the transactions treated as one step in the model of the coordinator (`DS.lean`, `Handlers.lean`) are, as sequences of statements,
transactions of this kind: alone they do exactly what the model says. -/
theorem C74_transactions_of_the_coordinator :
    (∀ {γ : Type} (enc : γ → Ans) (id : Nat) (m : Task → Except Err (γ × Task)),
      Implements (updT (fun e => e) id m fun g => .commit (enc g)) enc (updateTask id m)) ∧
    (∀ {γ : Type} (enc : γ → Ans) (id : Nat) (m : Job → Except Err (γ × Job)),
      Implements (updJ (fun e => e) id m fun g => .commit (enc g)) enc (updateJob id m)) ∧
    (∀ t, Implements (parallelTP t) .last (subTaskTx t parallelRow)) ∧
    (∀ t, Implements (topLevelTP t) (fun _ => .unit) (topLevelTx t)) :=
  ⟨implements_updateTask, implements_updateJob, implements_parallel, implements_topLevel⟩

/-- **C74**: every interleaving of such transactions, of insertions and of reads leaves the database as a sequence of single steps of the model
does, with the same results for the callers. -/
theorem C74_database {d0 : DS} {s : S Key Row Ans Err} (h : Reach (view d0) s) (hk : ∀ e ∈ s.log, Known e) :
    ∃ d, DSRun d0 s.log d ∧ view d = s.rows := dsRun_of_serial (C74_serialisable h) hk

/-- **C74**: they lock rows from child to parent to job, so they do not block each other. -/
theorem C74_coordinator_ordered {rank : Key → Nat} (h0 : ∀ k, 0 < rank k) (t : Task) (hp : rank (.task t.id) < rank (.task t.parentID))
    (hj : rank (.task t.parentID) < rank (.job t.jobID)) : Ordered rank 0 (parallelTP t) ∧ Ordered rank 0 (topLevelTP t) ∧
    (∀ {γ : Type} (enc : γ → Ans) (id : Nat) (m : Task → Except Err (γ × Task)), Ordered rank 0 (updT (fun e => e) id m fun g => .commit (enc g))) ∧
    (∀ {γ : Type} (enc : γ → Ans) (id : Nat) (m : Job → Except Err (γ × Job)), Ordered rank 0 (updJ (fun e => e) id m fun g => .commit (enc g))) := by
  have hT : ∀ {γ : Type} (w : Err → Err) (b id : Nat) (m : Task → Except Err (γ × Task)) (next : γ → Trans), b < rank (.task id) →
      (∀ g, Ordered rank (rank (.task id)) (next g)) → Ordered rank b (updT w id m next) := by
    intro γ w b id m next hb hn
    refine ⟨hb, fun v => ?_⟩
    cases v with
    | task u =>
      dsimp only
      cases m u with
      | error e => exact trivial
      | ok x => exact hn x.1
    | job u => exact trivial
  have hJ : ∀ {γ : Type} (w : Err → Err) (b id : Nat) (m : Job → Except Err (γ × Job)) (next : γ → Trans), b < rank (.job id) →
      (∀ g, Ordered rank (rank (.job id)) (next g)) → Ordered rank b (updJ w id m next) := by
    intro γ w b id m next hb hn
    refine ⟨hb, fun v => ?_⟩
    cases v with
    | job u =>
      dsimp only
      cases m u with
      | error e => exact trivial
      | ok x => exact hn x.1
    | task u => exact trivial
  refine ⟨?_, ?_, fun enc id m => hT _ _ _ _ _ (h0 _) fun g => trivial, fun enc id m => hJ _ _ _ _ _ (h0 _) fun g => trivial⟩
  · refine hT _ _ _ _ _ (h0 _) fun _ => hT _ _ _ _ _ hp fun b => ?_
    by_cases hc : t.result ≠ "" ∧ t.var ≠ ""
    · rw [if_pos hc]; exact hJ _ _ _ _ _ hj fun _ => trivial
    · rw [if_neg hc]; exact trivial
  · exact hT _ _ _ _ _ (h0 _) fun _ => hJ _ _ _ _ _ (Nat.lt_trans hp hj) fun _ => trivial

/-! ## The last branch of a parallel task -/

/-- What the callers whose transactions succeeded were told: were they the last? -/
def answers : List (Entry Key Row Ans Err) → List Bool
  | [] => []
  | .tx _ _ (.ok (.last b)) :: l => b :: answers l
  | _ :: l => answers l

theorem answers_append (l m : List (Entry Key Row Ans Err)) : answers (l ++ m) = answers l ++ answers m := by
  induction l with
  | nil => rfl
  | cons e l ih =>
    cases e with
    | tx i p r =>
      cases r with
      | error e => exact ih
      | ok a => cases a with
        | last b => simp [answers, ih]
        | unit => exact ih
        | job j => exact ih
    | _ => exact ih

theorem updateTask_inv {γ : Type} {id : Nat} {m : Task → Except Err (γ × Task)} {d d' : DS} {g : γ} (h : updateTask id m d = .ok (g, d')) :
    ∃ u u', d.task? id = some u ∧ m u = .ok (g, u') ∧ d' = d.setTask id u' := by
  unfold updateTask at h
  cases hu : d.task? id with
  | none => simp [hu] at h
  | some u =>
    cases hm : m u with
    | error e => simp [hu, hm] at h
    | ok x => obtain ⟨g', u'⟩ := x; simp [hu, hm] at h; exact ⟨u, u', rfl, by rw [hm, h.1], h.2.symm⟩

theorem parallel_counts {t : Task} {d d' : DS} {b : Bool} (h : subTaskTx t parallelRow d = .ok (b, d')) {P : Nat} (hp : t.parentID = P) (hne : t.id ≠ P)
    {r : Task} {p : ParallelTask Task} (hr : d.task? P = some r) (hpar : r.parallel = some p) :
    b = decide (p.completions + 1 ≥ p.tasks.length) ∧
    ∃ r', d'.task? P = some r' ∧ r'.parallel = some { p with completions := p.completions + 1 } := by
  unfold subTaskTx at h
  cases h1 : updateTask t.id (completeTaskRow t) d with
  | error e => simp [h1] at h
  | ok x =>
    obtain ⟨_, d1⟩ := x
    rw [h1] at h
    dsimp only at h
    cases h2 : updateTask t.parentID parallelRow d1 with
    | error e => simp [h2] at h
    | ok y =>
      obtain ⟨b', d2⟩ := y
      rw [h2] at h
      dsimp only at h
      obtain ⟨u, u', hu, hm, hd1⟩ := updateTask_inv h1
      obtain ⟨q, q', hq, hmq, hd2⟩ := updateTask_inv h2
      have hP1 : d1.task? P = some r := by rw [hd1, task?_setTask, if_neg (fun h => hne h.symm), hr]
      rw [hp, hP1] at hq
      cases hq
      simp only [parallelRow, hpar, Except.ok.injEq, Prod.mk.injEq] at hmq
      have hP2 : d2.task? P = some (persistTask r q') := by rw [hd2, hp, task?_setTask, if_pos rfl, hP1]; rfl
      have hq' : (persistTask r q').parallel = some { p with completions := p.completions + 1 } := by rw [← hmq.2]; rfl
      cases h3 : contextTx t d2 with
      | error e => simp [h3] at h
      | ok z =>
        obtain ⟨_, d3⟩ := z
        simp only [h3, Except.ok.injEq, Prod.mk.injEq] at h
        have hP3 : d3.task? P = d2.task? P := by
          unfold contextTx at h3
          by_cases hc : t.result ≠ "" ∧ t.var ≠ ""
          · rw [if_pos hc] at h3
            unfold updateJob' updateJob at h3
            cases hj : d2.job? t.jobID with
            | none => simp [hj] at h3
            | some j => simp [hj] at h3; rw [← h3]; rfl
          · rw [if_neg hc] at h3
            simp at h3; rw [h3]
        exact ⟨by rw [← h.1, ← hmq.1], _, by rw [← h.2, hP3, hP2], hq'⟩

theorem view_task {d d' : DS} (h : view d = view d') (n : Nat) : d.task? n = d'.task? n := by
  have := congrFun h (.task n)
  cases h1 : d.task? n <;> cases h2 : d'.task? n <;> simp_all [view]

/-- **C74**: of the branches of a parallel task that complete at the same time, in whatever interleaving, the `n`-th that succeeds is told
`isLast` if and only if it is the last of the branches. So the parent is completed when all are done, and not before. -/
theorem C74_parallel_last {d0 : DS} {s : S Key Row Ans Err} (h : Reach (view d0) s) {P : Nat} {r : Task} {p : ParallelTask Task}
    (hr : d0.task? P = some r) (hp : r.parallel = some p) (h0 : p.completions = 0)
    (hl : ∀ e ∈ s.log, Known e ∧ ∀ i q x, e = .tx i q x → ∃ t, q = parallelTP t ∧ t.parentID = P ∧ t.id ≠ P) :
    answers s.log = (List.range (answers s.log).length).map fun i => decide (i + 1 ≥ p.tasks.length) := by
  obtain ⟨d, hd, _⟩ := C74_database h fun e he => (hl e he).1
  have key : ∀ l d, DSRun d0 l d → (∀ e ∈ l, ∀ i q x, e = .tx i q x → ∃ t, q = parallelTP t ∧ t.parentID = P ∧ t.id ≠ P) →
      answers l = ((List.range (answers l).length).map fun i => decide (i + 1 ≥ p.tasks.length)) ∧
      ∃ r', d.task? P = some r' ∧ r'.parallel = some { p with completions := (answers l).length } := by
    intro l d hd
    induction hd with
    | nil => exact fun _ => ⟨rfl, r, hr, by rw [hp]; cases p; simp_all [answers]⟩
    | @ok d1 d2 l h i q γ enc f hi g hf ih =>
      intro hl
      obtain ⟨h1, r', h2, h3⟩ := ih fun e he => hl e (by simp [he])
      obtain ⟨t, rfl, htp, hti⟩ := hl (.tx i q (.ok (enc g))) (by simp) i q _ rfl
      have e1 := hi d1
      have e2 := implements_parallel t d1
      rw [hf] at e1
      rw [e1] at e2
      cases hs : subTaskTx t parallelRow d1 with
      | error e => simp [hs] at e2
      | ok x =>
        obtain ⟨b, d3⟩ := x
        simp only [hs, Except.ok.injEq, Prod.mk.injEq] at e2
        obtain ⟨hb, r3, hr3, hp3⟩ := parallel_counts hs htp hti h2 h3
        have ha : answers (l ++ [.tx i (parallelTP t) (.ok (enc g))]) = answers l ++ [b] := by
          rw [answers_append, e2.1]; rfl
        rw [ha]
        refine ⟨?_, r3, by rw [view_task e2.2, hr3], by rw [hp3]; simp⟩
        rw [List.length_append, List.length_singleton, List.range_succ, List.map_append, ← h1]
        simp [hb]
    | error h i hi hf ih =>
      intro hl
      obtain ⟨h1, h2⟩ := ih fun e he => hl e (by simp [he])
      rw [answers_append]
      simpa [answers] using ⟨h1, h2⟩
    | @newTask d1 l h t ht ih =>
      intro hl
      obtain ⟨h1, r', h2, h3⟩ := ih fun e he => hl e (by simp [he])
      have hne : P ≠ t.id := fun hp => by rw [hp, ht] at h2; cases h2
      refine ⟨by rw [answers_append]; simpa [answers] using h1, r', ?_, by rw [answers_append]; simpa [answers] using h3⟩
      have := congrFun (view_newTask ht) (.task P)
      simp [view, set, hne, h2] at this
      exact this
    | newJob h j hj ih =>
      intro hl
      obtain ⟨h1, r', h2, h3⟩ := ih fun e he => hl e (by simp [he])
      exact ⟨by rw [answers_append]; simpa [answers] using h1, r', h2, by rw [answers_append]; simpa [answers] using h3⟩
    | read h k ih =>
      intro hl
      obtain ⟨h1, h2⟩ := ih fun e he => hl e (by simp [he])
      rw [answers_append]
      simpa [answers] using ⟨h1, h2⟩
  exact (key s.log d hd fun e he => (hl e he).2).1

/-! ### The hypotheses are met -/

namespace Ex

def group : Task := { id := 1, jobID := 9, state := .running, parallel := some { tasks := [{}, {}] } }
def left : Task := { id := 2, jobID := 9, parentID := 1, state := .running }
def right : Task := { id := 3, jobID := 9, parentID := 1, state := .running }
def db : DS := { tasks := [group, left, right] }

def left' : Task := { left with state := .completed }
def right' : Task := { right with state := .completed }

theorem left_run : ∃ d, subTaskTx left' parallelRow db = .ok (false, d) ∧ ∃ d', subTaskTx right' parallelRow d = .ok (true, d') :=
  ⟨_, rfl, _, rfl⟩

/-- Both branches complete: the first is told it is not the last, the second that it is. The hypotheses of `C74_parallel_last` are met. -/
theorem both : ∃ s : S Key Row Ans Err, Reach (view db) s ∧ answers s.log = [false, true] ∧
    ∀ e ∈ s.log, Known e ∧ ∀ i q x, e = .tx i q x → ∃ t, q = parallelTP t ∧ t.parentID = 1 ∧ t.id ≠ 1 := by
  obtain ⟨d, hd, d', hd'⟩ := left_run
  obtain ⟨s1, r1, l1, w1, k1, t1⟩ := run_one (R := Ans) (E := Err) (r0 := view db) .init (fun _ => rfl) (fun _ => rfl) 0 (parallelTP left')
  obtain ⟨s2, r2, l2, w2, k2, t2⟩ := run_one r1 k1 t1 1 (parallelTP right')
  have g1 : (parallelTP left').go (view db) = .ok (.last false, view d) := by rw [implements_parallel, hd]
  have w1' : s1.rows = view d := by
    rw [w1]; show after (view db) ((parallelTP left').go (view db)) = _
    rw [g1]; rfl
  have g2 : (parallelTP right').go s1.rows = .ok (.last true, view d') := by rw [w1', implements_parallel, hd']
  have l1' : s1.log = [.tx 0 (parallelTP left') (.ok (.last false))] := by
    rw [l1]; show [] ++ [Entry.tx 0 (parallelTP left') (outcome ((parallelTP left').go (view db)))] = _
    rw [g1]; rfl
  rw [g2, l1'] at l2
  refine ⟨s2, r2, by rw [l2]; rfl, fun e he => ?_⟩
  rw [l2] at he
  simp only [List.cons_append, List.nil_append, List.mem_cons, List.not_mem_nil, or_false] at he
  rcases he with rfl | rfl
  · exact ⟨⟨_, _, _, implements_parallel _⟩, fun i q x h => by cases h; exact ⟨left', rfl, rfl, by decide⟩⟩
  · exact ⟨⟨_, _, _, implements_parallel _⟩, fun i q x h => by cases h; exact ⟨right', rfl, rfl, by decide⟩⟩

end Ex

end Tork.Tx

import Verif.EachTx
import Verif.Props.Pool
/-!
# C76: completing children of a loop, statement by statement
-/

namespace Tork.EachTx

inductive Step (c : Cfg) (s s' : S) : Prop
  | begin (h : Begin c s s')
  | work (h : Work c s s')
  | env (h : Env c s s')

theorem Reach.step {c : Cfg} {s s' : S} (h : Reach c s) : Step c s s' → Reach c s'
  | .begin hs => .begin h hs
  | .work hs => .work h hs
  | .env hs => .env h hs

/-- **C76**: `fin` records commits: it changes with them, and only to true; a commit makes a task that was active COMPLETED. -/
theorem C76_commits {c : Cfg} (hc : c.OK) {s s' : S} (h : Reach c s) (hs : Step c s s') {i : Nat} :
    (s.fin i = true → s'.fin i = true) ∧ (s.fin i = false → s'.fin i = true → s.st i = .active ∧ s'.st i = .done) := by
  have inv := inv_reach hc h
  have key : ∀ {s'' : S} {k j : Nat}, (s.pc k).own = some j → s''.fin = upd s.fin j true → s''.st = upd s.st j .done →
      (s.fin i = true → s''.fin i = true) ∧ (s.fin i = false → s''.fin i = true → s.st i = .active ∧ s''.st i = .done) := by
    intro s'' k j ho hf hst
    rw [hf, hst]
    by_cases hij : i = j
    · subst hij; simp [upd, inv.rows.act k i ho]
    · simp only [upd, hij, if_false]; exact ⟨id, fun h1 h2 => by rw [h1] at h2; cases h2⟩
  have quiet : ∀ {s'' : S}, s''.fin = s.fin →
      (s.fin i = true → s''.fin i = true) ∧ (s.fin i = false → s''.fin i = true → s.st i = .active ∧ s''.st i = .done) := by
    intro s'' hf
    rw [hf]; exact ⟨id, fun h1 h2 => by rw [h1] at h2; cases h2⟩
  cases hs with
  | begin hs => cases hs <;> exact quiet rfl
  | work hs =>
    cases hs with
    | commit k j p r b hp => exact key (k := k) (j := j) (by rcases hp with hp | hp <;> rw [hp] <;> rfl) rfl rfl
    | commitTop k j r b hp => exact key (k := k) (j := j) (by rw [hp]; rfl) rfl rfl
    | _ => exact quiet rfl
  | env hs => cases hs <;> exact quiet rfl

/-- **C76**: a task whose completion was committed is never active again, hence never completed again. (It can be COMPLETED, or overwritten
by a cancellation.) -/
theorem C76_completed_once {c : Cfg} (hc : c.OK) {s : S} (h : Reach c s) {i : Nat} (hi : s.fin i = true) : s.st i = .done ∨ s.st i = .dead := by
  have h1 := (inv_reach hc h).rows.nofin i
  cases hs : s.st i <;> simp_all

/-- **C76**: the counter of a loop is the number of its children whose completion was committed, in every interleaving and with every
crash. -/
theorem C76_counter {c : Cfg} (hc : c.OK) {s : S} (h : Reach c s) (p : Nat) : s.compl p = (c.kids p).countP s.fin :=
  (inv_reach hc h).counts.compl p

/-- **C76**: exactly one of the callers that complete the children of a loop is told that it has completed the last one: at most one is, and
as soon as all children were completed, one has been. -/
theorem C76_last_told_once {c : Cfg} (hc : c.OK) {s : S} (h : Reach c s) (p : Nat) (hp : c.kids p ≠ []) :
    s.told p ≤ 1 ∧ (s.told p = 1 ↔ ∀ i ∈ c.kids p, s.fin i = true) := by
  have inv := inv_reach hc h
  have h1 := inv.counts.told p
  have h2 := inv.counts.compl p
  have h3 : (c.kids p).length ≤ s.compl p ↔ ∀ i ∈ c.kids p, s.fin i = true := by
    have h4 := List.countP_eq_length (p := s.fin) (l := c.kids p)
    have h5 := List.countP_le_length (p := s.fin) (l := c.kids p)
    rw [← h4]
    unfold completed at h2
    omega
  rw [← h3, h1]
  by_cases hl : (c.kids p).length ≤ s.compl p <;> simp [hp, hl]

/-- **C76**: of a loop with a limit at most that many children are released and unfinished, plus one for every time a transaction died
after it had released a child, plus one that is being released by a transaction which is about to complete another. -/
theorem C76_limit {c : Cfg} (hc : c.OK) {s : S} (h : Reach c s) {p : Nat} (hp : 0 < c.conc p) :
    ((c.kids p).countP fun i => decide (s.st i = .active)) ≤ c.conc p + s.cut p ∨
    ((c.kids p).countP fun i => decide (s.st i = .active)) = c.conc p + s.cut p + 1 ∧
      ∃ k i, (s.pc k).window = some p ∧ (s.pc k).own = some i ∧ i ∈ c.kids p ∧ s.st i = .active := by
  have inv := inv_reach hc h
  have h1 := inv.limit p hp
  unfold active at h1
  by_cases hw : win s p = 0
  · exact .inl (by omega)
  · have h2 := win_le s p
    by_cases h3 : ((c.kids p).countP fun i => decide (s.st i = .active)) ≤ c.conc p + s.cut p
    · exact .inl h3
    · refine .inr ⟨by omega, ?_⟩
      unfold win at hw
      cases hk : s.tlock p with
      | none => simp [hk] at hw
      | some k =>
        simp only [hk] at hw
        have hwin : (s.pc k).window = some p := Classical.byContradiction fun h' => hw (if_neg h')
        have : ∃ i, (s.pc k).own = some i ∧ (s.pc k).above = some p := by
          cases hpk : s.pc k with
          | released i q => rw [hpk] at hwin; cases hwin; exact ⟨i, rfl, rfl⟩
          | counted i q r b =>
            rw [hpk] at hwin
            cases r with
            | true => cases hwin; exact ⟨i, rfl, rfl⟩
            | false => cases hwin
          | jobbed i q r b =>
            rw [hpk] at hwin
            cases q with
            | none => cases r <;> cases hwin
            | some q => cases r with
              | true => cases hwin; exact ⟨i, rfl, rfl⟩
              | false => cases hwin
          | _ => rw [hpk] at hwin; cases hwin
        obtain ⟨i, h4, h5⟩ := this
        exact ⟨k, i, hwin, h4, (hc.kids i p).2 (inv.rows.link k i p h4 h5), inv.rows.act k i h4⟩

/-- **C76**: with fewer goroutines than connections, whatever they do: while some have begun, one of them can go on. In particular the
transactions and the second connections they use do not block each other. -/
theorem C76_no_deadlock {c : Cfg} (hc : c.OK) (hm : c.callers < c.conns) {rank : Nat → Nat} {top : Nat}
    (hrank : ∀ i p, c.par i = some p → rank i < rank p) (htop : ∀ i, rank i ≤ top) {s : S} (h : Reach c s) {k : Nat} (hk : s.pc k ≠ .idle) :
    ∃ s', Work c s s' := by
  have inv := inv_reach hc h
  refine Classical.byContradiction fun hno => ?_
  have hno : ∀ s', ¬ Work c s s' := fun s' h' => hno ⟨s', h'⟩
  -- nobody has two connections
  have hnl : ∀ k i p x, s.pc k ≠ .nlocked i p x := fun k i p x hp => hno _ (.free k i p x hp)
  have hask : ∀ k i p, s.pc k ≠ .asking i p := fun k i p hp => by
    by_cases hx : ∃ x ∈ c.kids p, s.st x = .created
    · obtain ⟨x, hx, hs⟩ := hx; exact hno _ (.answer k i p x hp hx hs)
    · exact hno _ (.nothing k i p hp fun x h1 h2 => hx ⟨x, h1, h2⟩)
  have hjask : ∀ k j, s.pc k ≠ .jasking j := fun k j hp => hno _ (.janswer k j hp)
  have hnest : ∀ k i p x, s.pc k ≠ .nested i p x := fun k i p x hp => by
    cases hl : s.tlock x with
    | none => exact hno _ (.nlock k i p x hp hl)
    | some k' =>
      have hx := inv.rows.cst k x (by rw [hp]; rfl)
      rcases inv.locks.tback k' x hl with h1 | h1 | h1
      · rw [inv.rows.act k' x h1] at hx; simp at hx
      · cases ho : (s.pc k').own with
        | none => cases hpk : s.pc k' <;> simp [hpk, Pc.own, Pc.above] at ho h1
        | some i' =>
          have h2 := inv.rows.link k' i' x ho h1
          have h3 := inv.rows.cfresh k x i' (by rw [hp]; rfl) h2
          rw [inv.rows.act k' i' ho] at h3; cases h3
      · cases hpk : s.pc k' with
        | nlocked i' p' x' => exact hnl k' i' p' x' hpk
        | _ => simp [hpk, Pc.inner] at h1
  have hfree : s.used.length < c.conns := by
    refine Nat.lt_of_le_of_lt (Pool.length_le_of_nodup (List.nodup_iff_count.2 fun k => ?_) fun k hk => inv.conns.who k fun hp => ?_) hm
    · rw [inv.conns.count k]
      cases hp : s.pc k with
      | asking i p => exact absurd hp (hask k i p)
      | nested i p x => exact absurd hp (hnest k i p x)
      | nlocked i p x => exact absurd hp (hnl k i p x)
      | jasking j => exact absurd hp (hjask k j)
      | _ => simp [Pc.conns]
    · have h1 := inv.conns.count k
      rw [hp] at h1
      have h2 := List.count_pos_iff.2 hk
      simp only [Pc.conns] at h1
      omega
  -- who is left can only wait for rows of tasks or of jobs
  have hpar : ∀ k i p, s.pc k ≠ .parent i p := fun k i p hp => by
    cases hf : fires c s p with
    | true => exact hno _ (.ask k i p hp hf hfree)
    | false => exact hno _ (.plain k i p hp hf)
  have hfound : ∀ k i p x, s.pc k ≠ .found i p x := fun k i p x hp => hno _ (.nest k i p x hp hfree)
  have hrel : ∀ k i p, s.pc k ≠ .released i p := fun k i p hp => hno _ (.count k i p hp)
  have hcnt : ∀ k i p r b, s.pc k ≠ .counted i p r b := fun k i p r b hp => hno _ (.commit k i p r b (.inl hp))
  have hjob : ∀ k i p r b, s.pc k ≠ .jobbed i p r b := fun k i p r b hp => by
    cases p with
    | none => exact hno _ (.commitTop k i r b hp)
    | some p => exact hno _ (.commit k i p r b (.inr hp))
  have hjl : ∀ k j, s.pc k ≠ .jlocked j := fun k j hp => hno _ (.jask k j hp hfree)
  have hjk : ∀ k j, s.pc k ≠ .jknown j := fun k j hp => hno _ (.jcommit k j hp)
  have hjrow : ∀ j, s.jlock j = none := fun j => by
    cases hl : s.jlock j with
    | none => rfl
    | some k =>
      have h1 := inv.locks.jback k j hl
      cases hp : s.pc k with
      | jobbed i p r b => exact absurd hp (hjob k i p r b)
      | jlocked j => exact absurd hp (hjl k j)
      | jasking j => exact absurd hp (hjask k j)
      | jknown j => exact absurd hp (hjk k j)
      | _ => simp [hp, Pc.jrow] at h1
  have hjo : ∀ k j, s.pc k ≠ .jopened j := fun k j hp => hno _ (.jlock k j hp (hjrow j))
  -- nobody has locked a row of a task
  have hrow : ∀ n r, top - rank r ≤ n → s.tlock r = none := by
    intro n
    induction n with
    | zero =>
      intro r hr
      cases hl : s.tlock r with
      | none => rfl
      | some k =>
        have h1 := inv.locks.tback k r hl
        cases hp : s.pc k with
        | child i =>
          rw [hp] at h1
          simp only [Pc.own, Pc.above, Pc.inner, Option.some.injEq, reduceCtorEq, or_false] at h1
          subst h1
          cases hq : c.par i with
          | none => exact absurd (.top k i hp hq (hjrow _)) (hno _)
          | some p => have := hrank i p hq; have := htop p; omega
        | parent i p => exact absurd hp (hpar k i p)
        | asking i p => exact absurd hp (hask k i p)
        | found i p x => exact absurd hp (hfound k i p x)
        | nested i p x => exact absurd hp (hnest k i p x)
        | nlocked i p x => exact absurd hp (hnl k i p x)
        | released i p => exact absurd hp (hrel k i p)
        | counted i p r b => exact absurd hp (hcnt k i p r b)
        | jobbed i p r b => exact absurd hp (hjob k i p r b)
        | _ => simp [hp, Pc.own, Pc.above, Pc.inner] at h1
    | succ n ih =>
      intro r hr
      cases hl : s.tlock r with
      | none => rfl
      | some k =>
        have h1 := inv.locks.tback k r hl
        cases hp : s.pc k with
        | child i =>
          rw [hp] at h1
          simp only [Pc.own, Pc.above, Pc.inner, Option.some.injEq, reduceCtorEq, or_false] at h1
          subst h1
          cases hq : c.par i with
          | none => exact absurd (.top k i hp hq (hjrow _)) (hno _)
          | some p =>
            have := hrank i p hq
            exact absurd (.parent k i p hp hq (ih p (by omega))) (hno _)
        | parent i p => exact absurd hp (hpar k i p)
        | asking i p => exact absurd hp (hask k i p)
        | found i p x => exact absurd hp (hfound k i p x)
        | nested i p x => exact absurd hp (hnest k i p x)
        | nlocked i p x => exact absurd hp (hnl k i p x)
        | released i p => exact absurd hp (hrel k i p)
        | counted i p r b => exact absurd hp (hcnt k i p r b)
        | jobbed i p r b => exact absurd hp (hjob k i p r b)
        | _ => simp [hp, Pc.own, Pc.above, Pc.inner] at h1
  have hrow : ∀ r, s.tlock r = none := fun r => hrow _ r (Nat.le_refl _)
  cases hp : s.pc k with
  | idle => exact hk hp
  | begun i =>
    by_cases hs : s.st i = .active
    · exact hno _ (.child k i hp (hrow i) hs)
    · exact hno _ (.refused k i hp (hrow i) hs)
  | child i =>
    cases hq : c.par i with
    | none => exact hno _ (.top k i hp hq (hjrow _))
    | some p => exact hno _ (.parent k i p hp hq (hrow p))
  | parent i p => exact hpar k i p hp
  | asking i p => exact hask k i p hp
  | found i p x => exact hfound k i p x hp
  | nested i p x => exact hnest k i p x hp
  | nlocked i p x => exact hnl k i p x hp
  | released i p => exact hrel k i p hp
  | counted i p r b => exact hcnt k i p r b hp
  | jobbed i p r b => exact hjob k i p r b hp
  | jopened j => exact hjo k j hp
  | jlocked j => exact hjl k j hp
  | jasking j => exact hjask k j hp
  | jknown j => exact hjk k j hp

/-- How far a goroutine has to go. -/
def Pc.rest : Pc → Nat
  | .idle => 0
  | .begun _ => 10
  | .child _ => 9
  | .parent .. => 8
  | .asking .. => 7
  | .found .. => 6
  | .nested .. => 5
  | .nlocked .. => 4
  | .released .. => 3
  | .counted .. => 2
  | .jobbed .. => 1
  | .jopened _ => 4
  | .jlocked _ => 3
  | .jasking _ => 2
  | .jknown _ => 1

/-- **C76**: and they finish: every step brings one of them closer to its end, and no other back. -/
theorem C76_steps_finish {c : Cfg} {s s' : S} (h : Work c s s') :
    ∃ k, (s'.pc k).rest < (s.pc k).rest ∧ ∀ k', k' ≠ k → s'.pc k' = s.pc k' := by
  cases h with
  | commit k i p r b hp =>
    refine ⟨k, ?_, fun k' hk => by simp [S.leave, upd, hk]⟩
    rcases hp with hp | hp <;> simp [S.leave, upd, hp, Pc.rest]
  | child k i hp | parent k i p hp | ask k i p hp | nest k i p x hp | nlock k i p x hp | count k i p hp | answer k i p x hp
  | plain k i p hp | var k i p r b hp | top k i hp | jlock k j hp | jask k j hp | janswer k j hp | free k i p x hp
  | refused k i hp | nothing k i p hp | jcommit k j hp | commitTop k i r b hp =>
    exact ⟨k, by simp [S.leave, upd, hp, Pc.rest], fun k' hk => by simp [S.leave, upd, hk]⟩

/-! ## Examples, and what goes wrong -/

namespace Ex

/-- Loop 1 with children 2, 3, 4, one at a time. -/
def cfg : Cfg where
  par i := if i = 2 ∨ i = 3 ∨ i = 4 then some 1 else none
  kids p := if p = 1 then [2, 3, 4] else []
  job _ := 9
  conc _ := 1
  conns := 3
  callers := 2

theorem cfg_ok : cfg.OK where
  kids i p := by
    by_cases hp : p = 1
    · by_cases hi : i = 2 ∨ i = 3 ∨ i = 4 <;> simp [cfg, hp, hi]
    · have : ¬ (1 = p) := fun h => hp h.symm
      by_cases hi : i = 2 ∨ i = 3 ∨ i = 4 <;> simp [cfg, hp, hi, this]
  nodup p := by by_cases hp : p = 1 <;> simp [cfg, hp]

/-- The loop has been scheduled: child 2 is active, 3 and 4 are held back. -/
def st0 : Nat → C := fun i => if i = 1 ∨ i = 2 then .active else if i = 3 ∨ i = 4 then .created else .absent

/-- Up to here: loop 1 is scheduled, goroutine 0 has begun to complete child 2 and has found child 3 to be released. -/
theorem found : ∃ s, Reach cfg s ∧ s.pc 0 = .found 2 1 3 ∧ s.st 3 = .created ∧ s.tlock 3 = none ∧ s.tlock 4 = none ∧ s.used = [0] ∧ s.st 4 = .created ∧
    s.compl 1 = 0 ∧ s.index 1 = 1 ∧ s.tlock 2 = some 0 ∧ s.tlock 1 = some 0 ∧ s.st 2 = .active ∧ s.cut 1 = 0 ∧ s.pc 1 = .idle ∧ s.st 1 = .active := by
  have t := Reach.init (c := cfg)
  have t := t.env (.start 1 rfl rfl)
  have t := t.env (.loop 1 st0 rfl rfl (by simp [cfg, upd]) (fun i hi => by
    simp only [cfg, if_pos, List.mem_cons, List.not_mem_nil, or_false, not_or] at hi
    by_cases h1 : i = 1 <;> simp [st0, upd, h1, hi]) (fun i hi => by
    simp only [cfg, if_pos, List.mem_cons, List.not_mem_nil, or_false] at hi
    rcases hi with rfl | rfl | rfl <;> simp [st0]) (fun _ => by decide))
  have t := t.begin (.complete 0 2 (by decide) rfl (by decide))
  have t := t.work (.child 0 2 rfl rfl rfl)
  have t := t.work (.parent 0 2 1 rfl rfl rfl)
  have t := t.work (.ask 0 2 1 rfl rfl (by decide))
  have t := t.work (.answer 0 2 1 3 rfl (by simp [cfg]) rfl)
  exact ⟨_, t, rfl, rfl, rfl, rfl, rfl, rfl, rfl, rfl, rfl, rfl, rfl, rfl, rfl, rfl⟩

/-- Child 3 is released while child 2 is not counted yet: the exception of `C76_limit` happens. -/
theorem window : ∃ s, Reach cfg s ∧ (s.pc 0).window = some 1 ∧ ((cfg.kids 1).countP fun i => decide (s.st i = .active)) = 2 ∧ s.cut 1 = 0 := by
  obtain ⟨s, t, h1, h2, h3, h4, h5, h6, h7, h8, h9, h10, h11, h12, h13, h14⟩ := found
  have t := t.work (.nest 0 2 1 3 h1 (by rw [h5]; decide))
  have t := t.work (.nlock 0 2 1 3 (by simp [upd]) h3)
  have t := t.work (.free 0 2 1 3 (by simp [upd]))
  exact ⟨_, t, by simp [upd, Pc.window], by simp [cfg, upd, h11, h6], h12⟩

/-- The hypotheses of `C76_no_deadlock` are met, with goroutine 0 in the middle of its transaction. -/
example : ∃ s s', Reach cfg s ∧ s.pc 0 = .found 2 1 3 ∧ Work cfg s s' := by
  obtain ⟨s, t, h, _⟩ := found
  obtain ⟨s', hs⟩ := C76_no_deadlock cfg_ok (by decide) (rank := fun i => if i = 1 then 1 else 0) (top := 1)
    (fun i p hp => by
      simp only [cfg] at hp
      split at hp
      · cases hp; rw [if_neg (by omega), if_pos rfl]; exact Nat.zero_lt_one
      · cases hp) (fun i => by split <;> omega) t (k := 0) (by rw [h]; simp)
  exact ⟨s, s', t, h, hs⟩

/-- All three children are completed, one after the other; the last caller is told. -/
example : ∃ s, Reach cfg s ∧ s.told 1 = 1 ∧ s.compl 1 = 3 ∧ s.fin 2 = true ∧ s.st 4 = .done := by
  have t := Reach.init (c := cfg)
  have t := t.env (.start 1 rfl rfl)
  have t := t.env (.loop 1 st0 rfl rfl (by simp [cfg, upd]) (fun i hi => by
    simp only [cfg, if_pos, List.mem_cons, List.not_mem_nil, or_false, not_or] at hi
    by_cases h1 : i = 1 <;> simp [st0, upd, h1, hi]) (fun i hi => by
    simp only [cfg, if_pos, List.mem_cons, List.not_mem_nil, or_false] at hi
    rcases hi with rfl | rfl | rfl <;> simp [st0]) (fun _ => by decide))
  have t := t.begin (.complete 0 2 (by decide) rfl (by decide))
  have t := t.work (.child 0 2 rfl rfl rfl)
  have t := t.work (.parent 0 2 1 rfl rfl rfl)
  have t := t.work (.ask 0 2 1 rfl rfl (by decide))
  have t := t.work (.answer 0 2 1 3 rfl (by simp [cfg]) rfl)
  have t := t.work (.nest 0 2 1 3 rfl (by decide))
  have t := t.work (.nlock 0 2 1 3 rfl rfl)
  have t := t.work (.free 0 2 1 3 rfl)
  have t := t.work (.count 0 2 1 rfl)
  have t := t.work (.commit 0 2 1 true false (.inl rfl))
  have t := t.begin (.complete 0 3 (by decide) rfl (by decide))
  have t := t.work (.child 0 3 rfl rfl rfl)
  have t := t.work (.parent 0 3 1 rfl rfl rfl)
  have t := t.work (.ask 0 3 1 rfl rfl (by decide))
  have t := t.work (.answer 0 3 1 4 rfl (by simp [cfg]) rfl)
  have t := t.work (.nest 0 3 1 4 rfl (by decide))
  have t := t.work (.nlock 0 3 1 4 rfl rfl)
  have t := t.work (.free 0 3 1 4 rfl)
  have t := t.work (.count 0 3 1 rfl)
  have t := t.work (.commit 0 3 1 true false (.inl rfl))
  have t := t.begin (.complete 0 4 (by decide) rfl (by decide))
  have t := t.work (.child 0 4 rfl rfl rfl)
  have t := t.work (.parent 0 4 1 rfl rfl rfl)
  have t := t.work (.plain 0 4 1 rfl rfl)
  have t := t.work (.var 0 4 1 false true rfl rfl)
  have t := t.work (.commit 0 4 1 false true (.inr rfl))
  exact ⟨_, t, rfl, rfl, rfl, rfl⟩

end Ex

/-- **C76** (defect): the coordinator dies between releasing the next child and counting the completed one. The completion is handled again,
which releases another child: with limit 1, two children are at work, nothing is under way. -/
theorem C76_crash_exceeds_limit : ∃ (c : Cfg) (s : S), c.OK ∧ Reach c s ∧ c.conc 1 = 1 ∧ (∀ k, s.pc k = .idle) ∧
    ((c.kids 1).countP fun i => decide (s.st i = .active)) = 2 := by
  have t := Reach.init (c := Ex.cfg)
  have t := t.env (.start 1 rfl rfl)
  have t := t.env (.loop 1 Ex.st0 rfl rfl (by simp [Ex.cfg, upd]) (fun i hi => by
    simp only [Ex.cfg, if_pos, List.mem_cons, List.not_mem_nil, or_false, not_or] at hi
    by_cases h1 : i = 1 <;> simp [Ex.st0, upd, h1, hi]) (fun i hi => by
    simp only [Ex.cfg, if_pos, List.mem_cons, List.not_mem_nil, or_false] at hi
    rcases hi with rfl | rfl | rfl <;> simp [Ex.st0]) (fun _ => by decide))
  have t := t.begin (.complete 0 2 (by decide) rfl (by decide))
  have t := t.work (.child 0 2 rfl rfl rfl)
  have t := t.work (.parent 0 2 1 rfl rfl rfl)
  have t := t.work (.ask 0 2 1 rfl rfl (by decide))
  have t := t.work (.answer 0 2 1 3 rfl (by simp [Ex.cfg]) rfl)
  have t := t.work (.nest 0 2 1 3 rfl (by decide))
  have t := t.work (.nlock 0 2 1 3 rfl rfl)
  have t := t.work (.free 0 2 1 3 rfl)
  have t := t.env (.abort 0 (by simp [upd]))
  have t := t.begin (.complete 0 2 (by decide) rfl (by decide))
  have t := t.work (.child 0 2 rfl rfl rfl)
  have t := t.work (.parent 0 2 1 rfl rfl rfl)
  have t := t.work (.ask 0 2 1 rfl rfl (by decide))
  have t := t.work (.answer 0 2 1 4 rfl (by simp [Ex.cfg]) rfl)
  have t := t.work (.nest 0 2 1 4 rfl (by decide))
  have t := t.work (.nlock 0 2 1 4 rfl rfl)
  have t := t.work (.free 0 2 1 4 rfl)
  have t := t.work (.count 0 2 1 rfl)
  have t := t.work (.commit 0 2 1 true false (.inl rfl))
  refine ⟨_, _, Ex.cfg_ok, t, rfl, fun k => ?_, by decide⟩
  by_cases hk : k = 0 <;> simp [S.leave, upd, hk]

/-- **C76** (defect): a child that is cancelled after `GetNextTask` has chosen it and before it is updated is PENDING afterwards:
`completed.go:89-94` writes the state without looking at it. -/
theorem C76_cancelled_child_comes_back : ∃ (c : Cfg) (s s' : S), c.OK ∧ Reach c s ∧ s.st 3 = .dead ∧ Work c s s' ∧ s'.st 3 = .active := by
  obtain ⟨s, t, h1, h2, h3, h4, h5, h6, h7, h8, h9, h10, h11, h12, h13, h14⟩ := Ex.found
  have t := t.env (.dies 3 h3 (by rw [h2]; simp))
  have t := t.work (.nest 0 2 1 3 h1 (by show s.used.length < 3; rw [h5]; decide))
  have t := t.work (.nlock 0 2 1 3 (by simp [upd]) h3)
  exact ⟨_, _, _, Ex.cfg_ok, t, by simp [upd], .free 0 2 1 3 (by simp [upd]), by simp [upd]⟩

/-! ## The pool -/

namespace Full

/-- Loop 0 with `n + 2` children, `n` at a time; `n` connections, `m` goroutines. -/
def cfg (n m : Nat) : Cfg where
  par i := if 0 < i ∧ i ≤ n + 2 then some 0 else none
  kids p := if p = 0 then (List.range (n + 2)).map (· + 1) else []
  job _ := 0
  conc _ := n
  conns := n
  callers := m

theorem mem_kids {n m i : Nat} : i ∈ (cfg n m).kids 0 ↔ 0 < i ∧ i ≤ n + 2 := by
  simp only [cfg, if_pos, List.mem_map, List.mem_range]
  exact ⟨fun ⟨a, h1, h2⟩ => by omega, fun h => ⟨i - 1, by omega, by omega⟩⟩

theorem cfg_ok (n m : Nat) : (cfg n m).OK where
  kids i p := by
    by_cases hp : p = 0
    · subst hp
      rw [mem_kids]
      by_cases hi : 0 < i ∧ i ≤ n + 2 <;> simp [cfg, hi]
    · have : ¬ (0 = p) := fun h => hp h.symm
      by_cases hi : 0 < i ∧ i ≤ n + 2 <;> simp [cfg, hp, hi, this]
  nodup p := by
    by_cases hp : p = 0
    · subst hp
      simp only [cfg, if_pos]
      exact List.pairwise_map.2 ((List.nodup_range (n := n + 2)).imp fun h => by omega)
    · simp [cfg, hp]

def st (n : Nat) : Nat → C := fun i => if i ≤ n then .active else if i ≤ n + 2 then .created else .absent

theorem countP_le_conc (n : Nat) : (((List.range (n + 2)).map (· + 1)).countP fun i => decide (st n i = .active)) ≤ n := by
  rw [List.countP_map, List.range_succ, List.range_succ, List.append_assoc, List.countP_append]
  have h1 : (List.range n).countP ((fun i => decide (st n i = .active)) ∘ (· + 1)) ≤ n :=
    Nat.le_trans List.countP_le_length (by simp)
  have h2 : ([n] ++ [n + 1]).countP ((fun i => decide (st n i = .active)) ∘ (· + 1)) = 0 := by
    simp [st]; omega
  omega

/-- `k + 1` children are being completed: goroutine 0 has locked the loop, the others wait for it. -/
def full (n k : Nat) : S where
  st := st n
  index := upd (fun _ => 0) 0 n
  pc i := if i = 0 then .parent 1 0 else if i ≤ k then .child (i + 1) else .idle
  used := (List.range (k + 1)).reverse
  tlock r := if r = 0 then some 0 else if r ≤ k + 1 then some (r - 1) else none

theorem reach_full {n m : Nat} (hm : n ≤ m) : ∀ k, k + 1 ≤ n → Reach (cfg n m) (full n k) := by
  intro k
  induction k with
  | zero =>
    intro hn
    have t := Reach.init (c := cfg n m)
    have t := t.env (.start 0 rfl rfl)
    have t := t.env (.loop 0 (st n) rfl rfl (fun i hi => by have := mem_kids.1 hi; simp [upd]; omega) (fun i hi => by
      have : ¬ (0 < i ∧ i ≤ n + 2) := fun h => hi (mem_kids.2 h)
      by_cases h0 : i = 0
      · simp [st, upd, h0]
      · have h1 : ¬ i ≤ n := by omega
        have h2 : ¬ i ≤ n + 2 := by omega
        simp [st, upd, h0, h1, h2]) (fun i hi => by
      have := mem_kids.1 hi
      by_cases h1 : i ≤ n
      · simp [st, h1]
      · simp [st, h1, this.2]) (fun _ => countP_le_conc n))
    have t := t.begin (.complete 0 1 (by simp [cfg]; omega) rfl (by simp [cfg]; omega))
    have t := t.work (.child 0 1 rfl rfl (by simp [st]; omega))
    have t := t.work (.parent 0 1 0 rfl (by simp [cfg]) rfl)
    refine cast (congrArg (Reach (cfg n m)) ?_) t
    simp only [full, S.mk.injEq]
    refine ⟨trivial, funext fun i => by simp [upd], by simp [cfg], funext fun r => ?_, trivial, funext fun i => ?_, by simp, trivial, trivial, trivial⟩
    · by_cases h0 : r = 0
      · simp [upd, h0]
      · by_cases h1 : r = 1
        · simp [upd, h1]
        · have : ¬ r ≤ 1 := by omega
          simp [upd, h0, h1, this]
    · by_cases h0 : i = 0
      · simp [upd, h0]
      · simp [upd, h0]
  | succ k ih =>
    intro hn
    have t := ih (by omega)
    have t := t.begin (.complete (k + 1) (k + 2) (by simp [cfg]; omega) (by simp [full]) (by simp [full, cfg]; omega))
    have t := t.work (.child (k + 1) (k + 2) (by simp [upd]) (by simp [full]) (by simp [full, st]; omega))
    refine cast (congrArg (Reach (cfg n m)) ?_) t
    simp only [full, S.mk.injEq]
    refine ⟨trivial, trivial, trivial, funext fun r => ?_, trivial, funext fun i => ?_, by simp [List.range_succ], trivial, trivial, trivial⟩
    · by_cases h0 : r = 0
      · simp [upd, h0]
      · by_cases h1 : r = k + 2
        · simp [upd, h1]
        · have : r ≤ k + 2 ↔ r ≤ k + 1 := by omega
          simp [upd, h0, h1, this]
    · by_cases h0 : i = 0
      · simp [upd, h0]
      · by_cases h1 : i = k + 1
        · simp [upd, h1]
        · have : i ≤ k + 1 ↔ i ≤ k := by omega
          simp [upd, h0, h1, this]

theorem fires_full {n m k : Nat} (hn : 0 < n) : fires (cfg n m) (full n k) 0 = true := by
  simp only [fires, cfg, full, upd, if_pos, List.length_map, List.length_range, Bool.and_eq_true, decide_eq_true_eq]
  exact ⟨⟨by omega, decide_eq_true hn⟩, by omega⟩

end Full

/-- **C76** (defect): with as many goroutines as connections, completing as many children of one loop at once can come to a standstill: the
one that has locked the loop waits for a second connection, the others keep theirs and wait for the loop. Nobody can go on, nobody can begin. -/
theorem C76_deadlock {n m : Nat} (hm : n ≤ m) (hn : 0 < n) : ∃ (c : Cfg) (s : S), c.OK ∧ c.conns = n ∧ c.callers = m ∧ c.conc 0 = n ∧
    Reach c s ∧ s.pc 0 ≠ .idle ∧ (∀ s', ¬ Work c s s') ∧ (∀ s', ¬ Begin c s s') := by
  have hlen : (Full.full n (n - 1)).used.length = n := by simp [Full.full]; omega
  have hf : ¬ (Full.full n (n - 1)).used.length < (Full.cfg n m).conns := by rw [hlen]; exact Nat.lt_irrefl _
  have hpc : ∀ k, (Full.full n (n - 1)).pc k = .parent 1 0 ∨ (Full.full n (n - 1)).pc k = .child (k + 1) ∧ k ≤ n - 1 ∨ (Full.full n (n - 1)).pc k = .idle := by
    intro k
    by_cases h0 : k = 0
    · simp [Full.full, h0]
    · by_cases h1 : k ≤ n - 1 <;> simp [Full.full, h0, h1]
  refine ⟨Full.cfg n m, Full.full n (n - 1), Full.cfg_ok n m, rfl, rfl, rfl, Full.reach_full hm _ (by omega), by simp [Full.full], fun s' hs => ?_, fun s' hs => ?_⟩
  · cases hs with
    | parent k i p hp hq hl =>
      rcases hpc k with h | ⟨h, h2⟩ | h <;> rw [h] at hp
      · cases hp
      · cases hp
        have h3 : (Full.cfg n m).par (k + 1) = some 0 := by simp [Full.cfg]; omega
        rw [h3] at hq; cases hq
        simp [Full.full] at hl
      · cases hp
    | ask k i p hp hq hf' => exact hf hf'
    | plain k i p hp hq =>
      rcases hpc k with h | ⟨h, _⟩ | h <;> rw [h] at hp
      · cases hp
        rw [Full.fires_full hn] at hq; cases hq
      · cases hp
      · cases hp
    | top k i hp hq =>
      rcases hpc k with h | ⟨h, h2⟩ | h <;> rw [h] at hp
      · cases hp
      · cases hp
        have h3 : (Full.cfg n m).par (k + 1) = some 0 := by simp [Full.cfg]; omega
        rw [h3] at hq; cases hq
      · cases hp
    | nest k i p x hp hf' => exact hf hf'
    | jask k j hp hf' => exact hf hf'
    | commit k i p r b hp => rcases hpc k with h | ⟨h, _⟩ | h <;> rw [h] at hp <;> rcases hp with hp | hp <;> cases hp
    | child k i hp | nlock k i p x hp | count k i p hp | answer k i p x hp | free k i p x hp | var k i p r b hp | jlock k j hp
    | janswer k j hp | refused k i hp | nothing k i p hp | jcommit k j hp | commitTop k i r b hp =>
      rcases hpc k with h | ⟨h, _⟩ | h <;> rw [h] at hp <;> cases hp
  · cases hs with
    | complete k i hk hp hf' => exact hf hf'
    | job k i hk hp hf' => exact hf hf'

end Tork.EachTx

import Verif.DockerRun
/-!
# C58 — what the Docker runtime creates for a task, it removes
-/

namespace Tork.Docker
open Calls

/-! ### Specification -/

abbrev Ev := Call × Reply

inductive Resource
  | network (n : Nat)
  | volume (n : Nat)
  | container (n : Nat)
  deriving DecidableEq

/-- the resource a call brought into existence -/
def acquired : Ev → Option Resource
  | (.netCreate n, r) => if r.ok then some (.network n) else none
  | (.volumeCreate m, r) => if r.ok then some (.volume m.id) else none
  | (.create c _, r) => if r.ok then some (.container c) else none
  | _ => none

/-- the resource a call asks the daemon to remove -/
def attempted : Ev → Option Resource
  | (.netRemove n, _) => some (.network n)
  | (.volumeRemove n, _) => some (.volume n)
  | (.remove c, _) => some (.container c)
  | _ => none

/-- writing the files of the container failed -/
def CopyFailed (c : Nat) (l : List Ev) : Prop := ∃ d f r, (Call.copy c d f, r) ∈ l ∧ r.ok = false

/-- the daemon refused to remove the container -/
def RemoveFailed (c : Nat) (l : List Ev) : Prop := ∃ r, (Call.remove c, r) ∈ l ∧ r.ok = false

/-- the container has the volume -/
def Container.Mounts (s : Container) (v : Nat) : Prop := ∃ m ∈ s.mounts, m.type = "volume" ∧ m.id = v

/-- Why a resource created by `e` may be left without an attempt to remove it, given what happened later: a container
whose files could not be written; a container's `/tork` volume when no container came to use it, or that container
could not be filled or removed. -/
def Abandoned (e : Ev) (later : List Ev) : Prop :=
  match e.1 with
  | .create c _ => CopyFailed c later
  | .volumeCreate m => m.target = "/tork" ∧ ∀ c s r, (Call.create c s, r) ∈ later → r.ok = true → s.Mounts m.id →
      CopyFailed c later ∨ RemoveFailed c later
  | _ => False

def Settled (e : Ev) (later : List Ev) : Prop :=
  ∀ x, acquired e = some x → (∃ e' ∈ later, attempted e' = some x) ∨ Abandoned e later

/-- removal of the container was asked for, or it was abandoned -/
def Gone (c : Nat) (l : List Ev) : Prop := (∃ r, (Call.remove c, r) ∈ l) ∨ CopyFailed c l

/-! ### Invariant of the parts of a run -/

structure Piece (A : List Mount) (n n' : Nat) (l : List Ev) : Prop where
  le : n ≤ n'
  fresh : ∀ e ∈ l, ∀ v, (acquired e = some (.volume v) ∨ acquired e = some (.container v)) → n ≤ v ∧ v < n'
  removes : ∀ e ∈ l, ∀ v, (attempted e = some (.volume v) ∨ attempted e = some (.container v)) → n ≤ v ∧ v < n'
  nonet : ∀ e ∈ l, ∀ v, acquired e ≠ some (.network v) ∧ attempted e ≠ some (.network v)
  uses : ∀ c s r, (Call.create c s, r) ∈ l → ∀ m ∈ s.mounts, m ∈ A ∨ (n ≤ m.id ∧ m.id < n')
  settled : ∀ l1 e l2, l = l1 ++ e :: l2 → Settled e l2
  order : ∀ l1 c s r l2 v r' l3, l = l1 ++ (Call.create c s, r) :: (l2 ++ (Call.volumeRemove v, r') :: l3) → r.ok = true →
    s.Mounts v → Gone c l2

theorem CopyFailed.mono {c : Nat} {l l' : List Ev} (h : ∀ e ∈ l, e ∈ l') (hc : CopyFailed c l) : CopyFailed c l' := by
  obtain ⟨d, f, r, h1, h2⟩ := hc; exact ⟨d, f, r, h _ h1, h2⟩

theorem RemoveFailed.mono {c : Nat} {l l' : List Ev} (h : ∀ e ∈ l, e ∈ l') (hc : RemoveFailed c l) : RemoveFailed c l' := by
  obtain ⟨r, h1, h2⟩ := hc; exact ⟨r, h _ h1, h2⟩

theorem Gone.mono {c : Nat} {l l' : List Ev} (h : ∀ e ∈ l, e ∈ l') (hc : Gone c l) : Gone c l' := by
  rcases hc with ⟨r, hr⟩ | hc
  · exact .inl ⟨r, h _ hr⟩
  · exact .inr (hc.mono h)

/-- nothing later uses the volume -/
theorem Settled.append {e : Ev} {l l' : List Ev} (h : Settled e l)
    (hu : ∀ m, e.1 = .volumeCreate m → ∀ c s r, (Call.create c s, r) ∈ l' → ¬ s.Mounts m.id) : Settled e (l ++ l') := by
  intro x hx
  rcases h x hx with ⟨e', h1, h2⟩ | h1
  · exact .inl ⟨e', List.mem_append_left _ h1, h2⟩
  · refine .inr ?_
    obtain ⟨c, rep⟩ := e
    cases c <;> simp only [Abandoned] at h1 ⊢
    case volumeCreate m =>
      refine ⟨h1.1, fun c s r hm hr hs => ?_⟩
      rcases List.mem_append.1 hm with hm | hm
      · rcases h1.2 c s r hm hr hs with h | h
        · exact .inl (h.mono fun _ => List.mem_append_left _)
        · exact .inr (h.mono fun _ => List.mem_append_left _)
      · exact absurd hs (hu m rfl c s r hm)
    case create c s => exact h1.mono fun _ => List.mem_append_left _

theorem Piece.nil {A : List Mount} {n n' : Nat} (h : n ≤ n') : Piece A n n' [] :=
  ⟨h, fun _ h => (List.not_mem_nil h).elim, fun _ h => (List.not_mem_nil h).elim, fun _ h => (List.not_mem_nil h).elim,
    fun _ _ _ h => (List.not_mem_nil h).elim, fun _ _ _ h => by simp at h, fun _ _ _ _ _ _ _ _ h => by simp at h⟩

theorem Piece.widen {A : List Mount} {n m m' n' : Nat} {l : List Ev} (h : Piece A m m' l) (h1 : n ≤ m) (h2 : m' ≤ n') :
    Piece A n n' l := by
  have := h.le
  exact ⟨by omega, fun e he v hv => by have := h.fresh e he v hv; omega,
    fun e he v hv => by have := h.removes e he v hv; omega, h.nonet,
    fun c s r hm x hx => (h.uses c s r hm x hx).imp_right (by omega), h.settled, h.order⟩

/-- a container created in a piece is gone at its end -/
theorem Piece.gone {A : List Mount} {n n' : Nat} {l : List Ev} (h : Piece A n n' l) {l1 l2 : List Ev} {c : Nat}
    {s : Container} {r : Reply} (hl : l = l1 ++ (.create c s, r) :: l2) (hr : r.ok = true) : Gone c l2 := by
  rcases h.settled l1 _ l2 hl (.container c) (by simp [acquired, hr]) with ⟨⟨e, r'⟩, h1, h2⟩ | h1
  · cases e <;> simp only [attempted, reduceCtorEq, Option.some.injEq, Resource.container.injEq] at h2
    subst h2
    exact .inl ⟨r', h1⟩
  · exact .inr h1

theorem split_append {α : Type} {l l' l1 l2 : List α} {e : α} (h : l ++ l' = l1 ++ e :: l2) :
    (∃ k, l = l1 ++ e :: k ∧ l2 = k ++ l') ∨ (∃ k, l1 = l ++ k ∧ l' = k ++ e :: l2) := by
  rcases List.append_eq_append_iff.1 h with ⟨as, h1, h2⟩ | ⟨bs, h1, h2⟩
  · exact .inr ⟨as, h1, h2⟩
  · cases bs with
    | nil => exact .inr ⟨[], by simpa using h1.symm, by simpa using h2.symm⟩
    | cons b bs =>
      simp only [List.cons_append, List.cons.injEq] at h2
      obtain ⟨rfl, rfl⟩ := h2
      exact .inl ⟨bs, h1, rfl⟩

theorem Piece.append_of {A : List Mount} {n n' : Nat} {l l' : List Ev} (h : Piece A n n' l) (h' : Piece A n n' l')
    (hu : ∀ e ∈ l, ∀ v, acquired e = some (.volume v) → ∀ c s r, (Call.create c s, r) ∈ l' → ¬ s.Mounts v) :
    Piece A n n' (l ++ l') := by
  refine ⟨h.le, fun e he v hv => ?_, fun e he v hv => ?_, fun e he => ?_, fun c s r hm x hx => ?_, fun l1 e l2 hl => ?_,
    fun l1 c s r l2 v r' l3 hl hr hs => ?_⟩
  · rcases List.mem_append.1 he with he | he
    · exact h.fresh e he v hv
    · exact h'.fresh e he v hv
  · rcases List.mem_append.1 he with he | he
    · exact h.removes e he v hv
    · exact h'.removes e he v hv
  · rcases List.mem_append.1 he with he | he
    · exact h.nonet e he
    · exact h'.nonet e he
  · rcases List.mem_append.1 hm with hm | hm
    · exact h.uses c s r hm x hx
    · exact h'.uses c s r hm x hx
  · rcases split_append hl with ⟨k, h1, rfl⟩ | ⟨k, rfl, h2⟩
    · intro x hx
      refine Settled.append (h.settled l1 e k h1) ?_ x hx
      intro m hm c s r hc
      have hv : acquired e = some (.volume m.id) := by
        obtain ⟨c0, r0⟩ := e
        cases hm
        cases hr : r0.ok <;> simp_all [acquired]
      exact hu e (by rw [h1]; simp) m.id hv c s r hc
    · exact h'.settled k e l2 h2
  · rcases split_append hl with ⟨k, h1, h2⟩ | ⟨k, rfl, h2⟩
    · rcases split_append h2.symm with ⟨k2, h3, h4⟩ | ⟨k2, h3, h4⟩
      · exact h.order l1 c s r l2 v r' k2 (by rw [h1, h3]) hr hs
      · rw [h3]
        exact (h.gone h1 hr).mono fun _ => List.mem_append_left _
    · exact h'.order k c s r l2 v r' l3 h2 hr hs

theorem Piece.append {A : List Mount} {n m n' : Nat} {l l' : List Ev} (h : Piece A n m l) (h' : Piece A m n' l')
    (hA : ∀ a ∈ A, a.id < n) : Piece A n n' (l ++ l') := by
  refine (h.widen (Nat.le_refl _) h'.le).append_of (h'.widen h.le (Nat.le_refl _)) ?_
  rintro e he v hv c s r hc ⟨y, hy, hy1, hy2⟩
  have := h.fresh e he v (.inl hv)
  rcases h'.uses c s r hc y hy with hy' | hy'
  · have := hA y hy'; omega
  · omega

/-- neither creates nor removes anything -/
def Neutral (e : Ev) : Prop := acquired e = none ∧ attempted e = none ∧ ∀ c s, e.1 ≠ .create c s

theorem Piece.cons {A : List Mount} {n n' : Nat} {l : List Ev} {e : Ev} (h : Piece A n n' l)
    (hf : ∀ v, (acquired e = some (.volume v) ∨ acquired e = some (.container v)) → n ≤ v ∧ v < n')
    (hr : ∀ v, (attempted e = some (.volume v) ∨ attempted e = some (.container v)) → n ≤ v ∧ v < n')
    (hn : ∀ v, acquired e ≠ some (.network v) ∧ attempted e ≠ some (.network v))
    (hu : ∀ c s, e.1 = .create c s → ∀ m ∈ s.mounts, m ∈ A ∨ (n ≤ m.id ∧ m.id < n'))
    (hs : Settled e l)
    (ho : ∀ c s, e.1 = .create c s → e.2.ok = true → ∀ l2 v r' l3, l = l2 ++ (Call.volumeRemove v, r') :: l3 →
      s.Mounts v → Gone c l2) : Piece A n n' (e :: l) := by
  refine ⟨h.le, fun e' he v hv => ?_, fun e' he v hv => ?_, fun e' he => ?_, fun c s r hm x hx => ?_, fun l1 e' l2 hl => ?_,
    fun l1 c s r l2 v r' l3 hl hok hmo => ?_⟩
  · rcases List.mem_cons.1 he with rfl | he
    · exact hf v hv
    · exact h.fresh e' he v hv
  · rcases List.mem_cons.1 he with rfl | he
    · exact hr v hv
    · exact h.removes e' he v hv
  · rcases List.mem_cons.1 he with rfl | he
    · exact hn
    · exact h.nonet e' he
  · rcases List.mem_cons.1 hm with rfl | hm
    · exact hu c s rfl x hx
    · exact h.uses c s r hm x hx
  · cases l1 with
    | nil =>
      obtain ⟨rfl, rfl⟩ := List.cons.inj hl
      exact hs
    | cons a l1 => exact h.settled l1 e' l2 (List.cons.inj hl).2
  · cases l1 with
    | nil =>
      obtain ⟨rfl, rfl⟩ := List.cons.inj hl
      exact ho c s rfl hok l2 v r' l3 rfl hmo
    | cons a l1 => exact h.order l1 c s r l2 v r' l3 (List.cons.inj hl).2 hok hmo

theorem Neutral.settled {e : Ev} (h : Neutral e) (l : List Ev) : Settled e l := by
  intro x hx; rw [h.1] at hx; cases hx

theorem Piece.neutral {A : List Mount} {n n' : Nat} {l : List Ev} {e : Ev} (h : Piece A n n' l) (he : Neutral e) :
    Piece A n n' (e :: l) := by
  obtain ⟨h1, h2, h3⟩ := he
  exact h.cons (fun v hv => by rw [h1] at hv; simp at hv) (fun v hv => by rw [h2] at hv; simp at hv)
    (fun v => by rw [h1, h2]; simp) (fun c s hc => absurd hc (h3 c s)) (Neutral.settled ⟨h1, h2, h3⟩ l)
    (fun c s hc => absurd hc (h3 c s))

theorem Piece.neutrals {A : List Mount} {n n' : Nat} {l l' : List Ev} (h : Piece A n n' l) (he : ∀ e ∈ l', Neutral e) :
    Piece A n n' (l' ++ l) := by
  induction l' with
  | nil => exact h
  | cons e l' ih => exact (ih fun e' h' => he e' (List.mem_cons_of_mem _ h')).neutral (he e (by simp))

/-- a successful creation of a volume -/
theorem Piece.volume {A : List Mount} {n n' : Nat} {l : List Ev} {m : Mount} {r : Reply} (h : Piece A n n' l)
    (h1 : n ≤ m.id) (h2 : m.id < n') (hs : Settled (.volumeCreate m, r) l) : Piece A n n' ((.volumeCreate m, r) :: l) := by
  refine h.cons (fun v hv => ?_) (fun v hv => by simp [attempted] at hv) (fun v => ?_) (fun c s hc => by cases hc) hs
    (fun c s hc => by cases hc)
  · cases hr : r.ok <;> simp [acquired, hr] at hv
    omega
  · cases hr : r.ok <;> simp [acquired, attempted, hr]

/-- the creation of a container -/
theorem Piece.container {A : List Mount} {n n' : Nat} {l : List Ev} {c : Nat} {s : Container} {r : Reply} (h : Piece A n n' l)
    (h1 : n ≤ c) (h2 : c < n') (hu : ∀ m ∈ s.mounts, m ∈ A ∨ (n ≤ m.id ∧ m.id < n')) (hs : Settled (.create c s, r) l)
    (ho : r.ok = true → ∀ l2 v r' l3, l = l2 ++ (Call.volumeRemove v, r') :: l3 → s.Mounts v → Gone c l2) :
    Piece A n n' ((.create c s, r) :: l) := by
  refine h.cons (fun v hv => ?_) (fun v hv => by simp [attempted] at hv) (fun v => ?_) ?_ hs ?_
  · cases hr : r.ok <;> simp [acquired, hr] at hv
    omega
  · cases hr : r.ok <;> simp [acquired, attempted, hr]
  · rintro c' s' ⟨⟩; exact hu
  · rintro c' s' ⟨⟩; exact ho

theorem settled_of_not_ok {e : Ev} {l : List Ev} (h : e.2.ok = false) : Settled e l := by
  intro x hx
  obtain ⟨c, r⟩ := e
  cases c <;> simp_all [acquired]

/-- the `/tork` directory of container `c` -/
def torkMount (v : Nat) : Mount := { id := v, type := "volume", source := volumeName v, target := "/tork" }

/-- What `createTaskContainer` did: on success, with `n` and `n+1` the next numbers. -/
structure Creation (cfg : Config) (t : Task) (n : Nat) (k : Made) (l : List Ev) where
  r0 : Reply
  r1 : Reply
  r2 : Reply
  s : Container
  rest : List Ev
  eq : l = (.pull t.image t.registry, r0) :: (.volumeCreate (torkMount n), r1) :: (.create (n + 1) s, r2) :: rest
  ok0 : r0.ok = true
  ok1 : r1.ok = true
  ok2 : r2.ok = true
  copies : ∀ e ∈ rest, ∃ d f, e.1 = .copy (n + 1) d f ∧ e.2.ok = true
  script : t.run ≠ "" → ∃ d f r, (Call.copy (n + 1) d f, r) ∈ rest ∧ d = "/tork" ∧ ("entrypoint", t.run) ∈ f
  files : t.files ≠ [] → ∃ r, (Call.copy (n + 1) s.workdir t.files, r) ∈ rest
  spec : ∃ cpus mem, s = containerOf cfg t (torkMount n) cpus mem ∧ limitOf cfg.cpus (·.cpus) t.limits = some cpus ∧
    limitOf cfg.memory (·.memory) t.limits = some mem
  made : k = ⟨n + 1, torkMount n⟩

theorem runs_mountVolume {cfg : Config} {m : Mount} {n n' : Nat} {l : List Ev} {o : Option Mount} (hm : m.type = "volume")
    (h : Runs (mountOne cfg m) n l o n') : ∃ r, l = [(.volumeCreate { m with source := volumeName m.id }, r)] ∧ n' = n ∧
      o = (if r.ok then some { m with source := volumeName m.id } else none) := by
  unfold mountOne at h
  rw [if_neg (by rw [hm]; decide), if_pos hm] at h
  obtain ⟨r, l1, l2, m1, rfl, h1, h2⟩ := runs_bind.1 h
  obtain ⟨rfl, rfl⟩ := runs_ask.1 h1
  replace h2 := runs_ite h2
  rcases h2 with ⟨hr, rfl, rfl, rfl⟩ | ⟨hr, rfl, rfl, rfl⟩
  · exact ⟨r, rfl, rfl, by rw [if_pos hr]⟩
  · exact ⟨r, rfl, rfl, by rw [if_neg hr]⟩

theorem create_cases {cfg : Config} {t : Task} {n n' : Nat} {l : List Ev} {o : Option Made}
    (h : Runs (createTaskContainer cfg t) n l o n') (hA : ∀ m ∈ t.mounts, m.id < n) :
    (o = none ∧ Piece t.mounts n n' l) ∨ (∃ k, o = some k ∧ n' = n + 2 ∧ Nonempty (Creation cfg t n k l)) := by
  unfold createTaskContainer at h
  replace h := runs_ite h
  rcases h with ⟨_, rfl, rfl, rfl⟩ | ⟨_, h⟩
  · exact .inl ⟨rfl, .nil (Nat.le_refl _)⟩
  replace h := runs_askBind.1 h
  obtain ⟨r0, l2, rfl, h⟩ := h
  have npull : ∀ r, Neutral (.pull t.image t.registry, r) := fun r => ⟨rfl, rfl, fun _ _ h => by cases h⟩
  have ncopy : ∀ c d f r, Neutral (.copy c d f, r) := fun c d f r => ⟨rfl, rfl, fun _ _ h => by cases h⟩
  replace h := runs_ite h
  rcases h with ⟨_, rfl, rfl, rfl⟩ | ⟨hr0, h⟩
  · exact .inl ⟨rfl, (Piece.nil (Nat.le_refl _)).neutral (npull _)⟩
  replace h := runs_ite h
  rcases h with ⟨_, rfl, rfl, rfl⟩ | ⟨hmt, h⟩
  · exact .inl ⟨rfl, (Piece.nil (Nat.le_refl _)).neutral (npull _)⟩
  replace h := runs_idBind.1 h
  replace h := runs_bind.1 h
  obtain ⟨td, _, l4, _, rfl, h1, h⟩ := h
  obtain ⟨r1, rfl, rfl, rfl⟩ := runs_mountVolume rfl h1
  cases hr1 : r1.ok with
  | false =>
    rw [hr1] at h
    obtain ⟨rfl, rfl, rfl⟩ := h
    exact .inl ⟨rfl, ((Piece.nil (Nat.le_succ _)).volume (m := torkMount n) (Nat.le_refl _) (Nat.lt_succ_self _)
      (settled_of_not_ok hr1)).neutral (npull _)⟩
  | true =>
  rw [hr1] at h
  simp only [if_true] at h
  have novol : ∀ l : List Ev, (∀ c s r, (Call.create c s, r) ∈ l → r.ok = true → CopyFailed c l) →
      Settled (.volumeCreate (torkMount n), r1) l := by
    intro l hl x _
    exact .inr ⟨rfl, fun c s r hc hr _ => .inl (hl c s r hc hr)⟩
  have leaf : ∀ {n'} {l : List Ev}, n < n' → Piece t.mounts n n' l →
      (∀ c s r, (Call.create c s, r) ∈ l → r.ok = true → CopyFailed c l) →
      Piece t.mounts n n' ((.pull t.image t.registry, r0) :: (.volumeCreate (torkMount n), r1) :: l) :=
    fun hn hp hl => (hp.volume (Nat.le_refl _) hn (novol _ hl)).neutral (npull _)
  cases hc : limitOf cfg.cpus (·.cpus) t.limits with
  | none =>
    rw [hc] at h
    obtain ⟨rfl, rfl, rfl⟩ := h
    exact .inl ⟨rfl, leaf (Nat.lt_succ_self _) (.nil (Nat.le_succ _)) (fun _ _ _ h => (List.not_mem_nil h).elim)⟩
  | some cpus =>
  cases hm : limitOf cfg.memory (·.memory) t.limits with
  | none =>
    rw [hc, hm] at h
    obtain ⟨rfl, rfl, rfl⟩ := h
    exact .inl ⟨rfl, leaf (Nat.lt_succ_self _) (.nil (Nat.le_succ _)) (fun _ _ _ h => (List.not_mem_nil h).elim)⟩
  | some mem =>
  rw [hc, hm] at h
  replace h := runs_ite h
  rcases h with ⟨_, rfl, rfl, rfl⟩ | ⟨hg, h⟩
  · exact .inl ⟨rfl, leaf (Nat.lt_succ_self _) (.nil (Nat.le_succ _)) (fun _ _ _ h => (List.not_mem_nil h).elim)⟩
  replace h := runs_idBind.1 h
  replace h := runs_askBind.1 h
  obtain ⟨r2, l6, rfl, h⟩ := h
  have hu : ∀ m ∈ (containerOf cfg t (torkMount n) cpus mem).mounts, m ∈ t.mounts ∨ (n ≤ m.id ∧ m.id < n + 1 + 1) := by
    intro m hm
    rcases List.mem_append.1 hm with hm | hm
    · exact .inl hm
    · rw [List.mem_singleton.1 hm]; exact .inr ⟨Nat.le_refl _, by simp only [torkMount]; omega⟩
  replace h := runs_ite h
  rcases h with ⟨hr2, rfl, rfl, rfl⟩ | ⟨hr2, h⟩
  · have hr2 : r2.ok = false := by simpa using hr2
    refine .inl ⟨rfl, leaf (by omega) ((Piece.nil (by omega)).container (by omega) (by omega) hu
      (settled_of_not_ok hr2) (fun h => ?_)) ?_⟩
    · rw [hr2] at h; cases h
    · intro c s r hm hr
      cases List.mem_singleton.1 hm
      rw [hr2] at hr; cases hr
  have failed : ∀ l : List Ev, (∃ d f r, l = [(Call.copy (n + 1) d f, r)] ∧ r.ok = false) ∨
      (∃ d f r r' d' f', l = [(Call.copy (n + 1) d f, r), (Call.copy (n + 1) d' f', r')] ∧ r'.ok = false) →
      Piece t.mounts n (n + 1 + 1) ((.pull t.image t.registry, r0) :: (.volumeCreate (torkMount n), r1) ::
        (.create (n + 1) (containerOf cfg t (torkMount n) cpus mem), r2) :: l) := by
    intro l hl
    have hcf : CopyFailed (n + 1) l := by
      rcases hl with ⟨d, f, r, rfl, hr⟩ | ⟨d, f, r, r', d', f', rfl, hr⟩
      · exact ⟨d, f, r, by simp, hr⟩
      · exact ⟨d', f', r', by simp, hr⟩
    have hp : Piece t.mounts n (n + 1 + 1) l := by
      rcases hl with ⟨d, f, r, rfl, hr⟩ | ⟨d, f, r, r', d', f', rfl, hr⟩
      · exact (Piece.nil (by omega)).neutral (ncopy _ _ _ _)
      · exact ((Piece.nil (by omega)).neutral (ncopy _ _ _ _)).neutral (ncopy _ _ _ _)
    have hno : ∀ v r', (Call.volumeRemove v, r') ∉ l := by
      rcases hl with ⟨d, f, r, rfl, hr⟩ | ⟨d, f, r, r', d', f', rfl, hr⟩ <;> simp
    refine leaf (by omega) (hp.container (by omega) (by omega) hu (fun x hx => .inr hcf) ?_) ?_
    · rintro _ l2 v r' l3 rfl _
      exact absurd (by simp) (hno v r')
    · intro c s r hm hr
      rcases List.mem_cons.1 hm with hm | hm
      · cases hm
        exact hcf.mono fun _ => List.mem_cons_of_mem _
      · rcases hl with ⟨d, f, r, rfl, hr⟩ | ⟨d, f, r, r', d', f', rfl, hr⟩ <;> simp at hm
  replace h := runs_askBind.1 h
  obtain ⟨r3, l7, rfl, h⟩ := h
  have hr0 : r0.ok = true := by simpa using hr0
  have hr2 : r2.ok = true := by simpa using hr2
  have hscript : t.run ≠ "" → ("entrypoint", t.run) ∈ torkFiles t := fun h => by simp [torkFiles, h]
  replace h := runs_ite h
  rcases h with ⟨hr3, rfl, rfl, rfl⟩ | ⟨hr3, h⟩
  · exact .inl ⟨rfl, failed _ (.inl ⟨_, _, _, rfl, by simpa using hr3⟩)⟩
  have hr3 : r3.ok = true := by simpa using hr3
  replace h := runs_ite h
  rcases h with ⟨hf, rfl, rfl, rfl⟩ | ⟨hf, h⟩
  · refine .inr ⟨_, rfl, rfl, ⟨r0, r1, r2, containerOf cfg t (torkMount n) cpus mem, _, rfl, hr0, hr1, hr2, ?_, ?_, ?_,
      ⟨cpus, mem, rfl, hc, hm⟩, rfl⟩⟩
    · intro e he
      rw [List.mem_singleton.1 he]
      exact ⟨_, _, rfl, hr3⟩
    · intro h
      exact ⟨"/tork", torkFiles t, r3, List.mem_cons_self .., rfl, hscript h⟩
    · intro h
      exact absurd (List.isEmpty_iff.1 hf) h
  replace h := runs_askBind.1 h
  obtain ⟨r4, l8, rfl, h⟩ := h
  replace h := runs_ite h
  rcases h with ⟨hr4, rfl, rfl, rfl⟩ | ⟨hr4, rfl, rfl, rfl⟩
  · exact .inl ⟨rfl, failed _ (.inr ⟨_, _, _, _, _, _, rfl, by simpa using hr4⟩)⟩
  have hr4 : r4.ok = true := by simpa using hr4
  refine .inr ⟨_, rfl, rfl, ⟨r0, r1, r2, containerOf cfg t (torkMount n) cpus mem, _, rfl, hr0, hr1, hr2, ?_, ?_, ?_,
    ⟨cpus, mem, rfl, hc, hm⟩, rfl⟩⟩
  · intro e he
    simp only [List.mem_cons, List.not_mem_nil, or_false] at he
    rcases he with rfl | rfl
    · exact ⟨_, _, rfl, hr3⟩
    · exact ⟨_, _, rfl, hr4⟩
  · intro h
    exact ⟨"/tork", torkFiles t, r3, List.mem_cons_self .., rfl, hscript h⟩
  · intro h
    exact ⟨r4, List.mem_cons_of_mem _ (List.mem_cons_self ..)⟩

theorem runs_remove {c v n n' : Nat} {l : List Ev} {u : Unit} (h : Runs (removeContainer ⟨c, torkMount v⟩) n l u n') :
    n' = n ∧ ∃ r, (r.ok = false ∧ l = [(.remove c, r)]) ∨ (∃ r', l = [(.remove c, r), (.volumeRemove v, r')]) := by
  unfold removeContainer at h
  replace h := runs_askBind.1 h
  obtain ⟨r, l2, rfl, h⟩ := h
  replace h := runs_ite h
  rcases h with ⟨hr, h⟩ | ⟨hr, rfl, rfl, rfl⟩
  · unfold unmountOne at h
    replace h := runs_ite h
    rcases h with ⟨-, h⟩ | ⟨h, -⟩
    · replace h := runs_askBind.1 h
      obtain ⟨r', l3, rfl, rfl, rfl, rfl⟩ := h
      exact ⟨rfl, r, .inr ⟨r', rfl⟩⟩
    · exact absurd rfl h
  · exact ⟨rfl, r, .inl ⟨by simpa using hr, rfl⟩⟩

/-- what removes container `c` and its directory `v` -/
def Removal (c v : Nat) (l : List Ev) : Prop :=
  ∃ r, (r.ok = false ∧ l = [(Call.remove c, r)]) ∨ (∃ r', l = [(Call.remove c, r), (Call.volumeRemove v, r')])

theorem Removal.piece {A : List Mount} {n n' c v : Nat} {l : List Ev} (h : Removal c v l) (h1 : n ≤ c) (h2 : c < n')
    (h3 : n ≤ v) (h4 : v < n') : Piece A n n' l := by
  obtain ⟨r, ⟨_, rfl⟩ | ⟨r', rfl⟩⟩ := h
  · refine (Piece.nil (by omega)).cons ?_ ?_ ?_ ?_ ?_ ?_
    all_goals simp [acquired, attempted, Settled]
    omega
  · refine ((Piece.nil (by omega)).cons ?_ ?_ ?_ ?_ ?_ ?_).cons ?_ ?_ ?_ ?_ ?_ ?_
    all_goals simp [acquired, attempted, Settled]
    all_goals omega

theorem Removal.calls {c v : Nat} {l : List Ev} (h : Removal c v l) : ∀ e ∈ l, e.1 = .remove c ∨ e.1 = .volumeRemove v := by
  obtain ⟨r, ⟨_, rfl⟩ | ⟨r', rfl⟩⟩ := h <;> simp

theorem Removal.head {c v : Nat} {l : List Ev} (h : Removal c v l) : ∃ r k, l = (.remove c, r) :: k := by
  obtain ⟨r, ⟨_, rfl⟩ | ⟨r', rfl⟩⟩ := h
  · exact ⟨r, _, rfl⟩
  · exact ⟨r, _, rfl⟩

theorem bracket {cfg : Config} {t : Task} {n m : Nat} {k : Made} {l0 lb lr : List Ev} (hc : Creation cfg t n k l0)
    (hb : Piece t.mounts (n + 2) m lb) (hr : Removal (n + 1) n lr) (hA : ∀ a ∈ t.mounts, a.id < n) :
    Piece t.mounts n m (l0 ++ (lb ++ lr)) := by
  obtain ⟨r0, r1, r2, s, rest, rfl, ok0, ok1, ok2, copies, -, -, ⟨cpus, mem, rfl, -, -⟩, rfl⟩ := hc
  have hle := hb.le
  have hcopy : ∀ e ∈ rest, Neutral e := by
    intro e he
    obtain ⟨d, f, h1, -⟩ := copies e he
    obtain ⟨ec, er⟩ := e
    cases h1
    exact ⟨rfl, rfl, fun _ _ h => by cases h⟩
  have hrp : Piece t.mounts n m lr := hr.piece (by omega) (by omega) (by omega) (by omega)
  have hlr : Piece t.mounts n m (lb ++ lr) := by
    refine (hb.widen (by omega) (Nat.le_refl _)).append_of hrp ?_
    intro e he v hv c s r hm
    rcases hr.calls _ hm with h | h <;> cases h
  have hmts : ∀ x ∈ (containerOf cfg t (torkMount n) cpus mem).mounts, x ∈ t.mounts ∨ x = torkMount n := by
    intro x hx
    rcases List.mem_append.1 hx with hx | hx
    · exact .inl hx
    · exact .inr (List.mem_singleton.1 hx)
  obtain ⟨rr, kk, hhead⟩ := hr.head
  refine Piece.neutral (e := (Call.pull t.image t.registry, r0)) ?_ ⟨rfl, rfl, fun _ _ h => by cases h⟩
  have hcreate : Piece t.mounts n m ((.create (n + 1) (containerOf cfg t (torkMount n) cpus mem), r2) ::
      (rest ++ (lb ++ lr))) := by
    refine (hlr.neutrals hcopy).container (by omega) (by omega) ?_ ?_ ?_
    · intro x hx
      rcases hmts x hx with h | rfl
      · exact .inl h
      · exact .inr ⟨Nat.le_refl _, by simp only [torkMount]; omega⟩
    · intro x hx
      simp only [acquired, ok2, if_true, Option.some.injEq] at hx
      subst hx
      exact .inl ⟨(.remove (n + 1), rr), by rw [hhead]; simp, rfl⟩
    · rintro - l2 v r' l3 hl ⟨y, hy, hy1, hy2⟩
      rw [← List.append_assoc] at hl
      rcases split_append hl with ⟨k, h1, -⟩ | ⟨k, h1, h2⟩
      · have hin : (Call.volumeRemove v, r') ∈ rest ++ lb := by rw [h1]; simp
        rcases List.mem_append.1 hin with h | h
        · obtain ⟨d, f, h, -⟩ := copies _ h; cases h
        · have := hb.removes _ h v (.inl rfl)
          rcases hmts y hy with h | rfl
          · have := hA y h; omega
          · simp only [torkMount] at hy2; omega
      · cases k with
        | nil => rw [hhead] at h2; simp at h2
        | cons a k =>
          rw [hhead] at h2
          obtain ⟨rfl, -⟩ := List.cons.inj h2
          exact .inl ⟨rr, by rw [h1]; simp⟩
  refine hcreate.volume (Nat.le_refl _) (by simp only [torkMount]; omega) ?_
  intro x hx
  simp only [acquired, ok1, if_true, Option.some.injEq] at hx
  subst hx
  obtain ⟨r, ⟨hrf, rfl⟩ | ⟨r', rfl⟩⟩ := hr
  · refine .inr ⟨rfl, ?_⟩
    rintro c s r' hm hr' ⟨y, hy, hy1, hy2⟩
    have hrem : ∀ c, c = n + 1 → CopyFailed c ((Call.create (n + 1) (containerOf cfg t (torkMount n) cpus mem), r2) ::
        (rest ++ (lb ++ [(Call.remove (n + 1), r)]))) ∨ RemoveFailed c ((Call.create (n + 1)
          (containerOf cfg t (torkMount n) cpus mem), r2) :: (rest ++ (lb ++ [(Call.remove (n + 1), r)]))) := by
      rintro c rfl
      exact .inr ⟨r, by simp, hrf⟩
    rcases List.mem_cons.1 hm with hm | hm
    · cases hm
      exact hrem _ rfl
    · rcases List.mem_append.1 hm with h | h
      · obtain ⟨d, f, h, -⟩ := copies _ h; cases h
      · rcases List.mem_append.1 h with h | h
        · rcases hb.uses c s r' h y hy with h | h
          · have := hA y h; simp only [torkMount] at hy2; omega
          · simp only [torkMount] at hy2; omega
        · simp at h
  · exact .inl ⟨(.volumeRemove n, r'), by simp, rfl⟩

theorem runs_start {t : Task} {k : Made} {n n' : Nat} {l : List Ev} {b : Bool} (h : Runs (startContainer t k) n l b n') :
    n' = n ∧ ∃ r, ((r.ok = false ∧ b = false ∧ l = [(.start k.id, r)]) ∨
      (r.ok = true ∧ t.probe = none ∧ b = true ∧ l = [(.start k.id, r)]) ∨
      (r.ok = true ∧ ∃ p r', t.probe = some p ∧ b = r'.ok ∧ l = [(.start k.id, r), (.probe k.id (probeOf p), r')])) := by
  unfold startContainer at h
  replace h := runs_askBind.1 h
  obtain ⟨r, l2, rfl, h⟩ := h
  replace h := runs_ite h
  rcases h with ⟨hr, rfl, rfl, rfl⟩ | ⟨hr, h⟩
  · exact ⟨rfl, r, .inl ⟨by simpa using hr, rfl, rfl⟩⟩
  · have hr : r.ok = true := by simpa using hr
    cases hp : t.probe with
    | none =>
      rw [hp] at h
      obtain ⟨rfl, rfl, rfl⟩ := h
      exact ⟨rfl, r, .inr (.inl ⟨hr, rfl, rfl, rfl⟩)⟩
    | some p =>
      rw [hp] at h
      replace h := runs_askBind.1 h
      obtain ⟨r', l3, rfl, rfl, rfl, rfl⟩ := h
      exact ⟨rfl, r, .inr (.inr ⟨hr, p, r', rfl, rfl, rfl⟩)⟩

theorem runs_wait {k : Made} {n n' : Nat} {l : List Ev} {o : Option String} (h : Runs (waitContainer k) n l o n') :
    n' = n ∧ ∃ r, ((r.ok = false ∧ o = none ∧ l = [(.follow k.id, r)]) ∨ (r.ok = true ∧ ∃ r1,
      ((r1.ok = false ∧ o = none ∧ l = [(.follow k.id, r), (.wait k.id, r1)]) ∨
       (r1.ok = true ∧ r1.code ≠ 0 ∧ o = none ∧ ∃ r2, l = [(.follow k.id, r), (.wait k.id, r1), (.tail k.id, r2)]) ∨
       (r1.ok = true ∧ r1.code = 0 ∧ ∃ r2, o = (if r2.ok then some r2.text else none) ∧
          l = [(.follow k.id, r), (.wait k.id, r1), (.output k.id, r2)])))) := by
  unfold waitContainer at h
  replace h := runs_askBind.1 h
  obtain ⟨r, l2, rfl, h⟩ := h
  replace h := runs_ite h
  rcases h with ⟨hr, rfl, rfl, rfl⟩ | ⟨hr, h⟩
  · exact ⟨rfl, r, .inl ⟨by simpa using hr, rfl, rfl⟩⟩
  have hr : r.ok = true := by simpa using hr
  replace h := runs_askBind.1 h
  obtain ⟨r1, l3, rfl, h⟩ := h
  replace h := runs_ite h
  rcases h with ⟨hr1, rfl, rfl, rfl⟩ | ⟨hr1, h⟩
  · exact ⟨rfl, r, .inr ⟨hr, r1, .inl ⟨by simpa using hr1, rfl, rfl⟩⟩⟩
  have hr1 : r1.ok = true := by simpa using hr1
  replace h := runs_ite h
  rcases h with ⟨hc, h⟩ | ⟨hc, h⟩
  · replace h := runs_askBind.1 h
    obtain ⟨r2, l4, rfl, rfl, rfl, rfl⟩ := h
    exact ⟨rfl, r, .inr ⟨hr, r1, .inr (.inl ⟨hr1, hc, rfl, r2, rfl⟩)⟩⟩
  · have hc : r1.code = 0 := by simpa using hc
    replace h := runs_askBind.1 h
    obtain ⟨r2, l4, rfl, h⟩ := h
    replace h := runs_ite h
    rcases h with ⟨hr2, rfl, rfl, rfl⟩ | ⟨hr2, rfl, rfl, rfl⟩
    · exact ⟨rfl, r, .inr ⟨hr, r1, .inr (.inr ⟨hr1, hc, r2, by simp at hr2; simp [hr2], rfl⟩)⟩⟩
    · exact ⟨rfl, r, .inr ⟨hr, r1, .inr (.inr ⟨hr1, hc, r2, by simp at hr2; simp [hr2], rfl⟩)⟩⟩

/-- the calls that only watch or run a container that exists -/
def Watches (e : Ev) : Prop :=
  match e.1 with
  | .start _ | .probe _ _ | .follow _ | .wait _ | .tail _ | .output _ => True
  | _ => False

theorem Watches.neutral {e : Ev} (h : Watches e) : Neutral e := by
  obtain ⟨c, r⟩ := e
  cases c <;> simp [Watches] at h <;> exact ⟨rfl, rfl, fun _ _ h => by cases h⟩

theorem start_watches {t : Task} {k : Made} {n n' : Nat} {l : List Ev} {b : Bool} (h : Runs (startContainer t k) n l b n') :
    n' = n ∧ ∀ e ∈ l, Watches e := by
  obtain ⟨h1, r, ⟨-, -, rfl⟩ | ⟨-, -, -, rfl⟩ | ⟨-, p, r', -, -, rfl⟩⟩ := runs_start h
  all_goals exact ⟨h1, by simp [Watches]⟩

theorem wait_watches {k : Made} {n n' : Nat} {l : List Ev} {o : Option String} (h : Runs (waitContainer k) n l o n') :
    n' = n ∧ ∀ e ∈ l, Watches e := by
  obtain ⟨h1, r, ⟨-, -, rfl⟩ | ⟨-, r1, ⟨-, -, rfl⟩ | ⟨-, -, -, r2, rfl⟩ | ⟨-, -, r2, -, rfl⟩⟩⟩ := runs_wait h
  all_goals exact ⟨h1, by simp [Watches]⟩

theorem sidecars_piece {cfg : Config} {t : Task} {body : Prog (Option String)} (ss : List Task)
    (hb : ∀ n l o n', Runs body n l o n' → (∀ a ∈ t.mounts, a.id < n) → Piece t.mounts n n' l) {n n' : Nat} {l : List Ev}
    {o : Option String} (h : Runs (withSidecars cfg t body ss) n l o n') (hA : ∀ a ∈ t.mounts, a.id < n) :
    Piece t.mounts n n' l := by
  induction ss generalizing n l o n' with
  | nil => exact hb n l o n' h hA
  | cons s ss ih =>
    unfold withSidecars at h
    replace h := runs_idBind.1 h
    obtain ⟨k, l1, l2, m, rfl, h1, h2⟩ := runs_bind.1 h
    have hA1 : ∀ a ∈ t.mounts, a.id < n + 1 := fun a ha => Nat.lt_succ_of_lt (hA a ha)
    rcases create_cases h1 hA1 with ⟨rfl, hp⟩ | ⟨k, rfl, rfl, ⟨hc⟩⟩
    · obtain ⟨rfl, rfl, rfl⟩ := h2
      simpa using hp.widen (Nat.le_succ n) (Nat.le_refl _)
    · obtain ⟨b, l3, l4, m1, rfl, h3, h4⟩ := runs_bind.1 h2
      obtain ⟨rfl, hw⟩ := start_watches h3
      obtain ⟨x, l5, l6, m2, rfl, h5, h6⟩ := runs_bind.1 h4
      obtain ⟨u, l7, l8, m3, rfl, h7, rfl, rfl, rfl⟩ := runs_bind.1 h6
      rw [hc.made] at h7
      obtain ⟨rfl, hrm⟩ := runs_remove h7
      have hin : Piece t.mounts (n + 1 + 2) n' l5 := by
        replace h5 := runs_ite h5
        rcases h5 with ⟨-, h5⟩ | ⟨-, rfl, rfl, rfl⟩
        · exact ih h5 fun a ha => by have := hA a ha; omega
        · exact .nil (Nat.le_refl _)
      have := bracket hc (lb := l3 ++ l5) (hin.neutrals fun e he => (hw e he).neutral) hrm hA1
      simpa using this.widen (Nat.le_succ n) (Nat.le_refl _)

theorem doRun_piece {cfg : Config} {t : Task} {n n' : Nat} {l : List Ev} {o : Option String} (h : Runs (doRun cfg t) n l o n')
    (hA : ∀ a ∈ t.mounts, a.id < n) : Piece t.mounts n n' l := by
  unfold doRun at h
  obtain ⟨k, l1, l2, m, rfl, h1, h2⟩ := runs_bind.1 h
  rcases create_cases h1 hA with ⟨rfl, hp⟩ | ⟨k, rfl, rfl, ⟨hc⟩⟩
  · obtain ⟨rfl, rfl, rfl⟩ := h2
    simpa using hp
  · obtain ⟨x, l3, l4, m1, rfl, h3, h4⟩ := runs_bind.1 h2
    obtain ⟨u, l5, l6, m2, rfl, h5, rfl, rfl, rfl⟩ := runs_bind.1 h4
    rw [hc.made] at h5
    obtain ⟨rfl, hrm⟩ := runs_remove h5
    have hin : Piece t.mounts (n + 2) n' l3 := by
      refine sidecars_piece t.sidecars ?_ h3 fun a ha => by have := hA a ha; omega
      intro n l o n' hb _
      obtain ⟨b, l1, l2, m, rfl, h1, h2⟩ := runs_bind.1 hb
      obtain ⟨rfl, hw⟩ := start_watches h1
      replace h2 := runs_ite h2
      rcases h2 with ⟨-, h2⟩ | ⟨-, rfl, rfl, rfl⟩
      · obtain ⟨rfl, hw2⟩ := wait_watches h2
        have : Piece t.mounts n' n' (l1 ++ (l2 ++ [])) :=
          ((Piece.nil (Nat.le_refl _)).neutrals fun e he => (hw2 e he).neutral).neutrals fun e he => (hw e he).neutral
        simpa using this
      · exact (Piece.nil (Nat.le_refl _)).neutrals fun e he => (hw e he).neutral
    simpa using bracket hc hin hrm hA

theorem runAll_piece {cfg : Config} {t : Task} (ps : List Task) {n n' : Nat} {l : List Ev} {b : Bool}
    (h : Runs (runAll cfg t ps) n l b n') (hA : ∀ a ∈ t.mounts, a.id < n) : Piece t.mounts n n' l := by
  induction ps generalizing n l b n' with
  | nil => obtain ⟨rfl, rfl, rfl⟩ := h; exact .nil (Nat.le_refl _)
  | cons p ps ih =>
    unfold runAll at h
    replace h := runs_idBind.1 h
    obtain ⟨o, l1, l2, m, rfl, h1, h2⟩ := runs_bind.1 h
    have hA1 : ∀ a ∈ t.mounts, a.id < n + 1 := fun a ha => Nat.lt_succ_of_lt (hA a ha)
    have hp : Piece t.mounts n m l1 := (doRun_piece h1 hA1).widen (Nat.le_succ n) (Nat.le_refl _)
    have hle := hp.le
    cases o with
    | none =>
      obtain ⟨rfl, rfl, rfl⟩ := h2
      simpa using hp
    | some r => exact hp.append (ih h2 fun a ha => by have := hA a ha; omega) hA

theorem runSteps_piece {cfg : Config} {t : Task} {n n' : Nat} {l : List Ev} {o : Option String}
    (h : Runs (runSteps cfg t) n l o n') (hA : ∀ a ∈ t.mounts, a.id < n) : Piece t.mounts n n' l := by
  unfold runSteps at h
  obtain ⟨b, l1, l2, m, rfl, h1, h2⟩ := runs_bind.1 h
  have hp := runAll_piece t.pre h1 hA
  have hle := hp.le
  replace h2 := runs_ite h2
  rcases h2 with ⟨-, rfl, rfl, rfl⟩ | ⟨-, h2⟩
  · simpa using hp
  obtain ⟨o1, l3, l4, m1, rfl, h3, h4⟩ := runs_bind.1 h2
  have hp1 := doRun_piece h3 (fun a ha => by have := hA a ha; omega)
  have hle1 := hp1.le
  refine hp.append ?_ hA
  cases o1 with
  | none => obtain ⟨rfl, rfl, rfl⟩ := h4; simpa using hp1
  | some r =>
    obtain ⟨b1, l5, l6, m2, rfl, h5, h6⟩ := runs_bind.1 h4
    have hp2 := runAll_piece t.post h5 (fun a ha => by have := hA a ha; omega)
    have : l6 = [] ∧ n' = m2 := by
      replace h6 := runs_ite h6
      rcases h6 with ⟨-, rfl, rfl, rfl⟩ | ⟨-, rfl, rfl, rfl⟩
      · exact ⟨rfl, rfl⟩
      · exact ⟨rfl, rfl⟩
    obtain ⟨rfl, rfl⟩ := this
    simpa using hp1.append hp2 (fun a ha => by have := hA a ha; omega)

/-- What a mount request does: only volumes create something. -/
theorem mount_cases {cfg : Config} {m : Mount} {n n' : Nat} {l : List Ev} {o : Option Mount}
    (h : Runs (mountOne cfg m) n l o n') : n' = n ∧
      ((o = none ∧ ((∀ e ∈ l, e.1 = .hostDir m.source) ∨ ∃ m' r, l = [(.volumeCreate m', r)] ∧ r.ok = false ∧ m'.id = m.id)) ∨
      (∃ m', o = some m' ∧ m'.id = m.id ∧ m'.type = m.type ∧ m'.target = m.target ∧
        ((m.type ≠ "volume" ∧ m' = m ∧ (∀ e ∈ l, e.1 = .hostDir m.source ∧ e.2.ok = true)) ∨
         (m.type = "volume" ∧ ∃ r, l = [(.volumeCreate m', r)] ∧ r.ok = true)))) := by
  by_cases hv : m.type = "volume"
  · obtain ⟨r, rfl, rfl, rfl⟩ := runs_mountVolume hv h
    refine ⟨rfl, ?_⟩
    cases hr : r.ok with
    | false => exact .inl ⟨rfl, .inr ⟨_, r, rfl, hr, rfl⟩⟩
    | true => exact .inr ⟨_, rfl, rfl, rfl, rfl, .inr ⟨hv, r, rfl, hr⟩⟩
  · unfold mountOne at h
    replace h := runs_ite h
    rcases h with ⟨-, h⟩ | ⟨-, h⟩
    · replace h := runs_ite h
      rcases h with ⟨-, h⟩ | ⟨-, rfl, rfl, rfl⟩
      · replace h := runs_askBind.1 h
        obtain ⟨r, l2, rfl, h⟩ := h
        replace h := runs_ite h
        rcases h with ⟨hr, rfl, rfl, rfl⟩ | ⟨hr, rfl, rfl, rfl⟩
        · exact ⟨rfl, .inr ⟨m, rfl, rfl, rfl, rfl, .inl ⟨hv, rfl, by simpa using hr⟩⟩⟩
        · exact ⟨rfl, .inl ⟨rfl, .inl (by simp)⟩⟩
      · exact ⟨rfl, .inl ⟨rfl, .inl (by simp)⟩⟩
    · rw [if_neg hv] at h
      replace h := runs_ite h
      rcases h with ⟨-, h⟩ | ⟨-, rfl, rfl, rfl⟩
      · replace h := runs_ite h
        rcases h with ⟨-, rfl, rfl, rfl⟩ | ⟨-, rfl, rfl, rfl⟩
        · exact ⟨rfl, .inr ⟨m, rfl, rfl, rfl, rfl, .inl ⟨hv, rfl, by simp⟩⟩⟩
        · exact ⟨rfl, .inl ⟨rfl, .inl (by simp)⟩⟩
      · exact ⟨rfl, .inl ⟨rfl, .inl (by simp)⟩⟩

theorem hostDir_neutral {e : Ev} {p : String} (h : e.1 = .hostDir p) : Neutral e := by
  obtain ⟨c, r⟩ := e
  cases h
  exact ⟨rfl, rfl, fun _ _ h => by cases h⟩

theorem runs_unmount {m : Mount} {n n' : Nat} {l : List Ev} {u : Unit} (h : Runs (unmountOne m) n l u n') :
    n' = n ∧ ((m.type = "volume" ∧ ∃ r, l = [(.volumeRemove m.id, r)]) ∨ (m.type ≠ "volume" ∧ l = [])) := by
  unfold unmountOne at h
  replace h := runs_ite h
  rcases h with ⟨hv, h⟩ | ⟨hv, rfl, rfl, rfl⟩
  · replace h := runs_askBind.1 h
    obtain ⟨r, l2, rfl, rfl, rfl, rfl⟩ := h
    exact ⟨rfl, .inl ⟨hv, r, rfl⟩⟩
  · exact ⟨rfl, .inr ⟨hv, rfl⟩⟩

theorem mounts_piece {cfg : Config} (ms : List Mount) {A : List Mount} {k : List Mount → Prog (Option String)}
    (hk : ∀ ms' n l o n', Runs (k ms') n l o n' → (∀ a ∈ A ++ ms', a.id < n) → Piece (A ++ ms') n n' l) {n n' : Nat}
    {l : List Ev} {o : Option String} (h : Runs (withMounts cfg k ms) n l o n') (hA : ∀ a ∈ A, a.id < n) :
    Piece A n n' l := by
  induction ms generalizing A k n n' l o with
  | nil => simpa using hk [] n l o n' h (by simpa using hA)
  | cons m ms ih =>
    unfold withMounts at h
    replace h := runs_idBind.1 h
    obtain ⟨om, l1, l2, n1, rfl, h1, h2⟩ := runs_bind.1 h
    obtain ⟨rfl, ⟨rfl, hf⟩ | ⟨m', rfl, hid, hty, -, hm⟩⟩ := mount_cases h1
    · obtain ⟨rfl, rfl, rfl⟩ := h2
      rw [List.append_nil]
      rcases hf with hf | ⟨m', r, rfl, hr, hid⟩
      · simpa using (Piece.nil (A := A) (Nat.le_succ n)).neutrals fun e he => hostDir_neutral (hf e he)
      · exact (Piece.nil (Nat.le_succ n)).volume (by rw [hid]; exact Nat.le_refl _) (by rw [hid]; exact Nat.lt_succ_self _)
          (settled_of_not_ok hr)
    · have hid : m'.id = n := hid
      obtain ⟨x, l3, l4, n2, rfl, h3, h4⟩ := runs_bind.1 h2
      obtain ⟨u, l5, l6, n3, rfl, h5, rfl, rfl, hn3⟩ := runs_bind.1 h4
      have hin : Piece (A ++ [m']) (n + 1) n2 l3 := by
        refine ih (A := A ++ [m']) (k := fun ms' => k (m' :: ms')) ?_ h3 ?_
        · intro ms' n l o n' hr hlt
          have := hk (m' :: ms') n l o n' hr (by simpa using hlt)
          simpa using this
        · intro a ha
          rcases List.mem_append.1 ha with ha | ha
          · have := hA a ha; omega
          · rw [List.mem_singleton.1 ha, hid]; omega
      have hle := hin.le
      have hin' : Piece A n n2 l3 := by
        refine ⟨by omega, fun e he v hv => by have := hin.fresh e he v hv; omega,
          fun e he v hv => by have := hin.removes e he v hv; omega, hin.nonet, ?_, hin.settled, hin.order⟩
        intro c s r hc x hx
        rcases hin.uses c s r hc x hx with h | h
        · rcases List.mem_append.1 h with h | h
          · exact .inl h
          · rw [List.mem_singleton.1 h, hid]; exact .inr ⟨Nat.le_refl _, by omega⟩
        · exact .inr (by omega)
      obtain ⟨hn4, hun⟩ := runs_unmount h5
      subst hn3
      subst hn4
      rw [hty] at hun
      rcases hm with ⟨hv, -, hh⟩ | ⟨hv, r, rfl, hr⟩
      · rcases hun with ⟨hv', -⟩ | ⟨-, rfl⟩
        · exact absurd hv' hv
        · simpa using hin'.neutrals fun e he => hostDir_neutral (hh e he).1
      · rcases hun with ⟨-, r', rfl⟩ | ⟨hv', -⟩
        · rw [hid]
          have hend : Piece A n n' [(Call.volumeRemove n, r')] := by
            refine (Piece.nil (by omega)).cons ?_ ?_ ?_ ?_ ?_ ?_
            all_goals simp [acquired, attempted, Settled]
            omega
          have hb : Piece A n n' (l3 ++ [(Call.volumeRemove n, r')]) :=
            hin'.append_of hend fun e he v hv c s r hm => by simp at hm
          have := hb.volume (m := m') (r := r) (by omega) (by omega) (by
            intro x hx
            simp only [acquired, hr, if_true, Option.some.injEq] at hx
            subst hx
            exact .inl ⟨(.volumeRemove n, r'), by simp, by rw [hid]; rfl⟩)
          simpa using this
        · exact absurd hv hv'

theorem runs_removeNetwork {k j : Nat} {n n' : Nat} {l : List Ev} {u : Unit} (h : Runs (removeNetwork k j) n l u n') :
    n' = n ∧ (∀ e ∈ l, e.1 = .netRemove k) ∧
      ((∃ l0 r, l = l0 ++ [(.netRemove k, r)] ∧ r.ok = true ∧ l0.length < j ∧ ∀ e ∈ l0, e.2.ok = false) ∨
       (l.length = j ∧ ∀ e ∈ l, e.2.ok = false)) := by
  induction j generalizing n l with
  | zero => obtain ⟨rfl, rfl, rfl⟩ := h; exact ⟨rfl, by simp, .inr ⟨rfl, by simp⟩⟩
  | succ j ih =>
    unfold removeNetwork at h
    replace h := runs_askBind.1 h
    obtain ⟨r, l2, rfl, h⟩ := h
    replace h := runs_ite h
    rcases h with ⟨hr, rfl, rfl, rfl⟩ | ⟨hr, h⟩
    · exact ⟨rfl, by simp, .inl ⟨[], r, rfl, hr, by simp, by simp⟩⟩
    · obtain ⟨h1, h2, h3⟩ := ih h
      have hr : r.ok = false := by simpa using hr
      refine ⟨h1, by simpa using h2, ?_⟩
      rcases h3 with ⟨l0, r', rfl, h4, h5, h6⟩ | ⟨h4, h5⟩
      · exact .inl ⟨(.netRemove k, r) :: l0, r', rfl, h4, by simp; omega, List.forall_mem_cons.2 ⟨hr, h6⟩⟩
      · exact .inr ⟨by simp [h4], List.forall_mem_cons.2 ⟨hr, h5⟩⟩

/-- A run is: nothing but a failed creation of the network; or, around the steps of the task, the creation and the
removal of the network, if the task has sidecars. -/
theorem run_shape {cfg : Config} {t : Task} {n n' : Nat} {l : List Ev} {o : Option String} (h : Runs (run cfg t) n l o n') :
    (t.sidecars = [] ∧ Runs (withMounts cfg (fun ms => runSteps cfg { t with mounts := ms }) t.mounts) n l o n') ∨
    (t.sidecars ≠ [] ∧ ((∃ r, l = [(.netCreate n, r)] ∧ r.ok = false ∧ o = none ∧ n' = n + 1) ∨
      ∃ r l1 l2, l = (.netCreate n, r) :: (l1 ++ l2) ∧ r.ok = true ∧
        Runs (withMounts cfg (fun ms => runSteps cfg { t with networks := t.networks ++ [networkName n], mounts := ms })
          t.mounts) (n + 1) l1 o n' ∧ Runs (removeNetwork n 5) n' l2 () n')) := by
  unfold run at h
  replace h := runs_ite h
  rcases h with ⟨hs, h⟩ | ⟨hs, h⟩
  · exact .inl ⟨by simpa using hs, h⟩
  · refine .inr ⟨by simpa using hs, ?_⟩
    replace h := runs_idBind.1 h
    replace h := runs_askBind.1 h
    obtain ⟨r, l2, rfl, h⟩ := h
    replace h := runs_ite h
    rcases h with ⟨hr, rfl, rfl, rfl⟩ | ⟨hr, h⟩
    · exact .inl ⟨r, rfl, by simpa using hr, rfl, rfl⟩
    · obtain ⟨x, l3, l4, n1, rfl, h3, h4⟩ := runs_bind.1 h
      obtain ⟨u, l5, l6, n2, rfl, h5, rfl, rfl, rfl⟩ := runs_bind.1 h4
      obtain ⟨rfl, -⟩ := runs_removeNetwork h5
      exact .inr ⟨r, l3, l5, by simp, by simpa using hr, h3, h5⟩

theorem withMounts_piece {cfg : Config} {t : Task} {n n' : Nat} {l : List Ev} {o : Option String} {ms : List Mount}
    (h : Runs (withMounts cfg (fun ms => runSteps cfg { t with mounts := ms }) ms) n l o n') : Piece [] n n' l :=
  mounts_piece (A := []) ms (fun ms' n l o n' hr hlt => runSteps_piece (t := { t with mounts := ms' }) hr hlt) h (by simp)

theorem run_settled {cfg : Config} {t : Task} {n n' : Nat} {l : List Ev} {o : Option String} (h : Runs (run cfg t) n l o n')
    {l1 l2 : List Ev} {e : Ev} (hl : l = l1 ++ e :: l2) : Settled e l2 := by
  rcases run_shape h with ⟨-, h⟩ | ⟨-, ⟨r, rfl, hr, -, -⟩ | ⟨r, k1, k2, rfl, hr, h1, h2⟩⟩
  · exact (withMounts_piece h).settled l1 e l2 hl
  · cases l1 with
    | nil =>
      obtain ⟨rfl, -⟩ := List.cons.inj hl
      exact settled_of_not_ok hr
    | cons a l1 => simp at hl
  · obtain ⟨-, h3, h4⟩ := runs_removeNetwork h2
    cases l1 with
    | nil =>
      obtain ⟨rfl, rfl⟩ := List.cons.inj hl
      intro x hx
      simp only [acquired, hr, if_true, Option.some.injEq] at hx
      subst hx
      refine .inl ?_
      rcases h4 with ⟨l0, r', rfl, -⟩ | ⟨h4, -⟩
      · exact ⟨(.netRemove n, r'), by simp, rfl⟩
      · cases k2 with
        | nil => simp at h4
        | cons b k2 =>
          obtain ⟨c, r'⟩ := b
          have := h3 _ (List.mem_cons_self ..)
          cases this
          exact ⟨(.netRemove n, r'), by simp, rfl⟩
    | cons a l1 =>
      have hl' := (List.cons.inj hl).2
      rcases split_append hl' with ⟨k, h5, rfl⟩ | ⟨k, -, h5⟩
      · refine Settled.append ((withMounts_piece (t := { t with networks := t.networks ++ [networkName n] }) h1).settled
          l1 e k h5) ?_
        intro m _ c s r hc
        have := h3 _ hc
        cases this
      · have := h3 e (by rw [h5]; simp)
        obtain ⟨c, r'⟩ := e
        cases this
        intro x hx
        cases hx

/-! ### C58 -/

/-- **C58 (containers).** Every container created for a task (the task itself, its pre- and post-tasks and all sidecars)
is asked to be removed before the run returns, whatever fails and whenever the task is cancelled — except a container
whose files could not be written into it. -/
theorem C58_containers_removed {cfg : Config} {t : Task} {n n' : Nat} {l : List Ev} {o : Option String}
    (h : Runs (run cfg t) n l o n') {l1 l2 : List Ev} {c : Nat} {s : Container} {r : Reply}
    (hl : l = l1 ++ (.create c s, r) :: l2) (hr : r.ok = true) : (∃ r', (Call.remove c, r') ∈ l2) ∨ CopyFailed c l2 := by
  rcases run_settled h hl (.container c) (by simp [acquired, hr]) with ⟨⟨e, r'⟩, h1, h2⟩ | h1
  · cases e <;> simp only [attempted, reduceCtorEq, Option.some.injEq, Resource.container.injEq] at h2
    subst h2
    exact .inl ⟨r', h1⟩
  · exact .inr h1

/-- **C58 (mounts).** Every volume created for a mount of the task is asked to be removed before the run returns. (A mount
target of `/tork` is refused when the job is submitted, `/repo/input/validate.go:77`.) -/
theorem C58_volumes_removed {cfg : Config} {t : Task} {n n' : Nat} {l : List Ev} {o : Option String}
    (h : Runs (run cfg t) n l o n') {l1 l2 : List Ev} {m : Mount} {r : Reply} (hl : l = l1 ++ (.volumeCreate m, r) :: l2)
    (hr : r.ok = true) (ht : m.target ≠ "/tork") : ∃ r', (Call.volumeRemove m.id, r') ∈ l2 := by
  rcases run_settled h hl (.volume m.id) (by simp [acquired, hr]) with ⟨⟨e, r'⟩, h1, h2⟩ | h1
  · cases e <;> simp only [attempted, reduceCtorEq, Option.some.injEq, Resource.volume.injEq] at h2
    subst h2
    exact ⟨r', h1⟩
  · exact absurd h1.1 ht

/-- **C58 (private directories).** The volume holding the `/tork` directory of a container is asked to be removed before the
run returns, unless no container came to use it, or that container could not be filled or could not be removed. -/
theorem C58_directories_removed {cfg : Config} {t : Task} {n n' : Nat} {l : List Ev} {o : Option String}
    (h : Runs (run cfg t) n l o n') {l1 l2 : List Ev} {m : Mount} {r : Reply} (hl : l = l1 ++ (.volumeCreate m, r) :: l2)
    (hr : r.ok = true) {c : Nat} {s : Container} {r1 : Reply} (hc : (Call.create c s, r1) ∈ l2) (hr1 : r1.ok = true)
    (hm : s.Mounts m.id) (hcopy : ¬ CopyFailed c l2) (hrem : ¬ RemoveFailed c l2) :
    ∃ r', (Call.volumeRemove m.id, r') ∈ l2 := by
  rcases run_settled h hl (.volume m.id) (by simp [acquired, hr]) with ⟨⟨e, r'⟩, h1, h2⟩ | h1
  · cases e <;> simp only [attempted, reduceCtorEq, Option.some.injEq, Resource.volume.injEq] at h2
    subst h2
    exact ⟨r', h1⟩
  · rcases h1.2 c s r1 hc hr1 hm with h | h
    · exact absurd h hcopy
    · exact absurd h hrem

/-- **C58 (network).** The network created for a task with sidecars is the first thing created; when the run returns it has
been removed, or five attempts have failed; and these attempts are the last thing the run does. -/
theorem C58_network_removed {cfg : Config} {t : Task} {n n' : Nat} {l : List Ev} {o : Option String}
    (h : Runs (run cfg t) n l o n') {l1 l2 : List Ev} {k : Nat} {r : Reply} (hl : l = l1 ++ (.netCreate k, r) :: l2)
    (hr : r.ok = true) : l1 = [] ∧ ∃ b l3, l2 = b ++ l3 ∧ (∀ e ∈ b, ∀ k, e.1 ≠ .netRemove k) ∧ (∀ e ∈ l3, e.1 = .netRemove k) ∧
      ((∃ l0 r', l3 = l0 ++ [(.netRemove k, r')] ∧ r'.ok = true) ∨ l3.length = 5) := by
  have nonet : ∀ (n n' : Nat) (b l1 l2 : List Ev) (e : Ev), Piece [] n n' b → b = l1 ++ e :: l2 →
      (acquired e ≠ some (.network k) ∧ attempted e ≠ some (.network k)) := by
    rintro n n' b l1 l2 e hp rfl
    exact hp.nonet e (by simp) k
  rcases run_shape h with ⟨-, h⟩ | ⟨-, ⟨r0, rfl, hr0, -, -⟩ | ⟨r0, k1, k2, rfl, hr0, h1, h2⟩⟩
  · have := (nonet _ _ _ _ _ _ (withMounts_piece h) hl).1
    simp [acquired, hr] at this
  · cases l1 with
    | nil =>
      obtain ⟨hh, -⟩ := List.cons.inj hl
      cases hh
      rw [hr] at hr0; cases hr0
    | cons a l1 => simp at hl
  · have hp := withMounts_piece (t := { t with networks := t.networks ++ [networkName n] }) h1
    obtain ⟨-, h3, h4⟩ := runs_removeNetwork h2
    cases l1 with
    | nil =>
      obtain ⟨hh, rfl⟩ := List.cons.inj hl
      cases hh
      refine ⟨rfl, k1, k2, rfl, ?_, h3, ?_⟩
      · rintro ⟨e, r1⟩ he k rfl
        exact (hp.nonet _ he k).2 rfl
      · rcases h4 with ⟨l0, r', rfl, h5, -⟩ | ⟨h5, -⟩
        · exact .inl ⟨l0, r', rfl, h5⟩
        · exact .inr h5
    | cons a l1 =>
      exfalso
      rcases split_append (List.cons.inj hl).2 with ⟨k, h5, -⟩ | ⟨k, -, h5⟩
      · have := (nonet _ _ _ _ _ _ hp h5).1
        simp [acquired, hr] at this
      · have := h3 (.netCreate _, r) (by rw [h5]; exact List.mem_append_right _ (List.mem_cons_self ..))
        cases this

/-- **C58 (order).** A volume is asked to be removed only after every container using it was (the daemon refuses to remove
a volume in use). -/
theorem C58_containers_first {cfg : Config} {t : Task} {n n' : Nat} {l : List Ev} {o : Option String}
    (h : Runs (run cfg t) n l o n') {l1 l2 l3 : List Ev} {c v : Nat} {s : Container} {r r' : Reply}
    (hl : l = l1 ++ (.create c s, r) :: (l2 ++ (.volumeRemove v, r') :: l3)) (hr : r.ok = true) (hv : s.Mounts v) :
    (∃ r', (Call.remove c, r') ∈ l2) ∨ CopyFailed c l2 := by
  rcases run_shape h with ⟨-, h⟩ | ⟨-, ⟨r0, rfl, hr0, -, -⟩ | ⟨r0, k1, k2, rfl, hr0, h1, h2⟩⟩
  · exact (withMounts_piece h).order l1 c s r l2 v r' l3 hl hr hv
  · cases l1 with
    | nil => simp at hl
    | cons a l1 => simp at hl
  · have hp := withMounts_piece (t := { t with networks := t.networks ++ [networkName n] }) h1
    obtain ⟨-, h3, -⟩ := runs_removeNetwork h2
    cases l1 with
    | nil =>
      obtain ⟨hh, -⟩ := List.cons.inj hl
      cases hh
    | cons a l1 =>
      rcases split_append (List.cons.inj hl).2 with ⟨k, h5, h6⟩ | ⟨k, -, h5⟩
      · rcases split_append h6.symm with ⟨k', h7, -⟩ | ⟨k', -, h7⟩
        · exact hp.order l1 c s r l2 v r' k' (by rw [h5, h7]) hr hv
        · have := h3 (.volumeRemove v, r') (by rw [h7]; simp)
          cases this
      · have := h3 (.create c s, r) (by rw [h5]; simp)
        cases this

/-! ### Concrete runs -/

namespace DockerEx

def cfg : Config := { cpus := fun s => if s = "1" then some 1000000000 else none }
def side : Task := { image := "redis:7" }
def pre : Task := { image := "busybox", run := "date" }
def task : Task :=
  { id := 77, image := "ubuntu:24.04", run := "make", env := [("A", "1")], files := [("x.txt", "hi")], pre := [pre],
    sidecars := [side], mounts := [{ type := "volume", target := "/data" }], limits := some { cpus := "1" } }

def yes : Reply := { ok := true }
def no : Reply := { ok := false }

/-- every call succeeds; the task prints `done` -/
def good : List Reply := List.replicate 9 yes ++ List.replicate 25 { text := "done" }

/-- a run of the task with a pre-task, a sidecar and a volume -/
def trace (rs : List Reply) (t : Task) : List Ev := ((play (run cfg t) 1 rs).map (·.1)).getD []
def outcome (rs : List Reply) (t : Task) : Option (Option String) := (play (run cfg t) 1 rs).map (·.2)

theorem trace_runs (rs : List Reply) (t : Task) {o : Option String} (h : outcome rs t = some o) :
    ∃ n', Runs (run cfg t) 1 (trace rs t) o n' := by
  unfold outcome at h
  cases hp : play (run cfg t) 1 rs with
  | none => rw [hp] at h; cases h
  | some x =>
    rw [hp] at h
    cases h
    have : trace rs t = x.1 := by unfold trace; rw [hp]; rfl
    rw [this]
    exact play_runs hp

/-- the run creates one network, four volumes and three containers, and removes them all -/
example : outcome good task = some (some "done") ∧
    (trace good task).filterMap acquired = [.network 1, .volume 2, .volume 4, .container 5, .volume 6, .container 7,
      .volume 9, .container 10] ∧
    (trace good task).filterMap attempted = [.container 5, .volume 4, .container 10, .volume 9, .container 7, .volume 6,
      .volume 2, .network 1] := by
  decide +kernel

/-- the main container fails to start; everything is removed all the same -/
def noStart : List Reply := List.replicate 22 yes ++ [no] ++ List.replicate 10 yes

example : outcome noStart task = some none ∧
    (trace noStart task).filterMap attempted = [.container 5, .volume 4, .container 10, .volume 9, .container 7, .volume 6,
      .volume 2, .network 1] := by
  decide +kernel

end DockerEx

/-- **C58 (defect).** Containers and volumes can be left behind without any attempt to remove them: a container whose files
cannot be written (for example because the task is cancelled at that moment, `tcontainer.go:214-220`), together with its `/tork` volume; and
the `/tork` volume alone, when a limit of the task cannot be parsed (`tcontainer.go:104-111`). -/
theorem C58_leaks :
    (∃ cfg t l n', Runs (run cfg t) 1 l none n' ∧ l.filterMap acquired = [.volume 1, .container 2] ∧
      l.filterMap attempted = []) ∧
    (∃ cfg t l n', Runs (run cfg t) 1 l none n' ∧ (∀ e ∈ l, e.2.ok = true) ∧ l.filterMap acquired = [.volume 1] ∧
      l.filterMap attempted = []) := by
  refine ⟨?_, ?_⟩
  · have h : DockerEx.outcome [DockerEx.yes, DockerEx.yes, DockerEx.yes, DockerEx.no] { id := 1, image := "busybox" } = some none := by decide +kernel
    obtain ⟨n', h⟩ := DockerEx.trace_runs _ _ h
    exact ⟨_, _, _, n', h, by decide +kernel, by decide +kernel⟩
  · have h : DockerEx.outcome [DockerEx.yes, DockerEx.yes]
      { id := 1, image := "busybox", limits := some { cpus := "many" } } = some none := by
      decide +kernel
    obtain ⟨n', h⟩ := DockerEx.trace_runs _ _ h
    exact ⟨_, _, _, n', h, by decide +kernel, by decide +kernel, by decide +kernel⟩

end Tork.Docker

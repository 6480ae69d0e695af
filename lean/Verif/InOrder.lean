import Verif.InOrderSpec
import Verif.Origin
import Verif.SafeFinish
import Verif.SafeHandlers2
/-!
# One task after the other: the logic

The right to make the next top-level task of job `n` (its *turn*) is held by one goroutine or message, or there is none
because a task of the job is at work. Programs are verified for a fixed job `n`.
-/

namespace Tork.Seq
open Prog
open Tork.Origin (Outcome)

/-- Rights: to make the next task of the job, which is at position `k`; to set the position of the job to 1. -/
inductive Tok
  | turn (k : Nat)
  | started
  deriving DecidableEq

/-- The message starts job `n`. -/
def startsFor (n : Nat) : Msg → Bool
  | .job j => decide (j.id = n) && decide (j.state = .pending)
  | _ => false

/-- What the holder of a right knows. -/
def Tok.Held (n : Nat) (ds : DS) : Tok → Prop
  | .turn k => (ds.job? n = none ∧ k = 0) ∨ ∃ j, ds.job? n = some j ∧ j.position = k
  | .started => ∃ j, ds.job? n = some j ∧ j.position = 0

def NoNew (n : Nat) (a b : DS) : Prop := ∀ id t, a.task? id = none → b.task? id = some t → ¬ Top n t

def SamePos (n : Nat) (a b : DS) : Prop :=
  ∀ j', b.job? n = some j' → a.job? n = none ∨ ∃ j, a.job? n = some j ∧ j'.position = j.position

/-- What an operation does to the rights of the goroutine. -/
inductive Move (n : Nat) (a b : DS) : Option Tok → Option Tok → Prop
  | keep {T T' : Option Tok} (hT : T' = T ∨ T' = none) (hr : NoNew n a b) (hp : SamePos n a b) : Move n a b T T'
  | create {T' : Option Tok} (k : Nat) (hT : T' = none ∨ k = 0 ∧ T' = some .started) (id : Nat) (t : Task) (h1 : a.task? id = none)
      (h2 : b.task? id = some t) (ht : Top n t) (hk : t.position = max 1 k)
      (ho : ∀ x u, a.task? x = none → b.task? x = some u → x = id) (hp : SamePos n a b) (hj : a.job? n ≠ none) : Move n a b (some (.turn k)) T'
  | spend (hr : NoNew n a b) (hp : SamePos n a b) (hj : a.job? n ≠ none) : Move n a b (some (.turn 0)) (some .started)
  | start (j j' : Job) (hr : NoNew n a b) (h1 : a.job? n = some j) (h2 : b.job? n = some j') (hp : j'.position = 1) :
      Move n a b (some .started) none
  | advance {T T' : Option Tok} (j j' : Job) (hr : NoNew n a b) (h1 : a.job? n = some j) (h2 : b.job? n = some j') (hs : j'.state = j.state)
      (hp : j'.position = j.position + 1) (hT : T' = none ∨ T' = some (.turn j'.position)) : Move n a b T T'

def Good (n : Nat) {α : Type} : Prog α → Option Tok → Prop
  | .ret _, _ => True
  | .db op k, T => ∀ ds r ds' ms, (∀ x, T = some x → x.Held n ds) → Outcome op ds r ds' ms → Ordinary n ds ds' →
      (∀ m ∈ ms, startsFor n m = false) ∧ ∃ T', Move n ds ds' T T' ∧ Good n (k r) T'
  | .pub m k, T => (startsFor n m = true → T = some (.turn 0)) ∧ ∀ r, Good n (k r) (if startsFor n m then none else T)
  | .nondet k, T => ∀ x, Good n (k x) T
  | .uuid k, T => ∀ x, x ≠ 0 → (T ≠ none → x ≠ n) → Good n (k x) (if x = n then some (.turn 0) else T)
  | .panic _, _ => True

variable {n : Nat} {α β γ : Type} {T : Option Tok}

theorem Good.any {p : Prog α} (h : Good n p none) : Good n p T := by
  induction p generalizing T with
  | ret a => trivial
  | db op k ih =>
    intro ds r ds' ms _ ho hd
    obtain ⟨h1, T', hm, hg⟩ := h ds r ds' ms (fun _ h => nomatch h) ho hd
    refine ⟨h1, ?_⟩
    cases hm with
    | keep hT hr hp =>
      have : T' = none := by rcases hT with h | h <;> exact h
      exact ⟨none, .keep (.inr rfl) hr hp, this ▸ hg⟩
    | advance j j' hr k1 k2 hs hp hT => exact ⟨T', .advance j j' hr k1 k2 hs hp hT, hg⟩
  | pub m k ih =>
    obtain ⟨h1, h2⟩ := h
    have hm : startsFor n m = false := by
      cases hm : startsFor n m with
      | false => rfl
      | true => exact nomatch h1 hm
    refine ⟨fun h => (by rw [hm] at h; cases h), fun r => ?_⟩
    have := h2 r
    rw [hm] at this ⊢
    exact ih r this
  | nondet k ih => exact fun x => ih x (h x)
  | uuid k ih =>
    intro x hx hn
    have := h x hx (fun h => absurd rfl h)
    by_cases hxn : x = n
    · rw [if_pos hxn] at this ⊢; exact this
    · rw [if_neg hxn] at this ⊢; exact ih x this
  | panic e => trivial

theorem Good.bind {p : Prog α} {f : α → Prog β} (h : Good n p T) (hf : ∀ a, Good n (f a) none) : Good n (p.bind f) T := by
  induction p generalizing T with
  | ret a => exact (hf a).any
  | db op k ih =>
    intro ds r ds' ms hh ho hd
    obtain ⟨h1, T', hm, hg⟩ := h ds r ds' ms hh ho hd
    exact ⟨h1, T', hm, ih r hg⟩
  | pub m k ih => exact ⟨h.1, fun r => ih r (h.2 r)⟩
  | nondet k ih => exact fun x => ih x (h x)
  | uuid k ih => exact fun x hx hn => ih x (h x hx hn)
  | panic e => trivial

theorem good_ret {a : α} : Good n (.ret a) T := trivial
theorem good_panic {s : String} : Good n (.panic s : Prog α) T := trivial
theorem good_now {k : Nat → Prog α} (h : ∀ x, Good n (k x) T) : Good n (Prog.now.bind k) T := h
theorem good_seed {k : Nat → Prog α} (h : ∀ x, Good n (k x) T) : Good n (Prog.seed.bind k) T := h
theorem good_uuid {k : Nat → Prog α} (h : ∀ x, x ≠ 0 → (T ≠ none → x ≠ n) → Good n (k x) (if x = n then some (.turn 0) else T)) :
    Good n (Prog.newUUID.bind k) T := h
/-- An id that is not used for a job. -/
theorem good_uuid' {k : Nat → Prog α} (h : ∀ x, x ≠ 0 → Good n (k x) T) (hT : T ≠ none) : Good n (Prog.newUUID.bind k) T :=
  good_uuid fun x hx hn => by rw [if_neg (hn hT)]; exact h x hx
theorem good_uuid0 {k : Nat → Prog α} (h : ∀ x, x ≠ 0 → Good n (k x) none) : Good n (Prog.newUUID.bind k) T :=
  good_uuid fun x hx _ => (h x hx).any
theorem good_pub {m : Msg} {k : Except Err Unit → Prog α} (hm : startsFor n m = false) (h : ∀ r, Good n (k r) T) :
    Good n ((publish m).bind k) T := ⟨fun h => (by rw [hm] at h; cases h), fun r => (by rw [hm]; exact h r)⟩
theorem good_task {q : String} {t : Task} {k : Except Err Unit → Prog α} (h : ∀ r, Good n (k r) T) :
    Good n ((publish (.task q t)).bind k) T := good_pub rfl h
theorem good_pubEnd {m : Msg} {k : Except Err Unit → Prog α} (hm : startsFor n m = false) (h : ∀ r, Good n (k r) none) :
    Good n ((publish m).bind k) T := good_pub hm fun r => (h r).any
theorem good_job {j : Job} {k : Except Err Unit → Prog α} (hj : j.state ≠ .pending) (h : ∀ r, Good n (k r) T) :
    Good n ((publish (.job j)).bind k) T := good_pub (by simp [startsFor, hj]) h

/-! ## Operations -/

/-- Nothing that counts here changes. -/
structure Still (a b : DS) : Prop where
  rows : ∀ id, (b.task? id).isSome = (a.task? id).isSome
  pos : ∀ k, (b.job? k).map Job.position = (a.job? k).map Job.position

theorem SamePos.of {a b : DS} (h : (b.job? n).map Job.position = (a.job? n).map Job.position) : SamePos n a b := fun j hj => by
  rw [hj] at h
  cases ha : a.job? n with
  | none => exact .inl rfl
  | some x => rw [ha] at h; exact .inr ⟨x, rfl, Option.some.inj h⟩
theorem Still.noNew {a b : DS} (h : Still a b) : NoNew n a b := fun id t h1 h2 => by
  have := h.rows id
  rw [h1, h2] at this; cases this
theorem Still.same {a b : DS} (h : Still a b) : SamePos n a b := .of (h.pos n)
theorem Still.refl (a : DS) : Still a a := ⟨fun _ => rfl, fun _ => rfl⟩
theorem Still.trans {a b c : DS} (h1 : Still a b) (h2 : Still b c) : Still a c :=
  ⟨fun id => (h2.rows id).trans (h1.rows id), fun k => (h2.pos k).trans (h1.pos k)⟩
theorem Still.move {a b : DS} (h : Still a b) : Move n a b T T := .keep (.inl rfl) h.noNew h.same

theorem still_setTask {ds : DS} {id : Nat} {r u : Task} (hr : ds.task? id = some r) : Still ds (ds.setTask id u) := by
  refine ⟨fun k => ?_, fun _ => rfl⟩
  rw [task?_set_eq hr]
  by_cases h : k = id
  · rw [if_pos h, h, hr]; rfl
  · rw [if_neg h]

theorem still_setJob {ds : DS} {id : Nat} {r u : Job} (hr : ds.job? id = some r) (hp : u.position = r.position) : Still ds (ds.setJob id u) := by
  refine ⟨fun _ => rfl, fun k => ?_⟩
  rw [job?_set_eq hr]
  by_cases h : k = id
  · rw [if_pos h, h, hr]; exact congrArg some hp
  · rw [if_neg h]

theorem still_updTask {id : Nat} {m : Task → Except Err (γ × Task)} {ds ds' : DS} {g : γ} (h : updateTask id m ds = .ok (g, ds')) : Still ds ds' := by
  obtain ⟨r, u, hr, _, rfl⟩ := Tork.updateTask_ok h
  exact still_setTask hr

theorem still_updJob {id : Nat} {m : Job → Except Err (γ × Job)} {ds ds' : DS} {g : γ} (hm : ∀ r g u, m r = .ok (g, u) → u.position = r.position)
    (h : updateJob id m ds = .ok (g, ds')) : Still ds ds' := by
  unfold updateJob at h
  cases hj : ds.job? id with
  | none => rw [hj] at h; cases h
  | some r =>
    rw [hj] at h
    dsimp only at h
    cases hx : m r with
    | error e => rw [hx] at h; cases h
    | ok x =>
      rw [hx] at h
      cases h
      exact still_setJob hj (hm _ _ _ hx)

theorem still_context {t : Task} {ds ds' : DS} {g : Unit} (h : contextTx t ds = .ok (g, ds')) : Still ds ds' := by
  obtain ⟨h1, h2, _⟩ := contextTx_ok h
  refine ⟨fun k => by rw [h1], fun k => ?_⟩
  rw [h2]
  cases ds.job? k with
  | none => rfl
  | some j => exact congrArg some (ctxRow_position t k j)

theorem still_subTask {t : Task} {m : Task → Except Err (γ × Task)} {ds ds' : DS} {g : γ} (h : subTaskTx t m ds = .ok (g, ds')) : Still ds ds' := by
  unfold subTaskTx at h
  split at h
  · cases h
  · rename_i x1 ds1 h1
    split at h
    · cases h
    · rename_i x2 ds2 h2
      split at h
      · cases h
      · rename_i x3 ds3 h3
        cases h
        exact ((still_updTask h1).trans (still_updTask h2)).trans (still_context h3)

theorem good_op {op : DbOp γ} {k : Except Err γ → Prog α} (h1 : ∀ ds, Still ds (op.run ds).2.1 ∧ ∀ m ∈ (op.run ds).2.2, startsFor n m = false)
    (h2 : ∀ ds, ∀ x ∈ op.partials ds, Still ds x.1 ∧ ∀ m ∈ x.2, startsFor n m = false)
    (he : ∀ e, Good n (k (.error e)) T)
    (hk : ∀ ds g, (∀ x, T = some x → x.Held n ds) → (op.run ds).1 = .ok g → Good n (k (.ok g)) T) : Good n ((txOp op).bind k) T := by
  intro ds r ds' ms hh ho hd
  cases ho with
  | ok =>
    refine ⟨(h1 ds).2, T, (h1 ds).1.move, ?_⟩
    show Good n (k (op.run ds).1) T
    cases hr : (op.run ds).1 with
    | error e => exact he e
    | ok g => exact hk ds g hh hr
  | fail e => exact ⟨fun _ h => (by cases h), T, (Still.refl ds).move, he e⟩
  | lost e => exact ⟨(h1 ds).2, T, (h1 ds).1.move, he e⟩
  | part e x hx => exact ⟨(h2 ds x hx).2, T, (h2 ds x hx).1.move, he e⟩

theorem good_tx {f : DS → Except Err (γ × DS)} {k : Except Err γ → Prog α} (hf : ∀ ds g ds', f ds = .ok (g, ds') → Still ds ds')
    (he : ∀ e, Good n (k (.error e)) T)
    (hk : ∀ ds g ds', (∀ x, T = some x → x.Held n ds) → f ds = .ok (g, ds') → Good n (k (.ok g)) T) : Good n ((tx f).bind k) T := by
  refine good_op (op := .of f) (fun ds => ?_) (fun _ _ h => by cases h) he fun ds g hh hr => ?_
  · cases h : f ds with
    | error e => rw [Calm.run_of_err h]; exact ⟨.refl ds, fun _ h => by cases h⟩
    | ok x => rw [Calm.run_of_ok (show f ds = .ok (x.1, x.2) from h)]; exact ⟨hf _ _ _ h, fun _ h => by cases h⟩
  · cases h : f ds with
    | error e => rw [Calm.run_of_err h] at hr; cases hr
    | ok x => rw [Calm.run_of_ok (show f ds = .ok (x.1, x.2) from h)] at hr; cases hr; exact hk ds _ _ hh h

/-- Any transaction, outcome by outcome. -/
theorem good_any_tx {f : DS → Except Err (γ × DS)} {k : Except Err γ → Prog α} {Te : Option Tok} (hTe : Te = T ∨ Te = none)
    (he : ∀ e, Good n (k (.error e)) Te)
    (hk : ∀ ds g ds', (∀ x, T = some x → x.Held n ds) → f ds = .ok (g, ds') → Ordinary n ds ds' →
      Move n ds ds' T Te ∧ ∃ T', Move n ds ds' T T' ∧ Good n (k (.ok g)) T') : Good n ((tx f).bind k) T := by
  intro ds r ds' ms hh ho hd
  have idle : Move n ds ds T Te := .keep hTe (Still.refl ds).noNew (Still.refl ds).same
  have hrun : (∃ e, f ds = .error e ∧ (DbOp.of f).run ds = (.error e, ds, [])) ∨ ∃ g x, f ds = .ok (g, x) ∧ (DbOp.of f).run ds = (.ok g, x, []) := by
    cases h : f ds with
    | error e => exact .inl ⟨e, rfl, Calm.run_of_err h⟩
    | ok x => exact .inr ⟨x.1, x.2, rfl, Calm.run_of_ok (show f ds = .ok (x.1, x.2) from h)⟩
  generalize hop : DbOp.of f = op at ho
  rw [hop] at hrun
  cases ho with
  | fail e => exact ⟨fun _ h => (by cases h), Te, idle, he e⟩
  | part e x hx => subst hop; cases hx
  | ok =>
    rcases hrun with ⟨e, h1, h2⟩ | ⟨g, x, h1, h2⟩
    · rw [h2]; exact ⟨fun _ h => (by cases h), Te, idle, he e⟩
    · rw [h2] at hd ⊢
      obtain ⟨_, T', hm, hg⟩ := hk ds _ _ hh h1 hd
      exact ⟨fun _ h => (by cases h), T', hm, hg⟩
  | lost e =>
    rcases hrun with ⟨e', h1, h2⟩ | ⟨g, x, h1, h2⟩
    · rw [h2]; exact ⟨fun _ h => (by cases h), Te, idle, he e⟩
    · rw [h2] at hd ⊢
      exact ⟨fun _ h => (by cases h), Te, (hk ds _ _ hh h1 hd).1, he e⟩

theorem good_getJob {id : Nat} {k : Except Err Job → Prog α} (he : ∀ e, Good n (k (.error e)) T)
    (hk : ∀ ds j, (∀ x, T = some x → x.Held n ds) → ds.job? id = some j → Good n (k (.ok j)) T) : Good n ((tx (getJob id)).bind k) T := by
  have h : ∀ ds g ds', getJob id ds = .ok (g, ds') → ds.job? id = some g ∧ ds' = ds := by
    intro ds g ds' h
    unfold getJob at h
    split at h
    · cases h
    · cases h; exact ⟨by assumption, rfl⟩
  refine good_tx (fun ds g ds' hx => by rw [(h _ _ _ hx).2]; exact .refl ds) he fun ds g ds' hh hx => hk ds g hh (h _ _ _ hx).1

theorem good_getJob' {id : Nat} {k : Except Err Job → Prog α} (h : ∀ r, Good n (k r) T) : Good n ((tx (getJob id)).bind k) T :=
  good_getJob (fun _ => h _) fun _ _ _ _ => h _

theorem good_getTask {id : Nat} {k : Except Err Task → Prog α} (h : ∀ r, Good n (k r) T) : Good n ((tx (getTask id)).bind k) T := by
  refine good_tx (fun ds g ds' hx => ?_) (fun _ => h _) fun _ _ _ _ _ => h _
  unfold getTask at hx
  split at hx
  · cases hx
  · cases hx; exact .refl ds

theorem good_getNode {id : Nat} {k : Except Err Node → Prog α} (h : ∀ r, Good n (k r) T) : Good n ((tx (getNode id)).bind k) T := by
  refine good_tx (fun ds g ds' hx => ?_) (fun _ => h _) fun _ _ _ _ _ => h _
  unfold getNode at hx
  split at hx
  · cases hx
  · cases hx; exact .refl ds

theorem good_getActive {id : Nat} {k : Except Err (List Task) → Prog α} (h : ∀ r, Good n (k r) T) : Good n ((tx (getActiveTasks id)).bind k) T := by
  refine good_tx (fun ds g ds' hx => ?_) (fun _ => h _) fun _ _ _ _ _ => h _
  unfold getActiveTasks at hx
  cases hx; exact .refl ds

theorem good_updTask {id : Nat} {m : Task → Task} {k : Except Err Unit → Prog α} (h : ∀ r, Good n (k r) T) :
    Good n ((tx (updateTask' id m)).bind k) T :=
  good_tx (fun _ _ _ hx => still_updTask hx) (fun _ => h _) fun _ _ _ _ _ => h _

theorem good_updJob {id : Nat} {m : Job → Job} {k : Except Err Unit → Prog α} (hm : ∀ r, (m r).position = r.position) (h : ∀ r, Good n (k r) T) :
    Good n ((tx (updateJob' id m)).bind k) T :=
  good_tx (fun _ _ _ hx => still_updJob (fun r g u hu => by cases hu; exact hm r) hx) (fun _ => h _) fun _ _ _ _ _ => h _

theorem createTask_inv {t : Task} {ds ds' : DS} {g : Unit} (h : createTask t ds = .ok (g, ds')) :
    ds.task? t.id = none ∧ (∃ j, ds.job? t.jobID = some j) ∧ ds' = { ds with tasks := ds.tasks ++ [taskRow t] } := by
  unfold createTask at h
  split at h
  · cases h
  · rename_i h1
    split at h
    · cases h
    · rename_i h2
      split at h
      · cases h
      · cases h
        refine ⟨by simpa using h1, ?_, rfl⟩
        cases hj : ds.job? t.jobID with
        | none => rw [hj] at h2; exact absurd rfl h2
        | some j => exact ⟨j, rfl⟩

/-- A task that is no top-level task of the job. -/
theorem good_child {t : Task} {k : Except Err Unit → Prog α} (ht : ¬ Top n t) (h : ∀ r, Good n (k r) T) :
    Good n ((tx (createTask t)).bind k) T := by
  refine good_any_tx (.inl rfl) (fun e => h _) fun ds g ds' _ hx _ => ?_
  suffices hm : Move n ds ds' T T from ⟨hm, T, hm, h _⟩
  obtain ⟨h1, _, rfl⟩ := createTask_inv hx
  refine .keep (.inl rfl) (fun id u k1 k2 => ?_) (.of rfl)
  rw [task?_append, k1] at k2
  by_cases hid : (taskRow t).id = id
  · rw [if_pos hid] at k2; cases k2; exact ht
  · rw [if_neg hid] at k2; cases k2

theorem good_newJob {j : Job} {k : Except Err Unit → Prog α} (h : ∀ r, Good n (k r) T) : Good n ((tx (createJob j)).bind k) T := by
  refine good_any_tx (.inl rfl) (fun e => h _) fun ds g ds' _ hx _ => ?_
  suffices hm : Move n ds ds' T T from ⟨hm, T, hm, h _⟩
  unfold createJob at hx
  split at hx
  · cases hx
  · split at hx
    · cases hx
    · cases hx
      refine .keep (.inl rfl) (fun id u k1 k2 => absurd (k1.symm.trans k2) nofun) fun j' hj' => ?_
      rw [job?_append] at hj'
      cases ha : ds.job? n with
      | none => exact .inl rfl
      | some a => rw [ha] at hj'; cases hj'; exact .inr ⟨_, rfl, rfl⟩

end Tork.Seq

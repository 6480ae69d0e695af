import Verif.World
import Verif.DSLemmas
/-!
# Runs of one goroutine under arbitrary interference

`Run p l q`: the goroutine that is to execute `p` performs the operations `l` (each with any of the outcomes
of `PStep`: success, failure, lost acknowledgement) and is then left with `q`. Between two operations the
database may change in any way (other goroutines, other processes): the `before` state of an operation is not
related to the `after` state of the previous one. A theorem about all runs therefore holds for every
interleaving, every fault and every crash point.
-/

namespace Tork
open Prog

/-- One operation as seen from outside. -/
structure Ev where
  before : DS
  after : DS
  msgs : List Msg

inductive Run {α : Type} : Prog α → List Ev → Prog α → Prop
  | nil (p : Prog α) : Run p [] p
  | cons {p p' q : Prog α} {ds ds' : DS} {n n' : Nat} {ms : List Msg} {l : List Ev} :
      PStep p ds n p' ds' ms n' → Run p' l q → Run p (⟨ds, ds', ms⟩ :: l) q

/-- The messages published in a run, oldest first. -/
def published (l : List Ev) : List Msg := l.flatMap Ev.msgs

/-- The task rows of `ds'` that are not in `ds`. -/
def newTasks (ds ds' : DS) : List Task := ds'.tasks.filter fun t => (ds.task? t.id).isNone

/-- The task rows created in a run, oldest first. -/
def created (l : List Ev) : List Task := l.flatMap fun e => newTasks e.before e.after

/-- The result of a goroutine that ran to its end. -/
def Prog.result {α : Type} : Prog α → Option α
  | .ret a => some a
  | _ => none

/-- A recursive way to check all runs, with a summary `σ` of the operations performed so far. -/
def Every {α σ : Type} (f : σ → Ev → σ) (post : σ → Option α → Prop) : Prog α → σ → Prop
  | .ret a, s => post s (some a)
  | .db op k, s => post s none ∧
      (∀ ds, Every f post (k (op.run ds).1) (f s ⟨ds, (op.run ds).2.1, (op.run ds).2.2⟩)) ∧
      (∀ ds e, Every f post (k (.error e)) (f s ⟨ds, ds, []⟩)) ∧
      (∀ ds e, Every f post (k (.error e)) (f s ⟨ds, (op.run ds).2.1, (op.run ds).2.2⟩)) ∧
      (∀ ds e, ∀ x ∈ op.partials ds, Every f post (k (.error e)) (f s ⟨ds, x.1, x.2⟩))
  | .pub m k, s => post s none ∧ ∀ ds, (∀ r, Every f post (k r) (f s ⟨ds, ds, [m]⟩)) ∧
      (∀ e, Every f post (k (.error e)) (f s ⟨ds, ds, []⟩))
  | .nondet k, s => post s none ∧ ∀ n ds, Every f post (k n) (f s ⟨ds, ds, []⟩)
  | .uuid k, s => post s none ∧ ∀ n ds, Every f post (k n) (f s ⟨ds, ds, []⟩)
  | .panic _, s => post s none

theorem Every.none {α σ : Type} {f : σ → Ev → σ} {post : σ → Option α → Prop} {p : Prog α} {s : σ}
    (h : Every f post p s) : post s p.result := by
  cases p with
  | ret a => exact h
  | db op k => exact h.1
  | pub m k => exact h.1
  | nondet k => exact h.1
  | uuid k => exact h.1
  | panic e => exact h

theorem Every.sound {α σ : Type} {f : σ → Ev → σ} {post : σ → Option α → Prop} {p q : Prog α} {l : List Ev}
    {s : σ} (h : Every f post p s) (hr : Run p l q) : post (l.foldl f s) q.result := by
  induction hr generalizing s with
  | nil p => exact h.none
  | cons hp _ ih =>
    cases hp with
    | dbOk op k => exact ih (h.2.1 _)
    | dbFail op k _ _ e => exact ih (h.2.2.1 _ e)
    | dbLost op k _ _ e => exact ih (h.2.2.2.1 _ e)
    | dbPartial op k _ _ e x hx => exact ih (h.2.2.2.2 _ e x hx)
    | pubOk m k => exact ih ((h.2 _).1 _)
    | pubFail m k _ _ e => exact ih ((h.2 _).2 e)
    | pubLost m k _ _ e => exact ih ((h.2 _).1 _)
    | nondet k _ _ x => exact ih (h.2 x _)
    | uuid k => exact ih (h.2 _ _)

/-- Operations that neither change the database nor publish do not show in the summary. -/
def Quiet {σ : Type} (f : σ → Ev → σ) : Prop := ∀ s ds, f s ⟨ds, ds, []⟩ = s

section
variable {α β σ γ : Type} {f : σ → Ev → σ} {post : σ → Option α → Prop}

theorem every_bind {p : Prog β} {k : β → Prog α} {s : σ}
    (h : Every f (fun s r => match r with | some b => Every f post (k b) s | none => post s none) p s) :
    Every f post (p.bind k) s := by
  induction p generalizing s with
  | ret a => exact h
  | db op g ih =>
    exact ⟨h.1, fun ds => ih _ (h.2.1 ds), fun ds e => ih _ (h.2.2.1 ds e), fun ds e => ih _ (h.2.2.2.1 ds e),
      fun ds e x hx => ih _ (h.2.2.2.2 ds e x hx)⟩
  | pub m g ih => exact ⟨h.1, fun ds => ⟨fun r => ih _ ((h.2 ds).1 r), fun e => ih _ ((h.2 ds).2 e)⟩⟩
  | nondet g ih => exact ⟨h.1, fun n ds => ih _ (h.2 n ds)⟩
  | uuid g ih => exact ⟨h.1, fun n ds => ih _ (h.2 n ds)⟩
  | panic e => exact h

theorem every_mono {p : Prog α} {post' : σ → Option α → Prop} {s : σ} (h : Every f post p s)
    (hp : ∀ s r, post s r → post' s r) : Every f post' p s := by
  induction p generalizing s with
  | ret a => exact hp _ _ h
  | db op g ih =>
    exact ⟨hp _ _ h.1, fun ds => ih _ (h.2.1 ds), fun ds e => ih _ (h.2.2.1 ds e),
      fun ds e => ih _ (h.2.2.2.1 ds e), fun ds e x hx => ih _ (h.2.2.2.2 ds e x hx)⟩
  | pub m g ih => exact ⟨hp _ _ h.1, fun ds => ⟨fun r => ih _ ((h.2 ds).1 r), fun e => ih _ ((h.2 ds).2 e)⟩⟩
  | nondet g ih => exact ⟨hp _ _ h.1, fun n ds => ih _ (h.2 n ds)⟩
  | uuid g ih => exact ⟨hp _ _ h.1, fun n ds => ih _ (h.2 n ds)⟩
  | panic e => exact hp _ _ h

theorem every_now (hq : Quiet f) {k : Nat → Prog α} {s : σ} (h0 : post s none)
    (h : ∀ n, Every f post (k n) s) : Every f post (now.bind k) s :=
  ⟨h0, fun n ds => by rw [hq]; exact h n⟩

theorem every_seed (hq : Quiet f) {k : Nat → Prog α} {s : σ} (h0 : post s none)
    (h : ∀ n, Every f post (k n) s) : Every f post (seed.bind k) s :=
  ⟨h0, fun n ds => by rw [hq]; exact h n⟩

theorem every_uuid (hq : Quiet f) {k : Nat → Prog α} {s : σ} (h0 : post s none)
    (h : ∀ n, Every f post (k n) s) : Every f post (newUUID.bind k) s :=
  ⟨h0, fun n ds => by rw [hq]; exact h n⟩

theorem every_pub (hq : Quiet f) {m : Msg} {k : Except Err Unit → Prog α} {s : σ} (h0 : post s none)
    (h : ∀ ds r, Every f post (k r) (f s ⟨ds, ds, [m]⟩)) (h2 : ∀ e, Every f post (k (.error e)) s) :
    Every f post ((publish m).bind k) s :=
  ⟨h0, fun ds => ⟨h ds, fun e => by rw [hq]; exact h2 e⟩⟩

/-- A transaction: it fails without effect, or it commits and the caller sees the result or an error. -/
theorem every_tx (hq : Quiet f) {g : DS → Except Err (γ × DS)} {k : Except Err γ → Prog α} {s : σ}
    (h0 : post s none) (h1 : ∀ e, Every f post (k (.error e)) s)
    (h2 : ∀ ds x ds', g ds = .ok (x, ds') → Every f post (k (.ok x)) (f s ⟨ds, ds', []⟩))
    (h3 : ∀ ds x ds' e, g ds = .ok (x, ds') → Every f post (k (.error e)) (f s ⟨ds, ds', []⟩)) :
    Every f post ((tx g).bind k) s := by
  refine ⟨h0, fun ds => ?_, fun ds e => ?_, fun ds e => ?_, fun ds e x hx => ?_⟩
  · cases hg : g ds with
    | error e => simp only [DbOp.of, hg, hq s ds]; exact h1 e
    | ok x => obtain ⟨x, ds'⟩ := x; simp only [DbOp.of, hg]; exact h2 ds x ds' hg
  · rw [hq]; exact h1 e
  · cases hg : g ds with
    | error e => simp only [DbOp.of, hg, hq s ds]; exact h1 _
    | ok x => obtain ⟨x, ds'⟩ := x; simp only [DbOp.of, hg]; exact h3 ds x ds' e hg
  · simp [DbOp.of] at hx

/-- A transaction that only reads. -/
theorem every_read (hq : Quiet f) {g : DS → Except Err (γ × DS)} {k : Except Err γ → Prog α} {s : σ}
    (hr : ∀ ds x ds', g ds = .ok (x, ds') → ds' = ds) (h0 : post s none)
    (h1 : ∀ e, Every f post (k (.error e)) s)
    (h2 : ∀ ds x, g ds = .ok (x, ds) → Every f post (k (.ok x)) s) : Every f post ((tx g).bind k) s := by
  refine every_tx hq h0 h1 (fun ds x ds' hg => ?_) (fun ds x ds' e hg => ?_)
  · cases hr ds x ds' hg; rw [hq]; exact h2 ds x hg
  · cases hr ds x ds' hg; rw [hq]; exact h1 e

end

theorem read_getJob (id : Nat) : ∀ ds x ds', getJob id ds = .ok (x, ds') → ds' = ds := by
  intro ds x ds' h; unfold getJob at h; split at h <;> simp at h; exact h.2.symm
theorem read_getTask (id : Nat) : ∀ ds x ds', getTask id ds = .ok (x, ds') → ds' = ds := by
  intro ds x ds' h; unfold getTask at h; split at h <;> simp at h; exact h.2.symm
theorem read_getNode (id : Nat) : ∀ ds x ds', getNode id ds = .ok (x, ds') → ds' = ds := by
  intro ds x ds' h; unfold getNode at h; split at h <;> simp at h; exact h.2.symm
theorem read_getActive (id : Nat) : ∀ ds x ds', getActiveTasks id ds = .ok (x, ds') → ds' = ds := by
  intro ds x ds' h; unfold getActiveTasks at h; simp at h; exact h.2.symm

theorem getJob_ok {id : Nat} {ds : DS} {x : Job} {ds' : DS} (h : getJob id ds = .ok (x, ds')) :
    ds.job? id = some x := by
  unfold getJob at h; split at h <;> simp at h; rename_i h1; rw [h1, h.1]
theorem getTask_ok {id : Nat} {ds : DS} {x : Task} {ds' : DS} (h : getTask id ds = .ok (x, ds')) :
    ds.task? id = some x := by
  unfold getTask at h; split at h <;> simp at h; rename_i h1; rw [h1, h.1]

/-! ## The summary "messages published and tasks created" -/

abbrev Sum2 := List Msg × List Task

def sum2 (s : Sum2) (e : Ev) : Sum2 := (s.1 ++ e.msgs, s.2 ++ newTasks e.before e.after)

theorem newTasks_self (ds : DS) : newTasks ds ds = [] := by
  rw [newTasks, List.filter_eq_nil_iff]
  intro t ht
  cases h : ds.task? t.id with
  | some _ => simp
  | none =>
    unfold DS.task? at h
    rw [List.find?_eq_none] at h
    have := h t ht
    simp at this

theorem newTasks_keys {ds ds' : DS} (h : ds'.tasks.map (·.id) = ds.tasks.map (·.id)) : newTasks ds ds' = [] := by
  rw [newTasks, List.filter_eq_nil_iff]
  intro t ht
  have h1 : t.id ∈ ds.tasks.map (·.id) := by rw [← h]; exact List.mem_map.2 ⟨t, ht, rfl⟩
  obtain ⟨t', ht', he⟩ := List.mem_map.1 h1
  cases h2 : ds.task? t.id with
  | some _ => simp
  | none =>
    unfold DS.task? at h2
    rw [List.find?_eq_none] at h2
    have := h2 t' ht'
    simp [he] at this

theorem newTasks_setTask (ds : DS) (id : Nat) (u : Task) : newTasks ds (ds.setTask id u) = [] :=
  newTasks_keys (keys_setTask ds id u)

theorem newTasks_setJob (ds : DS) (id : Nat) (u : Job) : newTasks ds (ds.setJob id u) = [] :=
  newTasks_keys rfl

theorem newTasks_append {ds : DS} {t : Task} (h : ds.task? t.id = none) :
    newTasks ds { ds with tasks := ds.tasks ++ [t] } = [t] := by
  have := newTasks_self ds
  simp only [newTasks] at this ⊢
  rw [List.filter_append, this]
  simp [h]

theorem createTask_ok {t : Task} {ds ds' : DS} {x : Unit} (h : createTask t ds = .ok (x, ds')) :
    ds.task? t.id = none ∧ (∃ j, ds.job? t.jobID = some j) ∧
      ds' = { ds with tasks := ds.tasks ++ [taskRow t] } := by
  unfold createTask at h
  by_cases h1 : (ds.task? t.id).isSome
  · simp [h1] at h
  · by_cases h2 : (ds.job? t.jobID).isNone
    · simp [h1, h2] at h
    · by_cases h3 : t.createdAt.isNone
      · simp [h1, h2, h3] at h
      · simp only [h1, h2, h3] at h
        simp at h
        refine ⟨by simpa using h1, ?_, h.symm⟩
        cases hj : ds.job? t.jobID with
        | none => simp [hj] at h2
        | some j => exact ⟨j, rfl⟩

theorem newTasks_create {t : Task} {ds ds' : DS} {x : Unit} (h : createTask t ds = .ok (x, ds')) :
    newTasks ds ds' = [taskRow t] := by
  obtain ⟨h1, _, rfl⟩ := createTask_ok h
  exact newTasks_append (t := taskRow t) h1

theorem updateTask_ok {γ : Type} {id : Nat} {m : Task → Except Err (γ × Task)} {ds ds' : DS} {g : γ}
    (h : updateTask id m ds = .ok (g, ds')) :
    ∃ t u, ds.task? id = some t ∧ m t = .ok (g, u) ∧ ds' = ds.setTask id u := by
  unfold updateTask at h
  split at h
  · cases h
  · rename_i t ht
    split at h
    · cases h
    · rename_i g' u hm
      simp at h
      exact ⟨t, u, ht, by rw [hm, h.1], h.2.symm⟩

theorem updateTask'_ok {id : Nat} {m : Task → Task} {ds ds' : DS} {g : Unit}
    (h : updateTask' id m ds = .ok (g, ds')) :
    ∃ t, ds.task? id = some t ∧ ds' = ds.setTask id (m t) := by
  obtain ⟨t, u, h1, h2, h3⟩ := updateTask_ok h
  simp at h2
  exact ⟨t, h1, by rw [h2]; exact h3⟩

theorem updateJob_ok {γ : Type} {id : Nat} {m : Job → Except Err (γ × Job)} {ds ds' : DS} {g : γ}
    (h : updateJob id m ds = .ok (g, ds')) :
    ∃ t u, ds.job? id = some t ∧ m t = .ok (g, u) ∧ ds' = ds.setJob id u := by
  unfold updateJob at h
  split at h
  · cases h
  · rename_i t ht
    split at h
    · cases h
    · rename_i g' u hm
      simp at h
      exact ⟨t, u, ht, by rw [hm, h.1], h.2.symm⟩

theorem updateJob'_ok {id : Nat} {m : Job → Job} {ds ds' : DS} {g : Unit}
    (h : updateJob' id m ds = .ok (g, ds')) :
    ∃ t, ds.job? id = some t ∧ ds' = ds.setJob id (m t) := by
  obtain ⟨t, u, h1, h2, h3⟩ := updateJob_ok h
  simp at h2
  exact ⟨t, h1, by rw [h2]; exact h3⟩

theorem quiet_sum2 : Quiet sum2 := by
  intro s ds; simp [sum2, newTasks_self]

theorem foldl_sum2 (l : List Ev) (s : Sum2) : l.foldl sum2 s = (s.1 ++ published l, s.2 ++ created l) := by
  induction l generalizing s with
  | nil => simp [published, created]
  | cons e l ih => simp [ih, sum2, published, created, List.append_assoc]

/-- All runs, in terms of the messages published and the tasks created. -/
theorem run_sum2 {α : Type} {post : Sum2 → Option α → Prop} {p q : Prog α} {l : List Ev}
    (h : Every sum2 post p ([], [])) (hr : Run p l q) : post (published l, created l) q.result := by
  have := h.sound hr
  rwa [foldl_sum2] at this

section
variable {α : Type} {post : Sum2 → Option α → Prop} {s : Sum2}

theorem every2_pub {m : Msg} {k : Except Err Unit → Prog α} (h0 : post s none)
    (h : ∀ r, Every sum2 post (k r) (s.1 ++ [m], s.2)) (h2 : ∀ e, Every sum2 post (k (.error e)) s) :
    Every sum2 post ((publish m).bind k) s :=
  every_pub quiet_sum2 h0 (fun ds r => by simp only [sum2, newTasks_self, List.append_nil]; exact h r) h2

theorem every2_create {t : Task} {k : Except Err Unit → Prog α} (h0 : post s none)
    (h : ∀ r, Every sum2 post (k r) (s.1, s.2 ++ [taskRow t])) (h2 : ∀ e, Every sum2 post (k (.error e)) s) :
    Every sum2 post ((tx (createTask t)).bind k) s :=
  every_tx quiet_sum2 h0 h2
    (fun ds x ds' hg => by simp only [sum2, newTasks_create hg, List.append_nil]; exact h _)
    (fun ds x ds' e hg => by simp only [sum2, newTasks_create hg, List.append_nil]; exact h _)

theorem every2_updTask {γ : Type} {id : Nat} {m : Task → Except Err (γ × Task)} {k : Except Err γ → Prog α}
    (h0 : post s none) (h : ∀ r, Every sum2 post (k r) s) :
    Every sum2 post ((tx (updateTask id m)).bind k) s :=
  every_tx quiet_sum2 h0 (fun _ => h _)
    (fun ds x ds' hg => by
      obtain ⟨_, u, _, _, rfl⟩ := updateTask_ok hg
      simp only [sum2, newTasks_setTask, List.append_nil]; exact h _)
    (fun ds x ds' e hg => by
      obtain ⟨_, u, _, _, rfl⟩ := updateTask_ok hg
      simp only [sum2, newTasks_setTask, List.append_nil]; exact h _)

theorem every2_updTask' {id : Nat} {m : Task → Task} {k : Except Err Unit → Prog α}
    (h0 : post s none) (h : ∀ r, Every sum2 post (k r) s) :
    Every sum2 post ((tx (updateTask' id m)).bind k) s := every2_updTask h0 h

theorem every2_updJob {γ : Type} {id : Nat} {m : Job → Except Err (γ × Job)} {k : Except Err γ → Prog α}
    (h0 : post s none) (h1 : ∀ e, Every sum2 post (k (.error e)) s)
    (h : ∀ (ds : DS) j u g, ds.job? id = some j → m j = .ok (g, u) → Every sum2 post (k (.ok g)) s) :
    Every sum2 post ((tx (updateJob id m)).bind k) s :=
  every_tx quiet_sum2 h0 h1
    (fun ds x ds' hg => by
      obtain ⟨j, u, h2, h3, rfl⟩ := updateJob_ok hg
      simp only [sum2, newTasks_setJob, List.append_nil]; exact h ds j u x h2 h3)
    (fun ds x ds' e hg => by
      obtain ⟨_, u, _, _, rfl⟩ := updateJob_ok hg
      simp only [sum2, newTasks_setJob, List.append_nil]; exact h1 _)

theorem every2_updJob' {id : Nat} {m : Job → Job} {k : Except Err Unit → Prog α}
    (h0 : post s none) (h : ∀ r, Every sum2 post (k r) s) :
    Every sum2 post ((tx (updateJob' id m)).bind k) s := every2_updJob h0 (fun _ => h _) fun _ _ _ _ _ _ => h _

theorem every2_createJob {j : Job} {k : Except Err Unit → Prog α}
    (h0 : post s none) (h : ∀ r, Every sum2 post (k r) s) :
    Every sum2 post ((tx (createJob j)).bind k) s := by
  refine every_tx quiet_sum2 h0 (fun _ => h _) (fun ds x ds' hg => ?_) (fun ds x ds' e hg => ?_) <;>
  · unfold createJob at hg
    split at hg
    · cases hg
    · split at hg
      · cases hg
      · simp at hg
        subst hg
        rw [show sum2 s ⟨ds, { ds with jobs := ds.jobs ++ [jobRow ds.guest j] }, []⟩ = s by
          simp only [sum2, List.append_nil]
          rw [newTasks_keys (ds := ds) (ds' := { ds with jobs := ds.jobs ++ [jobRow ds.guest j] }) rfl]; simp]
        exact h _

end

/-! ## Programs all of whose operations preserve a predicate on the summary -/

def Preserves {α σ : Type} (f : σ → Ev → σ) (P : σ → Prop) : Prog α → Prop
  | .ret _ => True
  | .db op k => (∀ s ds, P s → P (f s ⟨ds, (op.run ds).2.1, (op.run ds).2.2⟩)) ∧
      (∀ s ds, ∀ x ∈ op.partials ds, P s → P (f s ⟨ds, x.1, x.2⟩)) ∧ ∀ r, Preserves f P (k r)
  | .pub m k => (∀ s ds, P s → P (f s ⟨ds, ds, [m]⟩)) ∧ ∀ r, Preserves f P (k r)
  | .nondet k => ∀ n, Preserves f P (k n)
  | .uuid k => ∀ n, Preserves f P (k n)
  | .panic _ => True

section
variable {α β σ γ : Type} {f : σ → Ev → σ} {P : σ → Prop}

theorem Preserves.every (hq : Quiet f) {p : Prog α} {s : σ} (h : Preserves f P p) (hs : P s) :
    Every f (fun s _ => P s) p s := by
  induction p generalizing s with
  | ret a => exact hs
  | db op g ih =>
    exact ⟨hs, fun ds => ih _ (h.2.2 _) (h.1 _ _ hs), fun ds e => by rw [hq]; exact ih _ (h.2.2 _) hs,
      fun ds e => ih _ (h.2.2 _) (h.1 _ _ hs), fun ds e x hx => ih _ (h.2.2 _) (h.2.1 _ _ x hx hs)⟩
  | pub m g ih =>
    exact ⟨hs, fun ds => ⟨fun r => ih _ (h.2 _) (h.1 _ _ hs), fun e => by rw [hq]; exact ih _ (h.2 _) hs⟩⟩
  | nondet g ih => exact ⟨hs, fun n ds => by rw [hq]; exact ih _ (h n) hs⟩
  | uuid g ih => exact ⟨hs, fun n ds => by rw [hq]; exact ih _ (h n) hs⟩
  | panic e => exact hs

theorem inv_bind {p : Prog β} {k : β → Prog α} (h : Preserves f P p) (hk : ∀ b, Preserves f P (k b)) : Preserves f P (p.bind k) := by
  induction p with
  | ret a => exact hk a
  | db op g ih => exact ⟨h.1, h.2.1, fun r => ih r (h.2.2 r)⟩
  | pub m g ih => exact ⟨h.1, fun r => ih r (h.2 r)⟩
  | nondet g ih => exact fun r => ih r (h r)
  | uuid g ih => exact fun r => ih r (h r)
  | panic e => trivial

theorem inv_tx (hq : Quiet f) {g : DS → Except Err (γ × DS)} {k : Except Err γ → Prog α}
    (h : ∀ s ds x ds', g ds = .ok (x, ds') → P s → P (f s ⟨ds, ds', []⟩)) (hk : ∀ r, Preserves f P (k r)) :
    Preserves f P ((tx g).bind k) := by
  refine ⟨fun s ds hs => ?_, fun s ds x hx => ?_, hk⟩
  · simp only [DbOp.of]
    cases hg : g ds with
    | error e => simp only; rw [hq]; exact hs
    | ok x => obtain ⟨x, ds'⟩ := x; exact h s ds x ds' hg hs
  · simp [DbOp.of] at hx

theorem inv_read (hq : Quiet f) {g : DS → Except Err (γ × DS)} {k : Except Err γ → Prog α}
    (hr : ∀ ds x ds', g ds = .ok (x, ds') → ds' = ds) (hk : ∀ r, Preserves f P (k r)) : Preserves f P ((tx g).bind k) :=
  inv_tx hq (fun s ds x ds' hg hs => by rw [hr ds x ds' hg, hq]; exact hs) hk

theorem inv_pub {m : Msg} {k : Except Err Unit → Prog α} (h : ∀ s ds, P s → P (f s ⟨ds, ds, [m]⟩))
    (hk : ∀ r, Preserves f P (k r)) : Preserves f P ((publish m).bind k) := ⟨h, hk⟩

end

/-! ## Runs of a sequence -/

theorem pstep_bind {α β : Type} {p : Prog β} {f : β → Prog α} {ds ds' : DS} {n n' : Nat} {q : Prog α} {ms : List Msg}
    (h : PStep (p.bind f) ds n q ds' ms n') :
    (∃ a, p = .ret a) ∨ ∃ p', PStep p ds n p' ds' ms n' ∧ q = p'.bind f := by
  cases p with
  | ret a => exact .inl ⟨a, rfl⟩
  | db op k =>
    right
    cases h with
    | dbOk => exact ⟨_, .dbOk op k ds n, rfl⟩
    | dbFail _ _ _ _ e => exact ⟨_, .dbFail op k ds n e, rfl⟩
    | dbLost _ _ _ _ e => exact ⟨_, .dbLost op k ds n e, rfl⟩
    | dbPartial _ _ _ _ e x hx => exact ⟨_, .dbPartial op k ds n e x hx, rfl⟩
  | pub m k =>
    right
    cases h with
    | pubOk => exact ⟨_, .pubOk m k ds n, rfl⟩
    | pubFail _ _ _ _ e => exact ⟨_, .pubFail m k ds n e, rfl⟩
    | pubLost _ _ _ _ e => exact ⟨_, .pubLost m k ds n e, rfl⟩
  | nondet k =>
    right
    cases h with
    | nondet _ _ _ x => exact ⟨_, .nondet k ds n x, rfl⟩
  | uuid k =>
    right
    cases h with
    | uuid => exact ⟨_, .uuid k ds n, rfl⟩
  | panic s => cases h

/-- A run of `p` followed by `f` is a run of `p`, or a complete run of `p` followed by a run of `f`. -/
theorem run_bind {α β : Type} {p : Prog β} {f : β → Prog α} {l : List Ev} {q : Prog α} (h : Run (p.bind f) l q) :
    (∃ q', Run p l q' ∧ q = q'.bind f) ∨ ∃ l1 l2 a, l = l1 ++ l2 ∧ Run p l1 (.ret a) ∧ Run (f a) l2 q := by
  generalize hr : p.bind f = r at h
  induction h generalizing p with
  | nil => subst hr; exact .inl ⟨p, .nil _, rfl⟩
  | cons hs hrun ih =>
    subst hr
    rcases pstep_bind hs with ⟨a, rfl⟩ | ⟨p', h1, h2⟩
    · exact .inr ⟨[], _, a, rfl, .nil _, .cons hs hrun⟩
    · rcases ih h2.symm with ⟨q', h3, h4⟩ | ⟨l1, l2, a, h3, h4, h5⟩
      · exact .inl ⟨q', .cons h1 h3, h4⟩
      · exact .inr ⟨_ :: l1, l2, a, by rw [h3]; rfl, .cons h1 h4, h5⟩

theorem run_ret {α : Type} {a : α} {l : List Ev} {q : Prog α} (h : Run (.ret a) l q) : l = [] := by
  cases h with
  | nil => rfl
  | cons hs _ => cases hs

theorem run_now {l : List Ev} {q : Prog Nat} (h : Run Prog.now l q) : published l = [] ∧ created l = [] := by
  unfold Prog.now at h
  cases h with
  | nil => exact ⟨rfl, rfl⟩
  | cons hs h =>
    cases hs
    have := run_ret h
    subst this
    simp [published, created, newTasks_self]

theorem created_append (a b : List Ev) : created (a ++ b) = created a ++ created b := by simp [created]
theorem published_append (a b : List Ev) : published (a ++ b) = published a ++ published b := by simp [published]

end Tork

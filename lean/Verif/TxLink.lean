import Verif.TwoPhase
import Verif.DSLemmas
import Verif.Handlers
/-!
# The transactions of the coordinator as sequences of statements

The transactions `Handlers.lean` treats as one step (`updateTask`, `updateJob`, `subTaskTx`, `topLevelTx`), written with the statements of
`TwoPhase.lean`. `Implements` says that, alone, they do the same.
-/

namespace Tork.Tx

/-- Primary keys of the tables `tasks` and `jobs`. -/
inductive Key
  | task (id : Nat)
  | job (id : Nat)
  deriving DecidableEq

inductive Row
  | task (t : Task)
  | job (j : Job)

/-- What transactions return (captured variables in Go). -/
inductive Ans
  | unit
  | last (b : Bool)
  | job (j : Job)

abbrev Trans := TP Key Row Ans Err

/-- The tables as rows by key. -/
def view (ds : DS) : Store Key Row
  | .task id => (ds.task? id).map .task
  | .job id => (ds.job? id).map .job

/-- `postgres.go:414-522 UpdateTask`, in a transaction; `w`: how the caller wraps errors -/
def updT {γ : Type} (w : Err → Err) (id : Nat) (m : Task → Except Err (γ × Task)) (next : γ → Trans) : Trans :=
  .touch (.task id) (w "error fetching task from db")
    (fun
      | .task u => match m u with
        | .error e => .error (w e)
        | .ok (_, u') => .ok (.task (persistTask u u'))
      | .job _ => .error "not a task")
    (fun
      | .task u => match m u with
        | .error e => .fail (w e)
        | .ok (g, _) => next g
      | .job _ => .fail "not a task")

/-- `postgres.go:732-782 UpdateJob`, in a transaction -/
def updJ {γ : Type} (w : Err → Err) (id : Nat) (m : Job → Except Err (γ × Job)) (next : γ → Trans) : Trans :=
  .touch (.job id) (w "error fetching job from db")
    (fun
      | .job u => match m u with
        | .error e => .error (w e)
        | .ok (_, u') => .ok (.job (persistJob u u'))
      | .task _ => .error "not a job")
    (fun
      | .job u => match m u with
        | .error e => .fail (w e)
        | .ok (g, _) => next g
      | .task _ => .fail "not a job")

/-- `completed.go:138-176`: the transaction of `completeParallelTask` -/
def parallelTP (t : Task) : Trans :=
  updT (wrapErr "error updating task in datastore") t.id (completeTaskRow t) fun _ =>
  updT (wrapErr "error updating task in datastore") t.parentID parallelRow fun isLast =>
  if t.result ≠ "" ∧ t.var ≠ "" then
    updJ (wrapErr "error updating job in datastore") t.jobID (fun u => .ok ((), setVar t u)) fun _ => .commit (.last isLast)
  else .commit (.last isLast)

/-- `completed.go:193-226`: the transaction of `completeTopLevelTask` -/
def topLevelTP (t : Task) : Trans :=
  updT (wrapErr "error updating task in datastore") t.id (completeTaskRow t) fun _ =>
  updJ (wrapErr "error updating job in datastore") t.jobID (fun u => .ok ((), topLevelJobRow t u)) fun _ => .commit .unit

/-- The transaction does, alone, what `f` does. -/
def Implements {γ : Type} (p : Trans) (enc : γ → Ans) (f : DS → Except Err (γ × DS)) : Prop :=
  ∀ ds, p.go (view ds) = match f ds with
    | .error e => .error e
    | .ok (g, ds') => .ok (enc g, view ds')

theorem view_setTask {ds : DS} {id : Nat} {u : Task} (h : ds.task? id = some u) (u' : Task) :
    view (ds.setTask id u') = set (view ds) (.task id) (.task (persistTask u u')) := by
  funext k
  cases k with
  | task n =>
    by_cases hn : n = id
    · subst hn; simp [view, set, task?_setTask, h]
    · simp [view, set, task?_setTask, hn]
  | job n => simp [view, set]

theorem view_setJob {ds : DS} {id : Nat} {u : Job} (h : ds.job? id = some u) (u' : Job) :
    view (ds.setJob id u') = set (view ds) (.job id) (.job (persistJob u u')) := by
  funext k
  cases k with
  | job n =>
    by_cases hn : n = id
    · subst hn; simp [view, set, job?_setJob, h]
    · simp [view, set, job?_setJob, hn]
  | task n => simp [view, set]

theorem go_updT {γ : Type} (w : Err → Err) (id : Nat) (m : Task → Except Err (γ × Task)) (next : γ → Trans) (ds : DS) :
    (updT w id m next).go (view ds) = match updateTask id m ds with
      | .error e => .error (w e)
      | .ok (g, ds') => (next g).go (view ds') := by
  unfold updT updateTask
  cases h : ds.task? id with
  | none => simp [TP.go, view, h]
  | some u =>
    cases hm : m u with
    | error e => simp [TP.go, view, h, hm]
    | ok x =>
      obtain ⟨g, u'⟩ := x
      simp only [TP.go, view, h, hm, Option.map_some]
      rw [view_setTask h]

theorem go_updJ {γ : Type} (w : Err → Err) (id : Nat) (m : Job → Except Err (γ × Job)) (next : γ → Trans) (ds : DS) :
    (updJ w id m next).go (view ds) = match updateJob id m ds with
      | .error e => .error (w e)
      | .ok (g, ds') => (next g).go (view ds') := by
  unfold updJ updateJob
  cases h : ds.job? id with
  | none => simp [TP.go, view, h]
  | some u =>
    cases hm : m u with
    | error e => simp [TP.go, view, h, hm]
    | ok x =>
      obtain ⟨g, u'⟩ := x
      simp only [TP.go, view, h, hm, Option.map_some]
      rw [view_setJob h]

theorem implements_updateTask {γ : Type} (enc : γ → Ans) (id : Nat) (m : Task → Except Err (γ × Task)) :
    Implements (updT (fun e => e) id m fun g => .commit (enc g)) enc (updateTask id m) := by
  intro ds
  rw [go_updT]
  cases updateTask id m ds <;> rfl

theorem implements_updateJob {γ : Type} (enc : γ → Ans) (id : Nat) (m : Job → Except Err (γ × Job)) :
    Implements (updJ (fun e => e) id m fun g => .commit (enc g)) enc (updateJob id m) := by
  intro ds
  rw [go_updJ]
  cases updateJob id m ds <;> rfl

theorem implements_parallel (t : Task) : Implements (parallelTP t) .last (subTaskTx t parallelRow) := by
  intro ds
  unfold parallelTP subTaskTx
  rw [go_updT]
  cases h1 : updateTask t.id (completeTaskRow t) ds with
  | error e => rfl
  | ok x =>
    obtain ⟨_, ds1⟩ := x
    dsimp only
    rw [go_updT]
    cases h2 : updateTask t.parentID parallelRow ds1 with
    | error e => rfl
    | ok y =>
      obtain ⟨b, ds2⟩ := y
      dsimp only
      unfold contextTx
      by_cases hc : t.result ≠ "" ∧ t.var ≠ ""
      · rw [if_pos hc, if_pos hc, go_updJ]
        unfold updateJob'
        cases updateJob t.jobID (fun u => .ok ((), setVar t u)) ds2 <;> rfl
      · rw [if_neg hc, if_neg hc]; rfl

theorem implements_topLevel (t : Task) : Implements (topLevelTP t) (fun _ => .unit) (topLevelTx t) := by
  intro ds
  unfold topLevelTP topLevelTx
  rw [go_updT]
  cases h1 : updateTask t.id (completeTaskRow t) ds with
  | error e => rfl
  | ok x =>
    obtain ⟨_, ds1⟩ := x
    dsimp only
    rw [go_updJ]
    unfold updateJob'
    cases updateJob t.jobID (fun u => .ok ((), topLevelJobRow t u)) ds1 <;> rfl

/-! ## Histories of the database model -/

/-- A history of single steps on the database of `DS.lean`, with the results the callers got. -/
inductive DSRun : DS → List (Entry Key Row Ans Err) → DS → Prop
  | nil (d : DS) : DSRun d [] d
  | ok {d d1 d2 : DS} {l : List (Entry Key Row Ans Err)} (h : DSRun d l d1) (i : Nat) {p : Trans} {γ : Type} {enc : γ → Ans}
      {f : DS → Except Err (γ × DS)} (hp : Implements p enc f) {g : γ} (hf : f d1 = .ok (g, d2)) : DSRun d (l ++ [.tx i p (.ok (enc g))]) d2
  | error {d d1 : DS} {l : List (Entry Key Row Ans Err)} (h : DSRun d l d1) (i : Nat) {p : Trans} {γ : Type} {enc : γ → Ans}
      {f : DS → Except Err (γ × DS)} (hp : Implements p enc f) {e : Err} (hf : f d1 = .error e) : DSRun d (l ++ [.tx i p (.error e)]) d1
  | newTask {d d1 : DS} {l : List (Entry Key Row Ans Err)} (h : DSRun d l d1) (t : Task) (ht : d1.task? t.id = none) :
      DSRun d (l ++ [.insert (.task t.id) (.task t)]) { d1 with tasks := d1.tasks ++ [t] }
  | newJob {d d1 : DS} {l : List (Entry Key Row Ans Err)} (h : DSRun d l d1) (j : Job) (hj : d1.job? j.id = none) :
      DSRun d (l ++ [.insert (.job j.id) (.job j)]) { d1 with jobs := d1.jobs ++ [j] }
  | read {d d1 : DS} {l : List (Entry Key Row Ans Err)} (h : DSRun d l d1) (k : Key) : DSRun d (l ++ [.read k (view d1 k)]) d1

/-- What is done to the database is known: transactions of the model, insertions of rows under their keys, reads. -/
def Known : Entry Key Row Ans Err → Prop
  | .tx _ p _ => ∃ (γ : Type) (enc : γ → Ans) (f : DS → Except Err (γ × DS)), Implements p enc f
  | .insert (.task n) (.task t) => t.id = n
  | .insert (.job n) (.job j) => j.id = n
  | .insert _ _ => False
  | .delete _ => False
  | .read _ _ => True

theorem view_newTask {d : DS} {t : Task} (ht : d.task? t.id = none) : view { d with tasks := d.tasks ++ [t] } = set (view d) (.task t.id) (.task t) := by
  funext k
  cases k with
  | job n => rfl
  | task n =>
    by_cases hn : n = t.id
    · subst hn
      have : DS.task? { d with tasks := d.tasks ++ [t] } t.id = some t := by
        unfold DS.task? at *
        simp only [List.find?_append, ht]
        simp
      simp [view, set, this]
    · have : DS.task? { d with tasks := d.tasks ++ [t] } n = d.task? n := by
        unfold DS.task?
        have : decide (t.id = n) = false := by simp; exact fun h => hn h.symm
        simp [List.find?_append, this]
      simp [view, set, this, hn]

theorem view_newJob {d : DS} {j : Job} (hj : d.job? j.id = none) : view { d with jobs := d.jobs ++ [j] } = set (view d) (.job j.id) (.job j) := by
  funext k
  cases k with
  | task n => rfl
  | job n =>
    by_cases hn : n = j.id
    · subst hn
      have : DS.job? { d with jobs := d.jobs ++ [j] } j.id = some j := by
        unfold DS.job? at *
        simp only [List.find?_append, hj]
        simp
      simp [view, set, this]
    · have : DS.job? { d with jobs := d.jobs ++ [j] } n = d.job? n := by
        unfold DS.job?
        have : decide (j.id = n) = false := by simp; exact fun h => hn h.symm
        simp [List.find?_append, this]
      simp [view, set, this, hn]

theorem dsRun_of_serial {d : DS} {l : List (Entry Key Row Ans Err)} {s : Store Key Row} (h : Serial (view d) l s) (hk : ∀ e ∈ l, Known e) :
    ∃ d', DSRun d l d' ∧ view d' = s := by
  induction h with
  | nil => exact ⟨d, .nil d, rfl⟩
  | tx h i p ih =>
    obtain ⟨d1, hd, hv⟩ := ih fun e he => hk e (by simp [he])
    obtain ⟨γ, enc, f, hp⟩ : Known (.tx i p (outcome (p.go _))) := hk _ (List.mem_append_right _ (List.mem_singleton.2 rfl))
    have := hp d1
    rw [hv] at this
    rw [this]
    cases hf : f d1 with
    | error e => exact ⟨d1, .error hd i hp hf, hv⟩
    | ok x => obtain ⟨g, d2⟩ := x; exact ⟨d2, .ok hd i hp hf, rfl⟩
  | insert h k v hn ih =>
    obtain ⟨d1, hd, hv⟩ := ih fun e he => hk e (by simp [he])
    have := hk (.insert k v) (by simp)
    rw [← hv] at hn
    cases k with
    | task n =>
      cases v with
      | task t =>
        have hid : t.id = n := this
        subst hid
        have ht : d1.task? t.id = none := by simpa [view] using hn
        exact ⟨_, .newTask hd t ht, by rw [view_newTask ht, hv]⟩
      | job j => exact this.elim
    | job n =>
      cases v with
      | job j =>
        have hid : j.id = n := this
        subst hid
        have ht : d1.job? j.id = none := by simpa [view] using hn
        exact ⟨_, .newJob hd j ht, by rw [view_newJob ht, hv]⟩
      | task t => exact this.elim
  | delete h k ih => exact (hk (.delete k) (by simp)).elim
  | read h k ih =>
    obtain ⟨d1, hd, hv⟩ := ih fun e he => hk e (by simp [he])
    refine ⟨d1, ?_, hv⟩
    rw [← hv]
    exact .read hd k

end Tork.Tx

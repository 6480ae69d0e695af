import Verif.ExecLemmas
/-!
# Fault-free execution of `cancelActiveTasks`, `failJob` and `cancelHandler`
-/

namespace Tork
open Prog

/-- What is sent when an active task is cancelled: its sub-job is told, or else the node it runs on. -/
def cancelMsgs (ds : DS) (t : Task) : List Msg :=
  if subJobRef t ≠ 0 then
    match ds.job? (subJobRef t) with
    | some sj => [.job { sj with state := .cancelled }]
    | none => []
  else if t.nodeID ≠ 0 then
    match ds.node? t.nodeID with
    | some n => [.task n.queue { t with state := .cancelled }]
    | none => []
  else []

/-- The rows that cancelling `t` refers to exist. -/
def Cancellable (ds : DS) (t : Task) : Prop :=
  (subJobRef t ≠ 0 → ∃ sj, ds.job? (subJobRef t) = some sj) ∧
  (subJobRef t = 0 → t.nodeID ≠ 0 → ∃ n, ds.node? t.nodeID = some n)

/-- Set the state of one row. -/
def DS.cancelRow (ds : DS) (id : Nat) : DS :=
  match ds.task? id with
  | some u => ds.setTask id { u with state := .cancelled }
  | none => ds

def DS.cancelRows (ds : DS) (ts : List Task) : DS := ts.foldl (fun ds t => ds.cancelRow t.id) ds

theorem cancelRow_jobs (ds : DS) (id : Nat) : (ds.cancelRow id).jobs = ds.jobs := by
  unfold DS.cancelRow; split <;> rfl
theorem cancelRow_nodes (ds : DS) (id : Nat) : (ds.cancelRow id).nodes = ds.nodes := by
  unfold DS.cancelRow; split <;> rfl

theorem task?_cancelRow (ds : DS) (id k : Nat) : (ds.cancelRow id).task? k =
    if k = id then (ds.task? k).map fun r => persistTask r { r with state := .cancelled } else ds.task? k := by
  unfold DS.cancelRow
  cases h : ds.task? id with
  | none =>
    by_cases hk : k = id
    · subst hk; simp [h]
    · simp [hk]
  | some u =>
    simp only
    rw [task?_setTask]
    by_cases hk : k = id
    · subst hk; simp [h]
    · simp [hk]

theorem isSome_cancelRow {ds : DS} {id k : Nat} : ((ds.cancelRow id).task? k).isSome = (ds.task? k).isSome := by
  rw [task?_cancelRow]; split <;> simp

theorem cancelLoop_exec {ts : List Task} {s : Sys} (hx : ∀ t ∈ ts, (s.ds.task? t.id).isSome)
    (hc : ∀ t ∈ ts, Cancellable s.ds t) :
    (cancelLoop ts).exec s = (some none, (s.withDs (s.ds.cancelRows ts)).send (ts.flatMap (cancelMsgs s.ds))) := by
  induction ts generalizing s with
  | nil =>
    rw [cancelLoop]; simp only [pure_eq, exec_ret, DS.cancelRows, List.foldl_nil, List.flatMap_nil]
    simp [Sys.withDs, Sys.send]
  | cons t ts ih =>
    obtain ⟨u, hu⟩ := Option.isSome_iff_exists.1 (hx t (by simp))
    have hrow : s.ds.setTask t.id { u with state := .cancelled } = s.ds.cancelRow t.id := by
      unfold DS.cancelRow; rw [hu]
    rw [cancelLoop]
    simp only [bind_eq, pure_eq]
    rw [exec_tx (updateTask'_of hu)]
    simp only
    rw [hrow]
    have hj : ∀ id, (s.ds.cancelRow t.id).job? id = s.ds.job? id := fun id => by
      unfold DS.job?; rw [cancelRow_jobs]
    have hn : ∀ id, (s.ds.cancelRow t.id).node? id = s.ds.node? id := fun id => by
      unfold DS.node?; rw [cancelRow_nodes]
    have hmsgs : ∀ t', cancelMsgs (s.ds.cancelRow t.id) t' = cancelMsgs s.ds t' := fun t' => by
      unfold cancelMsgs; simp only [hj, hn]
    have hm2 : cancelMsgs (s.ds.cancelRow t.id) = cancelMsgs s.ds := funext hmsgs
    have hcan : ∀ t', Cancellable s.ds t' → Cancellable (s.ds.cancelRow t.id) t' := fun t' h => by
      unfold Cancellable; simp only [hj, hn]; exact h
    have htail : ∀ ms : List Msg, cancelMsgs s.ds t = ms →
        (cancelLoop ts).exec ((s.withDs (s.ds.cancelRow t.id)).send ms) =
        (some none, (s.withDs (s.ds.cancelRows (t :: ts))).send ((t :: ts).flatMap (cancelMsgs s.ds))) := by
      intro ms hms
      rw [ih (fun t' h => by simp only [Sys.send_ds, Sys.withDs_ds, isSome_cancelRow]; exact hx t' (by simp [h]))
        (fun t' h => hcan t' (hc t' (by simp [h])))]
      simp only [Sys.send_ds, Sys.withDs_ds, hm2, List.flatMap_cons, hms]
      simp [Sys.withDs, Sys.send, DS.cancelRows, List.append_assoc]
    have htail0 : cancelMsgs s.ds t = [] → (cancelLoop ts).exec (s.withDs (s.ds.cancelRow t.id)) =
        (some none, (s.withDs (s.ds.cancelRows (t :: ts))).send ((t :: ts).flatMap (cancelMsgs s.ds))) := by
      intro h
      rw [← htail [] h]
      simp [Sys.send, Sys.withDs]
    by_cases h1 : subJobRef t ≠ 0
    · rw [if_pos h1]
      obtain ⟨sj, hsj⟩ := (hc t (by simp)).1 h1
      rw [exec_read (s := s.withDs (s.ds.cancelRow t.id)) (getJob_of (by rw [Sys.withDs_ds, hj]; exact hsj))]
      simp only
      rw [exec_pub]
      exact htail _ (by unfold cancelMsgs; rw [if_pos h1, hsj])
    · rw [if_neg h1]
      by_cases h2 : t.nodeID ≠ 0
      · rw [if_pos h2]
        obtain ⟨n, hnn⟩ := (hc t (by simp)).2 (by simpa using h1) h2
        rw [exec_read (s := s.withDs (s.ds.cancelRow t.id)) (getNode_of (by rw [Sys.withDs_ds, hn]; exact hnn))]
        simp only
        rw [exec_pub]
        exact htail _ (by unfold cancelMsgs; rw [if_neg h1, if_pos h2, hnn])
      · rw [if_neg h2]
        exact htail0 (by unfold cancelMsgs; rw [if_neg h1, if_neg h2])

/-- The active tasks of a job. -/
def DS.activeOf (ds : DS) (jobID : Nat) : List Task := ds.tasks.filter fun t => t.jobID = jobID && t.state.isActive

theorem cancelActiveTasks_exec {id : Nat} {s : Sys} (hc : ∀ t ∈ s.ds.activeOf id, Cancellable s.ds t) :
    (cancelActiveTasks id).exec s =
      (some none, (s.withDs (s.ds.cancelRows (s.ds.activeOf id))).send ((s.ds.activeOf id).flatMap (cancelMsgs s.ds))) := by
  unfold cancelActiveTasks
  simp only [bind_eq, pure_eq]
  rw [exec_read (g := s.ds.activeOf id) rfl]
  simp only
  refine cancelLoop_exec (fun t ht => ?_) hc
  have hm : t ∈ s.ds.tasks := (List.mem_filter.1 ht).1
  unfold DS.task?
  rw [List.find?_isSome]
  exact ⟨t, hm, by simp⟩

/-! ### The database after cancelling -/

theorem cancelRows_jobs (ds : DS) (ts : List Task) : (ds.cancelRows ts).jobs = ds.jobs := by
  unfold DS.cancelRows
  induction ts generalizing ds with
  | nil => rfl
  | cons t ts ih => rw [List.foldl_cons, ih, cancelRow_jobs]
theorem cancelRows_nodes (ds : DS) (ts : List Task) : (ds.cancelRows ts).nodes = ds.nodes := by
  unfold DS.cancelRows
  induction ts generalizing ds with
  | nil => rfl
  | cons t ts ih => rw [List.foldl_cons, ih, cancelRow_nodes]
theorem job?_cancelRows (ds : DS) (ts : List Task) (k : Nat) : (ds.cancelRows ts).job? k = ds.job? k := by
  unfold DS.job?; rw [cancelRows_jobs]

/-- The columns of a row that are sanitised on every update. -/
def resave (r : Task) : Task := { r with error := sanitizeString r.error, result := sanitizeString r.result }

theorem sanitize_idem (s : String) : sanitizeString (sanitizeString s) = sanitizeString s := by
  unfold sanitizeString
  simp only [String.toList_ofList, List.filter_filter, Bool.and_self]

theorem persist_cancelled (r : Task) : persistTask r { r with state := .cancelled } = { resave r with state := .cancelled } := rfl

theorem task?_cancelRows (ds : DS) (ts : List Task) (k : Nat) : (ds.cancelRows ts).task? k =
    if k ∈ ts.map (·.id) then (ds.task? k).map fun r => { resave r with state := .cancelled } else ds.task? k := by
  unfold DS.cancelRows
  induction ts generalizing ds with
  | nil => simp
  | cons t ts ih =>
    rw [List.foldl_cons, ih, task?_cancelRow]
    simp only [persist_cancelled, List.map_cons, List.mem_cons]
    by_cases h1 : k = t.id
    · rw [if_pos h1]
      by_cases h2 : k ∈ ts.map (·.id)
      · rw [if_pos h2, if_pos (.inr h2), Option.map_map]
        congr 1
        funext r
        simp [resave, sanitize_idem]
      · rw [if_neg h2, if_pos (.inl h1)]
    · rw [if_neg h1]
      by_cases h2 : k ∈ ts.map (·.id)
      · rw [if_pos h2, if_pos (.inr h2)]
      · rw [if_neg h2, if_neg (by simp [h1]; simpa using h2)]

/-- With unique ids: the active tasks of the job become CANCELLED, all other rows are untouched. -/
theorem task?_cancelActive {ds : DS} (hd : (ds.tasks.map (·.id)).Nodup) (id k : Nat) :
    (ds.cancelRows (ds.activeOf id)).task? k =
      (ds.task? k).map fun r => if r.jobID = id ∧ r.state.isActive then { resave r with state := .cancelled } else r := by
  rw [task?_cancelRows]
  cases hk : ds.task? k with
  | none => split <;> rfl
  | some r =>
    obtain ⟨hr, hid⟩ := task?_mem hk
    have hiff : k ∈ (ds.activeOf id).map (·.id) ↔ (r.jobID = id ∧ r.state.isActive) := by
      constructor
      · intro h
        obtain ⟨t, ht, he⟩ := List.mem_map.1 h
        obtain ⟨h1, h2⟩ := List.mem_filter.1 ht
        have : t = r := by
          have h3 := task?_of_mem hd h1
          rw [he, hk] at h3
          exact (Option.some.inj h3).symm
        subst this
        simpa using h2
      · intro h
        exact List.mem_map.2 ⟨r, List.mem_filter.2 ⟨hr, by simpa using h⟩, hid⟩
    by_cases h : r.jobID = id ∧ r.state.isActive
    · rw [if_pos (hiff.2 h)]; simp only [Option.map, if_pos h]
    · rw [if_neg (fun h' => h (hiff.1 h'))]; simp only [Option.map, if_neg h]

/-! ### failJob -/

theorem failJob_exec_top {j a : Job} {s : Sys} (hj : s.ds.job? j.id = some a) (hp : j.parentID = 0)
    (hc : ∀ t ∈ s.ds.activeOf j.id, Cancellable s.ds t) :
    ∃ a', (s.ds.setJob j.id (failJobRow j.failedAt a)).job? j.id = some a' ∧
    (failJob j).exec s = (some none,
      ((s.withDs ((s.ds.setJob j.id (failJobRow j.failedAt a)).cancelRows (s.ds.activeOf j.id))).send
        ((s.ds.activeOf j.id).flatMap (cancelMsgs (s.ds.setJob j.id (failJobRow j.failedAt a))))).send
        (if a'.state = .failed then [.event TOPIC_JOB_FAILED a'] else [])) := by
  have hrow : (s.ds.setJob j.id (failJobRow j.failedAt a)).job? j.id =
      some (persistJob a (failJobRow j.failedAt a)) := by
    rw [job?_setJob, hj]; simp
  refine ⟨_, hrow, ?_⟩
  unfold failJob
  simp only [bind_eq, pure_eq]
  rw [exec_tx (updateJob'_of hj)]
  simp only
  rw [if_neg (by simp [hp])]
  have hact : (s.ds.setJob j.id (failJobRow j.failedAt a)).activeOf j.id = s.ds.activeOf j.id := rfl
  rw [exec_bind, cancelActiveTasks_exec (s := s.withDs _)
    (fun t ht => by
      rw [Sys.withDs_ds, hact] at ht
      obtain ⟨h1, h2⟩ := hc t ht
      refine ⟨fun h => ?_, h2⟩
      obtain ⟨sj, hsj⟩ := h1 h
      rw [Sys.withDs_ds, job?_setJob, hsj]
      split <;> exact ⟨_, rfl⟩)]
  simp only [Sys.withDs_ds, hact]
  rw [exec_read (s := Sys.send _ _) (getJob_of (j := persistJob a (failJobRow j.failedAt a)) (by
    simp only [Sys.send_ds, Sys.withDs_ds, job?_cancelRows]; exact hrow))]
  simp only
  by_cases h : (persistJob a (failJobRow j.failedAt a)).state = .failed
  · rw [if_pos h, if_pos h, exec_pub, exec_ret]
    simp [Sys.withDs, Sys.send]
  · rw [if_neg h, if_neg h, exec_ret]
    simp [Sys.withDs, Sys.send]

/-- For a sub-job only the job row changes and the parent task is sent to the error queue. -/
theorem failJob_exec_sub {j a : Job} {p : Task} {s : Sys} (hj : s.ds.job? j.id = some a) (hp : j.parentID ≠ 0)
    (ht : s.ds.task? j.parentID = some p) :
    (failJob j).exec s = (some none, (s.withDs (s.ds.setJob j.id (failJobRow j.failedAt a))).send
      [.task QUEUE_ERROR { p with state := .failed, failedAt := j.failedAt, error := j.error }]) := by
  unfold failJob
  simp only [bind_eq, pure_eq]
  rw [exec_tx (updateJob'_of hj)]
  simp only
  rw [if_pos hp]
  rw [exec_read (s := s.withDs _) (getTask_of (t := p) (by rw [Sys.withDs_ds, task?_setJob]; exact ht))]
  simp only
  rw [exec_pub, exec_ret]

/-! ### Programs that leave the nodes alone -/

/-- No transaction of the program changes the node table. -/
def KeepsNodes {α : Type} : Prog α → Prop
  | .ret _ => True
  | .db op k => (∀ ds, (op.run ds).2.1.nodes = ds.nodes) ∧ ∀ r, KeepsNodes (k r)
  | .pub _ k => ∀ r, KeepsNodes (k r)
  | .nondet k => ∀ n, KeepsNodes (k n)
  | .uuid k => ∀ n, KeepsNodes (k n)
  | .panic _ => True

theorem keepsNodes_exec {α : Type} {p : Prog α} (h : KeepsNodes p) (s : Sys) : (p.exec s).2.ds.nodes = s.ds.nodes := by
  induction p generalizing s with
  | ret a => rfl
  | db op k ih => rw [exec]; rw [ih _ (h.2 _)]; exact h.1 _
  | pub m k ih => rw [exec]; rw [ih _ (h _)]
  | nondet k ih => rw [exec]; rw [ih _ (h _)]
  | uuid k ih => rw [exec]; rw [ih _ (h _)]
  | panic e => rfl

theorem keepsNodes_bind {α β : Type} {p : Prog α} {k : α → Prog β} (h : KeepsNodes p) (hk : ∀ a, KeepsNodes (k a)) :
    KeepsNodes (p.bind k) := by
  induction p with
  | ret a => exact hk a
  | db op g ih => exact ⟨h.1, fun r => ih r (h.2 r)⟩
  | pub m g ih => exact fun r => ih r (h r)
  | nondet g ih => exact fun r => ih r (h r)
  | uuid g ih => exact fun r => ih r (h r)
  | panic e => trivial

theorem keepsNodes_tx {α γ : Type} {f : DS → Except Err (γ × DS)} {k : Except Err γ → Prog α}
    (h : ∀ ds g ds', f ds = .ok (g, ds') → ds'.nodes = ds.nodes) (hk : ∀ r, KeepsNodes (k r)) :
    KeepsNodes ((tx f).bind k) := by
  refine ⟨fun ds => ?_, hk⟩
  show ((DbOp.of f).run ds).2.1.nodes = ds.nodes
  simp only [DbOp.of]
  cases hf : f ds with
  | error e => rfl
  | ok x => obtain ⟨g, ds'⟩ := x; exact h ds g ds' hf

theorem nodes_updateTask' {id : Nat} {m : Task → Task} (ds : DS) (g : Unit) (ds' : DS)
    (h : updateTask' id m ds = .ok (g, ds')) : ds'.nodes = ds.nodes := by
  unfold updateTask' updateTask at h
  split at h
  · cases h
  · simp at h; rw [← h]; rfl
theorem nodes_updateJob' {id : Nat} {m : Job → Job} (ds : DS) (g : Unit) (ds' : DS)
    (h : updateJob' id m ds = .ok (g, ds')) : ds'.nodes = ds.nodes := by
  unfold updateJob' updateJob at h
  split at h
  · cases h
  · simp at h; rw [← h]; rfl
theorem nodes_getJob {id : Nat} (ds : DS) (g : Job) (ds' : DS)
    (h : getJob id ds = .ok (g, ds')) : ds'.nodes = ds.nodes := by
  unfold getJob at h
  split at h
  · cases h
  · simp at h; rw [← h.2]
theorem nodes_getTask {id : Nat} (ds : DS) (g : Task) (ds' : DS)
    (h : getTask id ds = .ok (g, ds')) : ds'.nodes = ds.nodes := by
  unfold getTask at h
  split at h
  · cases h
  · simp at h; rw [← h.2]
theorem nodes_getNode {id : Nat} (ds : DS) (g : Node) (ds' : DS)
    (h : getNode id ds = .ok (g, ds')) : ds'.nodes = ds.nodes := by
  unfold getNode at h
  split at h
  · cases h
  · simp at h; rw [← h.2]
theorem nodes_getActive {id : Nat} (ds : DS) (g : List Task) (ds' : DS)
    (h : getActiveTasks id ds = .ok (g, ds')) : ds'.nodes = ds.nodes := by
  unfold getActiveTasks at h
  simp at h; rw [← h.2]
theorem nodes_createTask {t : Task} (ds : DS) (g : Unit) (ds' : DS)
    (h : createTask t ds = .ok (g, ds')) : ds'.nodes = ds.nodes := by
  unfold createTask at h
  split at h
  · cases h
  · split at h
    · cases h
    · split at h
      · cases h
      · simp at h; rw [← h]

theorem cancelLoop_keepsNodes (ts : List Task) : KeepsNodes (cancelLoop ts) := by
  induction ts with
  | nil => rw [cancelLoop]; trivial
  | cons t ts ih =>
    rw [cancelLoop]
    simp only [bind_eq, pure_eq]
    refine keepsNodes_tx nodes_updateTask' fun r => ?_
    cases r with
    | error e => trivial
    | ok x =>
      dsimp only
      split
      · refine keepsNodes_tx nodes_getJob fun r => ?_
        cases r with
        | error e => trivial
        | ok x => exact fun r => by cases r <;> first | trivial | exact ih
      · split
        · refine keepsNodes_tx nodes_getNode fun r => ?_
          cases r with
          | error e => trivial
          | ok x => exact fun r => by cases r <;> first | trivial | exact ih
        · exact ih

theorem failJob_keepsNodes (j : Job) : KeepsNodes (failJob j) := by
  unfold failJob
  simp only [bind_eq, pure_eq]
  refine keepsNodes_tx nodes_updateJob' fun r => ?_
  cases r with
  | error e => trivial
  | ok x =>
    dsimp only
    split
    · refine keepsNodes_tx nodes_getTask fun r => ?_
      cases r with
      | error e => trivial
      | ok x => exact fun r => by cases r <;> trivial
    · refine keepsNodes_bind ?_ fun r => ?_
      · unfold cancelActiveTasks
        simp only [bind_eq, pure_eq]
        refine keepsNodes_tx nodes_getActive fun r => ?_
        cases r with
        | error e => trivial
        | ok x => exact cancelLoop_keepsNodes x
      · cases r with
        | some e => trivial
        | none =>
          refine keepsNodes_tx nodes_getJob fun r => ?_
          cases r with
          | error e => trivial
          | ok x =>
            dsimp only
            split
            · exact fun r => by cases r <;> trivial
            · trivial

theorem errorHandler_keepsNodes (C : Cfg) (t : Task) : KeepsNodes (errorHandler C t) := by
  unfold errorHandler
  simp only [bind_eq, pure_eq]
  refine keepsNodes_tx nodes_getJob fun r => ?_
  cases r with
  | error e => trivial
  | ok j =>
    refine fun now => keepsNodes_tx nodes_updateTask' fun r => ?_
    cases r with
    | error e => trivial
    | ok x =>
      dsimp only
      split
      · refine fun now => fun id => fun sd => ?_
        dsimp only [ret_bind]
        split
        · trivial
        · refine keepsNodes_tx nodes_createTask fun r => ?_
          cases r with
          | error e => trivial
          | ok x => exact fun r => by cases r <;> trivial
      · exact failJob_keepsNodes _

end Tork

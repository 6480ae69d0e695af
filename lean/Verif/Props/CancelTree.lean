import Verif.Props.SubJobs
/-!
# C79 — a cancellation reaches the whole tree of jobs, and comes to an end

Handling the cancellation of a job sends further cancellations: up, to the job of its parent task, and down, to the sub-jobs of its active
tasks (`/repo/internal/coordinator/handlers/cancel.go:27-99`). Those are handled in turn, in any order. The handler is the one of
`Handlers.lean`, run without faults (`Handles`).
-/

namespace Tork.CancelTree
open Prog

/-! ## Specification -/

/-- The database, the cancellations of jobs still to be handled, and what was sent to the queues of nodes. -/
structure Net where
  ds : DS
  todo : List Job
  told : List (String × Task) := []

def jobMsgs (ms : List Msg) : List Job := ms.filterMap fun m => match m with | .job j => some j | _ => none

def taskMsgs (ms : List Msg) : List (String × Task) := ms.filterMap fun m => match m with | .task q t => some (q, t) | _ => none

/-- Some coordinator handles one of the cancellations. -/
inductive Deal (C : Cfg) (fuel : Nat) : Net → Net → Prop
  | handle (a b : List Job) (m : Job) (told : List (String × Task)) (s s' : Sys) (hout : s.out = []) (h : Handles C fuel (.job m) s s') :
      Deal C fuel ⟨s.ds, a ++ m :: b, told⟩ ⟨s'.ds, a ++ b ++ jobMsgs s'.out, told ++ taskMsgs s'.out⟩

/-- `n` cancellations are handled. -/
inductive Deals (C : Cfg) (fuel : Nat) : Nat → Net → Net → Prop
  | none (N : Net) : Deals C fuel 0 N N
  | more {n : Nat} {N N' N'' : Net} : Deals C fuel n N N' → Deal C fuel N' N'' → Deals C fuel (n + 1) N N''

/-- The jobs connected with job `a`: from a job to the job of its parent task, and from a job to the sub-jobs of its active tasks. -/
inductive Linked (ds : DS) (a : Nat) : Nat → Prop
  | self : Linked ds a a
  | up {k : Nat} {j : Job} {p : Task} : Linked ds a k → ds.job? k = some j → j.parentID ≠ 0 → ds.task? j.parentID = some p → Linked ds a p.jobID
  | down {r : Task} {d : SubJobTask Task} : r ∈ ds.tasks → Linked ds a r.jobID → r.state.isActive = true → r.subJob = some d → d.id ≠ 0 → Linked ds a d.id

/-- The rows are as they should be: ids are unique; the parent task of a sub-job exists, and so does its job, which is less deep; and the
sub-job or the node of an active task exists. -/
structure Forest (ds : DS) (depth : Nat → Nat) : Prop where
  ids : (ds.tasks.map (·.id)).Nodup
  parent : ∀ k j, ds.job? k = some j → j.parentID ≠ 0 →
    ∃ p pj, ds.task? j.parentID = some p ∧ ds.job? p.jobID = some pj ∧ depth p.jobID < depth k
  refs : ∀ r ∈ ds.tasks, r.state.isActive = true → Cancellable ds r

/-- The cancellation of job `j`. -/
def cancellation (j : Job) : Job := { j with state := .cancelled }

/-! ## Proofs -/

theorem jobMsgs_append (l l' : List Msg) : jobMsgs (l ++ l') = jobMsgs l ++ jobMsgs l' := List.filterMap_append ..
theorem taskMsgs_append (l l' : List Msg) : taskMsgs (l ++ l') = taskMsgs l ++ taskMsgs l' := List.filterMap_append ..

theorem filterMap_ids {l : List Task} (hd : (l.map (·.id)).Nodup) : (l.map (·.id)).filterMap (fun i => l.find? (·.id = i)) = l := by
  rw [List.filterMap_map]
  have : ∀ l' : List Task, (∀ x ∈ l', x ∈ l) → l'.filterMap ((fun i => l.find? (·.id = i)) ∘ (·.id)) = l' := by
    intro l'
    induction l' with
    | nil => intro _; rfl
    | cons x l' ih =>
      intro h
      have hx : ((fun i => l.find? (·.id = i)) ∘ (·.id)) x = some x := find?_of_nodup Task.id hd (h x (by simp))
      rw [List.filterMap_cons_some hx, ih fun y hy => h y (List.mem_cons_of_mem _ hy)]
  exact this l fun _ h => h

/-- the row of a task after its job was cancelled -/
def stopped (k : Nat) (r : Task) : Task := if r.jobID = k ∧ r.state.isActive then { resave r with state := .cancelled } else r

theorem cancelRows_list {ds : DS} (hd : (ds.tasks.map (·.id)).Nodup) (k : Nat) :
    (ds.cancelRows (ds.activeOf k)).tasks = ds.tasks.map (stopped k) := by
  have hd' : ((ds.cancelRows (ds.activeOf k)).tasks.map (·.id)).Nodup := by rw [keys_cancelRows]; exact hd
  rw [← filterMap_ids hd', keys_cancelRows]
  have h1 : (fun i => (ds.cancelRows (ds.activeOf k)).tasks.find? (·.id = i)) = fun i => (ds.tasks.find? (·.id = i)).map (stopped k) := by
    funext i
    exact task?_cancelActive hd k i
  rw [h1, ← List.map_filterMap, filterMap_ids hd]

/-- what one handling does, exactly -/
structure Effect (k : Nat) (s s' : Sys) : Prop where
  tasks : s'.ds.tasks = s.ds.tasks.map (stopped k)
  jobs : ∀ i, s'.ds.job? i = if i = k then (s.ds.job? i).map cancelledJob else s.ds.job? i
  nodes : s'.ds.nodes = s.ds.nodes
  out : ∃ ds1 : DS, (∀ i, ds1.job? i = if i = k then (s.ds.job? i).map cancelledJob else s.ds.job? i) ∧ ds1.nodes = s.ds.nodes ∧
    ∀ j, s.ds.job? k = some j → s'.out = s.out ++ (upMsgs s.ds j ++ (s.ds.activeOf k).flatMap (cancelMsgs ds1))

theorem handles_cancel (C : Cfg) (fuel : Nat) {m j : Job} {s : Sys} {depth : Nat → Nat} (hF : Forest s.ds depth) (hm : m.state = .cancelled)
    (hj : s.ds.job? m.id = some j) (hpar : m.parentID = j.parentID) : ∃ s', Handles C fuel (.job m) s s' ∧ Effect m.id s s' := by
  obtain ⟨ds1, hds1, hex⟩ := cancelHandler_exec (m := m) hj hpar
    (fun hp => by
      obtain ⟨p, pj, h1, h2, h3⟩ := hF.parent _ _ hj hp
      exact ⟨p, pj, h1, h2, fun e => by rw [e] at h3; omega⟩)
    (fun r hr => hF.refs r (List.mem_filter.1 hr).1 (by have := (List.mem_filter.1 hr).2; simp at this; exact this.2))
  have hT : ds1.tasks = s.ds.tasks := by rw [hds1]; rfl
  have hN : ds1.nodes = s.ds.nodes := by rw [hds1]; rfl
  have hA : ds1.activeOf m.id = s.ds.activeOf m.id := by unfold DS.activeOf; rw [hT]
  have hJ : ∀ i, ds1.job? i = if i = m.id then (s.ds.job? i).map cancelledJob else s.ds.job? i := by
    intro i
    rw [hds1, job?_set_eq hj, persist_cancelJobRow]
    by_cases hi : i = m.id
    · rw [if_pos hi, if_pos hi, hi, hj]; rfl
    · rw [if_neg hi, if_neg hi]
  refine ⟨_, ⟨_, coord_job C fuel m, wrapJob_ok (x := m) (s' := (s.withDs (ds1.cancelRows (s.ds.activeOf m.id))).send
      (upMsgs s.ds j ++ (s.ds.activeOf m.id).flatMap (cancelMsgs ds1))) ?_⟩, ?_, ?_, ?_, ?_⟩
  · unfold jobHandler
    rw [hm]
    simp only [bind_eq, pure_eq]
    rw [exec_bind_of hex]; rfl
  · show (ds1.cancelRows _).tasks = _
    rw [← hA, cancelRows_list (by rw [hT]; exact hF.ids), hT]
  · intro i
    show (ds1.cancelRows _).job? i = _
    rw [job?_cancelRows, hJ]
  · show (ds1.cancelRows _).nodes = _
    rw [cancelRows_nodes, hN]
  · refine ⟨ds1, hJ, hN, fun j' hj' => ?_⟩
    rw [hj] at hj'
    cases hj'
    rfl

theorem handles_unique {C : Cfg} {fuel : Nat} {m : Msg} {s s1 s2 : Sys} (h1 : Handles C fuel m s s1) (h2 : Handles C fuel m s s2) : s1 = s2 := by
  obtain ⟨p, a, b⟩ := h1
  obtain ⟨q, c, d⟩ := h2
  rw [a] at c
  cases c
  rw [b] at d
  simpa using d

/-! ### The invariant -/

/-- the row of a task after the jobs `H` were cancelled -/
def after (H : List Nat) (r : Task) : Task := if r.jobID ∈ H ∧ r.state.isActive then { resave r with state := .cancelled } else r

theorem cancelledJob_idem (j : Job) : cancelledJob (cancelledJob j) = cancelledJob j := by
  unfold cancelledJob
  split
  · rename_i h; rw [if_neg (by simp)]
  · rfl

theorem stopped_after (H : List Nat) (k : Nat) (r : Task) : stopped k (after H r) = after (k :: H) r := by
  unfold stopped after
  by_cases h : r.jobID ∈ H ∧ r.state.isActive
  · rw [if_pos h, if_neg (by rintro ⟨-, h⟩; simp [TaskState.isActive] at h), if_pos ⟨List.mem_cons_of_mem _ h.1, h.2⟩]
  · rw [if_neg h]
    by_cases hk : r.jobID = k ∧ r.state.isActive
    · rw [if_pos hk, if_pos ⟨by simp [hk.1], hk.2⟩]
    · rw [if_neg hk, if_neg]
      rintro ⟨h1, h2⟩
      rcases List.mem_cons.1 h1 with h1 | h1
      · exact hk ⟨h1, h2⟩
      · exact h ⟨h1, h2⟩

structure Inv (d0 : DS) (a : Nat) (H : List Nat) (N : Net) : Prop where
  tasks : N.ds.tasks = d0.tasks.map (after H)
  jobs : ∀ k, N.ds.job? k = if k ∈ H then (d0.job? k).map cancelledJob else d0.job? k
  nodes : N.ds.nodes = d0.nodes
  todo : ∀ m ∈ N.todo, m.state = .cancelled ∧ Linked d0 a m.id ∧ ∃ j, d0.job? m.id = some j ∧ m.parentID = j.parentID
  start : a ∈ H ∨ a ∈ N.todo.map (·.id)
  up : ∀ k ∈ H, ∀ j p, d0.job? k = some j → j.parentID ≠ 0 → d0.task? j.parentID = some p → p.jobID ∈ H ∨ p.jobID ∈ N.todo.map (·.id)
  down : ∀ r ∈ d0.tasks, r.jobID ∈ H → r.state.isActive = true → ∀ d, r.subJob = some d → d.id ≠ 0 → d.id ∈ H ∨ d.id ∈ N.todo.map (·.id)
  linked : ∀ k ∈ H, Linked d0 a k
  told : ∀ q t, (q, t) ∈ N.told ↔ ∃ r ∈ d0.tasks, r.jobID ∈ H ∧ r.state.isActive = true ∧ subJobRef r = 0 ∧ r.nodeID ≠ 0 ∧
    ∃ n, d0.node? r.nodeID = some n ∧ q = n.queue ∧ t = { r with state := .cancelled }

theorem after_id (H : List Nat) (r : Task) : (after H r).id = r.id := by unfold after; split <;> rfl
theorem after_job (H : List Nat) (r : Task) : (after H r).jobID = r.jobID := by unfold after; split <;> rfl
theorem after_active {H : List Nat} {r : Task} (h : (after H r).state.isActive = true) : after H r = r ∧ r.jobID ∉ H := by
  unfold after at h ⊢
  by_cases hc : r.jobID ∈ H ∧ r.state.isActive
  · rw [if_pos hc] at h; simp [TaskState.isActive] at h
  · rw [if_neg hc] at h ⊢
    exact ⟨rfl, fun hm => hc ⟨hm, h⟩⟩

theorem Inv.task? {d0 : DS} {a : Nat} {H : List Nat} {N : Net} (h : Inv d0 a H N) (k : Nat) : N.ds.task? k = (d0.task? k).map (after H) := by
  unfold DS.task?
  rw [h.tasks, List.find?_map]
  congr 2
  funext r
  simp [after_id]

theorem Inv.node? {d0 : DS} {a : Nat} {H : List Nat} {N : Net} (h : Inv d0 a H N) (k : Nat) : N.ds.node? k = d0.node? k := by
  unfold DS.node?
  rw [h.nodes]

theorem Inv.kept {d0 : DS} {a : Nat} {H : List Nat} {N : Net} (h : Inv d0 a H N) {k : Nat} {j : Job} (hj : d0.job? k = some j) :
    ∃ j', N.ds.job? k = some j' ∧ j'.parentID = j.parentID ∧ j'.id = j.id := by
  rw [h.jobs, hj]
  split
  · refine ⟨_, rfl, ?_⟩
    show (cancelledJob j).parentID = _ ∧ (cancelledJob j).id = _
    unfold cancelledJob; split <;> exact ⟨rfl, rfl⟩
  · exact ⟨_, rfl, rfl, rfl⟩

theorem Inv.back {d0 : DS} {a : Nat} {H : List Nat} {N : Net} (h : Inv d0 a H N) {k : Nat} {j : Job} (hj : N.ds.job? k = some j) :
    ∃ j', d0.job? k = some j' ∧ j.parentID = j'.parentID := by
  rw [h.jobs] at hj
  split at hj
  · obtain ⟨j', h1, rfl⟩ := Option.map_eq_some_iff.1 hj
    refine ⟨j', h1, ?_⟩
    unfold cancelledJob; split <;> rfl
  · exact ⟨j, hj, rfl⟩

theorem Inv.forest {d0 : DS} {a : Nat} {H : List Nat} {N : Net} {depth : Nat → Nat} (h : Inv d0 a H N) (hF : Forest d0 depth) : Forest N.ds depth where
  ids := by
    rw [h.tasks, List.map_map]
    rw [show ((·.id) ∘ after H : Task → Nat) = (·.id) from funext fun r => after_id H r]
    exact hF.ids
  parent := by
    intro k j hj hp
    obtain ⟨j', h1, h2⟩ := h.back hj
    obtain ⟨p, pj, h3, h4, h5⟩ := hF.parent k j' h1 (by rw [← h2]; exact hp)
    obtain ⟨pj', h6, -⟩ := h.kept h4
    exact ⟨after H p, pj', by rw [h.task?, h2, h3]; rfl, by rw [after_job]; exact h6, by rw [after_job]; exact h5⟩
  refs := by
    intro r hr ha
    rw [h.tasks] at hr
    obtain ⟨r0, h1, rfl⟩ := List.mem_map.1 hr
    obtain ⟨h2, -⟩ := after_active ha
    rw [h2] at ha ⊢
    obtain ⟨g1, g2⟩ := hF.refs r0 h1 ha
    refine ⟨fun hs => ?_, fun hs hn => ?_⟩
    · obtain ⟨sj, h3⟩ := g1 hs
      obtain ⟨j', h4, -⟩ := h.kept h3
      exact ⟨j', h4⟩
    · obtain ⟨n, h3⟩ := g2 hs hn
      exact ⟨n, by rw [h.node?]; exact h3⟩

theorem Inv.init {d0 : DS} {j : Job} (hj : d0.job? j.id = some j) : Inv d0 j.id [] ⟨d0, [cancellation j], []⟩ where
  tasks := by
    rw [show after [] = id from funext fun r => by simp [after]]
    simp
  jobs := by simp
  nodes := rfl
  todo := by
    intro m hm
    rw [List.mem_singleton.1 hm]
    exact ⟨rfl, .self, j, hj, rfl⟩
  start := .inr (by simp [cancellation])
  up := by simp
  down := by simp
  linked := by simp
  told := by simp

/-! ### One step -/

theorem mem_jobMsgs {l : List Msg} {j : Job} : j ∈ jobMsgs l ↔ Msg.job j ∈ l := by
  unfold jobMsgs
  rw [List.mem_filterMap]
  constructor
  · rintro ⟨m, h1, h2⟩
    cases m <;> simp at h2
    rw [← h2]; exact h1
  · exact fun h => ⟨_, h, rfl⟩

theorem mem_taskMsgs {l : List Msg} {q : String} {t : Task} : (q, t) ∈ taskMsgs l ↔ Msg.task q t ∈ l := by
  unfold taskMsgs
  rw [List.mem_filterMap]
  constructor
  · rintro ⟨m, h1, h2⟩
    cases m <;> simp at h2
    obtain ⟨rfl, rfl⟩ := h2
    exact h1
  · exact fun h => ⟨_, h, rfl⟩

theorem up_job {ds : DS} {j c : Job} (h : Msg.job c ∈ upMsgs ds j) :
    j.parentID ≠ 0 ∧ ∃ p pj, ds.task? j.parentID = some p ∧ ds.job? p.jobID = some pj ∧ c = { pj with state := .cancelled } := by
  unfold upMsgs at h
  by_cases hp : j.parentID = 0
  · rw [if_pos hp] at h; cases h
  · rw [if_neg hp] at h
    refine ⟨hp, ?_⟩
    cases h1 : ds.task? j.parentID with
    | none => rw [h1] at h; cases h
    | some p =>
      rw [h1] at h
      cases h2 : ds.job? p.jobID with
      | none => simp only [h2] at h; cases h
      | some pj =>
        simp only [h2, List.mem_singleton, Msg.job.injEq] at h
        exact ⟨p, pj, rfl, h2, h⟩

theorem up_task {ds : DS} {j : Job} {q : String} {t : Task} (h : Msg.task q t ∈ upMsgs ds j) : False := by
  unfold upMsgs at h
  split at h
  · cases h
  · split at h
    · split at h
      · simp at h
      · cases h
    · cases h

theorem down_job {ds : DS} {r : Task} {c : Job} (h : Msg.job c ∈ cancelMsgs ds r) :
    subJobRef r ≠ 0 ∧ ∃ sj, ds.job? (subJobRef r) = some sj ∧ c = { sj with state := .cancelled } := by
  unfold cancelMsgs at h
  by_cases hp : subJobRef r = 0
  · rw [if_neg (by simpa using hp)] at h
    split at h
    · split at h
      · simp at h
      · cases h
    · cases h
  · rw [if_pos hp] at h
    refine ⟨hp, ?_⟩
    cases h1 : ds.job? (subJobRef r) with
    | none => rw [h1] at h; cases h
    | some sj =>
      rw [h1] at h
      simp only [List.mem_singleton, Msg.job.injEq] at h
      exact ⟨sj, rfl, h⟩

theorem down_task {ds : DS} {r t : Task} {q : String} : Msg.task q t ∈ cancelMsgs ds r ↔
    subJobRef r = 0 ∧ r.nodeID ≠ 0 ∧ ∃ n, ds.node? r.nodeID = some n ∧ q = n.queue ∧ t = { r with state := .cancelled } := by
  unfold cancelMsgs
  by_cases hp : subJobRef r = 0
  · rw [if_neg (by simpa using hp)]
    by_cases hn : r.nodeID = 0
    · rw [if_neg (by simpa using hn)]; simp [hn]
    · rw [if_pos hn]
      cases h1 : ds.node? r.nodeID with
      | none => simp
      | some n => simp [hp, hn]
  · rw [if_pos hp]
    simp only [hp, false_and, iff_false]
    split <;> simp

/-- how much there is left to do -/
def weight (depth : Nat → Nat) (r : Task) : Nat := if r.state.isActive = true ∧ subJobRef r ≠ 0 then depth (subJobRef r) + 1 else 0

def measure (depth : Nat → Nat) (N : Net) : Nat :=
  (N.todo.map fun m => depth m.id + 1).sum + (N.ds.tasks.map (weight depth)).sum

theorem sum_split (depth : Nat → Nat) (k : Nat) (l : List Task) :
    ((l.map (stopped k)).map (weight depth)).sum + ((l.filter fun t => t.jobID = k && t.state.isActive).map (weight depth)).sum =
      (l.map (weight depth)).sum := by
  induction l with
  | nil => rfl
  | cons r l ih =>
    simp only [List.map_cons, List.sum_cons]
    by_cases h : r.jobID = k ∧ r.state.isActive = true
    · rw [List.filter_cons_of_pos (by simpa using h)]
      have h0 : weight depth (stopped k r) = 0 := by
        unfold stopped weight
        rw [if_pos h, if_neg]
        rintro ⟨h, -⟩
        simp [TaskState.isActive] at h
      simp only [List.map_cons, List.sum_cons, h0]
      omega
    · rw [List.filter_cons_of_neg (by simpa using h)]
      have h0 : stopped k r = r := by unfold stopped; rw [if_neg h]
      rw [h0]
      omega

theorem sum_down (depth : Nat → Nat) (ds1 : DS) (l : List Task) (hl : ∀ r ∈ l, r.state.isActive = true) :
    ((jobMsgs (l.flatMap (cancelMsgs ds1))).map fun m => depth m.id + 1).sum ≤ (l.map (weight depth)).sum := by
  induction l with
  | nil => exact Nat.le_refl _
  | cons r l ih =>
    have := ih fun x hx => hl x (List.mem_cons_of_mem _ hx)
    simp only [List.flatMap_cons, jobMsgs_append, List.map_append, List.sum_append, List.map_cons, List.sum_cons]
    have h1 : ((jobMsgs (cancelMsgs ds1 r)).map fun m => depth m.id + 1).sum ≤ weight depth r := by
      unfold cancelMsgs weight
      by_cases hs : subJobRef r = 0
      · rw [if_neg (by simpa using hs), if_neg (show ¬ (r.state.isActive = true ∧ subJobRef r ≠ 0) by simp [hs])]
        split
        · split <;> simp [jobMsgs]
        · simp [jobMsgs]
      · rw [if_pos hs, if_pos ⟨hl r (by simp), hs⟩]
        cases h1 : ds1.job? (subJobRef r) with
        | none => simp [jobMsgs]
        | some sj =>
          have := (job?_mem h1).2
          simp [jobMsgs, this]
    omega

theorem Inv.deal {C : Cfg} {fuel : Nat} {d0 : DS} {a : Nat} {H : List Nat} {N N' : Net} {depth : Nat → Nat} (hF : Forest d0 depth)
    (h : Inv d0 a H N) (hd : Deal C fuel N N') : (∃ k, Inv d0 a (k :: H) N') ∧ measure depth N' < measure depth N := by
  have hFN := h.forest hF
  cases hd with
  | handle l1 l2 m told s s' hout hh =>
    obtain ⟨hm1, hm2, j0, hm3, hm4⟩ := h.todo m (by simp)
    obtain ⟨j, hj, hjp, hjid⟩ := h.kept hm3
    obtain ⟨s2, g1, g2⟩ := handles_cancel C fuel hFN hm1 hj (by rw [hjp]; exact hm4)
    have := handles_unique hh g1
    subst this
    obtain ⟨e1, e2, e3, ds1, f1, f2, f3⟩ := g2
    have hout' := f3 j hj
    rw [hout, List.nil_append] at hout'
    dsimp only at *
    have act : ∀ r, r ∈ s.ds.activeOf m.id ↔ r ∈ d0.tasks ∧ r.jobID = m.id ∧ m.id ∉ H ∧ r.state.isActive = true := by
      intro r
      unfold DS.activeOf
      rw [List.mem_filter, show s.ds.tasks = d0.tasks.map (CancelTree.after H) from h.tasks, List.mem_map]
      simp only [Bool.and_eq_true, decide_eq_true_eq]
      constructor
      · rintro ⟨⟨r0, h1, rfl⟩, h2, h3⟩
        obtain ⟨h4, h5⟩ := after_active h3
        rw [h4] at h2 h3 ⊢
        exact ⟨h1, h2, by rw [← h2]; exact h5, h3⟩
      · rintro ⟨h1, h2, h3, h4⟩
        refine ⟨⟨r, h1, ?_⟩, h2, h4⟩
        unfold CancelTree.after
        rw [if_neg]
        rintro ⟨h5, -⟩
        exact h3 (h2 ▸ h5)
    have kj : ∀ {i c}, ds1.job? i = some c → ∃ j', d0.job? i = some j' ∧ c.parentID = j'.parentID ∧ c.id = i := by
      intro i c hc
      have hid := (job?_mem hc).2
      rw [f1] at hc
      split at hc
      · obtain ⟨c', h1, rfl⟩ := Option.map_eq_some_iff.1 hc
        obtain ⟨j', h2, h3⟩ := h.back h1
        exact ⟨j', h2, by rw [← h3]; unfold cancelledJob; split <;> rfl, hid⟩
      · obtain ⟨j', h2, h3⟩ := h.back hc
        exact ⟨j', h2, h3, hid⟩
    have hlink : ∀ {r : Task}, r ∈ s.ds.activeOf m.id → subJobRef r ≠ 0 → Linked d0 a (subJobRef r) := by
      intro r hr hs
      obtain ⟨h1, h2, -, h4⟩ := (act r).1 hr
      unfold subJobRef at hs ⊢
      cases h5 : r.subJob with
      | none => rw [h5] at hs; exact absurd rfl hs
      | some d =>
        rw [h5] at hs
        exact .down h1 (by rw [h2]; exact hm2) h4 h5 hs
    refine ⟨⟨m.id, ?_⟩, ?_⟩
    · constructor
      · show s'.ds.tasks = _
        rw [e1, show s.ds.tasks = d0.tasks.map (CancelTree.after H) from h.tasks, List.map_map]
        congr 1
        funext r
        exact stopped_after H m.id r
      · intro k
        show s'.ds.job? k = _
        rw [e2, show s.ds.job? k = _ from h.jobs k]
        by_cases hk : k = m.id
        · rw [if_pos hk, if_pos (show k ∈ m.id :: H by simp [hk])]
          split
          · rw [Option.map_map]; congr 1; funext j; exact cancelledJob_idem j
          · rfl
        · rw [if_neg hk]
          by_cases hH : k ∈ H
          · rw [if_pos hH, if_pos (show k ∈ m.id :: H by simp [hH])]
          · rw [if_neg hH, if_neg (by simp [hk, hH])]
      · show s'.ds.nodes = _
        rw [e3]; exact h.nodes
      · intro c hc
        rcases List.mem_append.1 hc with hc | hc
        · exact h.todo c (by rcases List.mem_append.1 hc with hc | hc <;> simp [hc])
        · rw [mem_jobMsgs, hout'] at hc
          rcases List.mem_append.1 hc with hc | hc
          · obtain ⟨h1, p, pj, h2, h3, rfl⟩ := up_job hc
            obtain ⟨pj', h4, h5⟩ := h.back h3
            rw [show s.ds.task? _ = _ from h.task? _] at h2
            obtain ⟨p0, h6, rfl⟩ := Option.map_eq_some_iff.1 h2
            have hpid : pj.id = p0.jobID := by rw [(job?_mem h3).2, after_job]
            refine ⟨rfl, ?_, pj', ?_, h5⟩
            · show Linked d0 a pj.id
              rw [hpid]
              exact .up hm2 hm3 (by rw [← hjp]; exact h1) (by rw [← hjp]; exact h6)
            · show d0.job? pj.id = _
              rw [hpid, ← after_job H p0]; exact h4
          · obtain ⟨r, hr, hc⟩ := List.mem_flatMap.1 hc
            obtain ⟨h1, sj, h2, rfl⟩ := down_job hc
            obtain ⟨j', h3, h4, h5⟩ := kj h2
            exact ⟨rfl, by show Linked d0 a sj.id; rw [h5]; exact hlink hr h1, j', by show d0.job? sj.id = _; rw [h5]; exact h3, h4⟩
      · rcases h.start with h1 | h1
        · exact .inl (List.mem_cons_of_mem _ h1)
        · simp only [List.map_append, List.map_cons, List.mem_append, List.mem_cons] at h1 ⊢
          grind
      · intro k hk i p h1 h2 h3
        rcases List.mem_cons.1 hk with rfl | hk
        · rw [hm3] at h1
          cases h1
          right
          have h4 : s.ds.task? j0.parentID = some (CancelTree.after H p) := by rw [show s.ds.task? _ = _ from h.task? _, h3]; rfl
          obtain ⟨p', pj, h5, h6, -⟩ := hFN.parent _ _ hj (by rw [hjp]; exact h2)
          rw [hjp, h4] at h5
          cases h5
          have : Msg.job { pj with state := .cancelled } ∈ s'.out := by
            rw [hout']
            refine List.mem_append_left _ ?_
            unfold upMsgs
            rw [if_neg (by rw [hjp]; exact h2), hjp, h4]
            simp only
            rw [h6]
            simp
          refine List.mem_map.2 ⟨_, List.mem_append_right _ (mem_jobMsgs.2 this), ?_⟩
          show pj.id = _
          rw [(job?_mem h6).2, after_job]
        · have := h.up k hk i p h1 h2 h3
          simp only [List.map_append, List.map_cons, List.mem_append, List.mem_cons] at this ⊢
          grind
      · intro r h1 h2 h3 d h4 h5
        by_cases hH : r.jobID ∈ H
        · have := h.down r h1 hH h3 d h4 h5
          simp only [List.map_append, List.map_cons, List.mem_append, List.mem_cons] at this ⊢
          grind
        · have h6 : r.jobID = m.id := (List.mem_cons.1 h2).resolve_right hH
          have hr := (act r).2 ⟨h1, h6, h6 ▸ hH, h3⟩
          have href : subJobRef r = d.id := by unfold subJobRef; rw [h4]
          obtain ⟨sj, h7⟩ := (hF.refs r h1 h3).1 (by rw [href]; exact h5)
          obtain ⟨sj', h8, -⟩ := h.kept h7
          have h9 : ∃ c, ds1.job? (subJobRef r) = some c := by
            rw [f1, h8]
            split
            · exact ⟨_, rfl⟩
            · exact ⟨_, rfl⟩
          obtain ⟨c, hc⟩ := h9
          right
          have : Msg.job { c with state := .cancelled } ∈ s'.out := by
            rw [hout']
            refine List.mem_append_right _ (List.mem_flatMap.2 ⟨r, hr, ?_⟩)
            unfold cancelMsgs
            rw [if_pos (by rw [href]; exact h5), hc]
            simp
          refine List.mem_map.2 ⟨_, List.mem_append_right _ (mem_jobMsgs.2 this), ?_⟩
          show c.id = _
          rw [(job?_mem hc).2, href]
      · intro k hk
        rcases List.mem_cons.1 hk with rfl | hk
        · exact hm2
        · exact h.linked k hk
      · intro q t
        have hn : ∀ i, ds1.node? i = d0.node? i := by
          intro i; unfold DS.node?; rw [f2, show s.ds.nodes = _ from h.nodes]
        simp only [List.mem_append, h.told q t, mem_taskMsgs, hout', List.mem_flatMap, act, down_task, hn]
        constructor
        · rintro (⟨r, h1, h2, h3⟩ | hc | ⟨r, ⟨h1, h2, h3, h4⟩, h5, h6, h7⟩)
          · exact ⟨r, h1, List.mem_cons_of_mem _ h2, h3⟩
          · exact (up_task hc).elim
          · exact ⟨r, h1, by simp [h2], h4, h5, h6, h7⟩
        · rintro ⟨r, h1, h2, h3, h4, h5, h6⟩
          by_cases hH : r.jobID ∈ H
          · exact .inl ⟨r, h1, hH, h3, h4, h5, h6⟩
          · have h7 : r.jobID = m.id := (List.mem_cons.1 h2).resolve_right hH
            exact .inr (.inr ⟨r, ⟨h1, h7, h7 ▸ hH, h3⟩, h4, h5, h6⟩)
    · unfold measure
      dsimp only
      rw [e1, hout', jobMsgs_append]
      have h1 := sum_split depth m.id s.ds.tasks
      have h2 := sum_down depth ds1 (s.ds.activeOf m.id) fun r hr => ((act r).1 hr).2.2.2
      have h3 : ((jobMsgs (upMsgs s.ds j)).map fun m => depth m.id + 1).sum ≤ depth m.id := by
        unfold upMsgs
        by_cases hp : j.parentID = 0
        · rw [if_pos hp]; simp [jobMsgs]
        · rw [if_neg hp]
          obtain ⟨p, pj, k1, k2, k3⟩ := hFN.parent _ _ hj hp
          rw [k1]
          simp only
          rw [k2]
          have := (job?_mem k2).2
          simp [jobMsgs, this]
          omega
      unfold DS.activeOf at h2 ⊢
      simp only [List.map_append, List.map_cons, List.sum_append, List.sum_cons]
      omega

theorem Inv.deals {C : Cfg} {fuel : Nat} {d0 : DS} {a : Nat} {N N' : Net} {depth : Nat → Nat} (hF : Forest d0 depth) {n : Nat}
    (hd : Deals C fuel n N N') {H : List Nat} (h : Inv d0 a H N) : (∃ H', Inv d0 a H' N') ∧ n + measure depth N' ≤ measure depth N := by
  induction hd with
  | none => exact ⟨⟨H, h⟩, by omega⟩
  | more _ hs ih =>
    obtain ⟨⟨H', h1⟩, h2⟩ := ih h
    obtain ⟨⟨k, h3⟩, h4⟩ := h1.deal hF hs
    exact ⟨⟨_, h3⟩, by omega⟩

theorem Inv.step {C : Cfg} {fuel : Nat} {d0 : DS} {a : Nat} {H : List Nat} {N : Net} {depth : Nat → Nat} (hF : Forest d0 depth) (h : Inv d0 a H N)
    {m : Job} (hm : m ∈ N.todo) : ∃ N', Deal C fuel N N' := by
  obtain ⟨ds, todo, told⟩ := N
  obtain ⟨l1, l2, rfl⟩ := List.append_of_mem hm
  obtain ⟨hm1, hm2, j0, hm3, hm4⟩ := h.todo m (by simp)
  obtain ⟨j, hj, hjp, hjid⟩ := h.kept hm3
  obtain ⟨s2, g1, g2⟩ := handles_cancel C fuel (s := { ds := ds }) (h.forest hF) hm1 hj (by rw [hjp]; exact hm4)
  exact ⟨_, .handle l1 l2 m told { ds := ds } s2 rfl g1⟩

/-! ## C79 -/

/-- **C79 (it comes to an end).** Whatever the order in which they are handled, a cancellation leads to a bounded number of cancellations. -/
theorem C79_ends (C : Cfg) (fuel : Nat) {ds : DS} {depth : Nat → Nat} (hF : Forest ds depth) {j : Job} (hj : ds.job? j.id = some j) :
    ∃ B, ∀ n N, Deals C fuel n ⟨ds, [cancellation j], []⟩ N → n ≤ B :=
  ⟨measure depth ⟨ds, [cancellation j], []⟩, fun n N h => by
    have := (Inv.deals hF h (.init hj)).2
    omega⟩

/-- **C79 (it does not get stuck).** Each of the cancellations can be handled without an error, at any time, so that in the end none is
left. -/
theorem C79_completes (C : Cfg) (fuel : Nat) {ds : DS} {depth : Nat → Nat} (hF : Forest ds depth) {j : Job} (hj : ds.job? j.id = some j)
    {n : Nat} {N : Net} (h : Deals C fuel n ⟨ds, [cancellation j], []⟩ N) :
    (∀ m ∈ N.todo, ∃ s', Handles C fuel (.job m) { ds := N.ds } s') ∧
    ∃ n' N', Deals C fuel n' ⟨ds, [cancellation j], []⟩ N' ∧ n ≤ n' ∧ N'.todo = [] := by
  constructor
  · intro m hm
    obtain ⟨⟨H, hI⟩, -⟩ := Inv.deals hF h (.init hj)
    obtain ⟨hm1, hm2, j0, hm3, hm4⟩ := hI.todo m hm
    obtain ⟨i, hi, hip, -⟩ := hI.kept hm3
    obtain ⟨s2, g1, -⟩ := handles_cancel C fuel (s := { ds := N.ds }) (hI.forest hF) hm1 hi (by rw [hip]; exact hm4)
    exact ⟨s2, g1⟩
  · generalize hk : measure depth N = k
    induction k using Nat.strongRecOn generalizing n N with
    | _ k ih =>
      obtain ⟨⟨H, hI⟩, -⟩ := Inv.deals hF h (.init hj)
      cases ht : N.todo with
      | nil => exact ⟨n, N, h, Nat.le_refl _, ht⟩
      | cons m l =>
        obtain ⟨N', hN'⟩ := hI.step (C := C) (fuel := fuel) hF (m := m) (by rw [ht]; simp)
        have h2 := (hI.deal hF hN').2
        obtain ⟨n', N'', h3, h4, h5⟩ := ih _ (by rw [← hk]; exact h2) (.more h hN') rfl
        exact ⟨n', N'', h3, by omega, h5⟩

open Classical in
/-- **C79 (it reaches exactly the connected jobs).** When all cancellations have been handled, in any order: every job connected with the
cancelled one that was SCHEDULED or RUNNING is CANCELLED, every active task of the connected jobs is CANCELLED, and nothing else has
changed; and each node that runs one of those tasks has been told, and no other. -/
theorem C79_reaches (C : Cfg) (fuel : Nat) {ds : DS} {depth : Nat → Nat} (hF : Forest ds depth) {j : Job} (hj : ds.job? j.id = some j)
    {n : Nat} {N : Net} (h : Deals C fuel n ⟨ds, [cancellation j], []⟩ N) (hend : N.todo = []) :
    (∀ k, N.ds.job? k = (ds.job? k).map fun i => if Linked ds j.id k then cancelledJob i else i) ∧
    N.ds.tasks = (ds.tasks.map fun r => if Linked ds j.id r.jobID ∧ r.state.isActive = true then { resave r with state := .cancelled } else r) ∧
    ∀ q t, (q, t) ∈ N.told ↔ ∃ r ∈ ds.tasks, Linked ds j.id r.jobID ∧ r.state.isActive = true ∧ subJobRef r = 0 ∧ r.nodeID ≠ 0 ∧
      ∃ n, ds.node? r.nodeID = some n ∧ q = n.queue ∧ t = { r with state := .cancelled } := by
  obtain ⟨⟨H, hI⟩, -⟩ := Inv.deals hF h (.init hj)
  have hH : ∀ k, Linked ds j.id k ↔ k ∈ H := by
    intro k
    refine ⟨fun hl => ?_, hI.linked k⟩
    induction hl with
    | self => simpa [hend] using hI.start
    | up _ h1 h2 h3 ih => simpa [hend] using hI.up _ ih _ _ h1 h2 h3
    | down h1 _ h3 h4 h5 ih => simpa [hend] using hI.down _ h1 ih h3 _ h4 h5
  refine ⟨fun k => ?_, ?_, fun q t => ?_⟩
  · rw [hI.jobs]
    by_cases hk : k ∈ H
    · rw [if_pos hk]; simp only [(hH k).2 hk, if_true]
    · rw [if_neg hk]; simp [hH k, hk]
  · rw [hI.tasks]
    refine List.map_congr_left fun r _ => ?_
    unfold after
    simp only [hH]
  · rw [hI.told]
    simp only [hH]

/-! ## A concrete case, and a defect -/

namespace Ex
open FanoutEx (cfg)
open SubJobsEx (sys2 job sub outer last def1)

/-- Job 1 runs task 5, whose sub-job 9 runs task 30 on node 3. -/
theorem forest : Forest sys2.ds (fun k => if k = 9 then 1 else 0) where
  ids := by decide
  parent := by
    intro k j hj hp
    obtain ⟨h1, h2⟩ := job?_mem hj
    simp only [sys2, List.mem_cons, List.not_mem_nil, or_false] at h1
    rcases h1 with rfl | rfl
    · exact absurd rfl hp
    · subst h2
      exact ⟨outer .running false 9, job, rfl, rfl, by decide⟩
  refs := by
    intro r hr _
    simp only [sys2, List.mem_cons, List.not_mem_nil, or_false] at hr
    rcases hr with rfl | rfl
    · exact ⟨fun _ => ⟨sub, rfl⟩, fun h => absurd h (by decide)⟩
    · exact ⟨fun h => absurd rfl h, fun _ _ => ⟨_, rfl⟩⟩

example := C79_ends cfg 3 forest (j := sub) rfl
example := (C79_completes cfg 3 forest (j := sub) rfl (.none _)).2

/-- cancelling the sub-job reaches job 1, and cancelling job 1 the sub-job -/
example : Linked sys2.ds 9 1 := .up (j := sub) (p := outer .running false 9) .self rfl (by decide) rfl
example : Linked sys2.ds 1 9 :=
  .down (r := outer .running false 9) (d := { def1 false with id := 9 }) (by simp [sys2]) (.self (ds := sys2.ds) (a := 1)) rfl rfl (by decide)

def go (m : Msg) (s : Sys) : Option Res × Sys := match coordinatorHandler cfg 5 m with | some p => p.exec s | none => (none, s)

theorem go_handles {m : Msg} {s : Sys} (h : (go m s).1 = some none) : Handles cfg 5 m s (go m s).2 := by
  unfold go at h ⊢
  cases hp : coordinatorHandler cfg 5 m with
  | none => rw [hp] at h; cases h
  | some p =>
    rw [hp] at h
    refine ⟨p, hp, ?_⟩
    simp only at h ⊢
    rw [← h]

/-- the `i`-th job message sent so far -/
def sent (s : Sys) (i : Nat) : Job := (jobMsgs s.out).getD i {}

theorem sent_mem {s : Sys} {i : Nat} (h : i < (jobMsgs s.out).length) : Msg.job (sent s i) ∈ s.out := by
  unfold sent
  rw [List.getD_eq_getElem?_getD, List.getElem?_eq_getElem h]
  exact mem_jobMsgs.1 (List.getElem_mem h)

def s1 : Sys := (go (.job (cancellation job)) sys2).2
def s2 : Sys := ((apiRestart 1).exec s1).2
def s3 : Sys := (go (.job (sent s2 1)) s2).2
def s4 : Sys := (go (.job (sent s1 0)) s3).2
def s5 : Sys := (go (.job (sent s4 2)) s4).2

end Ex

/-- **C79 (defect).** The cancellation that a cancelled sub-job sends back to its parent job may come after that job was restarted, and then
cancels it again: job 1, which has the running sub-job 9, is cancelled; the user restarts it, the restart is accepted and carried out;
then the cancellation of job 9 is handled, which sends one of job 1, and when that is handled job 1 is CANCELLED, together with the task the
restart created. -/
theorem C79_echo_undoes_restart : ∃ (C : Cfg) (fuel : Nat) (s0 s1 s2 s3 s4 s5 : Sys) (p down r echo : Job),
    (s0.ds.job? 1).map (·.state) = some .running ∧ p.id = 1 ∧ p.state = .cancelled ∧
    Handles C fuel (.job p) s0 s1 ∧ Msg.job down ∈ s1.out ∧ down.id = 9 ∧ (s1.ds.job? 1).map (·.state) = some .cancelled ∧
    (∃ x, (apiRestart 1).exec s1 = (some (.ok x), s2)) ∧ Msg.job r ∈ s2.out ∧ r.state = .restart ∧
    Handles C fuel (.job r) s2 s3 ∧ (s3.ds.job? 1).map (·.state) = some .running ∧ (s3.ds.task? 40).map (·.state) = some .pending ∧
    Handles C fuel (.job down) s3 s4 ∧ Msg.job echo ∈ s4.out ∧ echo.id = 1 ∧
    Handles C fuel (.job echo) s4 s5 ∧ (s5.ds.job? 1).map (·.state) = some .cancelled ∧ (s5.ds.task? 40).map (·.state) = some .cancelled := by
  refine ⟨FanoutEx.cfg, 5, SubJobsEx.sys2, Ex.s1, Ex.s2, Ex.s3, Ex.s4, Ex.s5, cancellation SubJobsEx.job, Ex.sent Ex.s1 0, Ex.sent Ex.s2 1, Ex.sent Ex.s4 2,
    rfl, rfl, rfl, Ex.go_handles (by decide +kernel), Ex.sent_mem (by decide +kernel), by decide +kernel, by decide +kernel, ⟨(), ?_⟩,
    Ex.sent_mem (by decide +kernel), by decide +kernel, Ex.go_handles (by decide +kernel), by decide +kernel, by decide +kernel,
    Ex.go_handles (by decide +kernel), Ex.sent_mem (by decide +kernel), by decide +kernel, Ex.go_handles (by decide +kernel),
    by decide +kernel, by decide +kernel⟩
  have : ((apiRestart 1).exec Ex.s1).1.map (fun h => match h with | .ok _ => true | _ => false) = some true := by decide +kernel
  show (apiRestart 1).exec Ex.s1 = (_, ((apiRestart 1).exec Ex.s1).2)
  generalize (apiRestart 1).exec Ex.s1 = z at this ⊢
  obtain ⟨o, s⟩ := z
  cases o with
  | none => cases this
  | some o => cases o <;> first | rfl | cases this

end Tork.CancelTree

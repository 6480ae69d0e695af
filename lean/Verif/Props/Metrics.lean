import Verif.Metrics
/-!
# C93 — metrics
-/

namespace Tork.Metrics

/-- **C93, jobs.** The number of jobs that are running at the moment of the query: of the jobs, whose ids differ, exactly these. -/
theorem C93_jobs (db1 db2 : Rel) (n3 n4 : Nat) (ns3 ns4 : List Node) : ∃ l : List Job, l.Sublist db1.jobs ∧
    (∀ j, j ∈ l ↔ j ∈ db1.jobs ∧ j.state = .running) ∧ (getMetrics db1 db2 n3 ns3 n4 ns4).jobsRunning = l.length :=
  ⟨db1.jobs.filter fun j => j.state = .running, List.filter_sublist, fun j => by simp [List.mem_filter], rfl⟩

theorem one_row (t : Task) (jobs : List Job) (h : (jobs.map (·.id)).Nodup) :
    (jobs.filter fun j => t.jobID = j.id && t.state = .running && j.state = .running).length =
      if t.state = .running ∧ ∃ j ∈ jobs, j.id = t.jobID ∧ j.state = .running then 1 else 0 := by
  induction jobs with
  | nil => simp
  | cons a l ih =>
    simp only [List.map_cons, List.nodup_cons] at h
    have ih := ih h.2
    by_cases hr : t.state = .running
    · by_cases hid : t.jobID = a.id
      · have hno : ∀ j ∈ l, j.id ≠ t.jobID := fun j hj e => h.1 (List.mem_map.mpr ⟨j, hj, e.trans hid⟩)
        rw [if_neg (by rintro ⟨_, j, hj, e, _⟩; exact hno j hj e)] at ih
        have hl := List.length_eq_zero_iff.mp ih
        simp only [List.filter_cons]
        rw [hl]
        by_cases ha : a.state = .running
        · simp [hid, hr, ha]
        · have : ¬ ∃ j ∈ a :: l, j.id = t.jobID ∧ j.state = .running := by
            rintro ⟨j, hj, e, hs⟩
            rcases List.mem_cons.mp hj with rfl | hj
            · exact ha hs
            · exact hno j hj e
          have h2 : ¬ (t.state = .running ∧ ∃ j ∈ a :: l, j.id = t.jobID ∧ j.state = .running) := fun x => this x.2
          rw [if_neg h2]
          simp [ha]
      · have e : (∃ j ∈ a :: l, j.id = t.jobID ∧ j.state = .running) ↔ ∃ j ∈ l, j.id = t.jobID ∧ j.state = .running := by
          constructor
          · rintro ⟨j, hj, e, hs⟩
            rcases List.mem_cons.mp hj with rfl | hj
            · exact absurd e.symm hid
            · exact ⟨j, hj, e, hs⟩
          · rintro ⟨j, hj, e⟩; exact ⟨j, List.mem_cons_of_mem _ hj, e⟩
        rw [ite_cond_congr (propext (and_congr Iff.rfl e)), ← ih]
        simp [List.filter_cons, hid]
    · simp [hr]

/-- **C93, tasks.** The number of tasks that are running and whose job is running at the moment of the query, each counted once. -/
theorem C93_tasks (db1 db2 : Rel) (n3 n4 : Nat) (ns3 ns4 : List Node) (h : (db2.jobs.map (·.id)).Nodup) : ∃ l : List Task, l.Sublist db2.tasks ∧
    (∀ t, t ∈ l ↔ t ∈ db2.tasks ∧ t.state = .running ∧ ∃ j ∈ db2.jobs, j.id = t.jobID ∧ j.state = .running) ∧
    (getMetrics db1 db2 n3 ns3 n4 ns4).tasksRunning = l.length := by
  classical
  refine ⟨db2.tasks.filter fun t => decide (t.state = .running ∧ ∃ j ∈ db2.jobs, j.id = t.jobID ∧ j.state = .running), List.filter_sublist,
    fun t => by simp [List.mem_filter], ?_⟩
  show tasksRunning db2 = _
  unfold tasksRunning
  generalize db2.tasks = ts
  induction ts with
  | nil => rfl
  | cons t ts ih =>
    rw [List.flatMap_cons, List.length_append, ih, List.length_map, one_row t db2.jobs h, List.filter_cons]
    by_cases hc : t.state = .running ∧ ∃ j ∈ db2.jobs, j.id = t.jobID ∧ j.state = .running
    · rw [if_pos hc, if_pos (by simpa using hc), List.length_cons]; omega
    · rw [if_neg hc, if_neg (by simpa using hc)]; omega

/-- **C93, nodes.** As many nodes as `GET /nodes` lists at the same moment. -/
theorem C93_nodes (db1 db2 : Rel) (n3 n4 : Nat) (ns3 ns4 : List Node) :
    (getMetrics db1 db2 n3 ns3 n4 ns4).nodesOnline = (NodeStore.getActiveNodes n3 ns3).length := by
  simp [getMetrics, online, NodeStore.getActiveNodes]

theorem sum_le (l : List Rat) (b : Rat) (h : ∀ x ∈ l, x ≤ b) : l.sum ≤ (l.length : Rat) * b := by
  induction l with
  | nil => simp
  | cons a l ih =>
    have h1 := h a List.mem_cons_self
    have h2 := ih fun x hx => h x (List.mem_cons_of_mem _ hx)
    rw [List.sum_cons, List.length_cons]
    have : ((l.length + 1 : Nat) : Rat) * b = (l.length : Rat) * b + b := by
      rw [Rat.natCast_add, Rat.add_mul]; simp
    rw [this]
    grind

theorem le_sum (l : List Rat) (b : Rat) (h : ∀ x ∈ l, b ≤ x) : (l.length : Rat) * b ≤ l.sum := by
  induction l with
  | nil => simp
  | cons a l ih =>
    have h1 := h a List.mem_cons_self
    have h2 := ih fun x hx => h x (List.mem_cons_of_mem _ hx)
    rw [List.sum_cons, List.length_cons]
    have : ((l.length + 1 : Nat) : Rat) * b = (l.length : Rat) * b + b := by
      rw [Rat.natCast_add, Rat.add_mul]; simp
    rw [this]
    grind

/-- **C93, load.** The average of the nodes' loads: times their number it is their sum; without a node it is 0. -/
theorem C93_load (db1 db2 : Rel) (n3 n4 : Nat) (ns3 ns4 : List Node) :
    (getMetrics db1 db2 n3 ns3 n4 ns4).cpuPercent * ((online n4 ns4).length : Rat) = ((online n4 ns4).map (·.cpuPercent)).sum ∧
    (online n4 ns4 = [] → (getMetrics db1 db2 n3 ns3 n4 ns4).cpuPercent = 0) := by
  refine ⟨?_, fun h => by simp [getMetrics, cpuPercent, h]⟩
  show cpuPercent n4 ns4 * _ = _
  unfold cpuPercent
  by_cases h : (online n4 ns4).length = 0
  · have := List.length_eq_zero_iff.mp h
    simp [this]
  · simp only [h, if_false]
    have h0 : ((online n4 ns4).length : Rat) ≠ 0 := by
      intro e; exact h (Rat.natCast_eq_zero_iff.mp e)
    rw [Rat.div_mul_cancel h0]

/-- … and it is a percentage if each of them is. -/
theorem C93_percentage (db1 db2 : Rel) (n3 n4 : Nat) (ns3 ns4 : List Node) (h : ∀ n ∈ ns4, 0 ≤ n.cpuPercent ∧ n.cpuPercent ≤ 100) :
    0 ≤ (getMetrics db1 db2 n3 ns3 n4 ns4).cpuPercent ∧ (getMetrics db1 db2 n3 ns3 n4 ns4).cpuPercent ≤ 100 := by
  have hm := (C93_load db1 db2 n3 n4 ns3 ns4).1
  have h0 := (C93_load db1 db2 n3 n4 ns3 ns4).2
  generalize (getMetrics db1 db2 n3 ns3 n4 ns4).cpuPercent = c at hm h0 ⊢
  have hh : ∀ x ∈ (online n4 ns4).map (·.cpuPercent), 0 ≤ x ∧ x ≤ 100 := by
    intro x hx
    obtain ⟨n, hn, rfl⟩ := List.mem_map.mp hx
    exact h n (List.mem_filter.mp hn).1
  have h1 := sum_le _ 100 fun x hx => (hh x hx).2
  have h2 := le_sum _ 0 fun x hx => (hh x hx).1
  rw [List.length_map] at h1 h2
  rw [← hm] at h1 h2
  by_cases he : online n4 ns4 = []
  · rw [h0 he]; decide
  · have hp : (0 : Rat) < ((online n4 ns4).length : Rat) := by
      have : 0 < (online n4 ns4).length := List.length_pos_iff.mpr he
      exact_mod_cast Rat.natCast_lt_natCast.mpr this
    constructor
    · rw [Rat.mul_zero] at h2
      exact Rat.le_of_mul_le_mul_right (by rw [Rat.zero_mul]; exact h2) hp
    · refine Rat.le_of_mul_le_mul_right ?_ hp
      rw [Rat.mul_comm 100]; exact h1

/-- The defect: the queries are not one transaction; a running task may be reported with no running job, although there was never a moment with one
but not the other. -/
theorem C93_torn_defect : ∃ a b : Rel, (∀ db, db = a ∨ db = b → (0 < tasksRunning db ↔ 0 < jobsRunning db)) ∧
    (getMetrics a b 0 [] 0 []).jobsRunning = 0 ∧ (getMetrics a b 0 [] 0 []).tasksRunning = 1 := by
  refine ⟨{}, { jobs := [{ id := 1, state := .running }], tasks := [{ id := 2, jobID := 1, state := .running }] }, ?_, ?_, ?_⟩
  · rintro db (rfl | rfl) <;> decide +kernel
  · decide +kernel
  · decide +kernel

/-! ### A concrete case -/

/-- Two jobs, one running; three running tasks, one of them of the job that is not; two nodes. -/
example : let jobs : List Job := [{ id := 1, state := .running }, { id := 2, state := .cancelled }]
    let tasks : List Task := [{ id := 1, jobID := 1, state := .running }, { id := 2, jobID := 1, state := .running }, { id := 3, jobID := 2, state := .running },
        { id := 4, jobID := 1, state := .completed }]
    let db : Rel := { jobs := jobs, tasks := tasks }
    let nodes : List Node := [{ id := 1, cpuPercent := 10, lastHeartbeatAt := 1000 }, { id := 2, cpuPercent := 30, lastHeartbeatAt := 1000 }]
    (db.jobs.map (·.id)).Nodup ∧ jobsRunning db = 1 ∧ tasksRunning db = 2 ∧ cpuPercent 1001 nodes = 20 := by
  decide +kernel

end Tork.Metrics

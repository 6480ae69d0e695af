import Verif.SafeEnv
import Verif.Drive
/-!
# Life cycle of jobs and tasks (C01–C08, C11, C12, C44, C45): theorems about every reachable world

The quantification is over every environment `E` that submits definitions (`E.WellFormed`), every reachable
world `w` (any number of goroutines stopped at any operation, any messages in flight) and every next step:
an operation of any goroutine with any fault, a crash, a delivery, a loss, a duplicate of any message except
those that start a job, a new request.
-/

namespace Tork
open Prog

variable {E : Env}

/-! ## C01 – C03 jobs -/

/-- C01: in every step of the system a job keeps its state or moves along an edge of its life cycle, is never
removed, and new jobs are PENDING. The edge FAILED/CANCELLED → RUNNING needs a restart request. -/
theorem C01_job_lifecycle (hE : E.WellFormed) {w w' : World} (hw : Reachable E w) (hs : Step E w w') :
    (∀ id a, w.ds.job? id = some a → ∃ b, w'.ds.job? id = some b ∧
      (b.state = a.state ∨ JobEdge (E.restartOK id) a.state b.state)) ∧
    (∀ id b, w.ds.job? id = none → w'.ds.job? id = some b → b.state = .pending) := by
  have h := reachable_step (env_safe hE) hw hs
  refine ⟨fun id a ha => ?_, fun id b h1 h2 => (h.newJobs id b h1 h2).1⟩
  obtain ⟨b, hb, _, hst⟩ := h.jobs id a ha
  exact ⟨b, hb, hst⟩

/-- The states a job goes through over a whole history. -/
inductive JobPath (R : Prop) : JobState → JobState → Prop
  | refl (s : JobState) : JobPath R s s
  | step {a b c : JobState} : JobPath R a b → JobEdge R b c → JobPath R a c

/-- C01 over histories: between two points of a history the state of a job changed along a path of
edges. -/
theorem C01_job_history (hE : E.WellFormed) {w w' : World} (hw : Reachable E w) (hs : Steps E w w')
    {id : Nat} {a : Job} (ha : w.ds.job? id = some a) :
    ∃ b, w'.ds.job? id = some b ∧ JobPath (E.restartOK id) a.state b.state := by
  induction hs with
  | refl => exact ⟨a, ha, .refl _⟩
  | tail h1 h2 ih =>
    obtain ⟨b, hb, hp⟩ := ih
    obtain ⟨c, hc, he⟩ := (C01_job_lifecycle hE (Steps.trans hw h1) h2).1 id b hb
    refine ⟨c, hc, ?_⟩
    rcases he with he | he
    · rw [he]; exact hp
    · exact .step hp he

/-- C02: COMPLETED is final, over every continuation. -/
theorem C02_completed_final (hE : E.WellFormed) {w w' : World} (hw : Reachable E w) (hs : Steps E w w')
    {id : Nat} {a : Job} (ha : w.ds.job? id = some a) (hc : a.state = .completed) :
    ∃ b, w'.ds.job? id = some b ∧ b.state = .completed := by
  induction hs with
  | refl => exact ⟨a, ha, hc⟩
  | tail h1 h2 ih =>
    obtain ⟨b, hb, hbc⟩ := ih
    obtain ⟨c, hcc, he⟩ := (C01_job_lifecycle hE (Steps.trans hw h1) h2).1 id b hb
    refine ⟨c, hcc, ?_⟩
    rcases he with he | he
    · rw [he, hbc]
    · rw [hbc] at he
      generalize c.state = y at he
      cases he <;> simp_all

/-- C03: a FAILED or CANCELLED job changes its state only to RUNNING, and only if a restart was requested. -/
theorem C03_leave_only_by_restart (hE : E.WellFormed) {w w' : World} (hw : Reachable E w) (hs : Step E w w')
    {id : Nat} {a : Job} (ha : w.ds.job? id = some a) (hc : a.state = .failed ∨ a.state = .cancelled) :
    ∃ b, w'.ds.job? id = some b ∧ (b.state = a.state ∨ (b.state = .running ∧ E.restartOK id)) := by
  obtain ⟨b, hb, he⟩ := (C01_job_lifecycle hE hw hs).1 id a ha
  refine ⟨b, hb, ?_⟩
  rcases he with he | he
  · exact .inl he
  · right
    generalize a.state = x at *
    generalize b.state = y at *
    cases he with
    | restart hr _ => exact ⟨rfl, hr⟩
    | start => rcases hc with h | h <;> cases h
    | run => rcases hc with h | h <;> cases h
    | complete h1 => rcases hc with h | h <;> rcases h1 with h1 | h1 <;> simp_all
    | fail h1 => rcases hc with h | h <;> rcases h1 with h1 | h1 <;> simp_all
    | cancel h1 => rcases hc with h | h <;> rcases h1 with h1 | h1 <;> simp_all

/-- C03 over histories: without restart requests for it, a FAILED (CANCELLED) job stays FAILED
(CANCELLED). -/
theorem C03_stays (hE : E.WellFormed) {w w' : World} (hw : Reachable E w) (hs : Steps E w w')
    {id : Nat} (hr : ¬ E.restartOK id) {a : Job} (ha : w.ds.job? id = some a)
    (hc : a.state = .failed ∨ a.state = .cancelled) :
    ∃ b, w'.ds.job? id = some b ∧ b.state = a.state := by
  induction hs with
  | refl => exact ⟨a, ha, rfl⟩
  | tail h1 h2 ih =>
    obtain ⟨b, hb, hbs⟩ := ih
    obtain ⟨c, hc', h⟩ := C03_leave_only_by_restart hE (Steps.trans hw h1) h2 hb (by rw [hbs]; exact hc)
    refine ⟨c, hc', ?_⟩
    rcases h with h | h
    · rw [h, hbs]
    · exact absurd h.2 hr

/-! ## C04 tasks -/

/-- C04: no task row is ever removed, and its state changes along an edge of the task life cycle. -/
theorem C04_task_lifecycle (hE : E.WellFormed) {w w' : World} (hw : Reachable E w) (hs : Step E w w')
    {id : Nat} {a : Task} (ha : w.ds.task? id = some a) :
    ∃ b, w'.ds.task? id = some b ∧ (b.state = a.state ∨ TaskEdge a.composite a.state b.state) := by
  obtain ⟨b, hb, _, h⟩ := (reachable_step (env_safe hE) hw hs).tasks id a ha
  exact ⟨b, hb, h⟩

/-- C04: a cancelled or failed task never becomes COMPLETED; a completed, cancelled or skipped task never
becomes FAILED; a regular task that is not SCHEDULED never becomes RUNNING. -/
theorem C04_late_results (hE : E.WellFormed) {w w' : World} (hw : Reachable E w) (hs : Step E w w')
    {id : Nat} {a b : Task} (ha : w.ds.task? id = some a) (hb : w'.ds.task? id = some b) :
    (b.state = .completed → a.state = .completed ∨ a.state = .running ∨ a.state = .scheduled ∨ a.state = .skipped) ∧
    (b.state = .failed → a.state = .failed ∨ a.state = .created ∨ a.state = .pending ∨ a.state = .scheduled ∨
      a.state = .running) ∧
    (b.state = .running → a.state = .running ∨ a.state = .scheduled ∨
      a.parallel.isSome ∨ a.each.isSome ∨ a.subJob.isSome) := by
  obtain ⟨b', hb', h⟩ := C04_task_lifecycle hE hw hs ha
  rw [hb] at hb'; cases hb'
  refine ⟨fun hx => ?_, fun hx => ?_, fun hx => ?_⟩
  · rcases h with h | h
    · rw [← h, hx]; simp
    · rw [hx] at h
      generalize a.state = s at *
      cases h with | complete h => exact .inr h
  · rcases h with h | h
    · rw [← h, hx]; simp
    · rw [hx] at h
      generalize a.state = s at *
      cases h with | fail h => cases s <;> simp_all [TaskState.isActive]
  · rcases h with h | h
    · rw [← h, hx]; simp
    · rw [hx] at h
      generalize hst : a.state = s at *
      cases h with
      | compose _ hc =>
        simp only [Task.composite, Bool.or_eq_true] at hc
        rcases hc with (h | h) | h <;> simp [h]
      | start => simp

/-! ## C05, C06, C44: position -/

/-- C05: a task row of a job at top-level place `k` exists only if the job has reached place `k`. -/
theorem C05_task_needs_position (hE : E.WellFormed) {w : World} (hw : Reachable E w) {id : Nat} {t : Task}
    (ht : w.ds.task? id = some t) (hp : t.parentID = 0) (hk : 1 < t.position) :
    ∃ j, w.ds.job? t.jobID = some j ∧ t.position ≤ j.position := by
  obtain ⟨toks, G, hi⟩ := reachable_winv (env_safe hE) hw
  have h1 := hi.db.tasks id t ht
  rcases (hi.db.ghost _ _ h1.st).pos hp with h | ⟨p, h2, h3⟩
  · exact absurd h (Nat.not_le.2 hk)
  · obtain ⟨j, hj, _, hle⟩ := hi.db.pos _ _ h2
    exact ⟨j, hj, Nat.le_trans h3 hle⟩

/-- C05/C44: a job's position never decreases; it moves only to 1 when the job starts, or by exactly one in
a step in which a top-level task of this job that was RUNNING, SCHEDULED or SKIPPED is finished. That step changes no other
task, and what it does to the variables of the job is to record the result of this task. -/
theorem C05_position_moves (hE : E.WellFormed) {w w' : World} (hw : Reachable E w) (hs : Step E w w')
    {id : Nat} {a b : Job} (ha : w.ds.job? id = some a) (hb : w'.ds.job? id = some b) :
    b.position = a.position ∨
    (a.state = .pending ∧ a.position = 0 ∧ b.state = .scheduled ∧ b.position = 1 ∧ b.context = a.context) ∨
    (b.position = a.position + 1 ∧ ∃ tid c c', w.ds.task? tid = some c ∧
      w'.ds.task? tid = some c' ∧ c.jobID = id ∧ c.parentID = 0 ∧
      ((c.state = .running ∨ c.state = .scheduled ∨ c.state = .skipped) ∧
        (c'.state = .completed ∨ c'.state = .skipped) ∧ c'.completedAt.isSome) ∧
      (∀ x, x ≠ tid → w'.ds.task? x = w.ds.task? x) ∧
      ∃ r, c'.result = sanitizeString r ∧ b.context = recordIn a.context c.var r) := by
  by_cases h : b.position = a.position
  · exact .inl h
  · right
    rcases (reachable_step (env_safe hE) hw hs).advance id a b ha hb h with h | ⟨_, h1⟩
    · exact .inl h
    · exact .inr h1

/-- C45/C05: no completion of a top-level task is lost: the step that makes it COMPLETED moves the job's
position by one. -/
theorem C45_toplevel_completion_atomic (hE : E.WellFormed) {w w' : World} (hw : Reachable E w)
    (hs : Step E w w') {id : Nat} {a b : Task} (ha : w.ds.task? id = some a) (hb : w'.ds.task? id = some b)
    (h1 : a.state ≠ .completed) (h2 : b.state = .completed) (hp : a.parentID = 0) :
    ∃ j j', w.ds.job? a.jobID = some j ∧ w'.ds.job? a.jobID = some j' ∧ j'.position = j.position + 1 := by
  obtain ⟨j, j', h3, h4, _, h5⟩ := ((reachable_step (env_safe hE) hw hs).done id a b ha hb h1 h2).1 hp
  exact ⟨j, j', h3, h4, h5⟩

/-- C45/C11/C12: no completion of a sub-task is lost: the step that makes it COMPLETED increments the
counter of its parent. -/
theorem C45_subtask_completion_atomic (hE : E.WellFormed) {w w' : World} (hw : Reachable E w)
    (hs : Step E w w') {id : Nat} {a b : Task} (ha : w.ds.task? id = some a) (hb : w'.ds.task? id = some b)
    (h1 : a.state ≠ .completed) (h2 : b.state = .completed) (hp : a.parentID ≠ 0) :
    ∃ p p', w.ds.task? a.parentID = some p ∧ w'.ds.task? a.parentID = some p' ∧ p'.count = p.count + 1 :=
  ((reachable_step (env_safe hE) hw hs).done id a b ha hb h1 h2).2 hp

/-- C11/C12: the counter of a parallel or each task changes only by one, in a step that finishes one of its
children. -/
theorem C11_counter_counts_completions (hE : E.WellFormed) {w w' : World} (hw : Reachable E w)
    (hs : Step E w w') {id : Nat} {a b : Task} (ha : w.ds.task? id = some a) (hb : w'.ds.task? id = some b) :
    b.count = a.count ∨ (b.count = a.count + 1 ∧ ∃ tid c c', w.ds.task? tid = some c ∧
      w'.ds.task? tid = some c' ∧ c.parentID = id ∧
      (c.state = .running ∨ c.state = .scheduled ∨ c.state = .skipped) ∧
      (c'.state = .completed ∨ c'.state = .skipped) ∧ c'.completedAt.isSome) := by
  by_cases h : b.count = a.count
  · exact .inl h
  · exact .inr ((reachable_step (env_safe hE) hw hs).counted id a b ha hb h)

/-- C05/C48: definition, place and owner of a job and of a task never change; only the execution columns
do. -/
theorem C48_definitions_immutable (hE : E.WellFormed) {w w' : World} (hw : Reachable E w) (hs : Step E w w') :
    (∀ id a, w.ds.job? id = some a → ∃ b, w'.ds.job? id = some b ∧ SameJob a b) ∧
    (∀ id a, w.ds.task? id = some a → ∃ b, w'.ds.task? id = some b ∧ SameTask a b) := by
  have h := reachable_step (env_safe hE) hw hs
  refine ⟨fun id a ha => ?_, fun id a ha => ?_⟩
  · obtain ⟨b, hb, hk, _⟩ := h.jobs id a ha; exact ⟨b, hb, hk⟩
  · obtain ⟨b, hb, hk, _⟩ := h.tasks id a ha; exact ⟨b, hb, hk⟩

/-! ## C07, C08: invariants of rows and messages -/

/-- C07: the progress recorded for a task is a percentage, in every reachable world. -/
theorem C07_task_progress (hE : E.WellFormed) {w : World} (hw : Reachable E w) {id : Nat} {t : Task}
    (ht : w.ds.task? id = some t) : 0 ≤ t.progress ∧ t.progress ≤ 100 := by
  obtain ⟨toks, G, hi⟩ := reachable_winv (env_safe hE) hw
  exact (hi.db.tasks id t ht).progress

/-- C08: whatever the history, no task row and no task message has more attempts than its limit. -/
theorem C08_attempts_bounded (hE : E.WellFormed) {w : World} (hw : Reachable E w) :
    (∀ id t r, w.ds.task? id = some t → t.retry = some r → r.attempts ≤ r.limit) ∧
    (∀ q t r, Msg.task q t ∈ w.msgs → t.retry = some r → r.attempts ≤ r.limit) := by
  obtain ⟨toks, G, hi⟩ := reachable_winv (env_safe hE) hw
  refine ⟨fun id t r ht hr => (hi.db.tasks id t ht).retry r hr, fun q t r hm hr => ?_⟩
  have : MsgTask G t := (hi.msgs _ hm).1
  exact this.retry r hr

/-! ## C06: completion of a job -/

/-- C06: a COMPLETED job has passed its last task, in every reachable world. -/
theorem C06_completed_past_last (hE : E.WellFormed) {w : World} (hw : Reachable E w) {id : Nat} {j : Job}
    (hj : w.ds.job? id = some j) (hc : j.state = .completed) : j.tasks.length < j.position := by
  obtain ⟨toks, G, hi⟩ := reachable_winv (env_safe hE) hw
  exact (hi.db.jobs id j hj).done hc

/-- A history of the system: the worlds passed through, oldest first. -/
inductive History (E : Env) : List (World × World) → World → Prop
  | init : History E [] {}
  | step {l : List (World × World)} {w w' : World} : History E l w → Step E w w' →
      History E (l ++ [(w, w')]) w'

theorem History.reachable {l : List (World × World)} {w : World} (h : History E l w) : Reachable E w := by
  induction h with
  | init => exact .refl _
  | step _ hs ih => exact .tail ih hs

/-- In this step a top-level task of job `id` is finished: it was RUNNING, SCHEDULED or SKIPPED and is
now COMPLETED or SKIPPED, with the time of completion recorded. -/
def FinishesTopLevel (id : Nat) (s : World × World) : Prop :=
  ∃ tid c c', s.1.ds.task? tid = some c ∧ s.2.ds.task? tid = some c' ∧ c.jobID = id ∧ c.parentID = 0 ∧
    (c.state = .running ∨ c.state = .scheduled ∨ c.state = .skipped) ∧
    (c'.state = .completed ∨ c'.state = .skipped) ∧ c'.completedAt.isSome

/-- In this step a top-level task of job `id` becomes COMPLETED. -/
def CompletesTopLevel (id : Nat) (s : World × World) : Prop :=
  ∃ tid c c', s.1.ds.task? tid = some c ∧ s.2.ds.task? tid = some c' ∧ c.jobID = id ∧ c.parentID = 0 ∧
    c.state ≠ .completed ∧ c'.state = .completed

open Classical in
/-- number of steps of the history with property `P` -/
noncomputable def stepsWith (P : World × World → Prop) (l : List (World × World)) : Nat :=
  (l.filter fun s => decide (P s)).length

theorem stepsWith_snoc (P : World × World → Prop) (l : List (World × World)) (s : World × World) :
    (P s → stepsWith P (l ++ [s]) = stepsWith P l + 1) ∧ (¬ P s → stepsWith P (l ++ [s]) = stepsWith P l) := by
  constructor <;> intro h <;> simp [stepsWith, h]

/-- C05/C06/C44: the position of a job counts its finished top-level tasks: it is at most one more than the
number of steps in which one was finished, and every step in which one became COMPLETED moved it. -/
theorem C05_position_counts (hE : E.WellFormed) {l : List (World × World)} {w : World} (h : History E l w)
    {id : Nat} {j : Job} (hj : w.ds.job? id = some j) :
    j.position ≤ 1 + stepsWith (FinishesTopLevel id) l ∧ stepsWith (CompletesTopLevel id) l ≤ j.position := by
  induction h generalizing j with
  | init => simp [DS.job?] at hj
  | @step l w w' h hs ih =>
    have hd := reachable_step (env_safe hE) h.reachable hs
    have hF := stepsWith_snoc (FinishesTopLevel id) l (w, w')
    have hC := stepsWith_snoc (CompletesTopLevel id) l (w, w')
    cases ha : w.ds.job? id with
    | none =>
      have h0 := (hd.newJobs id j ha hj).2.1
      have hno : ∀ l' w'', History E l' w'' → (∀ b, w''.ds.job? id = some b → False) →
          stepsWith (CompletesTopLevel id) l' = 0 := by
        intro l' w'' h'
        induction h' with
        | init => intro _; rfl
        | @step l1 w1 w2 h1 hs1 ih1 =>
          intro hn
          have hd1 := reachable_step (env_safe hE) h1.reachable hs1
          have hC1 := stepsWith_snoc (CompletesTopLevel id) l1 (w1, w2)
          have hn1 : ∀ b, w1.ds.job? id = some b → False := by
            intro b hb
            obtain ⟨b', hb', _⟩ := hd1.jobs id b hb
            exact hn b' hb'
          rw [hC1.2, ih1 hn1]
          rintro ⟨tid, c, c', h3, h4, h5, h6, h7, h8⟩
          obtain ⟨j1, j2, h9, _⟩ := (hd1.done tid c c' h3 h4 h7 h8).1 h6
          rw [h5] at h9
          exact hn1 _ h9
      have hz := hno l w h (by rw [ha]; intro b hb; cases hb)
      have hnc : ¬ CompletesTopLevel id (w, w') := by
        rintro ⟨tid, c, c', h3, h4, h5, h6, h7, h8⟩
        obtain ⟨j1, j2, h9, _⟩ := (hd.done tid c c' h3 h4 h7 h8).1 h6
        rw [h5, ha] at h9
        cases h9
      rw [hC.2 hnc, hz, h0]
      omega
    | some a =>
      obtain ⟨ih1, ih2⟩ := ih ha
      constructor
      · by_cases hp : j.position = a.position
        · by_cases hf : FinishesTopLevel id (w, w')
          · rw [hF.1 hf]; omega
          · rw [hF.2 hf]; omega
        · rcases C05_position_moves hE h.reachable hs ha hj with h1 | h1 | ⟨h1, tid, c, c', h2, h3, h4, h5, h6, _⟩
          · exact absurd h1 hp
          · omega
          · have hf : FinishesTopLevel id (w, w') := ⟨tid, c, c', h2, h3, h4, h5, h6⟩
            rw [hF.1 hf]; omega
      · by_cases hc : CompletesTopLevel id (w, w')
        · rw [hC.1 hc]
          obtain ⟨tid, c, c', h3, h4, h5, h6, h7, h8⟩ := hc
          obtain ⟨j1, j2, h9, h10, _, h11⟩ := (hd.done tid c c' h3 h4 h7 h8).1 h6
          rw [h5, ha] at h9
          rw [h5, hj] at h10
          cases h9; cases h10
          omega
        · rw [hC.2 hc]
          rcases C05_position_moves hE h.reachable hs ha hj with h1 | h1 | ⟨h1, h2⟩ <;> omega

/-- C06: however the history went, a COMPLETED job with `n` top-level tasks had at least `n` steps in which
one of its top-level tasks was finished: it never completes early. -/
theorem C06_completes_after_all_tasks (hE : E.WellFormed) {l : List (World × World)} {w : World}
    (h : History E l w) {id : Nat} {j : Job} (hj : w.ds.job? id = some j) (hc : j.state = .completed) :
    j.tasks.length ≤ stepsWith (FinishesTopLevel id) l := by
  have h1 := C06_completed_past_last hE h.reachable hj hc
  have h2 := (C05_position_counts hE h hj).1
  omega

/-- every reachable world has a history -/
theorem Reachable.history {w : World} (h : Reachable E w) : ∃ l, History E l w := by
  suffices H : ∀ a b, Steps E a b → a = {} → ∃ l, History E l b from H _ _ h rfl
  intro a b hab
  induction hab with
  | refl => rintro rfl; exact ⟨[], .init⟩
  | tail _ hs ih => intro h0; obtain ⟨l, hl⟩ := ih h0; exact ⟨_, .step hl hs⟩

/-! ## Non-vacuity: concrete reachable worlds -/

/-- An expression language in which every expression evaluates to its own text. -/
def exCfg : Cfg where
  O s _ _ := .ok { text := s, items := some ["x", "y"] }
  parseDur _ := none

def exTask : Task := { name := "one", run := "echo", retry := some { limit := 1 } }
def exJob : Job := { name := "demo", tasks := [exTask, { exTask with name := "two", parallel := some { tasks := [exTask, exTask] } }] }

/-- Two regular tasks, the second one with two parallel branches; any cancellation, restart of job 1. -/
def exEnv : Env where
  C := exCfg
  fuel := 3
  submitOK j := j = exJob
  fireOK _ := False
  workerOK r := r = {} ∨ r = { run := fun t => (some "boom", t) }
  restartOK id := id = 1

theorem exTask_fresh : exTask.Fresh :=
  ⟨fun r h => by cases h; rfl, rfl, rfl, fun _ h => by simp [exTask] at h, fun _ h => by simp [exTask] at h,
   fun _ h => by simp [exTask] at h, fun _ h => by simp [exTask] at h, fun _ h => by simp [exTask] at h⟩

theorem exEnv_wf : exEnv.WellFormed where
  submit j hj := by
    cases hj
    refine ⟨rfl, fun t ht => ?_⟩
    simp only [exJob, List.mem_cons, List.not_mem_nil, or_false] at ht
    rcases ht with rfl | rfl
    · exact exTask_fresh
    · refine ⟨fun r h => by cases h; rfl, rfl, rfl, fun p h => by cases h; rfl, fun p h c hc => ?_,
        fun _ h => by simp [exTask] at h, fun _ h => by simp [exTask] at h, fun _ h => by simp [exTask] at h⟩
      cases h
      simp at hc
      rcases hc with rfl | rfl <;> exact exTask_fresh
  fire _ h := h.elim
  worker w hw t := by rcases hw with rfl | rfl <;> exact ⟨rfl, rfl, rfl, rfl, rfl, rfl, rfl, rfl, rfl⟩

/-- submitted, started, and the first task handed to a worker -/
def exW1 : World := ((World.run {} (apiSubmit none exJob).discard).deliver exEnv 0)
/-- first task run and completed -/
def exW2 : World := (((exW1.work exEnv {} 0).deliver exEnv 0).deliver exEnv 0)

theorem exW1_reachable : Reachable exEnv exW1 :=
  reachable_deliver (reachable_spawn (.submit none exJob rfl) (reachable_init _)) 0
theorem exW2_reachable : Reachable exEnv exW2 :=
  reachable_deliver (reachable_deliver (reachable_work (show exEnv.workerOK {} from .inl rfl) exW1_reachable 0) 0) 0

def jobStates (w : World) : List (Nat × JobState × Nat) := w.ds.jobs.map fun j => (j.id, j.state, j.position)
def taskStates (w : World) : List (Nat × TaskState × Nat × Nat) :=
  w.ds.tasks.map fun t => (t.id, t.state, t.position, t.parentID)
def queueOf : Msg → String
  | .task q _ => q
  | .job _ => "jobs"
  | .progress _ => "progress"
  | .heartbeat _ => "heartbeat"
  | .event t _ => t
  | .schedEvent _ => "sched"


/-- the parallel task's two branches done: the job is COMPLETED -/
def exW3 : World :=
  let w := exW2.deliver exEnv 0
  let w := (w.deliver exEnv 0).deliver exEnv 0
  let w := ((w.work exEnv {} 0).deliver exEnv 1).deliver exEnv 1
  ((w.work exEnv {} 0).deliver exEnv 0).deliver exEnv 0

def boom : WorkerRun := { run := fun t => (some "boom", t) }
theorem boom_ok : exEnv.workerOK boom := .inr rfl
theorem idle_ok : exEnv.workerOK {} := .inl rfl

/-- the first task fails, its retry fails too: the job is FAILED -/
def exF : World :=
  let w := (((exW1.work exEnv boom 0).deliver exEnv 0).deliver exEnv 0).deliver exEnv 0
  (((w.work exEnv boom 0).deliver exEnv 0).deliver exEnv 0)

/-- … and restarted -/
def exR : World := (World.run exF (apiRestart 1).discard).deliver exEnv 1

/-- the job of `exW1` cancelled by a user -/
def exC : World := (World.run exW1 (apiCancel 1).discard).deliver exEnv 1

theorem exW3_reachable : Reachable exEnv exW3 :=
  reachable_deliver (reachable_deliver (reachable_work idle_ok (reachable_deliver (reachable_deliver
    (reachable_work idle_ok (reachable_deliver (reachable_deliver (reachable_deliver exW2_reachable 0) 0) 0) 0)
    1) 1) 0) 0) 0
theorem exF_reachable : Reachable exEnv exF :=
  reachable_deliver (reachable_deliver (reachable_work boom_ok (reachable_deliver (reachable_deliver
    (reachable_deliver (reachable_work boom_ok exW1_reachable 0) 0) 0) 0) 0) 0) 0
theorem exR_reachable : Reachable exEnv exR :=
  reachable_deliver (reachable_spawn (.restart 1 rfl) exF_reachable) 1
theorem exC_reachable : Reachable exEnv exC :=
  reachable_deliver (reachable_spawn (.cancel 1) exW1_reachable) 1

example : jobStates exW1 = [(1, .scheduled, 1)] := by decide +kernel
example : taskStates exW1 = [(2, .scheduled, 1, 0)] := by decide +kernel
example : jobStates exW2 = [(1, .running, 2)] := by decide +kernel
example : taskStates exW2 = [(2, .completed, 1, 0), (3, .pending, 2, 0)] := by decide +kernel
example : jobStates exW3 = [(1, .completed, 3)] := by decide +kernel
example : taskStates exW3 = [(2, .completed, 1, 0), (3, .completed, 2, 0), (4, .completed, 2, 3),
    (5, .completed, 2, 3)] := by decide +kernel
example : jobStates exF = [(1, .failed, 1)] := by decide +kernel
example : taskStates exF = [(2, .failed, 1, 0), (3, .failed, 1, 0)] := by decide +kernel
example : jobStates exR = [(1, .running, 1)] := by decide +kernel
example : taskStates exR = [(2, .failed, 1, 0), (3, .failed, 1, 0), (4, .pending, 1, 0)] := by decide +kernel
example : jobStates exC = [(1, .cancelled, 1)] := by decide +kernel
example : taskStates exC = [(2, .cancelled, 1, 0)] := by decide +kernel

/-- Why duplicates of the message that starts a job are excluded: handling a second copy of it after the job
completed puts the job back to SCHEDULED at position 1 (`job.go:74-80` has no guard). -/
theorem C02_duplicate_start_restarts_completed_job :
    ((wrapJob exCfg (submitRow 1 0 none exJob)).exec { ds := exW3.ds, next := exW3.next }).2.ds.jobs.map
      (fun j => (j.id, j.state, j.position)) = [(1, .scheduled, 1)] := by decide +kernel

end Tork

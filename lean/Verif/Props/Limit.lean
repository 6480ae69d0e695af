import Verif.DriveM
import Verif.Props.Concurrency
import Verif.Props.Joins
/-!
# C13, C70 — in whole systems: an each task keeps its limit; a task is handed to a worker at most once

`StepsM M E {} l w` (Verif/OnceWorld.lean): a run of the whole system from nothing to `w`, of the kind `M` (`Mode`, Verif/Once.lean),
in which the tasks `l` were handed to workers.
-/

namespace Tork
open Prog

/-- At most as many children are at work as have a place. -/
theorem released_le {M : Mode} {E : Env} (hE : E.WellFormed) {l : List Nat} {w : World} (h : StepsM M E {} l w) (hM : M ≠ .once)
    {pid : Nat} {p : Task} {e : EachTask Task} {j : Job} (hp : w.ds.task? pid = some p) (hpar : p.parallel = none) (he : p.each = some e)
    (hc : 0 < e.concurrency) (ht : e.task.single = true) (hj : w.ds.job? p.jobID = some j)
    (hr : M = .noRetry → Once.NoRetry e.task.retry ∧ Once.NoRetryD j.defaults) : (w.ds.released pid).card ≤ e.concurrency := by
  obtain ⟨ann, S, hi⟩ := Once.winv_steps hE h
  have hne : pid ≠ 0 := fun hz => by
    rw [hz, hi.zero.2.task] at hp; cases hp
  have htr : Once.Tr M w.ds pid e.concurrency :=
    ⟨hM, hne, hc, p, j, hp, by rw [hpar]; rfl, ⟨e, he, rfl, ht, fun hm => (hr hm).1⟩, hj, fun hm => (hr hm).2⟩
  have hlim := hi.held.limit pid e.concurrency htr
  have hle : (w.ds.released pid).card ≤ (Once.slots w.ds (Once.obs M w.msgs ann (if M = .once then l else [])) pid).card := by
    refine Finset.card_le_card fun n hn => ?_
    obtain ⟨r, h1, h2, h3⟩ := mem_idsWith.1 hn
    refine Once.mem_slots.2 ⟨r, h1, h2, .inl ?_⟩
    rcases h3 with h3 | h3 | h3 <;> rw [h3] <;> rfl
  have hx : Once.X0 pid = 0 := rfl
  simp only [hx] at hlim
  omega

/-- Nobody retries: neither the template of the each task nor the defaults of the job ask for retries. -/
def NoRetries (e : EachTask Task) (j : Job) : Prop :=
  (∀ r, e.task.retry = some r → r.limit = 0) ∧ ∀ d, j.defaults = some d → ∀ r, d.retry = some r → r.limit = 0

/-- C13, with faults. Any number of coordinators, workers and users; operations fail before or after they take effect,
goroutines die at any point, messages are lost, reordered and delivered again, except those that ask for a task to be
scheduled or report that it was skipped; nodes come and go. In every state, an each task with a limit has at most that many
children that have been released and have not finished, if its children are not retried. -/
theorem C13_limit_whole_system {E : Env} (hE : E.WellFormed) {l : List Nat} {w : World} (h : StepsM .noRetry E {} l w)
    {pid : Nat} {p : Task} {e : EachTask Task} {j : Job} (hp : w.ds.task? pid = some p) (hpar : p.parallel = none) (he : p.each = some e)
    (hc : 0 < e.concurrency) (ht : e.task.parallel = none ∧ e.task.each = none ∧ e.task.subJob = none) (hj : w.ds.job? p.jobID = some j)
    (hr : NoRetries e j) : (w.ds.released pid).card ≤ e.concurrency :=
  released_le hE h (by decide) hp hpar he hc (by unfold Task.single; rw [ht.1, ht.2.1, ht.2.2]; rfl) hj
    fun _ => ⟨fun r h => hr.1 r h, fun d hd r h => hr.2 d hd r h⟩

/-- C13, with retries. Operations do not fail, but goroutines die at any point, messages are lost and reordered, those that
do not carry a task on are delivered again. The limit holds whatever retries the children ask for. -/
theorem C13_limit_with_retries {E : Env} (hE : E.WellFormed) {l : List Nat} {w : World} (h : StepsM .calm E {} l w)
    {pid : Nat} {p : Task} {e : EachTask Task} {j : Job} (hp : w.ds.task? pid = some p) (hpar : p.parallel = none) (he : p.each = some e)
    (hc : 0 < e.concurrency) (ht : e.task.parallel = none ∧ e.task.each = none ∧ e.task.subJob = none) (hj : w.ds.job? p.jobID = some j) :
    (w.ds.released pid).card ≤ e.concurrency :=
  released_le hE h (by decide) hp hpar he hc (by unfold Task.single; rw [ht.1, ht.2.1, ht.2.2]; rfl) hj fun h => by cases h

/-- C70. Whatever fails and in whatever order things happen: no task is handed to a worker twice, unless the broker delivers
twice a message that asks for it to be scheduled or that carries it to a worker. -/
theorem C70_handed_at_most_once {E : Env} (hE : E.WellFormed) {l : List Nat} {w : World} (h : StepsM .once E {} l w) : l.Nodup := by
  obtain ⟨ann, S, hi⟩ := Once.winv_steps hE h
  rw [if_pos rfl] at hi
  refine List.nodup_iff_count_le_one.2 fun n => ?_
  have h1 := hi.held.one n
  have h2 : l.count n ≤ (l.map Once.Tok.own).count (.own n) := by
    exact List.count_le_count_map
  unfold Once.obs at h1
  simp only [List.count_append] at h1
  omega

/-- … and while it is handed to one, it waits in no other queue: the messages that could still bring a task to a worker are
about tasks no worker has seen, and no two of them are about the same task. -/
theorem C70_no_second_message {E : Env} (hE : E.WellFormed) {l : List Nat} {w : World} (h : StepsM .once E {} l w) :
    (l ++ w.msgs.filterMap fun m => match m with
      | .task q t => if q = QUEUE_PENDING ∨ isTaskQueue q = true ∨ q = QUEUE_REDELIVERIES then some t.id else none
      | _ => none).Nodup := by
  obtain ⟨ann, S, hi⟩ := Once.winv_steps hE h
  rw [if_pos rfl] at hi
  refine List.nodup_iff_count_le_one.2 fun n => ?_
  have h1 := hi.held.one n
  have h2 : l.count n ≤ (l.map Once.Tok.own).count (.own n) := List.count_le_count_map
  have h3 : ∀ ms : List Msg, (ms.filterMap fun m => match m with
      | .task q t => if q = QUEUE_PENDING ∨ isTaskQueue q = true ∨ q = QUEUE_REDELIVERIES then some t.id else none
      | _ => none).count n ≤ (Once.toksL .once ms).count (.pend n) + (Once.toksL .once ms).count (.own n) := fun ms => by
    induction ms with
    | nil => simp
    | cons m ms ih =>
      rw [Once.toksL_cons, List.filterMap_cons]
      simp only [List.count_append]
      cases m with
      | task q t =>
        dsimp only
        have htk : Once.toks .once (.task q t) = if q = QUEUE_PENDING then [.pend t.id] else if Mode.single .once (.task q t) then [.own t.id] else [] := rfl
        have hsg : Mode.single .once (.task q t) = (decide (q = QUEUE_PENDING) || (isTaskQueue q || decide (q = QUEUE_REDELIVERIES))) := rfl
        by_cases hq : q = QUEUE_PENDING
        · rw [if_pos (.inl hq), htk, if_pos hq]
          dsimp only
          rw [List.count_cons, List.count_singleton, List.count_singleton]
          by_cases hn : t.id = n
          · simp [hn]; omega
          · simp [hn]; omega
        · by_cases hw : isTaskQueue q = true ∨ q = QUEUE_REDELIVERIES
          · rw [if_pos (.inr hw), htk, if_neg hq, hsg, if_pos (by rcases hw with hw | hw <;> simp [hw])]
            dsimp only
            rw [List.count_cons, List.count_singleton, List.count_singleton]
            by_cases hn : t.id = n
            · simp [hn]; omega
            · simp [hn]; omega
          · rw [if_neg (fun hx => hx.elim hq hw)]
            dsimp only
            omega
      | _ => dsimp only; omega
  have h3 := h3 w.msgs
  unfold Once.obs at h1
  simp only [List.count_append] at h1 ⊢
  omega

/-! ## Examples, and what goes wrong without the hypotheses -/

namespace LimitEx

def cfg : Cfg where
  O s _ _ := .ok { text := s, items := some ["x", "y", "z"] }
  parseDur _ := none

def item (r : Option TaskRetry) : Task := { name := "work", run := "echo", retry := r }

/-- three items, one at a time -/
def job (r : Option TaskRetry) : Job := { name := "limited", tasks := [
  { name := "all", each := some { list := "items", concurrency := 1, task := item r } }] }

def good : WorkerRun := { nodeID := 7 }
def bad : WorkerRun := { nodeID := 7, run := fun t => (some "boom", t) }
def node : Node := { id := 7, queue := "x-7" }
def twice : Option TaskRetry := some { limit := 2 }

def env (r : Option TaskRetry) : Env where
  C := cfg
  fuel := 3
  submitOK j := j = job r
  fireOK _ := False
  workerOK w := w = good ∨ w = bad
  restartOK _ := False

theorem item_fresh {r : Option TaskRetry} (hr : ∀ x, r = some x → x.attempts = 0) : (item r).Fresh :=
  ⟨fun x h => hr x h, rfl, rfl, fun _ h => by simp [item] at h, fun _ h => by simp [item] at h,
   fun _ h => by simp [item] at h, fun _ h => by simp [item] at h, fun _ h => by simp [item] at h⟩

theorem env_wf {r : Option TaskRetry} (hr : ∀ x, r = some x → x.attempts = 0) : (env r).WellFormed where
  submit j hj := by
    cases hj
    refine ⟨rfl, fun t ht => ?_⟩
    simp only [job, List.mem_cons, List.not_mem_nil, or_false] at ht
    rw [ht]
    exact ⟨fun x h => by simp at h, rfl, rfl, fun _ h => by simp at h, fun _ h => by simp at h,
      fun e h => by cases h; rfl, fun e h => by cases h; exact item_fresh hr, fun _ h => by simp at h⟩
  fire _ h := h.elim
  worker w hw t := by
    rcases hw with hw | hw <;> cases hw <;> exact ⟨rfl, rfl, rfl, rfl, rfl, rfl, rfl, rfl, rfl⟩

/-- The job is started, the first child fails, its failure is handled. -/
def failed (r : Option TaskRetry) : List Play :=
  [.nodes [node], .submit (job r), .deliver 0, .deliver 0, .work 0 bad, .deliver 0, .dup 0, .deliver 0]

/-- The three children are worked on one after the other, the report of the first one is delivered twice. -/
def through : List Play :=
  [.nodes [node], .submit (job none), .deliver 0, .deliver 0, .work 0 good, .dup 1, .deliver 1, .deliver 2, .work 2 good, .deliver 3,
   .deliver 3, .work 3 good, .deliver 4]

/-- The same, up to the moment when the second child is released. -/
def halfway : List Play :=
  [.nodes [node], .submit (job none), .deliver 0, .deliver 0, .work 0 good, .dup 1, .deliver 1]

theorem allowed {r : Option TaskRetry} {l : List Play} (h : ∀ a ∈ l, match a with
    | .work _ w => w = good ∨ w = bad
    | .submit j => j = job r
    | _ => True) : ∀ a ∈ l, a.allowed (env r) := fun a ha => by
  have := h a ha
  cases a <;> exact this

theorem failed_allowed (r : Option TaskRetry) : ∀ a ∈ failed r, a.allowed (env r) := by
  refine allowed fun a ha => ?_
  simp only [failed, List.mem_cons, List.not_mem_nil, or_false] at ha
  rcases ha with rfl | rfl | rfl | rfl | rfl | rfl | rfl | rfl <;> simp

theorem halfway_allowed : ∀ a ∈ halfway, a.allowed (env none) := by
  refine allowed fun a ha => ?_
  simp only [halfway, List.mem_cons, List.not_mem_nil, or_false] at ha
  rcases ha with rfl | rfl | rfl | rfl | rfl | rfl | rfl <;> simp

theorem through_allowed : ∀ a ∈ through, a.allowed (env none) := by
  refine allowed fun a ha => ?_
  simp only [through, List.mem_cons, List.not_mem_nil, or_false] at ha
  rcases ha with rfl | rfl | rfl | rfl | rfl | rfl | rfl | rfl | rfl | rfl | rfl | rfl | rfl <;> simp

/-- C13 with faults applies: one child has completed, one is released, one is held back, and the limit is 1. -/
example : ∃ l w p e, StepsM .noRetry (env none) {} l w ∧ w.ds.task? 2 = some p ∧ p.each = some e ∧ e.concurrency = 1 ∧
    (w.ds.released 2).card = 1 ∧ (w.ds.held 2).card = 1 := by
  have h := stepsM_playAll (M := .noRetry) halfway_allowed (w := {}) (by decide +kernel)
  have hx : ((playAll (env none) {} halfway).ds.task? 2).any (fun p => p.each.any fun e => e.concurrency == 1) = true := by decide +kernel
  obtain ⟨p, hp, hx⟩ := (Option.any_eq_true _ _).1 hx
  obtain ⟨e, he, hx⟩ := (Option.any_eq_true _ _).1 hx
  exact ⟨_, _, p, e, h, hp, he, beq_iff_eq.1 hx, by decide +kernel, by decide +kernel⟩

/-- C13 with retries applies: the first child has failed and is tried again. -/
example : ∃ l w, StepsM .calm (env twice) {} l w ∧ (w.ds.released 2).card = 1 ∧ (w.ds.task? 3).any (fun t => decide (t.state = .failed)) = true ∧
    (w.ds.task? 6).any (fun t => decide (t.state = .pending)) = true := by
  have h := stepsM_playAll (M := .calm) (E := env twice) (w := {})
    (l := [.nodes [node], .submit (job twice), .deliver 0, .deliver 0, .work 0 bad, .deliver 0, .deliver 0])
    (fun a ha => failed_allowed twice a (by
      simp only [List.mem_cons, List.not_mem_nil, or_false] at ha
      rcases ha with rfl | rfl | rfl | rfl | rfl | rfl | rfl <;> simp [failed])) (by decide +kernel)
  exact ⟨_, _, h, by decide +kernel, by decide +kernel, by decide +kernel⟩

/-- C70 applies: the three children have been handed to workers, although a report was delivered twice. -/
example : ∃ w, StepsM .once (env none) {} [3, 4, 5] w := by
  have h := stepsM_playAll (M := .once) through_allowed (w := {}) (by decide +kernel)
  have hl : playHanded (env none) {} through = [3, 4, 5] := by decide +kernel
  rw [hl] at h
  exact ⟨_, h⟩

end LimitEx

/-- The limit needs the absence of retries when messages may be delivered twice: the failure report of a child that asks for
retries is delivered twice, each delivery starts a new attempt, and an each task with limit 1 has two children at work.
`/repo/internal/coordinator/handlers/error.go` does not look at the state of the task that failed. -/
theorem C13_failure_reported_twice_exceeds_limit : ∃ (E : Env) (l : List Nat) (w : World) (p : Task) (e : EachTask Task),
    E.WellFormed ∧ StepsM .noRetry E {} l w ∧ w.ds.task? 2 = some p ∧ p.each = some e ∧ e.concurrency = 1 ∧ (w.ds.released 2).card = 2 := by
  have h := stepsM_playAll (M := .noRetry) (E := LimitEx.env LimitEx.twice) (w := {}) (l := LimitEx.failed LimitEx.twice ++ [.deliver 0])
    (fun a ha => by
      rcases List.mem_append.1 ha with ha | ha
      · exact LimitEx.failed_allowed LimitEx.twice a ha
      · rw [List.mem_singleton.1 ha]; trivial) (by decide +kernel)
  have hx : ((playAll (LimitEx.env LimitEx.twice) {} (LimitEx.failed LimitEx.twice ++ [.deliver 0])).ds.task? 2).any
      (fun p => p.each.any fun e => e.concurrency == 1) = true := by decide +kernel
  obtain ⟨p, hp, hx⟩ := (Option.any_eq_true _ _).1 hx
  obtain ⟨e, he, hx⟩ := (Option.any_eq_true _ _).1 hx
  exact ⟨_, _, _, p, e, LimitEx.env_wf (fun x hx => by cases hx; rfl), h, hp, he, beq_iff_eq.1 hx, by decide +kernel⟩

/-- The tasks handed to workers are distinct only if the broker delivers the messages that carry them once: if the message
that asks for a task to be scheduled is delivered twice, a worker gets the task twice, although it is scheduled already.
`/repo/internal/coordinator/handlers/pending.go` does not look at the state of the task. -/
theorem C70_scheduling_requested_twice : ∃ (E : Env) (w : World), E.WellFormed ∧ Reachable E w ∧
    2 ≤ (w.msgs.filter fun m => match m with
      | .task q t => isTaskQueue q && decide (t.id = 3)
      | _ => false).length := by
  let acts : List Play := [.submit (LimitEx.job none), .deliver 0]
  let acts2 : List Play := [.deliver 0, .deliver 0]
  have h := stepsM_playAll (M := .once) (E := LimitEx.env none) (w := {}) (l := acts)
    (fun a ha => LimitEx.halfway_allowed a (by
      simp only [acts, List.mem_cons, List.not_mem_nil, or_false] at ha
      rcases ha with rfl | rfl <;> simp [LimitEx.halfway])) (by decide +kernel)
  have hm : (playAll (LimitEx.env none) {} acts).msgs[0]?.any (fun m => !m.startsJob) = true := by decide +kernel
  obtain ⟨m, hm, hs⟩ := (Option.any_eq_true _ _).1 hm
  have h2 := reachable_dup (List.mem_of_getElem? hm) (by simpa using hs) h.steps
  have h3 := stepsM_playAll (M := .once) (E := LimitEx.env none) (w := { playAll (LimitEx.env none) {} acts with msgs := (playAll (LimitEx.env none) {} acts).msgs ++ [m] })
    (l := acts2)
    (fun a ha => by
      simp only [acts2, List.mem_cons, List.not_mem_nil, or_false] at ha
      rcases ha with rfl | rfl <;> trivial) (by
        have : playFits .once (LimitEx.env none) { playAll (LimitEx.env none) {} acts with msgs := (playAll (LimitEx.env none) {} acts).msgs ++ (playAll (LimitEx.env none) {} acts).msgs[0]?.toList } acts2 = true := by decide +kernel
        rw [hm] at this; exact this)
  refine ⟨_, _, LimitEx.env_wf (fun x hx => by cases hx), h2.trans h3.steps, ?_⟩
  have : 2 ≤ ((playAll (LimitEx.env none) { playAll (LimitEx.env none) {} acts with msgs := (playAll (LimitEx.env none) {} acts).msgs ++ (playAll (LimitEx.env none) {} acts).msgs[0]?.toList } acts2).msgs.filter fun m => match m with
      | .task q t => isTaskQueue q && decide (t.id = 3)
      | _ => false).length := by decide +kernel
  rw [hm] at this
  exact this

end Tork

import Verif.Props.Schedule
import Verif.CloneLemmas
/-!
# C19 — a worker reports one outcome per run
-/

namespace Tork
open Prog

/-- The task as the worker prepares it: RUNNING on this node, started now, with the worker's default limits and timeout
where the task has none; nothing else differs. -/
structure Prepared (w : WorkerRun) (now : Nat) (t x : Task) : Prop where
  cpus : x.cpus = ownOr t.cpus w.defaultCPUs
  memory : x.memory = ownOr t.memory w.defaultMemory
  timeout : x.timeout = ownOr t.timeout w.defaultTimeout
  rest : ∃ limits, x = { t with state := .running, nodeID := w.nodeID, startedAt := some now, timeout := x.timeout
                                limits := limits }

theorem workerPrep_prepared (w : WorkerRun) (now : Nat) (t : Task) : Prepared w now t (workerPrep w now t) := by
  unfold workerPrep
  cases hl : t.limits with
  | none =>
    by_cases h1 : w.defaultCPUs ≠ "" ∨ w.defaultMemory ≠ "" <;> by_cases h2 : t.timeout = "" <;>
      simp only [h1, h2, if_true, if_false] <;>
      refine ⟨?_, ?_, ?_, ⟨_, rfl⟩⟩ <;> simp [Task.cpus, Task.memory, hl, ownOr, h2]
    all_goals
      have h3 : w.defaultCPUs = "" ∧ w.defaultMemory = "" :=
        ⟨Classical.not_not.1 fun h => h1 (.inl h), Classical.not_not.1 fun h => h1 (.inr h)⟩
      simp [h3.1, h3.2]
  | some l =>
    by_cases h2 : t.timeout = "" <;>
      simp only [h2, if_true, if_false] <;>
      refine ⟨?_, ?_, ?_, ⟨_, rfl⟩⟩ <;> simp [Task.cpus, Task.memory, hl, ownOr, h2]

theorem publishProgress_exec (t : Task) (ps : List Rat) (s : Sys) :
    (publishProgress t ps).exec s = (some (), s.send (ps.map fun p => .progress { t with progress := p })) := by
  induction ps generalizing s with
  | nil => rw [publishProgress]; simp [Sys.send, exec_ret]
  | cons p ps ih =>
    rw [publishProgress]
    simp only [bind_eq]
    rw [exec_pub, ih]
    simp [Sys.send]

/-- Everything `doHandleTask` does, given what the middleware chain around the runtime returned. -/
theorem doHandleTask_exec (C : Cfg) (w : WorkerRun) {t x rt : Task} {r : Res} {s s1 : Sys}
    (hx : x = workerPrep w s.clock t)
    (hm : (workerMw C w x.clone).exec s.ticked = (some (r, rt), s1)) :
    (doHandleTask C w t).exec s =
      match r with
      | some e => (some none, s1.ticked.send [.task "error" { x with error := e, failedAt := some s1.clock, state := .failed }])
      | none =>
        match rt.state with
        | .completed => (some none, s1.send [.task "completed"
            { x with result := rt.result, completedAt := rt.completedAt, state := .completed }])
        | .failed => (some none, s1.send [.task "error"
            { x with error := rt.error, failedAt := rt.failedAt, state := .failed }])
        | _ => (some (some "unexpected state"), s1) := by
  subst hx
  unfold doHandleTask
  simp only [bind_eq, pure_eq]
  rw [exec_now, exec_bind_of hm]
  cases r with
  | some e =>
    simp only
    rw [exec_now, exec_pub, exec_ret]; rfl
  | none =>
    simp only
    cases rt.state <;> simp only <;> first | (rw [exec_pub, exec_ret]; rfl) | rfl

theorem runTask_exec (C : Cfg) (w : WorkerRun) (x : Task) (s : Sys) :
    (runTask C w x).exec s =
      (if x.timeout ≠ "" ∧ (C.parseDur x.timeout).isNone then
        (some (some ("invalid timeout duration: " ++ x.timeout), x), s.send [.task "started" x])
      else
        let s1 := (s.send [.task "started" x]).send (w.progress.map fun p => .progress { x with progress := p })
        match w.run x with
        | (some e, y) => (some (none, { y with failedAt := some s1.clock, state := .failed, error := e }), s1.ticked)
        | (none, y) => (some (none, { y with completedAt := some s1.clock, state := .completed }), s1.ticked)) := by
  unfold runTask
  simp only [bind_eq]
  rw [exec_pub]
  simp only
  unfold doRunTask
  by_cases ht : x.timeout ≠ "" ∧ (C.parseDur x.timeout).isNone
  · rw [if_pos ht, if_pos ht]; rfl
  · rw [if_neg ht, if_neg ht]
    simp only [bind_eq, pure_eq]
    rw [exec_bind, publishProgress_exec]
    simp only
    rw [exec_now]
    cases w
    rename_i f _
    dsimp only
    generalize f x = p
    obtain ⟨r, y⟩ := p
    cases r <;> rfl

/-- No middleware. -/
def WorkerRun.Plain (w : WorkerRun) : Prop :=
  (∀ t, w.pre t = t) ∧ w.stop = none ∧ ∀ r t, w.post r t = (r, t)

/-- **C19 (no middleware).** For every task and every behaviour of the runtime, with a working broker: the worker sends
the prepared task to the started queue, then the runtime's progress reports, then exactly one terminal report, and
touches no datastore. The report is the prepared task with: COMPLETED and the runtime's result if the runtime succeeded;
FAILED and the runtime's error if it failed; FAILED and a message if the timeout cannot be parsed. -/
theorem C19_one_report (C : Cfg) (w : WorkerRun) (hw : w.Plain) (t : Task) (s : Sys) :
    ∃ (x report : Task) (q : String) (ps : List Msg) (s' : Sys) (started now : Nat),
      Prepared w started t x ∧
      (doHandleTask C w t).exec s = (some none, s') ∧ s'.ds = s.ds ∧
      s'.out = s.out ++ .task "started" x.forgetRedelivery :: ps ++ [.task q report] ∧
      (∀ m ∈ ps, ∃ p ∈ w.progress, m = .progress { x.forgetRedelivery with progress := p }) ∧
      if x.timeout ≠ "" ∧ C.parseDur x.timeout = none then
        q = "error" ∧ report = { x with state := .failed, failedAt := some now, error := "invalid timeout duration: " ++ x.timeout }
      else match w.run x.forgetRedelivery with
        | (none, y) => q = "completed" ∧ report = { x with state := .completed, completedAt := some now, result := y.result }
        | (some e, _) => q = "error" ∧ report = { x with state := .failed, failedAt := some now, error := e } := by
  obtain ⟨hpre, hstop, hpost⟩ := hw
  let x := workerPrep w s.clock t
  have hto : x.forgetRedelivery.timeout = x.timeout := by cases x; rw [Task.forgetRedelivery]
  have hmw : ∀ r rt s1, (runTask C w x.clone).exec s.ticked = (some (r, rt), s1) →
      (workerMw C w x.clone).exec s.ticked = (some (r, rt), s1) := by
    intro r rt s1 h
    unfold workerMw
    simp only [bind_eq, pure_eq]
    rw [hpre, hstop]
    simp only
    rw [exec_bind, h]
    simp only
    rw [exec_ret, hpost]
  have hrun := runTask_exec C w x.clone s.ticked
  rw [clone_forget] at hrun
  have hiff : (x.timeout ≠ "" ∧ C.parseDur x.timeout = none) ↔ (x.timeout ≠ "" ∧ (C.parseDur x.timeout).isNone) := by
    rw [Option.isNone_iff_eq_none]
  by_cases ht : x.timeout ≠ "" ∧ (C.parseDur x.timeout).isNone
  · rw [if_pos (by rw [hto]; exact ht), hto, ← clone_forget] at hrun
    have h := doHandleTask_exec C w (t := t) (s := s) rfl (hmw _ _ _ hrun)
    refine ⟨x, { x with state := .failed, failedAt := some s.ticked.clock, error := "invalid timeout duration: " ++ x.timeout }, "error", [], _, s.clock, s.ticked.clock, workerPrep_prepared w s.clock t, h, rfl, ?_, by simp, ?_⟩
    · rw [clone_forget]
      rfl
    · rw [if_pos (hiff.2 ht)]
      exact ⟨rfl, rfl⟩
  · rw [if_neg (by rw [hto]; exact ht)] at hrun
    dsimp only at hrun
    rcases hr : w.run x.forgetRedelivery with ⟨r, y⟩
    rw [hr] at hrun
    cases r with
    | some e =>
      rw [← clone_forget] at hrun
      have h := doHandleTask_exec C w (t := t) (s := s) rfl (hmw _ _ _ hrun)
      refine ⟨x, { x with state := .failed, failedAt := some s.ticked.clock, error := e }, "error", w.progress.map fun p => .progress { x.forgetRedelivery with progress := p }, _, s.clock, s.ticked.clock,
        workerPrep_prepared w s.clock t, h, rfl, ?_, ?_, ?_⟩
      · rw [clone_forget]
        show ((s.out ++ [_]) ++ _) ++ [_] = _
        simp only [List.append_assoc]; rfl
      · intro m hm
        obtain ⟨p, hp, rfl⟩ := List.mem_map.1 hm
        exact ⟨p, hp, rfl⟩
      · rw [if_neg (fun h => ht (hiff.1 h)), hr]
        exact ⟨rfl, rfl⟩
    | none =>
      rw [← clone_forget] at hrun
      have h := doHandleTask_exec C w (t := t) (s := s) rfl (hmw _ _ _ hrun)
      refine ⟨x, { x with state := .completed, completedAt := some s.ticked.clock, result := y.result }, "completed", w.progress.map fun p => .progress { x.forgetRedelivery with progress := p }, _, s.clock, s.ticked.clock,
        workerPrep_prepared w s.clock t, h, rfl, ?_, ?_, ?_⟩
      · rw [clone_forget]
        show ((s.out ++ [_]) ++ _) ++ [_] = _
        simp only [List.append_assoc]; rfl
      · intro m hm
        obtain ⟨p, hp, rfl⟩ := List.mem_map.1 hm
        exact ⟨p, hp, rfl⟩
      · rw [if_neg (fun h => ht (hiff.1 h)), hr]
        exact ⟨rfl, rfl⟩


/-- **C19 (any middleware).** Whatever the middleware does and whether or not it calls the runtime: if the chain returns
an error, exactly one FAILED report with that error is sent after it returned; if it returns none and left the task
COMPLETED, exactly one COMPLETED report with the result it left; if it left the task FAILED, exactly one FAILED report
with the error it left; before that only a STARTED message and progress reports were sent. -/
theorem C19_middleware (C : Cfg) (w : WorkerRun) (t : Task) (s : Sys) :
    ∃ (x rt : Task) (r : Res) (s1 s' : Sys) (res : Res) (started : Nat) (before after : List Msg),
      Prepared w started t x ∧
      (workerMw C w x.forgetRedelivery).exec s.ticked = (some (r, rt), s1) ∧
      (doHandleTask C w t).exec s = (some res, s') ∧ s'.ds = s.ds ∧
      s1.out = s.out ++ before ∧ s'.out = s.out ++ before ++ after ∧
      (∀ m ∈ before, (∃ y, m = .task "started" y) ∨ ∃ y, m = .progress y) ∧
      (before.filter fun m => match m with | .task _ _ => true | _ => false).length ≤ 1 ∧
      (∀ e, r = some e → res = none ∧ ∃ now,
        after = [.task "error" { x with state := .failed, failedAt := some now, error := e }]) ∧
      (r = none → rt.state = .completed → res = none ∧
        after = [.task "completed" { x with state := .completed, completedAt := rt.completedAt, result := rt.result }]) ∧
      (r = none → rt.state = .failed → res = none ∧
        after = [.task "error" { x with state := .failed, failedAt := rt.failedAt, error := rt.error }]) ∧
      (r = none → rt.state ≠ .completed → rt.state ≠ .failed → after = [] ∧ res ≠ none) := by
  let x := workerPrep w s.clock t
  have hmw : ∃ r rt s1 before, (workerMw C w x.clone).exec s.ticked = (some (r, rt), s1) ∧ s1.ds = s.ds ∧
      s1.out = s.out ++ before ∧ (∀ m ∈ before, (∃ y, m = .task "started" y) ∨ ∃ y, m = .progress y) ∧
      (before.filter fun m => match m with | .task _ _ => true | _ => false).length ≤ 1 := by
    unfold workerMw
    simp only [bind_eq, pure_eq]
    cases hs : w.stop with
    | some r => exact ⟨r, _, s.ticked, [], rfl, rfl, by simp, by simp, by simp⟩
    | none =>
      simp only
      have h := runTask_exec C w (w.pre x.clone) s.ticked
      by_cases ht : (w.pre x.clone).timeout ≠ "" ∧ (C.parseDur (w.pre x.clone).timeout).isNone
      · rw [if_pos ht] at h
        rw [exec_bind_of h]
        exact ⟨_, _, _, [.task "started" (w.pre x.clone)], rfl, rfl, rfl, by simp, by simp⟩
      · rw [if_neg ht] at h
        dsimp only at h
        rcases hr : w.run (w.pre x.clone) with ⟨r, y⟩
        rw [hr] at h
        have hb : ∀ m ∈ Msg.task "started" (w.pre x.clone) ::
              (w.progress.map fun p => Msg.progress { w.pre x.clone with progress := p }),
            (∃ y, m = .task "started" y) ∨ ∃ y, m = .progress y := by
          intro m hm
          rcases List.mem_cons.1 hm with rfl | hm
          · exact .inl ⟨_, rfl⟩
          · obtain ⟨p, _, rfl⟩ := List.mem_map.1 hm
            exact .inr ⟨_, rfl⟩
        have hl : ((Msg.task "started" (w.pre x.clone) ::
              (w.progress.map fun p => Msg.progress { w.pre x.clone with progress := p })).filter
              fun m => match m with | .task _ _ => true | _ => false).length ≤ 1 := by
          rw [List.filter_cons_of_pos rfl, List.filter_eq_nil_iff.2]
          · simp
          · intro m hm
            obtain ⟨p, _, rfl⟩ := List.mem_map.1 hm
            simp
        cases r with
        | some e =>
          rw [exec_bind_of h]
          refine ⟨_, _, _, _, rfl, rfl, ?_, hb, hl⟩
          simp [Sys.send]
        | none =>
          rw [exec_bind_of h]
          refine ⟨_, _, _, _, rfl, rfl, ?_, hb, hl⟩
          simp [Sys.send]
  obtain ⟨r, rt, s1, before, h1, h2, h3, h4, h5⟩ := hmw
  have h := doHandleTask_exec C w (t := t) (s := s) rfl h1
  have hp := workerPrep_prepared w s.clock t
  rw [clone_forget] at h1
  cases r with
  | some e =>
    refine ⟨x, rt, some e, s1, _, none, s.clock, before, _, hp, h1, h, h2, h3, by
      show s1.out ++ _ = _; rw [h3], h4, h5, ?_, (fun h => by cases h), (fun h => by cases h), (fun h => by cases h)⟩
    rintro _ ⟨⟩; exact ⟨rfl, s1.clock, rfl⟩
  | none =>
    cases hst : rt.state with
    | completed =>
      rw [hst] at h
      exact ⟨x, rt, none, s1, _, none, s.clock, before, _, hp, h1, h, h2, h3, by
        show s1.out ++ _ = _; rw [h3], h4, h5, (fun _ h => by cases h), (fun _ _ => ⟨rfl, rfl⟩),
        (fun _ h => by rw [hst] at h; cases h), (fun _ h => absurd hst h)⟩
    | failed =>
      rw [hst] at h
      exact ⟨x, rt, none, s1, _, none, s.clock, before, _, hp, h1, h, h2, h3, by
        show s1.out ++ _ = _; rw [h3], h4, h5, (fun _ h => by cases h), (fun _ h => by rw [hst] at h; cases h),
        (fun _ _ => ⟨rfl, rfl⟩), (fun _ _ h => absurd hst h)⟩
    | _ =>
      rw [hst] at h
      exact ⟨x, rt, none, s1, s1, some "unexpected state", s.clock, before, [], hp, h1, h, h2, h3, by
        rw [h3, List.append_nil], h4, h5, (fun _ h => by cases h), (fun _ h => by rw [hst] at h; cases h),
        (fun _ h => by rw [hst] at h; cases h), (fun _ _ _ => ⟨rfl, by simp⟩)⟩

/-- **C19 (limit).** A middleware that returns no error, does not call the runtime and leaves the state alone swallows
the task: no report at all is sent. -/
theorem C19_swallowed (C : Cfg) (w : WorkerRun) (hpre : ∀ t, w.pre t = t) (hstop : w.stop = some none) (t : Task) (s : Sys) :
    ∃ s', (doHandleTask C w t).exec s = (some (some "unexpected state"), s') ∧ s'.out = s.out ∧ s'.ds = s.ds := by
  have h1 : (workerMw C w (workerPrep w s.clock t).clone).exec s.ticked =
      (some (none, (workerPrep w s.clock t).clone), s.ticked) := by
    unfold workerMw
    simp only [bind_eq, pure_eq]
    rw [hpre, hstop]; rfl
  have h := doHandleTask_exec C w (t := t) (s := s) rfl h1
  have hst : (workerPrep w s.clock t).clone.state = .running := by
    obtain ⟨l, hl⟩ := (workerPrep_prepared w s.clock t).rest
    rw [hl]; rw [Task.clone]
  rw [hst] at h
  exact ⟨s.ticked, h, rfl, rfl⟩

/-! ### Every run -/

/-- The report `y` is about task `t`, with its configuration (limits and timeout possibly completed by the worker). -/
def AboutTask (t y : Task) : Prop :=
  ∃ state nodeID startedAt timeout limits result error completedAt failedAt,
    y = { t with state := state, nodeID := nodeID, startedAt := startedAt, timeout := timeout, limits := limits
                 result := result, error := error, completedAt := completedAt, failedAt := failedAt }

theorem aboutTask_of {w : WorkerRun} {n : Nat} {t x : Task} (h : Prepared w n t x) : AboutTask t x := by
  obtain ⟨l, hl⟩ := h.rest
  exact ⟨_, _, _, _, _, _, _, _, _, hl⟩

theorem aboutTask_state {t x : Task} {a e : Option Nat} {st : TaskState} {r er : String} (h : AboutTask t x) :
    AboutTask t { x with state := st, failedAt := a, completedAt := e, result := r, error := er } := by
  obtain ⟨_, _, _, _, _, _, _, _, _, rfl⟩ := h
  exact ⟨_, _, _, _, _, _, _, _, _, rfl⟩

/-- Messages before the outcome is known. -/
def Early (ms : List Msg) : Prop :=
  ms = [] ∨ ∃ y ps, ms = .task "started" y :: ps ∧ ∀ m ∈ ps, ∃ z, m = .progress z

/-- All messages of one run: nothing or a STARTED message followed by progress reports, then at most one terminal
report about the task. -/
def WorkerMsgs (t : Task) (ms : List Msg) : Prop :=
  ∃ a b, ms = a ++ b ∧ (a = [] ∨ ∃ y ps, a = .task "started" y :: ps ∧ ∀ m ∈ ps, ∃ z, m = .progress z) ∧
    (b = [] ∨ ∃ y, AboutTask t y ∧
      ((b = [.task "completed" y] ∧ y.state = .completed) ∨ (b = [.task "error" y] ∧ y.state = .failed)))

theorem Early.msgs {t : Task} {ms : List Msg} (h : Early ms) : WorkerMsgs t ms :=
  ⟨ms, [], (List.append_nil _).symm, h, .inl rfl⟩

theorem early_started (y : Task) : Early [.task "started" y] := .inr ⟨y, [], rfl, by simp⟩

theorem publishProgress_every (t : Task) (ps : List Rat) (s : Sum2) (y : Task) (l : List Msg)
    (hs : s.1 = .task "started" y :: l) (hl : ∀ m ∈ l, ∃ z, m = .progress z) :
    Every sum2 (fun s _ => Early s.1 ∧ s.1 ≠ []) (publishProgress t ps) s := by
  induction ps generalizing s l with
  | nil => rw [publishProgress]; exact ⟨.inr ⟨y, l, hs, hl⟩, by rw [hs]; simp⟩
  | cons p ps ih =>
    have h0 : Early s.1 ∧ s.1 ≠ [] := ⟨.inr ⟨y, l, hs, hl⟩, by rw [hs]; simp⟩
    rw [publishProgress]
    simp only [bind_eq]
    refine every2_pub h0 (fun r => ?_) (fun e => ih s l hs hl)
    refine ih _ (l ++ [.progress { t with progress := p }]) (by rw [hs]; rfl) ?_
    intro m hm
    rcases List.mem_append.1 hm with hm | hm
    · exact hl m hm
    · exact ⟨_, List.mem_singleton.1 hm⟩

theorem workerMw_every (C : Cfg) (w : WorkerRun) (x : Task) :
    Every sum2 (fun s _ => Early s.1) (workerMw C w x) ([], []) := by
  unfold workerMw
  simp only [bind_eq, pure_eq]
  cases w.stop with
  | some r => exact .inl rfl
  | none =>
    refine every_bind (p := runTask C w (w.pre x)) ?_
    unfold runTask
    simp only [bind_eq, pure_eq]
    refine every2_pub (.inl rfl) (fun r => ?_) (fun e => .inl rfl)
    cases r with
    | error e => exact early_started _
    | ok u =>
      dsimp only
      unfold doRunTask
      simp only [bind_eq, pure_eq]
      split
      · exact early_started _
      · refine every_bind (every_mono (publishProgress_every _ _ _ (w.pre x) [] rfl (by simp)) ?_)
        intro s r hs
        cases r with
        | none => exact hs.1
        | some u =>
          refine every_now quiet_sum2 hs.1 fun n => ?_
          split <;> exact hs.1

theorem doHandleTask_every (C : Cfg) (w : WorkerRun) (t : Task) :
    Every sum2 (fun s _ => WorkerMsgs t s.1) (doHandleTask C w t) ([], []) := by
  unfold doHandleTask
  simp only [bind_eq, pure_eq]
  refine every_now quiet_sum2 (Early.msgs (.inl rfl)) fun n => ?_
  have hx : AboutTask t (workerPrep w n t) := aboutTask_of (workerPrep_prepared w n t)
  refine every_bind (every_mono (workerMw_every C w _) ?_)
  intro s r hs
  have fin : ∀ (q : String) (y : Task), AboutTask t y →
      ((q = "completed" ∧ y.state = .completed) ∨ (q = "error" ∧ y.state = .failed)) →
      Every sum2 (fun s (_ : Option Res) => WorkerMsgs t s.1) ((publish (.task q y)).bind fun r => match r with
        | .error e => ret (some e) | .ok _ => ret none) s := by
    intro q y hy hq
    refine every2_pub hs.msgs (fun r => ?_) (fun e => hs.msgs)
    have : WorkerMsgs t (s.1 ++ [.task q y]) := by
      refine ⟨s.1, _, rfl, hs, .inr ⟨y, hy, ?_⟩⟩
      rcases hq with ⟨rfl, h⟩ | ⟨rfl, h⟩
      · exact .inl ⟨rfl, h⟩
      · exact .inr ⟨rfl, h⟩
    cases r <;> exact this
  cases r with
  | none => exact hs.msgs
  | some p =>
    obtain ⟨r, rt⟩ := p
    cases r with
    | some e =>
      dsimp only
      refine every_now quiet_sum2 hs.msgs fun n => ?_
      exact fin _ _ (aboutTask_state hx) (.inr ⟨rfl, rfl⟩)
    | none =>
      dsimp only
      cases rt.state <;> dsimp only
      case completed => exact fin _ _ (aboutTask_state hx) (.inl ⟨rfl, rfl⟩)
      case failed => exact fin _ _ (aboutTask_state hx) (.inr ⟨rfl, rfl⟩)
      all_goals exact hs.msgs

/-- **C19 (every run).** Whatever middleware and runtime do, whatever publish fails or is lost, and wherever the worker
crashes: it sends at most one STARTED message, then progress reports, then at most one terminal report, which is about
this task with its configuration and is COMPLETED on the completion queue or FAILED on the error queue. -/
theorem C19_every_run (C : Cfg) (w : WorkerRun) (t : Task) {l : List Ev} {q : Prog Res}
    (h : Run (doHandleTask C w t) l q) : WorkerMsgs t (published l) :=
  run_sum2 (doHandleTask_every C w t) h

namespace WorkerEx
def cfg : Cfg := { O := fun _ _ _ => .error "none", parseDur := fun x => if x = "5m" then some 300 else none }
def task : Task := { id := 5, jobID := 1, name := "a", state := .scheduled, timeout := "5m", redelivered := 2 }
def good : WorkerRun := { nodeID := 9, defaultCPUs := "1", progress := [50], run := fun t => (none, { t with result := "r" }) }
def bad : WorkerRun := { nodeID := 9, run := fun t => (some "boom", t) }
example : good.Plain := ⟨fun _ => rfl, rfl, fun _ _ => rfl⟩
example : ∃ x y s', (doHandleTask cfg good task).exec {} = (some none, s') ∧
    s'.out = [.task "started" x, .progress { x with progress := 50 }, .task "completed" y] ∧
    y.result = "r" ∧ y.redelivered = 2 ∧ y.cpus = "1" ∧ x.redelivered = 0 := by
  obtain ⟨x, rep, q, ps, s', a, b, h1, h2, _, h3, h4, h5⟩ := C19_one_report cfg good ⟨fun _ => rfl, rfl, fun _ _ => rfl⟩ task {}
  have ht : x.timeout = "5m" := h1.timeout
  rw [if_neg (by rw [ht]; decide)] at h5
  refine ⟨_, _, _, rfl, rfl, rfl, rfl, rfl, rfl⟩
example : ∃ x y s', (doHandleTask cfg bad task).exec {} = (some none, s') ∧
    s'.out = [.task "started" x, .task "error" y] ∧ y.error = "boom" := ⟨_, _, _, rfl, rfl, rfl⟩
end WorkerEx

end Tork

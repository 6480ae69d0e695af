import Verif.Props.NoStuck
import Verif.FlowWorld
/-!
# C52 for composite tasks: without faults no job is stuck

`SoundEnv E H` (`FlowWorld.lean`) says which jobs take part: any nesting, up to any depth `H`, of parallel tasks, each tasks,
attached and detached sub-jobs and regular tasks (`Sound`, `FlowTasks.lean`). `CalmStep` (`CalmWorld.lean`) is the system
without faults.
-/

namespace Tork.Flow
open Prog Calm

/-- C52: whenever a fault-free system comes to rest — no running handler, request or worker, every queue that somebody
listens to drained — every job, be it submitted, scheduled or the sub-job of a task, is COMPLETED, FAILED or CANCELLED: no
composite task waits for a child nobody is working on. -/
theorem C52_no_stuck_composite {E : Env} {H : Nat} (hE : SoundEnv E H) {w : World} (h : CalmSteps E {} w) (hq : Quiet E w)
    {id : Nat} {j : Job} (hj : w.ds.job? id = some j) : j.state = .completed ∨ j.state = .failed ∨ j.state = .cancelled := by
  obtain ⟨ann, ed, hi⟩ := finv_steps hE h
  have hann : ann = [] := by
    have := hi.threads
    rw [hq.1] at this
    cases this; rfl
  have hobs : obs E.C w.msgs ann = [] := by
    rw [hann]
    unfold obs
    have : ∀ ms : List Msg, (∀ m ∈ ms, Unheard E m) → toksL E.C ms = [] := fun ms hm => by
      induction ms with
      | nil => rfl
      | cons m ms ih =>
        rw [toksL_cons, toks_unheard (hm m (by simp)), ih fun x hx => hm x (by simp [hx])]; rfl
    rw [this _ hq.2]; rfl
  have hl : ¬ Live w.ds id := covers_nil hi.db hi.invE (by rw [← hobs]; exact hi.cover) id
  have hs := (hi.db.jobs id j hj).state
  unfold JobState.proper at hs
  cases hst : j.state with
  | pending => exact absurd ⟨j, hj, .inl hst⟩ hl
  | scheduled => exact absurd ⟨j, hj, .inr (.inl hst)⟩ hl
  | running => exact absurd ⟨j, hj, .inr (.inr hst)⟩ hl
  | completed => simp
  | failed => simp
  | cancelled => simp
  | restart => rw [hst] at hs; exact hs.elim
  | unset => rw [hst] at hs; exact hs.elim

/-- C52: no handler, request or worker panics. -/
theorem C52_no_panic_composite {E : Env} {H : Nat} (hE : SoundEnv E H) {w : World} (h : CalmSteps E {} w) {p : Prog Unit}
    (hp : p ∈ w.threads) (why : String) : p ≠ .panic why := by
  rintro rfl
  obtain ⟨ann, ed, hi⟩ := finv_steps hE h
  obtain ⟨a, b, hab⟩ := List.append_of_mem hp
  have hth := hi.threads
  rw [hab] at hth
  obtain ⟨_, _, _, _, _, h2, _⟩ := all2_split hth
  exact h2

/-- C52: a system that has not come to rest can go on (there is at least one worker). -/
theorem C52_no_deadlock_composite {E : Env} {H : Nat} (hE : SoundEnv E H) {r : WorkerRun} (hr : E.workerOK r) {w : World}
    (h : CalmSteps E {} w) (hq : ¬ Quiet E w) :
    (∃ p ∈ w.threads, p = .ret () ∨ ∃ p' ds' ms n', OkStep p w.ds w.next p' ds' ms n') ∨
    (∃ m ∈ w.msgs, ∃ w', CalmStep E w w' ∧ w'.msgs.length + 1 = w.msgs.length ∧ w'.threads.length = w.threads.length + 1) := by
  cases hth : w.threads with
  | cons p l =>
    refine .inl ⟨p, List.mem_cons_self .., ?_⟩
    cases p with
    | ret u => exact .inl rfl
    | db op k => exact .inr ⟨_, _, _, _, .db op k _ _⟩
    | pub m k => exact .inr ⟨_, _, _, _, .pub m k _ _⟩
    | nondet k => exact .inr ⟨_, _, _, _, .nondet k _ _ 0⟩
    | uuid k => exact .inr ⟨_, _, _, _, .uuid k _ _⟩
    | panic s => exact absurd rfl (C52_no_panic_composite hE h (p := .panic s) (by rw [hth]; exact List.mem_cons_self ..) s)
  | nil =>
    right
    have hx : ∃ m ∈ w.msgs, ¬ Unheard E m := Classical.byContradiction fun hc =>
      hq ⟨hth, fun m hm => Classical.byContradiction fun hu => hc ⟨m, hm, hu⟩⟩
    obtain ⟨m, hm, hu⟩ := hx
    obtain ⟨a, b, hab⟩ := List.append_of_mem hm
    refine ⟨m, hm, ?_⟩
    cases hc : coordinatorHandler E.C E.fuel m with
    | some p =>
      refine ⟨_, .deliver w a b m p hab hc, ?_, ?_⟩
      · rw [hab]; simp; omega
      · simp [hth]
    | none =>
      have hx : ∃ q t, m = .task q t ∧ WorkQueue q := Classical.byContradiction fun hx =>
        hu ⟨hc, fun q t hm hw => hx ⟨q, t, hm, hw⟩⟩
      obtain ⟨q, t, rfl, hw⟩ := hx
      refine ⟨_, .work w a b q t r hab hw hr, ?_, ?_⟩
      · rw [hab]; simp; omega
      · simp [hth]

/-! ## Examples -/

namespace FlowEx
open Calm.NoStuckEx (boom)

/-- Every expression evaluates to its own text; `xs` and `none` are also lists. -/
def cfg : Cfg where
  O s _ _ := .ok { text := s, items := if s = "xs" then some ["a", "b", "c"] else if s = "none" then some [] else none }
  parseDur _ := none

def leaf (n : String) : Task := { name := n, run := "echo" }
/-- two branches: a regular task and a loop over three items, at most two at a time -/
def fan : Task :=
  { name := "fan", parallel := some { tasks := [leaf "p1", { name := "loop", each := some { list := "xs", concurrency := 2, task := leaf "e" } }] } }
def sub : Task := { name := "sub", subJob := some { name := "child", tasks := [leaf "s1", leaf "s2"] } }
def job : Job := { name := "composite", tasks := [fan, sub] }

def env : Env where
  C := cfg
  fuel := 3
  submitOK j := j = job
  fireOK _ := False
  workerOK r := r = {} ∨ r = boom
  restartOK _ := True

theorem queue_ok : LiteralQueue "" := by unfold LiteralQueue WorkQueue; decide +kernel

theorem leaf_sound {n : String} {k : Nat} : Sound cfg (k + 1) (leaf n) := by
  refine ⟨queue_ok, .inr fun r h => ?_, fun p h => ?_, fun e h => ?_, fun s h => ?_⟩ <;> cases h

theorem xs_nonempty : NonEmptyList cfg "xs" := by
  intro ctx sd v xs h1 h2
  have h1 : Except.ok (α := Val) _ = .ok v := h1
  cases h1
  have : String.ofList (sanitizeExpr "xs".toList) = "xs" := by decide +kernel
  rw [this] at h2
  cases h2
  simp

theorem fan_sound : Sound cfg 3 fan := by
  refine ⟨queue_ok, .inr fun r h => (by cases h), fun p h => ?_, fun e h => (by cases h), fun s h => (by cases h)⟩
  cases h
  refine ⟨by simp, fun x hx => ?_⟩
  simp only [List.mem_cons, List.not_mem_nil, or_false] at hx
  rcases hx with rfl | rfl
  · exact leaf_sound
  · refine ⟨queue_ok, .inr fun r h => (by cases h), fun p h => (by cases h), fun e h => ?_, fun s h => (by cases h)⟩
    cases h
    exact ⟨xs_nonempty, leaf_sound⟩

theorem sub_sound' : Sound cfg 3 sub := by
  refine ⟨queue_ok, .inr fun r h => (by cases h), fun p h => (by cases h), fun e h => (by cases h), fun s h => ?_⟩
  cases h
  refine ⟨by simp, fun x hx => ?_⟩
  simp only [List.mem_cons, List.not_mem_nil, or_false] at hx
  rcases hx with rfl | rfl <;> exact ⟨⟨rfl, rfl, rfl⟩, leaf_sound⟩

theorem tame_ok (r : WorkerRun) (hr : r = {} ∨ r = boom) : Tame r := by
  rcases hr with rfl | rfl
  · refine ⟨fun t => ⟨rfl, rfl, rfl, rfl, rfl, rfl, rfl, rfl, rfl⟩, fun _ => rfl, by simp, fun r t h => ⟨h, rfl⟩⟩
  · refine ⟨fun t => ⟨rfl, rfl, rfl, rfl, rfl, rfl, rfl, rfl, rfl⟩, fun _ => rfl, by simp [boom], fun r t h => ⟨h, rfl⟩⟩

theorem env_sound : SoundEnv env 3 where
  submit j hj := by
    cases hj
    refine ⟨⟨by simp [job], fun t ht => ?_, fun d hd => by simp [job] at hd, fun d hd => by simp [job] at hd⟩, rfl⟩
    simp only [job, List.mem_cons, List.not_mem_nil, or_false] at ht
    rcases ht with rfl | rfl
    · exact ⟨⟨rfl, rfl, rfl⟩, fan_sound⟩
    · exact ⟨⟨rfl, rfl, rfl⟩, sub_sound'⟩
  fire _ h := h.elim
  worker := tame_ok
  fuel := by decide

def d : Act := .deliver 0
def ok : Act := .work 0 {}
def bad : Act := .work 0 boom

/-- everything is processed in order and succeeds -/
def finished : List Act :=
  [.submit job, d, d, d, ok, d, d, d, d, ok, ok, d, d, d, d, d, ok, d, d, d, d, ok, d, d, d, ok, d, d, d]
/-- an item of the loop fails -/
def broken : List Act :=
  [.submit job, d, d, d, ok, d, d, d, d, bad, ok, d, d, d, d]

example : Calm.NoStuckEx.states env finished = some ([(1, .completed, 3), (9, .completed, 3)], [true], 0) := by decide +kernel
example : Calm.NoStuckEx.states env broken = some ([(1, .failed, 1)], [true, true, true], 0) := by decide +kernel

def emptyJob : Job := { name := "empty", tasks := [{ name := "loop", each := some { list := "none", task := leaf "e" } }] }
def env2 : Env := { env with submitOK := fun j => j = emptyJob }
def stuck : List Act := [.submit emptyJob, d]

theorem stuck_allowed : ∀ a ∈ stuck, a.allowed env2 :=
  List.forall_mem_cons.2 ⟨rfl, List.forall_mem_cons.2 ⟨.intro, List.forall_mem_nil _⟩⟩

end FlowEx

open FlowEx in
/-- C52, the exception: an each task whose list is empty creates no child and completes never (`scheduler.go:213-262`): the
system is at rest with the job still SCHEDULED. -/
theorem C52_empty_each_defect : ∃ (E : Env) (w : World) (j : Job), CalmSteps E {} w ∧ Quiet E w ∧ w.ds.job? 1 = some j ∧
    j.state = .scheduled ∧ (∀ r, E.workerOK r → Tame r) ∧ Total E.C ∧
    ∀ k, E.submitOK k → ∃ t e, k.tasks = [t] ∧ t.each = some e ∧ t.parallel = none ∧ t.subJob = none ∧ t.queue = "" ∧ t.retry = none ∧
      (∀ n, Sound E.C (n + 1) e.task) ∧ ∃ v, (∀ ctx sd, evaluateExpr E.C.O ctx sd e.list = .ok v) ∧ v.items = some [] := by
  have key : (playAll env2 {} stuck).any (fun w => w.threads.isEmpty && w.msgs.isEmpty &&
      (w.ds.job? 1).any fun j => decide (j.state = .scheduled)) = true := by decide +kernel
  cases hw : playAll env2 {} stuck with
  | none => rw [hw] at key; cases key
  | some w =>
    rw [hw] at key
    simp only [Option.any_some, Bool.and_eq_true, List.isEmpty_iff] at key
    obtain ⟨⟨h1, h2⟩, h3⟩ := key
    cases hj : w.ds.job? 1 with
    | none => rw [hj] at h3; cases h3
    | some j =>
      rw [hj] at h3
      refine ⟨env2, w, j, playAll_sound stuck_allowed hw, ⟨h1, fun m hm => by rw [h2] at hm; cases hm⟩, hj,
        of_decide_eq_true h3, tame_ok, fun _ _ _ => ⟨_, rfl⟩, fun k hk => ?_⟩
      cases hk
      have hn : String.ofList (sanitizeExpr "none".toList) = "none" := by decide +kernel
      refine ⟨_, _, rfl, rfl, rfl, rfl, rfl, rfl, fun n => leaf_sound, { text := "none", items := some [] }, fun ctx sd => ?_, rfl⟩
      show cfg.O (String.ofList (sanitizeExpr "none".toList)) ctx sd = _
      rw [hn]; rfl

end Tork.Flow

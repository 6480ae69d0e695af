import Verif.CalmWorld
/-!
# C52: without faults no job is stuck

`CalmStep` (`CalmWorld.lean`) is the system without faults; `CalmEnv` says which jobs and workers take part.
-/

namespace Tork.Calm
open Prog

/-- Nothing is going on: no goroutine is running and nobody would take any message that is left. -/
def Quiet (E : Env) (w : World) : Prop := w.threads = [] ∧ ∀ m ∈ w.msgs, Unheard E m

/-- C52: whenever a fault-free system comes to rest — no running handler, request or worker, every queue that somebody
listens to drained — every job is COMPLETED, FAILED or CANCELLED. -/
theorem C52_no_stuck {E : Env} (hE : CalmEnv E) {w : World} (h : CalmSteps E {} w) (hq : Quiet E w) {id : Nat} {j : Job}
    (hj : w.ds.job? id = some j) : j.state = .completed ∨ j.state = .failed ∨ j.state = .cancelled := by
  obtain ⟨ann, hi⟩ := cinv_steps hE h
  by_cases hl : Live w.ds id
  · rcases hi.cover id hl with ⟨m, hm, hn⟩ | ⟨a, ha, hn⟩
    · rw [toks_unheard (hq.2 m hm)] at hn; cases hn
    · have := hi.threads
      rw [hq.1] at this
      cases this
      cases ha
  · have hs := (hi.db.jobs id j hj).state
    unfold JobState.proper at hs
    cases hst : j.state with
    | pending => exact absurd ⟨j, hj, .inl hst⟩ hl
    | scheduled => exact absurd ⟨j, hj, .inr (.inl hst)⟩ hl
    | running => exact absurd ⟨j, hj, .inr (.inr hst)⟩ hl
    | completed => simp
    | failed => simp
    | cancelled => simp
    | restart => rw [hst] at hs; exact hs.elim
    | unset => rw [hst] at hs; exact hs.elim

/-- C52: no handler, request or worker panics. -/
theorem C52_no_panic {E : Env} (hE : CalmEnv E) {w : World} (h : CalmSteps E {} w) {p : Prog Unit} (hp : p ∈ w.threads)
    (why : String) : p ≠ .panic why := by
  rintro rfl
  obtain ⟨ann, hi⟩ := cinv_steps hE h
  obtain ⟨a, b, hab⟩ := List.append_of_mem hp
  have hth := hi.threads
  rw [hab] at hth
  obtain ⟨_, _, _, _, _, h2, _⟩ := all2_split hth
  exact h2

/-- C52: a system that has not come to rest can go on (there is at least one worker). -/
theorem C52_no_deadlock {E : Env} (hE : CalmEnv E) {r : WorkerRun} (hr : E.workerOK r) {w : World} (h : CalmSteps E {} w)
    (hq : ¬ Quiet E w) :
    (∃ p ∈ w.threads, p = .ret () ∨ ∃ p' ds' ms n', OkStep p w.ds w.next p' ds' ms n') ∨
    (∃ m ∈ w.msgs, ∃ w', CalmStep E w w' ∧ w'.msgs.length + 1 = w.msgs.length ∧ w'.threads.length = w.threads.length + 1) := by
  cases hth : w.threads with
  | cons p l =>
    refine .inl ⟨p, List.mem_cons_self .., ?_⟩
    cases p with
    | ret u => exact .inl rfl
    | db op k => exact .inr ⟨_, _, _, _, .db op k _ _⟩
    | pub m k => exact .inr ⟨_, _, _, _, .pub m k _ _⟩
    | nondet k => exact .inr ⟨_, _, _, _, .nondet k _ _ 0⟩
    | uuid k => exact .inr ⟨_, _, _, _, .uuid k _ _⟩
    | panic s => exact absurd rfl (C52_no_panic hE h (p := .panic s) (by rw [hth]; exact List.mem_cons_self ..) s)
  | nil =>
    right
    have hx : ∃ m ∈ w.msgs, ¬ Unheard E m := Classical.byContradiction fun hc =>
      hq ⟨hth, fun m hm => Classical.byContradiction fun hu => hc ⟨m, hm, hu⟩⟩
    obtain ⟨m, hm, hu⟩ := hx
    obtain ⟨a, b, hab⟩ := List.append_of_mem hm
    refine ⟨m, hm, ?_⟩
    cases hc : coordinatorHandler E.C E.fuel m with
    | some p =>
      refine ⟨_, .deliver w a b m p hab hc, ?_, ?_⟩
      · rw [hab]; simp; omega
      · simp [hth]
    | none =>
      have hx : ∃ q t, m = .task q t ∧ WorkQueue q := Classical.byContradiction fun hx =>
        hu ⟨hc, fun q t hm hw => hx ⟨q, t, hm, hw⟩⟩
      obtain ⟨q, t, rfl, hw⟩ := hx
      refine ⟨_, .work w a b q t r hab hw hr, ?_, ?_⟩
      · rw [hab]; simp; omega
      · simp [hth]

/-! ## Examples -/

namespace NoStuckEx

/-- Every expression evaluates to its own text. -/
def cfg : Cfg where
  O s _ _ := .ok { text := s, items := none }
  parseDur _ := none

def task : Task := { name := "one", run := "echo", retry := some { limit := 1 } }
def job : Job := { name := "demo", tasks := [task, { task with name := "two", queue := "big" }] }
def boom : WorkerRun := { run := fun t => (some "boom", t) }

def env : Env where
  C := cfg
  fuel := 1
  submitOK j := j = job
  fireOK _ := False
  workerOK r := r = {} ∨ r = boom
  restartOK _ := True

theorem cfg_total : Total cfg := fun _ _ _ => ⟨_, rfl⟩

theorem env_calm : CalmEnv env where
  submit j hj := by
    cases hj
    refine ⟨by simp [job], fun t ht => ?_, rfl, fun d hd => by simp [job] at hd, fun d hd => by simp [job] at hd⟩
    simp only [job, List.mem_cons, List.not_mem_nil, or_false] at ht
    rcases ht with rfl | rfl
    · exact ⟨rfl, rfl, rfl, rfl, by unfold LiteralQueue WorkQueue; decide +kernel, .inl cfg_total⟩
    · exact ⟨rfl, rfl, rfl, rfl, by unfold LiteralQueue WorkQueue; decide +kernel, .inl cfg_total⟩
  fire _ h := h.elim
  worker r hr := by
    rcases hr with rfl | rfl
    · refine ⟨fun t => ⟨rfl, rfl, rfl, rfl, rfl, rfl, rfl, rfl, rfl⟩, fun _ => rfl, by simp, fun r t h => ⟨h, rfl⟩⟩
    · refine ⟨fun t => ⟨rfl, rfl, rfl, rfl, rfl, rfl, rfl, rfl, rfl⟩, fun _ => rfl, by simp [boom], fun r t h => ⟨h, rfl⟩⟩
  fuel := by decide

/-- submitted, first task run (its message delivered once more, still pending), second task fails, is retried, succeeds -/
def finished : List Act :=
  [.submit job, .deliver 0, .again 0, .work 0 {}, .deliver 2, .deliver 1, .deliver 1, .work 1 boom, .deliver 2, .deliver 1,
   .deliver 1, .work 1 {}, .deliver 2, .deliver 1, .work 0 {}, .deliver 2, .deliver 1]
/-- the first task fails twice -/
def broken : List Act :=
  [.submit job, .deliver 0, .work 0 boom, .deliver 1, .deliver 0, .deliver 0, .work 0 boom, .deliver 1, .deliver 0]

theorem finished_allowed : ∀ a ∈ finished, a.allowed env :=
  List.forall_mem_cons.2 ⟨rfl, List.forall_mem_cons.2 ⟨.intro, List.forall_mem_cons.2 ⟨.intro, List.forall_mem_cons.2 ⟨.inl rfl,
  List.forall_mem_cons.2 ⟨.intro, List.forall_mem_cons.2 ⟨.intro, List.forall_mem_cons.2 ⟨.intro, List.forall_mem_cons.2 ⟨.inr rfl,
  List.forall_mem_cons.2 ⟨.intro, List.forall_mem_cons.2 ⟨.intro, List.forall_mem_cons.2 ⟨.intro, List.forall_mem_cons.2 ⟨.inl rfl,
  List.forall_mem_cons.2 ⟨.intro, List.forall_mem_cons.2 ⟨.intro, List.forall_mem_cons.2 ⟨.inl rfl, List.forall_mem_cons.2 ⟨.intro,
  List.forall_mem_cons.2 ⟨.intro, List.forall_mem_nil _⟩⟩⟩⟩⟩⟩⟩⟩⟩⟩⟩⟩⟩⟩⟩⟩⟩

def states (E : Env) (l : List Act) : Option (List (Nat × JobState × Nat) × List Bool × Nat) :=
  (playAll E {} l).map fun w =>
    (w.ds.jobs.map fun j => (j.id, j.state, j.position),
     w.msgs.map fun m => match m with | .event _ _ => true | _ => false, w.threads.length)

example : states env finished = some ([(1, .completed, 3)], [true], 0) := by decide +kernel
example : states env broken = some ([(1, .failed, 1)], [true, true], 0) := by decide +kernel

/-- An expression language with an expression whose value looks like a template that cannot be evaluated. -/
def cfg2 : Cfg where
  O s _ _ :=
    if s = "x" then .ok { text := "{{ bad }}", items := none }
    else if s = "bad" then .error "bad" else .ok { text := s, items := none }
  parseDur _ := none

def job2 : Job := { name := "demo", tasks := [{ task with name := "{{ x }}" }] }
def env2 : Env := { env with C := cfg2, submitOK := fun j => j = job2 }
def stuck : List Act := [.submit job2, .deliver 0, .work 0 boom, .deliver 0, .deliver 0]

theorem stuck_allowed : ∀ a ∈ stuck, a.allowed env2 :=
  List.forall_mem_cons.2 ⟨rfl, List.forall_mem_cons.2 ⟨.intro, List.forall_mem_cons.2 ⟨.inr rfl, List.forall_mem_cons.2 ⟨.intro,
  List.forall_mem_cons.2 ⟨.intro, List.forall_mem_nil _⟩⟩⟩⟩⟩

end NoStuckEx

open NoStuckEx in
/-- C52, the exception: a retry evaluates the templates of the already evaluated task again (`error.go:61-72`). If that
fails, nothing is published and the job is not failed: the system is at rest with a RUNNING job. -/
theorem C52_retry_defect : ∃ (E : Env) (w : World) (j : Job), CalmSteps E {} w ∧ Quiet E w ∧ w.ds.job? 1 = some j ∧
    j.state = .running ∧ E.workerOK = env.workerOK ∧
    ∀ k, E.submitOK k → k.tasks.length = 1 ∧ ∀ t ∈ k.tasks, t.parallel = none ∧ t.each = none ∧ t.subJob = none ∧
      t.queue = "" := by
  have key : (playAll env2 {} stuck).any (fun w => w.threads.isEmpty && w.msgs.isEmpty &&
      (w.ds.job? 1).any fun j => decide (j.state = .running)) = true := by decide +kernel
  cases hw : playAll env2 {} stuck with
  | none => rw [hw] at key; cases key
  | some w =>
    rw [hw] at key
    simp only [Option.any_some, Bool.and_eq_true, List.isEmpty_iff] at key
    obtain ⟨⟨h1, h2⟩, h3⟩ := key
    cases hj : w.ds.job? 1 with
    | none => rw [hj] at h3; cases h3
    | some j =>
      rw [hj] at h3
      refine ⟨env2, w, j, playAll_sound (fun a ha => ?_) hw, ⟨h1, fun m hm => by rw [h2] at hm; cases hm⟩, hj,
        of_decide_eq_true h3, rfl, fun k hk => ?_⟩
      · exact stuck_allowed a ha
      · cases hk
        refine ⟨rfl, fun t ht => ?_⟩
        simp only [job2, List.mem_cons, List.not_mem_nil, or_false] at ht
        subst ht
        exact ⟨rfl, rfl, rfl, rfl⟩

end Tork.Calm

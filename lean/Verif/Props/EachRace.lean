import Verif.Props.NoStuckAll
/-!
# C13: a fast child of an each task fails the job

`scheduleEachTask` publishes the first `concurrency` children while it is still creating the rest. A child that completes in
between finds no held-back sibling to release, and the error of `GetNextTask` fails the whole job.
-/

namespace Tork.Flow
open Prog Calm

/-- One operation of a goroutine, faults excluded. -/
def okStep {α : Type} (ds : DS) (n : Nat) : Prog α → Option (Prog α × DS × List Msg × Nat)
  | .ret _ => none
  | .db op k => some (k (op.run ds).1, (op.run ds).2.1, (op.run ds).2.2, n)
  | .pub m k => some (k (.ok ()), ds, [m], n)
  | .nondet k => some (k 0, ds, [], n)
  | .uuid k => some (k n, ds, [], n + 1)
  | .panic _ => none

theorem okStep_sound {α : Type} {ds : DS} {n : Nat} {p : Prog α} {x : Prog α × DS × List Msg × Nat} (h : okStep ds n p = some x) :
    OkStep p ds n x.1 x.2.1 x.2.2.1 x.2.2.2 := by
  cases p with
  | ret a => cases h
  | panic s => cases h
  | db op k => cases h; exact .db op k ds n
  | pub m k => cases h; exact .pub m k ds n
  | nondet k => cases h; exact .nondet k ds n 0
  | uuid k => cases h; exact .uuid k ds n

/-- Actions at the grain of single operations. -/
inductive Fine
  /-- a whole action -/
  | whole (a : Act)
  /-- message `i` is delivered to a coordinator, which has not done anything yet -/
  | take (i : Nat)
  /-- the goroutine in the first place performs one operation -/
  | step
  /-- the goroutine in the first place returns -/
  | finish

def Fine.allowed (E : Env) : Fine → Prop
  | .whole a => a.allowed E
  | _ => True

def Fine.play (E : Env) (w : World) : Fine → Option World
  | .whole a => a.play E w
  | .take i => (w.msgs[i]?).bind fun m => (coordinatorHandler E.C E.fuel m).map fun p =>
      { w with msgs := w.msgs.take i ++ w.msgs.drop (i + 1), threads := w.threads ++ [p.discard] }
  | .step =>
    match w.threads with
    | [] => none
    | p :: l => (okStep w.ds w.next p).map fun x => { ds := x.2.1, msgs := w.msgs ++ x.2.2.1, threads := x.1 :: l, next := x.2.2.2 }
  | .finish =>
    match w.threads with
    | .ret () :: l => some { w with threads := l }
    | _ => none

def playFine (E : Env) : World → List Fine → Option World
  | w, [] => some w
  | w, a :: l => (a.play E w).bind fun w' => playFine E w' l

theorem fine_sound {E : Env} {w w' : World} {a : Fine} (ha : a.allowed E) (h : a.play E w = some w') : CalmSteps E w w' := by
  cases a with
  | whole a => exact play_sound ha h
  | take i =>
    unfold Fine.play at h
    dsimp only at h
    cases hm : w.msgs[i]? with
    | none => rw [hm] at h; cases h
    | some m =>
      rw [hm] at h
      simp only [Option.bind_some] at h
      cases hc : coordinatorHandler E.C E.fuel m with
      | none => rw [hc] at h; cases h
      | some p =>
        rw [hc] at h
        cases h
        exact .tail (.refl _) (.deliver w _ _ m p (split_at hm) hc)
  | step =>
    unfold Fine.play at h
    dsimp only at h
    cases ht : w.threads with
    | nil => rw [ht] at h; cases h
    | cons p l =>
      rw [ht] at h
      dsimp only at h
      cases hs : okStep w.ds w.next p with
      | none => rw [hs] at h; cases h
      | some x =>
        rw [hs] at h
        cases h
        exact .tail (.refl _) (.op w [] l p _ _ _ _ ht (okStep_sound hs))
  | finish =>
    unfold Fine.play at h
    dsimp only at h
    split at h
    · rename_i l ht
      cases h
      exact .tail (.refl _) (.finish w [] l ht)
    · cases h

theorem playFine_sound {E : Env} {w w' : World} {l : List Fine} (ha : ∀ a ∈ l, a.allowed E) (h : playFine E w l = some w') :
    CalmSteps E w w' := by
  induction l generalizing w with
  | nil => cases h; exact .refl _
  | cons a l ih =>
    unfold playFine at h
    cases hp : a.play E w with
    | none => rw [hp] at h; cases h
    | some w1 =>
      rw [hp] at h
      exact (fine_sound (ha a (by simp)) hp).trans (ih (fun b hb => ha b (by simp [hb])) h)

namespace RaceEx
open FlowEx

def job : Job := { name := "loop", tasks := [{ name := "loop", each := some { list := "xs", concurrency := 1, task := leaf "e" } }] }
def env : Env := { FlowEx.env with submitOK := fun j => j = job, workerOK := fun r => r = {} }

def d : Fine := .whole (.deliver 0)
def steps (n : Nat) : List Fine := List.replicate n .step

/-- submit; the scheduling of the loop is interrupted after its first child has been published; the child is scheduled, runs and
succeeds, and its completion is handled; then the scheduling of the loop goes on to the end -/
def fast : List Fine :=
  [.whole (.submit job), .take 0] ++ steps 14 ++ [d, .whole (.work 0 {}), d, d] ++ steps 6 ++ [.finish]

theorem fast_allowed : ∀ a ∈ fast, a.allowed env := by
  intro a ha
  have key : ∀ n, ∀ b ∈ steps n, b.allowed env := fun n b hb => by
    obtain ⟨_, rfl⟩ := List.mem_replicate.1 hb
    exact .intro
  simp only [fast, List.mem_append, List.mem_cons, List.not_mem_nil, or_false] at ha
  rcases ha with (((((rfl | rfl) | ha) | rfl | rfl | rfl | rfl) | ha) | rfl)
  · exact rfl
  · exact .intro
  · exact key _ a ha
  · exact .intro
  · exact rfl
  · exact .intro
  · exact .intro
  · exact key _ a ha
  · exact .intro

end RaceEx

open RaceEx FlowEx in
/-- C13, a defect: a loop over three items, one at a time; nothing fails: datastore and broker work, every expression evaluates,
the worker succeeds at every task. Still the system comes to rest with the job FAILED, two children never having been released. -/
theorem C13_fast_child_fails_job : ∃ (E : Env) (w : World) (j : Job), CalmSteps E {} w ∧ Quiet E w ∧ w.ds.job? 1 = some j ∧
    j.state = .failed ∧ (w.ds.tasks.filter fun t => decide (t.state = .created)).length = 2 ∧
    SoundEnv E 2 ∧ Total E.C ∧ (∀ r, E.workerOK r → r = {}) ∧
    ∀ k, E.submitOK k → ∃ t e, k.tasks = [t] ∧ t.each = some e ∧ e.concurrency = 1 ∧
      ∃ v, (∀ ctx sd, evaluateExpr E.C.O ctx sd e.list = .ok v) ∧ v.items = some ["a", "b", "c"] := by
  have key : (playFine RaceEx.env {} fast).any (fun w => w.threads.isEmpty && w.msgs.all (fun m => match m with | .event .. => true | _ => false) &&
      ((w.ds.job? 1).any fun j => decide (j.state = .failed)) &&
      decide ((w.ds.tasks.filter fun t => decide (t.state = .created)).length = 2)) = true := by decide +kernel
  cases hw : playFine RaceEx.env {} fast with
  | none => rw [hw] at key; cases key
  | some w =>
    rw [hw] at key
    simp only [Option.any_some, Bool.and_eq_true, List.isEmpty_iff, List.all_eq_true] at key
    obtain ⟨⟨⟨h1, h2⟩, h3⟩, h4⟩ := key
    cases hj : w.ds.job? 1 with
    | none => rw [hj] at h3; cases h3
    | some j =>
      rw [hj] at h3
      refine ⟨RaceEx.env, w, j, playFine_sound fast_allowed hw, ⟨h1, fun m hm => ?_⟩, hj, of_decide_eq_true h3, of_decide_eq_true h4,
        ?_, fun _ _ _ => ⟨_, rfl⟩, fun r hr => hr, fun k hk => ?_⟩
      · have := h2 m hm
        cases m <;> first | (cases this; done) | exact ⟨rfl, fun q t h => by cases h⟩
      · refine ⟨fun k hk => ?_, fun _ h => h.elim, fun r hr => tame_ok r (.inl hr), by decide⟩
        cases hk
        refine ⟨⟨by simp [RaceEx.job], fun t ht => ?_, fun d hd => by simp [RaceEx.job] at hd, fun d hd => by simp [RaceEx.job] at hd⟩, rfl⟩
        simp only [RaceEx.job, List.mem_cons, List.not_mem_nil, or_false] at ht
        subst ht
        refine ⟨⟨rfl, rfl, rfl⟩, queue_ok, .inr fun r h => (by cases h), fun p h => (by cases h), fun e h => ?_, fun s h => (by cases h)⟩
        cases h
        exact ⟨xs_nonempty, leaf_sound⟩
      · cases hk
        have hn : String.ofList (sanitizeExpr "xs".toList) = "xs" := by decide +kernel
        refine ⟨_, _, rfl, rfl, rfl, { text := "xs", items := some ["a", "b", "c"] }, fun ctx sd => ?_, rfl⟩
        show cfg.O (String.ofList (sanitizeExpr "xs".toList)) ctx sd = _
        rw [hn]; rfl

end Tork.Flow

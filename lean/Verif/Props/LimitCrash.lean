import Verif.Props.Limit
/-!
# C13: the limit and a crash inside the transaction that completes a child

`/repo/internal/coordinator/handlers/completed.go:84-97` releases the next child on a connection of its own, inside the transaction that
counts the completed one (`completed.go:80-101`). If that transaction does not commit, the release stays. `partials` of `eachTx`
(`Handlers.lean`) lists what can be left behind.
-/

namespace Tork
open Prog

/-- Run `p`; die in the first transaction that can be left half done, leaving its `i`-th possible remainder. -/
def Prog.execCut {α : Type} (i : Nat) : Prog α → Sys → Sys
  | .ret _, s => s
  | .panic _, s => s
  | .db op k, s =>
    match (op.partials s.ds)[i]? with
    | some x => { s with ds := x.1, out := s.out ++ x.2 }
    | none => (k (op.run s.ds).1).execCut i { s with ds := (op.run s.ds).2.1, out := s.out ++ (op.run s.ds).2.2 }
  | .pub m k, s => (k (.ok ())).execCut i { s with out := s.out ++ [m] }
  | .nondet k, s => (k (s.o s.tick)).execCut i { s with tick := s.tick + 1 }
  | .uuid k, s => (k s.next).execCut i { s with next := s.next + 1 }

theorem stepsM_execCut (E : Env) (c : Nat) (p : Prog Unit) (s : Sys) (a b : List (Prog Unit)) (m0 : List Msg) :
    ∃ p', StepsM .once E { ds := s.ds, msgs := m0 ++ s.out, threads := a ++ p :: b, next := s.next } []
      { ds := (p.execCut c s).ds, msgs := m0 ++ (p.execCut c s).out, threads := a ++ p' :: b
        next := (p.execCut c s).next } := by
  induction p generalizing s with
  | ret x => exact ⟨.ret x, .refl _⟩
  | panic e => exact ⟨.panic e, .refl _⟩
  | db op k ih =>
    cases hx : (op.partials s.ds)[c]? with
    | some x =>
      refine ⟨k (.error ""), ?_⟩
      have := StepsM.one (.op (M := .once) (E := E) { ds := s.ds, msgs := m0 ++ s.out, threads := a ++ .db op k :: b, next := s.next } a b _ _ _ _ _ rfl
        (.dbPartial op k s.ds s.next "" x (List.mem_of_getElem? hx) rfl))
      simpa [Prog.execCut, hx, List.append_assoc] using this
    | none =>
      obtain ⟨p', h⟩ := ih (op.run s.ds).1 { s with ds := (op.run s.ds).2.1, out := s.out ++ (op.run s.ds).2.2 }
      refine ⟨p', StepsM.trans (.one (.op _ a b _ _ _ _ _ rfl (.dbOk op k s.ds s.next))) ?_⟩
      simpa [Prog.execCut, hx, List.append_assoc] using h
  | pub m k ih =>
    obtain ⟨p', h⟩ := ih (.ok ()) { s with out := s.out ++ [m] }
    refine ⟨p', StepsM.trans (.one (.op _ a b _ _ _ _ _ rfl (.pubOk m k s.ds s.next))) ?_⟩
    simpa [Prog.execCut, List.append_assoc] using h
  | nondet k ih =>
    obtain ⟨p', h⟩ := ih (s.o s.tick) { s with tick := s.tick + 1 }
    refine ⟨p', StepsM.trans (.one (.op _ a b _ _ _ _ _ rfl (.nondet k s.ds s.next (s.o s.tick)))) ?_⟩
    simpa [Prog.execCut] using h
  | uuid k ih =>
    obtain ⟨p', h⟩ := ih s.next { s with next := s.next + 1 }
    refine ⟨p', StepsM.trans (.one (.op _ a b _ _ _ _ _ rfl (.uuid k s.ds s.next))) ?_⟩
    simpa [Prog.execCut] using h

/-- Message number `i` is delivered to a coordinator that dies in the transaction. -/
def World.deliverCut (E : Env) (c : Nat) (w : World) (i : Nat) : World :=
  match w.msgs[i]? with
  | none => w
  | some m =>
    match coordinatorHandler E.C E.fuel m with
    | none => w
    | some p =>
      let s' := p.discard.execCut c { ds := w.ds, out := [], next := w.next }
      { ds := s'.ds, msgs := (w.msgs.take i ++ w.msgs.drop (i + 1)) ++ s'.out, threads := w.threads, next := s'.next }

theorem stepsM_deliverCut {E : Env} {w : World} (c i : Nat) : StepsM .once E w [] (w.deliverCut E c i) := by
  unfold World.deliverCut
  split
  · exact .refl w
  · rename_i m hm
    split
    · exact .refl w
    · rename_i p hp
      have h1 := StepsM.one (StepM.deliver (M := .once) (E := E) w _ _ m p (split_at hm) hp (fun hM => nomatch hM))
      obtain ⟨p', h2⟩ := stepsM_execCut E c p.discard { ds := w.ds, out := [], next := w.next } w.threads [] (w.msgs.take i ++ w.msgs.drop (i + 1))
      simp only [List.append_nil] at h2
      have h3 := (h1.trans h2).tail (.crash _ w.threads [] p' rfl)
      simpa using h3

namespace LimitEx

/-- The first of three children has been worked on; its report is about to be delivered twice. -/
def reported : List Play := [.nodes [node], .submit (job none), .deliver 0, .deliver 0, .work 0 good, .dup 1]

/-- The coordinator that handles the report dies in the transaction; the report is delivered again and handled. -/
def twoAtOnce : World := ((playAll (env none) {} reported).deliverCut (env none) 1 1).deliver (env none) 1

end LimitEx

/-- C13, a defect: children are not retried, one at a time is allowed. The coordinator dies while it handles the completion of the
first child, after it has released the second one and before the transaction commits; the broker delivers the completion again, and the
third child is released as well. Two children are waiting to be scheduled, the first one is completed. -/
theorem C13_crash_during_release_exceeds_limit : ∃ (E : Env) (l : List Nat) (w : World) (p : Task) (e : EachTask Task) (j : Job),
    E.WellFormed ∧ StepsM .once E {} l w ∧ w.ds.task? 2 = some p ∧ p.each = some e ∧ e.concurrency = 1 ∧ w.ds.job? p.jobID = some j ∧
    NoRetries e j ∧ (w.ds.released 2).card = 2 ∧ (w.ds.task? 3).any (fun t => decide (t.state = .completed)) = true ∧
    (w.msgs.filter fun m => match m with
      | .task q t => decide (q = QUEUE_PENDING) && decide (t.parentID = 2)
      | _ => false).length = 2 := by
  have h1 := stepsM_playAll (M := .once) (E := LimitEx.env none) (w := {}) (l := LimitEx.reported)
    (fun a ha => LimitEx.halfway_allowed a (by
      simp only [LimitEx.reported, List.mem_cons, List.not_mem_nil, or_false] at ha
      rcases ha with rfl | rfl | rfl | rfl | rfl | rfl <;> simp [LimitEx.halfway])) (by decide +kernel)
  have h2 := (h1.trans (stepsM_deliverCut 1 1)).trans (stepsM_deliver 1 (fun m hm => by cases m <;> simp [World.deliverable]))
  have hx : (LimitEx.twoAtOnce.ds.task? 2).any
      (fun p => (LimitEx.twoAtOnce.ds.job? p.jobID).any fun j => p.each.any fun e => e.concurrency == 1 && e.task.retry.isNone && j.defaults.isNone) = true := by
    decide +kernel
  have h3 : (LimitEx.twoAtOnce.ds.released 2).card = 2 := by decide +kernel
  have h4 : (LimitEx.twoAtOnce.ds.task? 3).any (fun t => decide (t.state = .completed)) = true := by decide +kernel
  have h5 : (LimitEx.twoAtOnce.msgs.filter fun m => match m with
      | .task q t => decide (q = QUEUE_PENDING) && decide (t.parentID = 2)
      | _ => false).length = 2 := by decide +kernel
  change StepsM _ _ _ _ LimitEx.twoAtOnce at h2
  revert hx h2 h3 h4 h5
  generalize LimitEx.twoAtOnce = w
  intro hx h3 h4 h5 h2
  obtain ⟨p, hp, hx⟩ := (Option.any_eq_true _ _).1 hx
  obtain ⟨j, hj, hx⟩ := (Option.any_eq_true _ _).1 hx
  obtain ⟨e, he, hx⟩ := (Option.any_eq_true _ _).1 hx
  simp only [Bool.and_eq_true, beq_iff_eq] at hx
  refine ⟨_, _, w, p, e, j, LimitEx.env_wf (by intro x h; cases h), h2, hp, he, hx.1.1, hj, ?_, h3, h4, h5⟩
  constructor
  · intro r hr; rw [Option.isNone_iff_eq_none.1 hx.1.2] at hr; cases hr
  · intro d hd; rw [Option.isNone_iff_eq_none.1 hx.2] at hd; cases hd

end Tork

import Verif.World
/-! Executable schedules of the system: used to exhibit concrete reachable worlds. -/

namespace Tork
open Prog

/-- Run a new goroutine to its end without faults or interleaving. -/
def World.run (w : World) (p : Prog Unit) : World :=
  let s' := (p.exec { ds := w.ds, out := [], next := w.next }).2
  { ds := s'.ds, msgs := w.msgs ++ s'.out, threads := w.threads, next := s'.next }

theorem steps_exec (E : Env) (p : Prog Unit) (s : Sys) (a b : List (Prog Unit)) (m0 : List Msg) :
    ∃ p', Steps E { ds := s.ds, msgs := m0 ++ s.out, threads := a ++ p :: b, next := s.next }
      { ds := (p.exec s).2.ds, msgs := m0 ++ (p.exec s).2.out, threads := a ++ p' :: b
        next := (p.exec s).2.next } := by
  induction p generalizing s with
  | ret x => exact ⟨.ret x, .refl _⟩
  | panic e => exact ⟨.panic e, .refl _⟩
  | db op k ih =>
    obtain ⟨p', h⟩ := ih (op.run s.ds).1 { s with ds := (op.run s.ds).2.1, out := s.out ++ (op.run s.ds).2.2 }
    refine ⟨p', Steps.trans (.tail (.refl _) (.op _ a b _ _ _ _ _ rfl (.dbOk op k s.ds s.next))) ?_⟩
    simpa [Prog.exec, List.append_assoc] using h
  | pub m k ih =>
    obtain ⟨p', h⟩ := ih (.ok ()) { s with out := s.out ++ [m] }
    refine ⟨p', Steps.trans (.tail (.refl _) (.op _ a b _ _ _ _ _ rfl (.pubOk m k s.ds s.next))) ?_⟩
    simpa [Prog.exec, List.append_assoc] using h
  | nondet k ih =>
    obtain ⟨p', h⟩ := ih (s.o s.tick) { s with tick := s.tick + 1 }
    refine ⟨p', Steps.trans (.tail (.refl _) (.op _ a b _ _ _ _ _ rfl (.nondet k s.ds s.next (s.o s.tick)))) ?_⟩
    simpa [Prog.exec] using h
  | uuid k ih =>
    obtain ⟨p', h⟩ := ih s.next { s with next := s.next + 1 }
    refine ⟨p', Steps.trans (.tail (.refl _) (.op _ a b _ _ _ _ _ rfl (.uuid k s.ds s.next))) ?_⟩
    simpa [Prog.exec] using h

theorem steps_run (E : Env) (w : World) (p : Prog Unit) :
    Steps E { w with threads := w.threads ++ [p] } (w.run p) := by
  obtain ⟨p', h⟩ := steps_exec E p { ds := w.ds, out := [], next := w.next } w.threads [] w.msgs
  have h2 := Step.crash (E := E) { ds := (p.exec { ds := w.ds, out := [], next := w.next }).2.ds
                                   msgs := w.msgs ++ (p.exec { ds := w.ds, out := [], next := w.next }).2.out
                                   threads := w.threads ++ p' :: []
                                   next := (p.exec { ds := w.ds, out := [], next := w.next }).2.next }
    w.threads [] p' rfl
  have h3 := Steps.tail h h2
  simpa [World.run] using h3

/-- Deliver message number `i` to a coordinator and run its handler to the end. -/
def World.deliver (E : Env) (w : World) (i : Nat) : World :=
  match w.msgs[i]? with
  | none => w
  | some m =>
    match coordinatorHandler E.C E.fuel m with
    | none => w
    | some p => World.run { w with msgs := w.msgs.take i ++ w.msgs.drop (i + 1) } p.discard

/-- Deliver message number `i` to a worker and run it to the end. -/
def World.work (E : Env) (r : WorkerRun) (w : World) (i : Nat) : World :=
  match w.msgs[i]? with
  | some (.task q t) =>
    if !isTaskQueue q then w
    else World.run { w with msgs := w.msgs.take i ++ w.msgs.drop (i + 1) } (doHandleTask E.C r t).discard
  | _ => w

theorem split_at {α : Type} {l : List α} {i : Nat} {x : α} (h : l[i]? = some x) :
    l = l.take i ++ x :: l.drop (i + 1) := by
  obtain ⟨hi, rfl⟩ := List.getElem?_eq_some_iff.1 h
  rw [List.getElem_cons_drop hi, List.take_append_drop]

theorem reachable_deliver {E : Env} {w : World} (h : Reachable E w) (i : Nat) :
    Reachable E (w.deliver E i) := by
  unfold World.deliver
  split
  · exact h
  · rename_i m hm
    split
    · exact h
    · rename_i p hp
      exact Steps.trans (.tail h (.deliver w _ _ m p (split_at hm) hp))
        (steps_run E { w with msgs := w.msgs.take i ++ w.msgs.drop (i + 1) } _)

theorem reachable_work {E : Env} {r : WorkerRun} {w : World} (hr : E.workerOK r) (h : Reachable E w) (i : Nat) :
    Reachable E (w.work E r i) := by
  unfold World.work
  split
  · rename_i q t hm
    split
    · exact h
    · rename_i hq
      exact Steps.trans (.tail h (.work w _ _ q t r (split_at hm) (by simpa using hq) hr))
        (steps_run E { w with msgs := w.msgs.take i ++ w.msgs.drop (i + 1) } _)
  · exact h

theorem reachable_spawn {E : Env} {w : World} {p : Prog Unit} (hp : Spawn E p) (h : Reachable E w) :
    Reachable E (w.run p) :=
  Steps.trans (.tail h (.spawn w p hp)) (steps_run E _ _)

theorem reachable_dup {E : Env} {w : World} {m : Msg} (hm : m ∈ w.msgs) (hs : m.startsJob = false)
    (h : Reachable E w) : Reachable E { w with msgs := w.msgs ++ [m] } :=
  .tail h (.dup w m hm hs)

theorem reachable_init (E : Env) : Reachable E {} := .refl _

/-- Handle the first message that can be handled, by a coordinator or by worker `r`. -/
def World.auto (E : Env) (r : WorkerRun) (w : World) : Nat → World
  | 0 => w
  | n + 1 =>
    match w.msgs[n]? with
    | some (.event _ _) => w.auto E r n
    | some (.task q _) =>
      if isTaskQueue q then w.work E r n else w.deliver E n
    | some _ => w.deliver E n
    | none => w.auto E r n

/-- Handle `n` messages, always the latest one that can be handled. -/
def World.drive (E : Env) (r : WorkerRun) : Nat → World → World
  | 0, w => w
  | n + 1, w => World.drive E r n (w.auto E r w.msgs.length)

theorem reachable_auto {E : Env} {r : WorkerRun} (hr : E.workerOK r) {w : World} (h : Reachable E w) (n : Nat) :
    Reachable E (w.auto E r n) := by
  induction n with
  | zero => exact h
  | succ n ih =>
    unfold World.auto
    split
    · exact ih
    · split
      · exact reachable_work hr h n
      · exact reachable_deliver h n
    · exact reachable_deliver h n
    · exact ih

theorem reachable_drive {E : Env} {r : WorkerRun} (hr : E.workerOK r) (n : Nat) {w : World} (h : Reachable E w) :
    Reachable E (World.drive E r n w) := by
  induction n generalizing w with
  | zero => exact h
  | succ n ih => exact ih (reachable_auto hr h _)

end Tork

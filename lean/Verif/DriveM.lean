import Verif.OnceWorld
import Verif.Drive
/-! Executable schedules of the systems of a mode (`StepM`): used to exhibit concrete runs. -/

namespace Tork
open Prog

theorem StepsM.trans {M : Mode} {E : Env} {a b c : World} {l l' : List Nat} (h1 : StepsM M E a l b) (h2 : StepsM M E b l' c) :
    StepsM M E a (l ++ l') c := by
  induction h2 with
  | refl => rw [List.append_nil]; exact h1
  | tail _ hs ih => rw [← List.append_assoc]; exact .tail ih hs

theorem StepsM.one {M : Mode} {E : Env} {a b : World} {x : Option Nat} (h : StepM M E a x b) : StepsM M E a x.toList b :=
  .tail (.refl a) h

theorem stepsM_exec (M : Mode) (E : Env) (p : Prog Unit) (s : Sys) (a b : List (Prog Unit)) (m0 : List Msg) :
    ∃ p', StepsM M E { ds := s.ds, msgs := m0 ++ s.out, threads := a ++ p :: b, next := s.next } []
      { ds := (p.exec s).2.ds, msgs := m0 ++ (p.exec s).2.out, threads := a ++ p' :: b
        next := (p.exec s).2.next } := by
  induction p generalizing s with
  | ret x => exact ⟨.ret x, .refl _⟩
  | panic e => exact ⟨.panic e, .refl _⟩
  | db op k ih =>
    obtain ⟨p', h⟩ := ih (op.run s.ds).1 { s with ds := (op.run s.ds).2.1, out := s.out ++ (op.run s.ds).2.2 }
    refine ⟨p', StepsM.trans (.one (.op _ a b _ _ _ _ _ rfl (.dbOk op k s.ds s.next))) ?_⟩
    simpa [Prog.exec, List.append_assoc] using h
  | pub m k ih =>
    obtain ⟨p', h⟩ := ih (.ok ()) { s with out := s.out ++ [m] }
    refine ⟨p', StepsM.trans (.one (.op _ a b _ _ _ _ _ rfl (.pubOk m k s.ds s.next))) ?_⟩
    simpa [Prog.exec, List.append_assoc] using h
  | nondet k ih =>
    obtain ⟨p', h⟩ := ih (s.o s.tick) { s with tick := s.tick + 1 }
    refine ⟨p', StepsM.trans (.one (.op _ a b _ _ _ _ _ rfl (.nondet k s.ds s.next (s.o s.tick)))) ?_⟩
    simpa [Prog.exec] using h
  | uuid k ih =>
    obtain ⟨p', h⟩ := ih s.next { s with next := s.next + 1 }
    refine ⟨p', StepsM.trans (.one (.op _ a b _ _ _ _ _ rfl (.uuid k s.ds s.next))) ?_⟩
    simpa [Prog.exec] using h

theorem stepsM_run (M : Mode) (E : Env) (w : World) (p : Prog Unit) :
    StepsM M E { w with threads := w.threads ++ [p] } [] (w.run p) := by
  obtain ⟨p', h⟩ := stepsM_exec M E p { ds := w.ds, out := [], next := w.next } w.threads [] w.msgs
  have h2 := StepM.crash (M := M) (E := E) { ds := (p.exec { ds := w.ds, out := [], next := w.next }).2.ds
                                             msgs := w.msgs ++ (p.exec { ds := w.ds, out := [], next := w.next }).2.out
                                             threads := w.threads ++ p' :: []
                                             next := (p.exec { ds := w.ds, out := [], next := w.next }).2.next }
    w.threads [] p' rfl
  have h3 := StepsM.tail h h2
  simpa [World.run] using h3

/-- In mode `calm`: may message `m` be delivered now? -/
def World.deliverable (M : Mode) (w : World) : Msg → Bool
  | .task q t => M ≠ .calm || q ≠ QUEUE_STARTED || (w.ds.node? t.nodeID).isSome
  | _ => true

theorem stepsM_deliver {M : Mode} {E : Env} {w : World} (i : Nat) (hd : ∀ m ∈ w.msgs[i]?, w.deliverable M m = true) :
    StepsM M E w [] (w.deliver E i) := by
  unfold World.deliver
  split
  · exact .refl w
  · rename_i m hm
    split
    · exact .refl w
    · rename_i p hp
      refine StepsM.trans (.one (.deliver w _ _ m p (split_at hm) hp fun hM t ht => ?_))
        (stepsM_run M E { w with msgs := w.msgs.take i ++ w.msgs.drop (i + 1) } _)
      have := hd m hm
      rw [ht] at this
      simpa [World.deliverable, hM] using this

/-- The task `World.work` hands to a worker. -/
def World.handedAt (w : World) (i : Nat) : List Nat :=
  match w.msgs[i]? with
  | some (.task q t) => if !isTaskQueue q then [] else [t.id]
  | _ => []

theorem stepsM_work {M : Mode} {E : Env} {r : WorkerRun} (hr : E.workerOK r) {w : World} (i : Nat) :
    StepsM M E w (w.handedAt i) (w.work E r i) := by
  unfold World.work World.handedAt
  cases hm : w.msgs[i]? with
  | none => exact .refl w
  | some m =>
    cases m with
    | task q t =>
      dsimp only
      by_cases hq : isTaskQueue q = true
      · rw [if_neg (by rw [hq]; simp), if_neg (by rw [hq]; simp)]
        exact StepsM.trans (l := [t.id]) (.one (.work w _ _ q t r (split_at hm) hq hr))
          (stepsM_run M E { w with msgs := w.msgs.take i ++ w.msgs.drop (i + 1) } _)
      · rw [if_pos (by simpa using hq), if_pos (by simpa using hq)]
        exact .refl w
    | _ => exact .refl w

theorem stepsM_spawn {M : Mode} {E : Env} {w : World} {p : Prog Unit} (hp : Spawn E p) : StepsM M E w [] (w.run p) :=
  StepsM.trans (.one (.spawn w p hp)) (stepsM_run M E _ _)

/-- One event of a schedule, applied to message number `i`. -/
inductive Play
  | deliver (i : Nat)
  | work (i : Nat) (r : WorkerRun)
  | dup (i : Nat)
  | submit (j : Job)
  | nodes (ns : List Node)

/-- The environment allows it. -/
def Play.allowed (E : Env) : Play → Prop
  | .work _ r => E.workerOK r
  | .submit j => E.submitOK j
  | _ => True

/-- The mode allows it here. -/
def Play.fits (M : Mode) (w : World) : Play → Bool
  | .deliver i => w.msgs[i]?.all (w.deliverable M)
  | .dup i => w.msgs[i]?.all fun m => !m.startsJob && !M.single m
  | .nodes ns => ns.all (fun n => isExclusiveQueue n.queue) && w.ds.nodes.isEmpty
  | _ => true

def Play.run (E : Env) (w : World) : Play → World
  | .deliver i => w.deliver E i
  | .work i r => w.work E r i
  | .dup i => { w with msgs := w.msgs ++ w.msgs[i]?.toList }
  | .submit j => w.run (apiSubmit none j).discard
  | .nodes ns => { w with ds := { w.ds with nodes := ns } }

def Play.handed (w : World) : Play → List Nat
  | .work i _ => w.handedAt i
  | _ => []

theorem stepsM_play {M : Mode} {E : Env} {w : World} {a : Play} (h : a.allowed E) (hf : a.fits M w = true) :
    StepsM M E w (a.handed w) (a.run E w) := by
  cases a with
  | deliver i =>
    refine stepsM_deliver i fun m hm => ?_
    have hf : w.msgs[i]?.all (w.deliverable M) = true := hf
    rw [hm] at hf
    exact hf
  | work i r => exact stepsM_work h i
  | dup i =>
    have hf : (w.msgs[i]?.all fun m => !m.startsJob && !M.single m) = true := hf
    show StepsM M E w [] { w with msgs := w.msgs ++ w.msgs[i]?.toList }
    cases hm : w.msgs[i]? with
    | none => rw [Option.toList_none, List.append_nil]; exact .refl w
    | some m =>
      rw [hm] at hf
      have hf : (!m.startsJob && !M.single m) = true := hf
      simp only [Bool.and_eq_true, Bool.not_eq_true'] at hf
      exact .one (.dup w m (List.mem_of_getElem? hm) hf.1 hf.2)
  | submit j => exact stepsM_spawn (.submit none j h)
  | nodes ns =>
    have hf : (ns.all (fun n => isExclusiveQueue n.queue) && w.ds.nodes.isEmpty) = true := hf
    rw [Bool.and_eq_true, List.all_eq_true] at hf
    refine .one (.nodes w ns hf.1 fun _ n hn => ?_)
    have h2 : w.ds.nodes = [] := List.isEmpty_iff.1 hf.2
    rw [DS.node?, h2] at hn
    cases hn

def playAll (E : Env) : World → List Play → World
  | w, [] => w
  | w, a :: as => playAll E (a.run E w) as

def playHanded (E : Env) : World → List Play → List Nat
  | _, [] => []
  | w, a :: as => a.handed w ++ playHanded E (a.run E w) as

def playFits (M : Mode) (E : Env) : World → List Play → Bool
  | _, [] => true
  | w, a :: as => a.fits M w && playFits M E (a.run E w) as

theorem stepsM_playAll {M : Mode} {E : Env} {w : World} {l : List Play} (h : ∀ a ∈ l, a.allowed E) (hf : playFits M E w l = true) :
    StepsM M E w (playHanded E w l) (playAll E w l) := by
  induction l generalizing w with
  | nil => exact .refl w
  | cons a as ih =>
    have hf : (a.fits M w && playFits M E (a.run E w) as) = true := hf
    rw [Bool.and_eq_true] at hf
    exact (stepsM_play (h a (List.mem_cons_self ..)) hf.1).trans (ih (fun x hx => h x (List.mem_cons_of_mem _ hx)) hf.2)

end Tork

import Verif.Announce
import Verif.DriveM
/-! Executable schedules without faults (`LoggedOK`): used to exhibit concrete histories together with what was published. -/

namespace Tork
open Prog

/-- The goroutine has returned or panicked. -/
def Prog.finished {α : Type} : Prog α → Prop
  | .ret _ => True
  | .panic _ => True
  | _ => False

theorem loggedOK_exec {E : Env} (p : Prog Unit) (s : Sys) (a : List (Prog Unit)) (m0 l0 : List Msg)
    (h : LoggedOK E { ds := s.ds, msgs := m0 ++ s.out, threads := a ++ [p], next := s.next } (l0 ++ s.out)) :
    ∃ p', p'.finished ∧ LoggedOK E { ds := (p.exec s).2.ds, msgs := m0 ++ (p.exec s).2.out, threads := a ++ [p']
                                     next := (p.exec s).2.next } (l0 ++ (p.exec s).2.out) := by
  induction p generalizing s with
  | ret x => exact ⟨.ret x, trivial, h⟩
  | panic e => exact ⟨.panic e, trivial, h⟩
  | db op k ih =>
    have := h.step (.op _ a [] _ _ _ _ _ rfl (.db op k s.ds s.next))
    rw [List.append_assoc, List.append_assoc] at this
    exact ih (op.run s.ds).1 { s with ds := (op.run s.ds).2.1, out := s.out ++ (op.run s.ds).2.2 } this
  | pub m k ih =>
    have := h.step (.op _ a [] _ _ _ _ _ rfl (.pub m k s.ds s.next))
    rw [List.append_assoc, List.append_assoc] at this
    exact ih (.ok ()) { s with out := s.out ++ [m] } this
  | nondet k ih =>
    have := h.step (.op _ a [] _ _ _ _ _ rfl (.nondet k s.ds s.next (s.o s.tick)))
    rw [List.append_nil, List.append_nil] at this
    exact ih (s.o s.tick) { s with tick := s.tick + 1 } this
  | uuid k ih =>
    have := h.step (.op _ a [] _ _ _ _ _ rfl (.uuid k s.ds s.next))
    rw [List.append_nil, List.append_nil] at this
    exact ih s.next { s with next := s.next + 1 } this

/-- There is a history without faults to a world like `v` in which all goroutines have returned. -/
def Played (E : Env) (v : World) (log : List Msg) : Prop :=
  ∃ th : List (Prog Unit), (∀ p ∈ th, p.finished) ∧ LoggedOK E { v with threads := th } log

/-- What goroutine `p` publishes when run to its end. -/
def World.says (w : World) (p : Prog Unit) : List Msg := (p.exec { ds := w.ds, out := [], next := w.next }).2.out

theorem played_run {E : Env} {v : World} {log : List Msg} {p : Prog Unit} {th : List (Prog Unit)} (hth : ∀ p ∈ th, p.finished)
    (h : LoggedOK E { v with threads := th ++ [p] } log) : Played E (v.run p) (log ++ v.says p) := by
  obtain ⟨p', h1, h2⟩ := loggedOK_exec p { ds := v.ds, out := [], next := v.next } th v.msgs log (by simpa using h)
  refine ⟨th ++ [p'], fun q hq => ?_, h2⟩
  rcases List.mem_append.1 hq with hq | hq
  · exact hth q hq
  · rw [List.mem_singleton.1 hq]; exact h1

/-- What is published in one event of a schedule. -/
def Play.says (E : Env) (w : World) : Play → List Msg
  | .deliver i => match w.msgs[i]? with
    | none => []
    | some m => match coordinatorHandler E.C E.fuel m with
      | none => []
      | some p => World.says { w with msgs := w.msgs.take i ++ w.msgs.drop (i + 1) } p.discard
  | .work i r => match w.msgs[i]? with
    | some (.task q t) => if !isTaskQueue q then [] else
      World.says { w with msgs := w.msgs.take i ++ w.msgs.drop (i + 1) } (doHandleTask E.C r t).discard
    | _ => []
  | .submit j => w.says (apiSubmit none j).discard
  | _ => []

theorem played_play {E : Env} {v : World} {log : List Msg} {a : Play} (ha : a.allowed E) (hf : a.fits .once v = true)
    (h : Played E v log) : Played E (a.run E v) (log ++ a.says E v) := by
  obtain ⟨th, hth, h⟩ := h
  cases a with
  | deliver i =>
    show Played E (v.deliver E i) (log ++ Play.says E v (.deliver i))
    simp only [World.deliver, Play.says]
    cases hm : v.msgs[i]? with
    | none => simp only [List.append_nil]; exact ⟨th, hth, h⟩
    | some m =>
      simp only
      cases hp : coordinatorHandler E.C E.fuel m with
      | none => simp only [List.append_nil]; exact ⟨th, hth, h⟩
      | some p =>
        have := h.step (.deliver _ _ _ m p (split_at hm) hp)
        rw [List.append_nil] at this
        exact played_run (v := { v with msgs := v.msgs.take i ++ v.msgs.drop (i + 1) }) hth this
  | work i r =>
    show Played E (v.work E r i) (log ++ Play.says E v (.work i r))
    simp only [World.work, Play.says]
    cases hm : v.msgs[i]? with
    | none => simp only [List.append_nil]; exact ⟨th, hth, h⟩
    | some m =>
      cases m with
      | task q t =>
        dsimp only
        by_cases hq : isTaskQueue q = true
        · rw [if_neg (by rw [hq]; simp), if_neg (by rw [hq]; simp)]
          have := h.step (.work _ _ _ q t r (split_at hm) hq ha)
          rw [List.append_nil] at this
          exact played_run (v := { v with msgs := v.msgs.take i ++ v.msgs.drop (i + 1) }) hth this
        · rw [if_pos (by simpa using hq), if_pos (by simpa using hq), List.append_nil]
          exact ⟨th, hth, h⟩
      | _ => simp only [List.append_nil]; exact ⟨th, hth, h⟩
  | dup i =>
    show Played E { v with msgs := v.msgs ++ v.msgs[i]?.toList } (log ++ [])
    have hf : (v.msgs[i]?.all fun m => !m.startsJob && !Mode.once.single m) = true := hf
    cases hm : v.msgs[i]? with
    | none => rw [Option.toList_none, List.append_nil, List.append_nil]; exact ⟨th, hth, h⟩
    | some m =>
      rw [hm] at hf
      have hf : (!m.startsJob && !Mode.once.single m) = true := hf
      simp only [Bool.and_eq_true, Bool.not_eq_true'] at hf
      exact ⟨th, hth, h.step (.dup _ m (List.mem_of_getElem? hm) hf.1)⟩
  | submit j =>
    have := h.step (.spawn _ _ (.submit none j ha))
    rw [List.append_nil] at this
    exact played_run hth this
  | nodes ns =>
    have hf : (ns.all (fun n => isExclusiveQueue n.queue) && v.ds.nodes.isEmpty) = true := hf
    rw [Bool.and_eq_true, List.all_eq_true] at hf
    exact ⟨th, hth, h.step (.nodes _ ns hf.1)⟩

def playSays (E : Env) : World → List Play → List Msg
  | _, [] => []
  | w, a :: as => a.says E w ++ playSays E (a.run E w) as

theorem played_playAll {E : Env} {v : World} {log : List Msg} {l : List Play} (ha : ∀ a ∈ l, a.allowed E) (hf : playFits .once E v l = true)
    (h : Played E v log) : Played E (playAll E v l) (log ++ playSays E v l) := by
  induction l generalizing v log with
  | nil => rw [playSays, List.append_nil]; exact h
  | cons a as ih =>
    have hf : (a.fits .once v && playFits .once E (a.run E v) as) = true := hf
    rw [Bool.and_eq_true] at hf
    have := ih (fun x hx => ha x (List.mem_cons_of_mem _ hx)) hf.2 (played_play (ha a (List.mem_cons_self ..)) hf.1 h)
    rw [List.append_assoc] at this
    exact this

theorem played_init {E : Env} : Played E {} [] := ⟨[], fun _ h => (by cases h), .init⟩

end Tork

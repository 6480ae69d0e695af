import Verif.InOrderSpec
import Verif.DriveM
/-! Executable schedules in which every step is ordinary for a job (`OrdRun`), and schedules in which any message other than one that
starts a job may be duplicated: used to exhibit concrete runs. -/

namespace Tork
open Prog Seq

instance (t : Task) : Decidable (Unfinished t) := by unfold Unfinished; infer_instance
instance (n : Nat) (t : Task) : Decidable (Seq.Top n t) := by unfold Seq.Top; infer_instance

theorem Seq.Ordinary.same {n : Nat} {a b : DS} (ht : b.tasks = a.tasks) (hj : b.jobs = a.jobs) : Ordinary n a b := by
  have e1 : ∀ id, b.task? id = a.task? id := fun id => by unfold DS.task?; rw [ht]
  have e2 : b.job? n = a.job? n := by unfold DS.job?; rw [hj]
  refine ⟨fun id t h0 h1 => ?_, fun j j' h0 h1 h2 => ?_, fun j id t t' _ h0 h1 _ _ h2 => ?_, fun j j' id t h0 h1 h2 => ?_⟩
  · rw [e1, h0] at h1; cases h1
  · rw [e2, h0] at h1; cases h1
    intro h3; rw [h3] at h2; rcases h2 with h2 | h2 <;> cases h2
  · rw [e1, h0] at h1; cases h1; exact h2
  · rw [e2, h0] at h1; cases h1; exact absurd rfl h2

/-- A test for ordinary steps. -/
def ordinaryB (n : Nat) (a b : DS) : Bool :=
  (b.tasks.all fun t => (a.task? t.id).isSome || !decide (Top n t) || Origin.attempts t == 0) &&
  ((a.job? n).all fun j => a.tasks.all fun t => (b.task? t.id).all fun t' =>
    !decide (Top n t) || !decide (t.position < j.position) || decide (Unfinished t) || !decide (Unfinished t')) &&
  ((b.job? n).all fun j => j.context.tasks.all fun x => sanitizeString x.2 == x.2) &&
  ((a.job? n).all fun j => (b.job? n).all fun j' =>
    ((j.state != .failed && j.state != .cancelled) || j'.state != .running) &&
    (j'.position == j.position || (a.tasks.all fun t => !decide (Top n t) || t.state != .skipped || t.completedAt.isNone) ||
      a.tasks.any fun x => (a.task? x.id).any fun t => (b.task? x.id).any fun t' => decide (Top n t) && decide (Unfinished t) && !decide (Unfinished t')))

/-- No variable of job `n` has a value with a NUL character. -/
def Clean (n : Nat) (b : DS) : Prop := ∀ j, b.job? n = some j → ∀ k v, (k, v) ∈ j.context.tasks → sanitizeString v = v

theorem ordinaryB_sound {n : Nat} {a b : DS} (h : ordinaryB n a b = true) : Ordinary n a b ∧ Clean n b := by
  unfold ordinaryB at h
  rw [Bool.and_eq_true, Bool.and_eq_true, Bool.and_eq_true, List.all_eq_true] at h
  obtain ⟨⟨⟨h1, hr⟩, hz⟩, h2⟩ := h
  refine ⟨?_, fun j hj k v hv => by
    rw [hj] at hz
    simp only [Option.all_some, List.all_eq_true, beq_iff_eq] at hz
    exact hz _ hv⟩
  have row : ∀ {j j'}, a.job? n = some j → b.job? n = some j' → _ := fun {j j'} e1 e2 => by
    rw [e1, e2] at h2
    simp only [Option.all_some, Bool.and_eq_true] at h2
    exact h2
  refine ⟨fun id t h0 h3 h4 => ?_, fun j j' e1 e2 h3 h4 => ?_, fun j id t t' e1 h0 h3 h4 h5 h6 => ?_, fun j j' id t e1 e2 h3 h4 h5 h6 h7 => ?_⟩
  · obtain ⟨m1, m2⟩ := task?_mem h3
    have := h1 t m1
    rw [m2, h0] at this
    simpa [h4] using this
  · have := (row e1 e2).1
    rw [h4] at this
    rcases h3 with h3 | h3 <;> simp [h3] at this
  · obtain ⟨m1, m2⟩ := task?_mem h0
    rw [e1] at hr
    simp only [Option.all_some, List.all_eq_true] at hr
    have := hr t m1
    rw [m2, h3] at this
    simpa [h4, h5, h6] using this
  · obtain ⟨m1, m2⟩ := task?_mem h4
    have := (row e1 e2).2
    simp only [Bool.or_eq_true, beq_iff_eq, h3, false_or, List.all_eq_true] at this
    rcases this with this | this
    case inr =>
      obtain ⟨x, -, hx⟩ := List.any_eq_true.1 this
      obtain ⟨t, t1, ht⟩ := (Option.any_eq_true _ _).1 hx
      obtain ⟨t', t2, ht'⟩ := (Option.any_eq_true _ _).1 ht
      simp only [Bool.and_eq_true, decide_eq_true_eq, Bool.not_eq_true', decide_eq_false_iff_not] at ht'
      exact ⟨x.id, t, t', t1, t2, ht'.1.1, ht'.1.2, ht'.2⟩
    have := this t m1
    rw [Option.isSome_iff_exists] at h7
    obtain ⟨c, hc⟩ := h7
    simp [h5, h6, hc] at this

/-- Every database operation of the goroutine, run to its end, is ordinary for the jobs `N`. -/
def ordExec (N : List Nat) : Prog Unit → Sys → Bool
  | .ret _, _ => true
  | .panic _, _ => true
  | .db op k, s => (N.all fun n => ordinaryB n s.ds (op.run s.ds).2.1) && ordExec N (k (op.run s.ds).1) { s with ds := (op.run s.ds).2.1, out := s.out ++ (op.run s.ds).2.2 }
  | .pub m k, s => ordExec N (k (.ok ())) { s with out := s.out ++ [m] }
  | .nondet k, s => ordExec N (k (s.o s.tick)) { s with tick := s.tick + 1 }
  | .uuid k, s => ordExec N (k s.next) { s with next := s.next + 1 }

/-- There is a history to this world that is ordinary for each of the jobs `N`, and in which none of their variables has a value with
a NUL character. -/
def OrdAll (E : Env) (N : List Nat) (w : World) : Prop := ∃ l, ∀ n ∈ N, OrdRun E n l w ∧ NoNul n l

theorem OrdAll.still {E : Env} {N : List Nat} {w w' : World} (h : OrdAll E N w) (hs : Step E w w') (ht : w'.ds.tasks = w.ds.tasks) (hj : w'.ds.jobs = w.ds.jobs) :
    OrdAll E N w' := by
  obtain ⟨l, h⟩ := h
  refine ⟨_, fun n hn => ⟨(h n hn).1.step hs (.same ht hj), fun a b hab => ?_⟩⟩
  obtain ⟨h, hz⟩ := h n hn
  rcases List.mem_append.1 hab with hab | hab
  · exact hz a b hab
  · cases List.mem_singleton.1 hab
    rw [show w'.ds.job? n = w.ds.job? n by unfold DS.job?; rw [hj]]
    cases h with
    | init => exact fun j hj => Option.noConfusion rfl (heq_of_eq hj)
    | step h hs ho => exact hz _ _ (List.mem_append.2 (.inr (List.mem_singleton.2 rfl)))

theorem ordAll_exec {E : Env} {N : List Nat} (p : Prog Unit) (s : Sys) (a : List (Prog Unit)) (m0 : List Msg) (ho : ordExec N p s = true)
    (h : OrdAll E N { ds := s.ds, msgs := m0 ++ s.out, threads := a ++ [p], next := s.next }) :
    ∃ p', OrdAll E N { ds := (p.exec s).2.ds, msgs := m0 ++ (p.exec s).2.out, threads := a ++ [p'], next := (p.exec s).2.next } := by
  induction p generalizing s with
  | ret x => exact ⟨.ret x, h⟩
  | panic e => exact ⟨.panic e, h⟩
  | db op k ih =>
    simp only [ordExec, Bool.and_eq_true, List.all_eq_true] at ho
    obtain ⟨l, h⟩ := h
    refine ih (op.run s.ds).1 { s with ds := (op.run s.ds).2.1, out := s.out ++ (op.run s.ds).2.2 } ho.2
      ⟨l ++ [({ ds := s.ds, msgs := m0 ++ s.out, threads := a ++ [.db op k], next := s.next },
        { ds := (op.run s.ds).2.1, msgs := m0 ++ (s.out ++ (op.run s.ds).2.2), threads := a ++ [k (op.run s.ds).1], next := s.next })], fun n hn => ?_⟩
    have hb := ordinaryB_sound (ho.1 n hn)
    obtain ⟨h, hz⟩ := h n hn
    have := h.step (.op _ a [] _ _ _ _ _ rfl (.dbOk op k s.ds s.next)) hb.1
    rw [List.append_assoc] at this
    refine ⟨this, fun x y hxy => ?_⟩
    rcases List.mem_append.1 hxy with hxy | hxy
    · exact hz x y hxy
    · cases List.mem_singleton.1 hxy
      exact hb.2
  | pub m k ih =>
    have := h.still (.op _ a [] _ _ _ _ _ rfl (.pubOk m k s.ds s.next)) rfl rfl
    rw [List.append_assoc] at this
    exact ih (.ok ()) { s with out := s.out ++ [m] } ho this
  | nondet k ih =>
    have := h.still (.op _ a [] _ _ _ _ _ rfl (.nondet k s.ds s.next (s.o s.tick))) rfl rfl
    rw [List.append_nil] at this
    exact ih (s.o s.tick) { s with tick := s.tick + 1 } ho this
  | uuid k ih =>
    have := h.still (.op _ a [] _ _ _ _ _ rfl (.uuid k s.ds s.next)) rfl rfl
    rw [List.append_nil] at this
    exact ih s.next { s with next := s.next + 1 } ho this

theorem ordAll_run {E : Env} {N : List Nat} {w : World} {p : Prog Unit} (ho : ordExec N p { ds := w.ds, out := [], next := w.next } = true)
    (h : OrdAll E N { w with threads := w.threads ++ [p] }) : OrdAll E N (w.run p) := by
  obtain ⟨p', h1⟩ := ordAll_exec p { ds := w.ds, out := [], next := w.next } w.threads w.msgs ho (by simpa using h)
  have := h1.still (.crash _ w.threads [] p' rfl) rfl rfl
  simpa [World.run] using this

/-- Every operation of this event is ordinary. A message that starts a job is not duplicated. -/
def Play.ordinary (E : Env) (N : List Nat) (w : World) : Play → Bool
  | .deliver i => w.msgs[i]?.all fun m => (coordinatorHandler E.C E.fuel m).all fun p => ordExec N p.discard { ds := w.ds, out := [], next := w.next }
  | .work i r => w.msgs[i]?.all fun m => match m with
    | .task _ t => ordExec N (doHandleTask E.C r t).discard { ds := w.ds, out := [], next := w.next }
    | _ => true
  | .dup i => w.msgs[i]?.all fun m => !m.startsJob
  | .submit j => ordExec N (apiSubmit none j).discard { ds := w.ds, out := [], next := w.next }
  | .nodes ns => ns.all fun n => isExclusiveQueue n.queue

theorem ordAll_play {E : Env} {N : List Nat} {w : World} {a : Play} (ha : a.allowed E) (ho : a.ordinary E N w = true) (h : OrdAll E N w) : OrdAll E N (a.run E w) := by
  cases a with
  | deliver i =>
    show OrdAll E N (w.deliver E i)
    have ho : (w.msgs[i]?.all fun m => (coordinatorHandler E.C E.fuel m).all fun p => ordExec N p.discard { ds := w.ds, out := [], next := w.next }) = true := ho
    unfold World.deliver
    cases hm : w.msgs[i]? with
    | none => exact h
    | some m =>
      rw [hm, Option.all_some] at ho
      dsimp only
      cases hp : coordinatorHandler E.C E.fuel m with
      | none => exact h
      | some p =>
        rw [hp, Option.all_some] at ho
        exact ordAll_run (w := { w with msgs := w.msgs.take i ++ w.msgs.drop (i + 1) }) ho (h.still (.deliver _ _ _ m p (split_at hm) hp) rfl rfl)
  | work i r =>
    show OrdAll E N (w.work E r i)
    have ho : (w.msgs[i]?.all fun m => match m with
      | .task _ t => ordExec N (doHandleTask E.C r t).discard { ds := w.ds, out := [], next := w.next }
      | _ => true) = true := ho
    unfold World.work
    cases hm : w.msgs[i]? with
    | none => exact h
    | some m =>
      rw [hm, Option.all_some] at ho
      cases m with
      | task q t =>
        dsimp only at ho ⊢
        by_cases hq : isTaskQueue q = true
        · rw [if_neg (by rw [hq]; simp)]
          exact ordAll_run (w := { w with msgs := w.msgs.take i ++ w.msgs.drop (i + 1) }) ho (h.still (.work _ _ _ q t r (split_at hm) hq ha) rfl rfl)
        · rw [if_pos (by simpa using hq)]; exact h
      | _ => exact h
  | dup i =>
    show OrdAll E N { w with msgs := w.msgs ++ w.msgs[i]?.toList }
    have ho : (w.msgs[i]?.all fun m => !m.startsJob) = true := ho
    cases hm : w.msgs[i]? with
    | none => rw [Option.toList_none, List.append_nil]; exact h
    | some m =>
      rw [hm, Option.all_some, Bool.not_eq_true'] at ho
      exact h.still (.dup _ m (List.mem_of_getElem? hm) ho) rfl rfl
  | submit j => exact ordAll_run ho (h.still (.spawn _ _ (.submit none j ha)) rfl rfl)
  | nodes ns =>
    have ho : (ns.all fun n => isExclusiveQueue n.queue) = true := ho
    rw [List.all_eq_true] at ho
    exact h.still (.nodes _ ns ho) rfl rfl

/-- Every event of the schedule is ordinary. -/
def playOrdinary (E : Env) (N : List Nat) : World → List Play → Bool
  | _, [] => true
  | w, a :: l => a.ordinary E N w && playOrdinary E N (a.run E w) l

theorem ordAll_playAll {E : Env} {N : List Nat} {w : World} {l : List Play} (ha : ∀ a ∈ l, a.allowed E) (ho : playOrdinary E N w l = true) (h : OrdAll E N w) :
    OrdAll E N (playAll E w l) := by
  induction l generalizing w with
  | nil => exact h
  | cons a l ih =>
    simp only [playOrdinary, Bool.and_eq_true] at ho
    exact ih (fun x hx => ha x (List.mem_cons_of_mem _ hx)) ho.2 (ordAll_play (ha a (List.mem_cons_self ..)) ho.1 h)

theorem ordAll_init {E : Env} {N : List Nat} : OrdAll E N {} := ⟨[], fun _ _ => ⟨.init, fun _ _ h => nomatch h⟩⟩

/-- There is an ordinary history to this world, in which no variable of the job has a value with a NUL character. -/
def OrdTo (E : Env) (n : Nat) (w : World) : Prop := ∃ l, OrdRun E n l w ∧ NoNul n l

theorem ordTo_playAll {E : Env} {n : Nat} {w : World} {l : List Play} (ha : ∀ a ∈ l, a.allowed E) (ho : playOrdinary E [n] w l = true) (h : OrdTo E n w) :
    OrdTo E n (playAll E w l) := by
  obtain ⟨k, h⟩ := h
  obtain ⟨k', h'⟩ := ordAll_playAll ha ho ⟨k, fun m hm => by cases List.mem_singleton.1 hm; exact h⟩
  exact ⟨k', h' n (List.mem_singleton.2 rfl)⟩

/-- The event is possible here: no message that starts a job is duplicated, nodes have their own queues. -/
def Play.possible (w : World) : Play → Bool
  | .dup i => w.msgs[i]?.all fun m => !m.startsJob
  | .nodes ns => ns.all fun n => isExclusiveQueue n.queue
  | _ => true

def playPossible (E : Env) : World → List Play → Bool
  | _, [] => true
  | w, a :: l => a.possible w && playPossible E (a.run E w) l

theorem steps_play {E : Env} {w : World} {a : Play} (ha : a.allowed E) (hp : a.possible w = true) : Steps E w (a.run E w) := by
  cases a with
  | deliver i =>
    refine (stepsM_play (M := .once) (a := .deliver i) ha ?_).steps
    show (w.msgs[i]?.all (w.deliverable .once)) = true
    cases w.msgs[i]? with
    | none => rfl
    | some m => cases m <;> simp [World.deliverable]
  | work i r => exact (stepsM_play (M := .once) (a := .work i r) ha rfl).steps
  | dup i =>
    show Steps E w { w with msgs := w.msgs ++ w.msgs[i]?.toList }
    have hp : (w.msgs[i]?.all fun m => !m.startsJob) = true := hp
    cases hm : w.msgs[i]? with
    | none => rw [Option.toList_none, List.append_nil]; exact .refl _
    | some m =>
      rw [hm, Option.all_some, Bool.not_eq_true'] at hp
      exact .tail (.refl _) (.dup _ m (List.mem_of_getElem? hm) hp)
  | submit j => exact (stepsM_play (M := .once) (a := .submit j) ha rfl).steps
  | nodes ns =>
    have hp : (ns.all fun n => isExclusiveQueue n.queue) = true := hp
    rw [List.all_eq_true] at hp
    exact .tail (.refl _) (.nodes _ ns hp)

theorem steps_playAll {E : Env} {w : World} {l : List Play} (ha : ∀ a ∈ l, a.allowed E) (hp : playPossible E w l = true) : Steps E w (playAll E w l) := by
  induction l generalizing w with
  | nil => exact .refl _
  | cons a l ih =>
    simp only [playPossible, Bool.and_eq_true] at hp
    exact (steps_play (ha a (List.mem_cons_self ..)) hp.1).trans (ih (fun x hx => ha x (List.mem_cons_of_mem _ hx)) hp.2)

end Tork

import Verif.Engine
/-!
# C68 — life cycle of an engine

`Run (.init m) l s`: a run from a new engine in mode `m`; `l` are the labels, the latest first.
-/

namespace Tork.Engine
open Tork.Queues (upd)

/-- The goroutine holds the lock. -/
def Caller.holds : Caller → Bool
  | .starting .. | .started _ | .sending | .awaiting => true
  | _ => false

structure Inv (s : St) : Prop where
  lock : ∀ k, s.lock = some k ↔ (s.callers k).holds = true
  starting : ∀ k w l, s.callers k = .starting w l → s.state = .idle ∧ s.monitor = .none ∧ s.mode ≠ .other
  started : ∀ k w, s.callers k = .started w → s.state = .idle ∧ s.monitor ≠ .none
  idle : s.state = .idle → s.monitor ≠ .none → s.lock ≠ none
  busy : s.state ≠ .idle → s.monitor ≠ .none
  sending : ∀ k, s.callers k = .sending → s.state = .terminating
  awaiting : ∀ k, s.callers k = .awaiting → s.state = .terminating ∧ s.monitor ≠ .waiting
  terminating : s.state = .terminating → s.lock ≠ none
  terminated : s.state = .terminated → s.monitor = .closed
  waiting : ∀ k, s.callers k = .waiting → s.state ≠ .idle

set_option maxHeartbeats 4000000 in
theorem inv_step {s s' : St} {x : Lbl} (h : Inv s) (hs : Step s x s') : Inv s' := by
  obtain ⟨h1, h2, h3, h4, h5, h6, h7, h8, h9, h10⟩ := h
  cases hs <;> constructor <;> grind [upd, Caller.holds]

theorem inv_run {m : Mode} {l : List Lbl} {s : St} (h : Run (.init m) l s) : Inv s := by
  induction h with
  | nil => constructor <;> simp [St.init, Caller.holds]
  | step _ hs ih => exact inv_step ih hs

/-- How often a component has been stopped. -/
def stops (l : List Lbl) (c : Comp) : Nat := l.count (.stopped c)

structure Stops (l : List Lbl) (s : St) : Prop where
  no : s.monitor = .none ∨ s.monitor = .waiting → ∀ c, stops l c = 0
  some : ∀ t, s.monitor = .stopping t → ∀ c, stops l c + t.count c = s.mode.stops.count c
  all : s.monitor = .closed → ∀ c, stops l c = s.mode.stops.count c

theorem stops_cons {l : List Lbl} {x : Lbl} {c : Comp} : stops (x :: l) c = stops l c + if x = .stopped c then 1 else 0 := by
  simp [stops, List.count_cons]

set_option maxHeartbeats 4000000 in
theorem stops_step {l : List Lbl} {s s' : St} {x : Lbl} (hi : Inv s) (h : Stops l s) (hs : Step s x s') : Stops (x :: l) s' := by
  obtain ⟨h1, h2, h3⟩ := h
  have i1 := hi.idle
  have i2 := hi.starting
  cases hs <;> constructor <;> grind [upd, stops_cons]

theorem stops_run {m : Mode} {l : List Lbl} {s : St} (h : Run (.init m) l s) : Stops l s := by
  induction h with
  | nil => constructor <;> simp [St.init, stops]
  | step hr hs ih => exact stops_step (inv_run hr) ih hs

/-- Components that work: a worker or a coordinator. -/
def Comp.works : Comp → Bool
  | .worker | .coordinator => true
  | _ => false

theorem plan_stops {m : Mode} {c : Comp} (h : c.works = true) : m.plan.count c = m.stops.count c := by
  cases m <;> cases c <;> simp_all [Comp.works, Mode.plan, Mode.stops]

/-- No `Start` or `Run` has failed. -/
def NoFailure (l : List Lbl) : Prop := ∀ k w, .returned k (.start w) .error ∉ l

theorem noFailure_cons {l : List Lbl} {x : Lbl} (h : NoFailure (x :: l)) : NoFailure l ∧ ∀ k w, x ≠ .returned k (.start w) .error :=
  ⟨fun k w hm => h k w (List.mem_cons_of_mem _ hm), fun k w e => h k w (e ▸ List.mem_cons_self ..)⟩

structure Alive (s : St) : Prop where
  no : s.monitor = .none → s.lock = none → ∀ c, c.works = true → s.alive c = 0
  starting : ∀ k w t, s.callers k = .starting w t → ∀ c, c.works = true → s.alive c + t.count c = s.mode.stops.count c
  all : s.monitor = .waiting → ∀ c, c.works = true → s.alive c = s.mode.stops.count c
  some : ∀ t, s.monitor = .stopping t → ∀ c, c.works = true → s.alive c = t.count c
  closed : s.monitor = .closed → ∀ c, c.works = true → s.alive c = 0

set_option maxHeartbeats 4000000 in
theorem alive_step {s s' : St} {x : Lbl} (hi : Inv s) (h : Alive s) (hs : Step s x s') (hx : ∀ k w, x ≠ .returned k (.start w) .error) :
    Alive s' := by
  obtain ⟨h1, h2, h3, h4, h5⟩ := h
  obtain ⟨i1, i2, i3, i4, i5, i6, i7, i8, i9, i10⟩ := hi
  cases hs <;> constructor <;> grind [upd, plan_stops, Caller.holds]

theorem alive_run {m : Mode} {l : List Lbl} {s : St} (h : Run (.init m) l s) (hn : NoFailure l) : Alive s := by
  induction h with
  | nil => constructor <;> simp [St.init]
  | step hr hs ih => exact alive_step (inv_run hr) (ih (noFailure_cons hn).1) hs (noFailure_cons hn).2

/-- Somebody has asked for the end. -/
def Asked (l : List Lbl) : Prop := .signal ∈ l ∨ ∃ k, .called k .terminate ∈ l

theorem asked_cons {l : List Lbl} {x : Lbl} : Asked (x :: l) ↔ (x = .signal ∨ ∃ k, x = .called k .terminate) ∨ Asked l := by
  unfold Asked
  simp only [List.mem_cons]
  grind

structure Why (l : List Lbl) (s : St) : Prop where
  wants : ∀ k op, s.callers k = .wants op → .called k op ∈ l
  sending : ∀ k, s.callers k = .sending → .called k .terminate ∈ l
  stopping : s.monitor ≠ .none → s.monitor ≠ .waiting → Asked l
  ended : ∀ k, .returned k .terminate .ok ∈ l → s.monitor = .closed
  ran : ∀ k, .returned k (.start true) .ok ∈ l → s.monitor = .closed
  seen : ∀ k, .returned k .state (.is .terminating) ∉ l
  signalled : .signal ∈ l → s.monitor ≠ .none ∧ s.monitor ≠ .waiting
  alone : .signal ∈ l → ∀ k, s.callers k ≠ .awaiting
  never : .signal ∈ l → ∀ k, .returned k .terminate .ok ∉ l

theorem asked_of {l : List Lbl} {k : Nat} (h : .called k .terminate ∈ l) : Asked l := .inr ⟨k, h⟩

set_option maxHeartbeats 4000000 in
theorem why_step {l : List Lbl} {s s' : St} {x : Lbl} (hi : Inv s) (h : Why l s) (hs : Step s x s') : Why (x :: l) s' := by
  obtain ⟨h1, h2, h3, h4, h5, h6, h7, h8, h9⟩ := h
  obtain ⟨i1, i2, i3, i4, i5, i6, i7, i8, i9, i10⟩ := hi
  cases hs <;> constructor <;> grind [upd, asked_cons, → asked_of]

theorem why_run {m : Mode} {l : List Lbl} {s : St} (h : Run (.init m) l s) : Why l s := by
  induction h with
  | nil => constructor <;> simp [St.init]
  | step hr hs ih => exact why_step (inv_run hr) ih hs

theorem run_trans {s1 s2 s3 : St} {l1 l2 : List Lbl} (h1 : Run s1 l1 s2) (h2 : Run s2 l2 s3) : Run s1 (l2 ++ l1) s3 := by
  induction h2 with
  | nil => exact h1
  | step _ hs ih => exact .step ih hs

theorem not_idle_step {s s' : St} {x : Lbl} (hi : Inv s) (h : s.state ≠ .idle) (hs : Step s x s') : s'.state ≠ .idle := by
  have i2 := hi.starting
  have i3 := hi.started
  cases hs <;> grind

/-- C68: an engine is started once. After `Start` has succeeded (or `Run` is waiting), every `Start`, `Run`, `SetMode` and
registration panics, also if it was called before. -/
theorem C68_started_once {m : Mode} {l l' : List Lbl} {s s' : St} (h : Run (.init m) l s)
    (hs : (∃ k, .returned k (.start false) .ok ∈ l) ∨ ∃ k, s.callers k = .waiting) (h' : Run s l' s') {k : Nat} {op : Op} {r : Res}
    (hr : .returned k op r ∈ l') (ho : op.idleOnly = true) : r = .panic ∨ (op = .start true ∧ r = .ok ∧ s.callers k = .waiting) := by
  have hni : s.state ≠ .idle := by
    rcases hs with ⟨k, hk⟩ | ⟨k, hk⟩
    · clear h' hr
      induction h with
      | nil => cases hk
      | step hr hs ih =>
        rcases List.mem_cons.1 hk with rfl | hk
        · cases hs; simp
        · exact not_idle_step (inv_run hr) (ih hk) hs
    · exact (inv_run h).waiting k hk
  suffices H : s'.state ≠ .idle ∧ (∀ k, s'.callers k = .waiting → s.callers k = .waiting) ∧
      (r = .panic ∨ (op = .start true ∧ r = .ok ∧ s.callers k = .waiting)) from H.2.2
  have G : ∀ {l' s'}, Run s l' s' → s'.state ≠ .idle ∧ (∀ k, s'.callers k = .waiting → s.callers k = .waiting) ∧
      ∀ k op r, .returned k op r ∈ l' → op.idleOnly = true → r = .panic ∨ (op = .start true ∧ r = .ok ∧ s.callers k = .waiting) := by
    intro l' s' h'
    induction h' with
    | nil => exact ⟨hni, fun _ h => h, fun _ _ _ h => by cases h⟩
    | step hr hs ih =>
      obtain ⟨g1, g2, g3⟩ := ih
      have hi := inv_run (run_trans h hr)
      refine ⟨not_idle_step hi g1 hs, ?_, ?_⟩
      · have i2 := hi.starting
        have i3 := hi.started
        clear g3 h hr
        cases hs <;> grind [upd]
      · intro k op r hm ho
        rcases List.mem_cons.1 hm with rfl | hm
        · have i2 := hi.starting
          have i3 := hi.started
          clear g3 h hr
          cases hs <;> first | (exact .inl rfl) | (exfalso; grind [Op.idleOnly]) | exact .inr ⟨rfl, rfl, g2 _ ‹_›⟩
        · exact g3 k op r hm ho
  obtain ⟨g1, g2, g3⟩ := G h'
  exact ⟨g1, g2, g3 k op r hr ho⟩

/-- C68: when `Terminate` or `Run` returns, no worker and no coordinator is running, unless a `Start` has failed before. -/
theorem C68_stopped {m : Mode} {l : List Lbl} {s : St} (h : Run (.init m) l s) (hn : NoFailure l)
    (hr : (∃ k, .returned k .terminate .ok ∈ l) ∨ ∃ k, .returned k (.start true) .ok ∈ l) : s.alive .worker = 0 ∧ s.alive .coordinator = 0 := by
  have hc : s.monitor = .closed := by
    rcases hr with ⟨k, hk⟩ | ⟨k, hk⟩
    · exact (why_run h).ended k hk
    · exact (why_run h).ran k hk
  exact ⟨(alive_run h hn).closed hc _ rfl, (alive_run h hn).closed hc _ rfl⟩

/-- C68: the worker and the coordinator are stopped at most once (a second `Stop` would panic), and only after a signal or a call of
`Terminate`. -/
theorem C68_stopped_once {m : Mode} {l : List Lbl} {s : St} (h : Run (.init m) l s) (c : Comp) :
    stops l c ≤ 1 ∧ (0 < stops l c → .signal ∈ l ∨ ∃ k, .called k .terminate ∈ l) := by
  have hs := stops_run h
  have hb : s.mode.stops.count c ≤ 1 := by cases s.mode <;> cases c <;> decide
  have hw := (why_run h).stopping
  cases hm : s.monitor with
  | none => have := hs.no (.inl hm) c; omega
  | waiting => have := hs.no (.inr hm) c; omega
  | stopping t => have := hs.some t hm c; exact ⟨by omega, fun _ => hw (by rw [hm]; simp) (by rw [hm]; simp)⟩
  | closed => have := hs.all hm c; exact ⟨by omega, fun _ => hw (by rw [hm]; simp) (by rw [hm]; simp)⟩

/-- C68: nobody ever sees the state TERMINATING (`State` waits for the lock, which `Terminate` keeps). -/
theorem C68_terminating_unseen {m : Mode} {l : List Lbl} {s : St} (h : Run (.init m) l s) (k : Nat) :
    .returned k .state (.is .terminating) ∉ l := (why_run h).seen k

/-- C68: a call of `Terminate` that has the lock, while no signal has come, is at most five steps of the engine away from its return. (A signal that
comes before the first of them leads to `C68_terminate_after_signal`.) -/
theorem C68_terminates {s : St} {k : Nat} (hs : s.callers k = .sending) (hm : s.monitor = .waiting) :
    ∃ l s', Run s l s' ∧ .returned k .terminate .ok ∈ l ∧ l.length ≤ 5 := by
  have fin : ∀ (s : St), s.callers k = .awaiting → s.monitor = .stopping [] →
      ∃ l s', Run s l s' ∧ .returned k .terminate .ok ∈ l ∧ l.length ≤ 2 := fun s h1 h2 =>
    ⟨_, _, .step (.step (.nil s) (.close s h2)) (.terminated _ k h1 rfl), List.mem_cons_self .., by simp⟩
  have stop : ∀ (c : Comp) (t : List Comp) (n : Nat) (s : St), s.callers k = .awaiting → s.monitor = .stopping (c :: t) →
      (∀ s : St, s.callers k = .awaiting → s.monitor = .stopping t → ∃ l s', Run s l s' ∧ .returned k .terminate .ok ∈ l ∧ l.length ≤ n) →
      ∃ l s', Run s l s' ∧ .returned k .terminate .ok ∈ l ∧ l.length ≤ n + 1 := by
    intro c t n s h1 h2 ih
    obtain ⟨l, s', h3, h4, h5⟩ := ih { s with monitor := .stopping t, alive := upd s.alive c (s.alive c - 1) } h1 rfl
    exact ⟨l ++ [.stopped c], s', run_trans (.step (.nil s) (.stop s c t h2)) h3, List.mem_append_left _ h4, by simp; omega⟩
  have rest : ∀ (s : St), s.callers k = .awaiting → (∃ m : Mode, s.monitor = .stopping m.stops) →
      ∃ l s', Run s l s' ∧ .returned k .terminate .ok ∈ l ∧ l.length ≤ 4 := by
    rintro s h1 ⟨m, h2⟩
    have weak : ∀ {n : Nat}, n ≤ 4 → (∃ l s', Run s l s' ∧ Lbl.returned k .terminate .ok ∈ l ∧ l.length ≤ n) →
        ∃ l s', Run s l s' ∧ Lbl.returned k .terminate .ok ∈ l ∧ l.length ≤ 4 :=
      fun hn ⟨l, s', a, b, c⟩ => ⟨l, s', a, b, Nat.le_trans c hn⟩
    cases m with
    | coordinator => exact weak (by omega) (stop _ _ 2 s h1 h2 fin)
    | worker => exact weak (by omega) (stop _ _ 2 s h1 h2 fin)
    | standalone => exact weak (by omega) (stop _ _ 3 s h1 h2 fun s h1 h2 => stop _ _ 2 s h1 h2 fin)
    | other => exact weak (by omega) (fin s h1 h2)
  obtain ⟨l, s', h1, h2, h3⟩ := rest { s with monitor := .stopping s.mode.stops, callers := upd s.callers k .awaiting } (by simp [upd]) ⟨_, rfl⟩
  exact ⟨l ++ [.tau], s', run_trans (.step (.nil s) (.handOver s k hs hm)) h1, List.mem_append_left _ h2, by simp; omega⟩

/-- C68, a defect: after a signal (SIGINT, SIGTERM) `Terminate` never returns; and once it has been called and has the lock, no other call returns
either, not even `State`, except for `Run`. -/
theorem C68_terminate_after_signal {m : Mode} {l l' : List Lbl} {s s' : St} (h : Run (.init m) l s) (hs : .signal ∈ l) (h' : Run s l' s') :
    (∀ k, .returned k .terminate .ok ∉ l') ∧
    ∀ k, s.callers k = .sending → ∀ k' op r, .returned k' op r ∈ l' → op = .start true := by
  refine ⟨fun k hk => (why_run (run_trans h h')).never (List.mem_append_right _ hs) k (List.mem_append_left _ hk), fun k hk => ?_⟩
  suffices H : s'.callers k = .sending ∧ ∀ k' op r, .returned k' op r ∈ l' → op = .start true from H.2
  induction h' with
  | nil => exact ⟨hk, fun _ _ _ h => by cases h⟩
  | step hr hst ih =>
    obtain ⟨g1, g2⟩ := ih
    have hi := inv_run (run_trans h hr)
    have hw := (why_run (run_trans h hr)).signalled (List.mem_append_right _ hs)
    have i1 := hi.lock
    refine ⟨?_, fun k' op r hm => ?_⟩
    · clear g2 h hr
      cases hst <;> grind [upd]
    · rcases List.mem_cons.1 hm with rfl | hm
      · clear g2 h hr
        have hl := (i1 k).2 (by rw [g1]; rfl)
        cases hst <;> first | rfl | (exfalso; grind [Caller.holds])
      · exact g2 k' op r hm

/-! ## Examples and the other defect -/

/-- A standalone engine is started, and terminated by another goroutine: the assumptions of `C68_started_once`, `C68_stopped` and
`C68_terminates`. -/
example : ∃ l s, Run (.init .standalone) l s ∧ NoFailure l ∧ .returned 0 (.start false) .ok ∈ l ∧ .returned 1 .terminate .ok ∈ l ∧
    stops l .worker = 1 ∧ stops l .coordinator = 1 := by
  have t := Run.nil (.init .standalone)
  have t := t.step (.call _ 0 (.start false) rfl)
  have t := t.step (.start _ 0 false (by simp [upd]) rfl rfl (by simp [St.init]))
  have t := t.step (.comp _ 0 false .broker [.datastore, .locker, .worker, .coordinator] (by simp [upd, St.init, Mode.plan]))
  have t := t.step (.comp _ 0 false .datastore [.locker, .worker, .coordinator] (by simp [upd]))
  have t := t.step (.comp _ 0 false .locker [.worker, .coordinator] (by simp [upd]))
  have t := t.step (.comp _ 0 false .worker [.coordinator] (by simp [upd]))
  have t := t.step (.comp _ 0 false .coordinator [] (by simp [upd]))
  have t := t.step (.spawn _ 0 false (by simp [upd]))
  have t := t.step (.running _ 0 (by simp [upd]))
  have t := t.step (.call _ 1 .terminate (by simp [upd, St.init]))
  have t := t.step (.terminate _ 1 (by simp [upd]) rfl rfl)
  have t := t.step (.handOver _ 1 (by simp [upd]) rfl)
  have t := t.step (.stop _ .worker [.coordinator] rfl)
  have t := t.step (.stop _ .coordinator [] rfl)
  have t := t.step (.close _ rfl)
  have t := t.step (.terminated _ 1 (by simp [upd]) rfl)
  exact ⟨_, _, t, by simp [NoFailure], by simp, by simp, by decide, by decide⟩

/-- C68, a defect: if the coordinator of a standalone engine cannot be started, the worker started before it is left running; after a second, successful
`Start` two workers run, and `Terminate` stops one of them. -/
theorem C68_failed_start_leaks : ∃ l s, Run (.init .standalone) l s ∧ .returned 0 (.start false) .error ∈ l ∧
    .returned 1 (.start false) .ok ∈ l ∧ .returned 2 .terminate .ok ∈ l ∧ s.state = .terminated ∧ s.alive .worker = 1 := by
  have t := Run.nil (.init .standalone)
  have t := t.step (.call _ 0 (.start false) rfl)
  have t := t.step (.start _ 0 false (by simp [upd]) rfl rfl (by simp [St.init]))
  have t := t.step (.comp _ 0 false .broker [.datastore, .locker, .worker, .coordinator] (by simp [upd, St.init, Mode.plan]))
  have t := t.step (.comp _ 0 false .datastore [.locker, .worker, .coordinator] (by simp [upd]))
  have t := t.step (.comp _ 0 false .locker [.worker, .coordinator] (by simp [upd]))
  have t := t.step (.comp _ 0 false .worker [.coordinator] (by simp [upd]))
  have t := t.step (.fail _ 0 false .coordinator [] (by simp [upd]))
  have t := t.step (.call _ 1 (.start false) (by simp [upd, St.init]))
  have t := t.step (.start _ 1 false (by simp [upd]) rfl rfl (by simp [St.init]))
  have t := t.step (.comp _ 1 false .broker [.datastore, .locker, .worker, .coordinator] (by simp [upd, St.init, Mode.plan]))
  have t := t.step (.comp _ 1 false .datastore [.locker, .worker, .coordinator] (by simp [upd]))
  have t := t.step (.comp _ 1 false .locker [.worker, .coordinator] (by simp [upd]))
  have t := t.step (.comp _ 1 false .worker [.coordinator] (by simp [upd]))
  have t := t.step (.comp _ 1 false .coordinator [] (by simp [upd]))
  have t := t.step (.spawn _ 1 false (by simp [upd]))
  have t := t.step (.running _ 1 (by simp [upd]))
  have t := t.step (.call _ 2 .terminate (by simp [upd, St.init]))
  have t := t.step (.terminate _ 2 (by simp [upd]) rfl rfl)
  have t := t.step (.handOver _ 2 (by simp [upd]) rfl)
  have t := t.step (.stop _ .worker [.coordinator] rfl)
  have t := t.step (.stop _ .coordinator [] rfl)
  have t := t.step (.close _ rfl)
  have t := t.step (.terminated _ 2 (by simp [upd]) rfl)
  exact ⟨_, _, t, by simp, by simp, by simp, rfl, by simp [upd, St.init]⟩

/-- A signal comes first, then somebody calls `Terminate`: the assumptions of `C68_terminate_after_signal`. -/
example : ∃ l s, Run (.init .worker) l s ∧ .signal ∈ l ∧ s.callers 1 = .sending := by
  have t := Run.nil (.init .worker)
  have t := t.step (.call _ 0 (.start false) rfl)
  have t := t.step (.start _ 0 false (by simp [upd]) rfl rfl (by simp [St.init]))
  have t := t.step (.comp _ 0 false .broker [.worker] (by simp [upd, St.init, Mode.plan]))
  have t := t.step (.comp _ 0 false .worker [] (by simp [upd]))
  have t := t.step (.spawn _ 0 false (by simp [upd]))
  have t := t.step (.running _ 0 (by simp [upd]))
  have t := t.step (.signal _ rfl)
  have t := t.step (.call _ 1 .terminate (by simp [upd, St.init]))
  have t := t.step (.terminate _ 1 (by simp [upd]) rfl rfl)
  exact ⟨_, _, t, by simp, by simp [upd]⟩

end Tork.Engine

import Verif.CancelRun
/-!
# C77: a stopped job and the executions of its tasks
-/

namespace Tork.CancelRun

/-- Any number of steps. -/
inductive Steps (G : S → Nat → Nat → Prop) (s : S) : S → Prop
  | refl : Steps G s s
  | tail {s' s''} (h : Steps G s s') (hs : Step G s' s'') : Steps G s s''

theorem Steps.reach {G : S → Nat → Nat → Prop} {s s' : S} (h : Steps G s s') (hr : Reach G s) : Reach G s' := by
  induction h with
  | refl => exact hr
  | tail _ hs ih => exact ih.step hs

theorem once_perWorker {s : S} {t w : Nat} (h : Once s t w) : OncePerWorker s t w := fun e h1 h2 => absurd h2 (h e h1)

theorem invA {G : S → Nat → Nat → Prop} (hG : ∀ s t w, G s t w → OncePerWorker s t w) {s : S} (h : Reach G s) : Map s ∧ Calm s ∧ Late s := by
  induction h with
  | init => exact ⟨.init, .init, .init⟩
  | step _ hs ih => exact ⟨map_step hG ih.1 hs, calm_step ih.2.1 hs, late_step ih.1 (map_step hG ih.1 hs) ih.2.1 ih.2.2 hs⟩

theorem calm_reach {G : S → Nat → Nat → Prop} {s : S} (h : Reach G s) : Calm s := by
  induction h with
  | init => exact .init
  | step _ hs ih => exact calm_step ih hs

theorem invB {G : S → Nat → Nat → Prop} (hG : ∀ s t w, G s t w → Once s t w) {s : S} (h : Reach G s) : Single s ∧ Shown s := by
  induction h with
  | init => exact ⟨.init, .init⟩
  | step hr hs ih =>
    have a := invA (fun s t w h => once_perWorker (hG s t w h)) hr
    exact ⟨single_step hG a.1 ih.1 hs, shown_step a.1 a.2.1 ih.1 ih.2 hs⟩

/-- **C77.** As long as the job is SCHEDULED or RUNNING, no execution of one of its tasks is cancelled, and no cancellation is on its way. -/
theorem C77_only_when_stopped {G : S → Nat → Nat → Prop} {s : S} (h : Reach G s) (hl : s.live = true) :
    (∀ e, s.killed e = false) ∧ (∀ w t, s.mail w t = 0) ∧ ∀ c, s.cpc c = .idle :=
  ⟨(calm_reach h).killed hl, (calm_reach h).mail hl, (calm_reach h).cpc hl⟩

theorem late_born {G : S → Nat → Nat → Prop} {s0 s : S} (h : Steps G s0 s) (e : Nat) (hl : s0.live = false) (he : s0.ex e = .none) :
    s.live = false ∧ (s.ex e = .none ∨ s.born e = false) := by
  induction h with
  | refl => exact ⟨hl, .inl he⟩
  | tail _ hs ih =>
    obtain ⟨i1, i2⟩ := ih
    cases hs with
    | die w => simp only [Ex.alive_iff]; grind
    | _ => dsimp only; grind [upd]

/-- **C77.** A task that a worker receives after its job has stopped does not go on running: as soon as no message is left to be handled, its
execution is over or has been cancelled. (No worker receives the same task twice; the handlers of its announcement finish.) -/
theorem C77_late_start_stopped {s0 s : S} (hr : Reach OncePerWorker s0) (e : Nat) (hl : s0.live = false) (he : s0.ex e = .none)
    (hs : Steps OncePerWorker s0 s) (hq : Quiet s) (hc : s.cutS e = false) (hx : s.ex e = .running) : s.killed e = true := by
  obtain ⟨hM, _, hL⟩ := invA (fun _ _ _ h => h) (hs.reach hr)
  have hb : s.born e = false := (late_born hs e hl he).2.resolve_left (by rw [hx]; simp)
  have ht : Told s e := by
    cases hh : s.hearer e with
    | none => exact absurd (hq.starts e) (hL.unheard e hx hh)
    | some h =>
      have := hL.heard e h hx hb hh
      rw [hq.hearing, hc] at this
      simpa using this
  rcases ht with h | h | h | h
  · rw [hx] at h; exact nomatch h
  · exact h
  · exact absurd (hq.mail _ _) h
  · cases hf : s.finder e with
    | none => exact absurd hf h
    | some c =>
      have := hL.finder e c hf
      rw [hq.cancelling, hx] at this
      simpa using this

theorem shown_steps {G : S → Nat → Nat → Prop} {s0 s : S} (h : Steps G s0 s) (e : Nat) (hl : s0.live = false) (he : s0.shown e = true) :
    s.live = false ∧ s.shown e = true := by
  induction h with
  | refl => exact ⟨hl, he⟩
  | tail _ hs ih =>
    obtain ⟨i1, i2⟩ := ih
    cases hs <;> dsimp only <;> grind

/-- **C77.** A task whose row names the node that runs it when its job is stopped does not go on running: as soon as no message is left to be
handled, its execution is over or has been cancelled. (Every task is received once; the handlers that stop the job finish.) `s1` is the state
right after the handler `k` has stopped the job. -/
theorem C77_recorded_start_stopped {s0 s1 s : S} (hr : Reach Once s0) (k e : Nat) (hl : s0.live = true)
    (hx0 : s0.ex e = .running) (hrow : s0.row (s0.tk e) = .active) (hnode : s0.node (s0.tk e) = some (s0.wk e))
    (h1 : Step Once s0 s1) (hk : s1.kpc k = .marked) (hs : Steps Once s1 s)
    (hq : Quiet s) (hc : s.cutK = false) (hx : s.ex e = .running) : s.killed e = true := by
  have hC0 := calm_reach hr
  have hsh : s1.live = false ∧ s1.shown e = true := by
    have ki := hC0.kpc hl k
    cases h1 with
    | mark k' hp =>
      refine ⟨rfl, ?_⟩
      dsimp only
      rw [if_pos hl, hx0, hrow, hnode]
      simp [Ex.alive]
    | list k' l hp _ => rw [hC0.kpc hl k'] at hp; exact nomatch hp
    | close k' t n l hp => rw [hC0.kpc hl k'] at hp; exact nomatch hp
    | send k' t n l hp => rw [hC0.kpc hl k'] at hp; exact nomatch hp
    | skip k' t l hp => rw [hC0.kpc hl k'] at hp; exact nomatch hp
    | leave k' hp => rw [hC0.kpc hl k'] at hp; exact nomatch hp
    | cutStop k' hp => exact absurd (hC0.kpc hl k') hp
    | _ => dsimp only at hk; rw [ki] at hk; exact nomatch hk
  have hr' := hs.reach (hr.step h1)
  obtain ⟨hM, _, hL⟩ := invA (fun _ _ _ h => once_perWorker h) hr'
  obtain ⟨_, hS⟩ := invB (fun _ _ _ h => h) hr'
  have hsh := (shown_steps hs e hsh.1 hsh.2).2
  have ht : Told s e := by
    cases hcl : s.closer (s.tk e) with
    | none =>
      cases hst : s.stopper with
      | none => exact absurd hst (hS.stopper e hsh)
      | some k' =>
        have := hS.first e k' hsh hcl hst
        rw [hc, hx, hq.stopping] at this
        simp [KPc.has] at this
    | some k' =>
      have := hS.closer e k' hsh hcl
      rw [hc, hq.stopping] at this
      simpa [KPc.sends] using this
  rcases ht with h | h | h | h
  · rw [hx] at h; exact nomatch h
  · exact h
  · exact absurd (hq.mail _ _) h
  · cases hf : s.finder e with
    | none => exact absurd hf h
    | some c =>
      have := hL.finder e c hf
      rw [hq.cancelling, hx] at this
      simpa using this

/-! ## Where it fails -/

/-- Nobody is left who would tell the worker of execution `e` that the job has stopped. -/
structure Missed (s : S) (e : Nat) : Prop where
  running : s.ex e = .running
  notKilled : s.killed e = false
  stopped : s.live = false
  starts : s.smsg e = 0
  hearing : ∀ h, s.hpc h ≠ .got e ∧ s.hpc h ≠ .tell e ∧ s.hpc h ≠ .record e
  mail : s.mail (s.wk e) (s.tk e) = 0
  finding : ∀ c w t, s.cpc c ≠ .found w t e
  row : s.row (s.tk e) = .closed
  stopping : ∀ k n, ¬ (s.kpc k).has (s.tk e, n) ∧ ¬ (s.kpc k).sends (s.tk e) n

/-- Steps that neither deliver the announcement of `e` again nor schedule its task again. -/
inductive Onward (G : S → Nat → Nat → Prop) (e : Nat) (s : S) : S → Prop
  | refl : Onward G e s s
  | tail {s' s''} (h : Onward G e s s') (hs : Step G s' s'') (h1 : s''.smsg e = 0) (h2 : s''.row (s''.tk e) ≠ .active) : Onward G e s s''

set_option maxHeartbeats 2000000 in
theorem missed_step {G : S → Nat → Nat → Prop} {s s' : S} (hM : Map s) (e : Nat) (h : Missed s e) (hs : Step G s s')
    (h1 : s'.smsg e = 0) (h2 : s'.row (s'.tk e) ≠ .active) : s'.ex e = .over ∨ Missed s' e := by
  obtain ⟨a1, a2, a3, a4, a5, a6, a7, a8, a9⟩ := h
  have m1 := fun e' => hM.unique e' e
  have m2 := fun w t => hM.entry w t e
  have m3 := hM.found
  have m4 := fun h e' => hM.hpc h e'
  by_cases hov : s'.ex e = .over
  · exact .inl hov
  right
  cases hs with
  | die w =>
    simp only [Ex.alive_iff] at hov h1 h2
    constructor <;> simp only [Ex.alive_iff] <;> grind
  | tell h e' hp =>
    have := m1 e' (m4 h e' (.inr (.inl hp))).1 (by rw [a1]; simp)
    constructor <;> dsimp only at hov h1 h2 ⊢ <;> grind [upd, upd2]
  | close k t n l hp =>
    have b := fun n => a9 k n
    rw [hp] at b
    simp only [has_todo, sends_todo] at b
    constructor <;> dsimp only at hov h1 h2 ⊢ <;> grind [upd]
  | send k t w l hp =>
    have b := fun n => a9 k n
    rw [hp] at b
    simp only [has_sending, sends_sending] at b
    constructor <;> dsimp only at hov h1 h2 ⊢ <;> grind [upd, upd2]
  | skip k t l hp =>
    have b := fun n => a9 k n
    rw [hp] at b
    simp only [has_sending, sends_sending] at b
    constructor <;> dsimp only at hov h1 h2 ⊢ <;> grind [upd, upd2]
  | list k l hp hl => constructor <;> dsimp only at hov h1 h2 ⊢ <;> grind [upd]
  | _ => constructor <;> dsimp only at hov h1 h2 ⊢ <;> grind [upd, upd2]

/-- **C77.** Once missed, an execution runs to its own end, whatever else happens — further cancellations of the job included. -/
theorem C77_missed_for_good {s s' : S} (hr : Reach OncePerWorker s) (e : Nat) (h : Missed s e) (hs : Onward OncePerWorker e s s') :
    s'.ex e = .over ∨ Missed s' e := by
  have key : Reach OncePerWorker s' ∧ (s'.ex e = .over ∨ Missed s' e) := by
    induction hs with
    | refl => exact ⟨hr, .inr h⟩
    | tail _ hs h1 h2 ih =>
      refine ⟨ih.1.step hs, ?_⟩
      rcases ih.2 with ho | hm
      · left
        cases hs with
        | die w => simp only [Ex.alive_iff]; grind
        | _ => dsimp only; grind [upd]
      · exact missed_step (invA (fun _ _ _ h => h) ih.1).1 e hm hs h1 h2
  exact key.2

/-- A task that worker 7 has started. -/
theorem begun (G : S → Nat → Nat → Prop) (hG : ∀ s : S, (∀ e, s.ex e = .none) → G s 0 7) :
    Reach G { ({} : S) with
      row := upd (fun _ => .absent) 0 .active, ex := upd (upd (upd (fun _ => .none) 0 .picked) 0 .registered) 0 .running, tk := upd (fun _ => 0) 0 0,
      wk := upd (fun _ => 0) 0 7, born := upd (fun _ => false) 0 true, reg := upd2 (fun _ _ => none) 7 0 (some 0), smsg := upd (fun _ => 0) 0 1 } := by
  have t : Reach G {} := .init
  have t := t.step (.create 0 rfl)
  have t := t.step (.pick 0 0 7 rfl (by simp [upd]) (hG _ fun _ => rfl))
  have t := t.step (.register 0 rfl)
  exact t.step (.announce 0 rfl)

theorem Once.of_none {s : S} {t w : Nat} (h : ∀ e, s.ex e = .none) : Once s t w := fun e he => absurd (h e) he

/-- **C77, a defect.** The handler of an announced start looks at the job before, and writes the node into the row after the job was stopped
and its active tasks were read: although every message arrives and every handler finishes, nobody tells the worker. The job is CANCELLED,
the row of the task is closed, and the task runs on (`C77_missed_for_good`: to its end). -/
theorem C77_start_and_stop_miss_each_other :
    ∃ s, Reach Once s ∧ Quiet s ∧ s.live = false ∧ s.stopper = some 0 ∧ s.cutK = false ∧ s.cutS 0 = false ∧ s.born 0 = true ∧
      s.row 0 = .closed ∧ s.node 0 = some 7 ∧ Missed s 0 := by
  have t := begun Once fun s h => Once.of_none h
  have t := t.step (.hear 0 0 rfl (by simp [upd]))
  have t := t.step (.read 0 0 rfl)
  have t := t.step (.mark 0 rfl)
  have t := t.step (.list 0 [(0, none)] rfl (by intro t n; simp [upd]; grind))
  have t := t.step (.close 0 0 none [] rfl)
  have t := t.step (.skip 0 0 [] rfl)
  have t := t.step (.leave 0 rfl)
  have t := t.step (.record 0 0 rfl)
  refine ⟨_, t, ⟨?_, ?_, ?_, ?_, ?_⟩, rfl, rfl, rfl, rfl, rfl, rfl, rfl, ⟨rfl, rfl, rfl, rfl, ?_, rfl, ?_, rfl, ?_⟩⟩ <;>
    (intros; simp [upd]) <;> grind [KPc.has, KPc.sends]

/-- **C77, a defect.** The handler that stops the job dies after it has written the row of the task and before it has told the node. The message
is delivered again and handled to the end — but the task is not active any more, so its node is never told. -/
theorem C77_crash_while_stopping_misses :
    ∃ s, Reach Once s ∧ Quiet s ∧ s.live = false ∧ s.row 0 = .closed ∧ s.node 0 = some 7 ∧ Missed s 0 := by
  have t := begun Once fun s h => Once.of_none h
  have t := t.step (.hear 0 0 rfl (by simp [upd]))
  have t := t.step (.read 0 0 rfl)
  have t := t.step (.record 0 0 rfl)
  have t := t.step (.mark 0 rfl)
  have t := t.step (.list 0 [(0, some 7)] rfl (by intro t n; simp [upd]; grind))
  have t := t.step (.close 0 0 (some 7) [] rfl)
  have t := t.step (.cutStop 0 (by simp [upd]))
  have t := t.step (.mark 1 rfl)
  have t := t.step (.list 1 [] rfl (by intro t n; simp [upd]; grind))
  have t := t.step (.leave 1 rfl)
  refine ⟨_, t, ⟨?_, ?_, ?_, ?_, ?_⟩, rfl, rfl, rfl, ⟨rfl, rfl, rfl, rfl, ?_, rfl, ?_, rfl, ?_⟩⟩ <;>
    (intros; simp [upd]) <;> grind [KPc.has, KPc.sends]

/-- **C77, a defect.** One worker receives a task a second time while it still runs it (its connection to the broker was renewed). The second
entry in the map of running tasks replaces the first, and the first execution deletes it when it ends. From then on the second execution cannot be
cancelled: the message arrives at the worker, and nothing happens. -/
theorem C77_second_run_cannot_be_stopped :
    ∃ s, Reach (fun _ _ _ => True) s ∧ Quiet s ∧ s.live = false ∧ s.cutK = false ∧ (∀ e, s.cutS e = false) ∧
      s.ex 0 = .over ∧ s.ex 1 = .running ∧ s.wk 0 = s.wk 1 ∧ s.born 1 = true ∧ s.node (s.tk 1) = some (s.wk 1) ∧ s.finder 1 = none ∧ Missed s 1 := by
  have t := begun (fun _ _ _ => True) fun _ _ => trivial
  have t := t.step (.pick 1 0 7 rfl (by simp [upd]) trivial)
  have t := t.step (.register 1 rfl)
  have t := t.step (.announce 1 rfl)
  have t := t.step (.hear 0 0 rfl (by simp [upd]))
  have t := t.step (.read 0 0 rfl)
  have t := t.step (.record 0 0 rfl)
  have t := t.step (.hear 0 1 rfl (by simp [upd]))
  have t := t.step (.read 0 1 rfl)
  have t := t.step (.record 0 1 rfl)
  have t := t.step (.finish 0 (.inr rfl))
  have t := t.step (.mark 0 rfl)
  have t := t.step (.list 0 [(0, some 7)] rfl (by intro t n; simp [upd]; grind))
  have t := t.step (.close 0 0 (some 7) [] rfl)
  have t := t.step (.send 0 0 7 [] rfl)
  have t := t.step (.leave 0 rfl)
  have t := t.step (.unknown 7 0 (by simp [upd2]) rfl)
  refine ⟨_, t, ⟨?_, ?_, ?_, ?_, ?_⟩, rfl, rfl, fun _ => rfl, rfl, rfl, rfl, rfl, rfl, rfl, ⟨rfl, rfl, rfl, rfl, ?_, rfl, ?_, rfl, ?_⟩⟩ <;>
    (intros; simp [upd, upd2]) <;> grind [KPc.has, KPc.sends]

/-- **C77, a defect.** A worker dies and the task is given to a second one; the announcements are handled the other way round. The row names the
dead worker for ever: stopping the job tells that one, and the second goes on. -/
theorem C77_wrong_node_told :
    ∃ s, Reach OncePerWorker s ∧ Quiet s ∧ s.live = false ∧ s.cutK = false ∧ (∀ e, s.cutS e = false) ∧
      s.ex 0 = .over ∧ s.node 0 = some 7 ∧ s.wk 1 = 8 ∧ s.born 1 = true ∧ Missed s 1 := by
  have t := begun OncePerWorker fun s h => once_perWorker (Once.of_none h)
  have t := t.step (.die 7)
  have t := t.step (.pick 1 0 8 rfl (by simp [upd]) (by intro e; simp [upd, Ex.alive]; grind))
  have t := t.step (.register 1 rfl)
  have t := t.step (.announce 1 rfl)
  have t := t.step (.hear 0 0 rfl (by simp [upd]))
  have t := t.step (.hear 1 1 rfl (by simp [upd]))
  have t := t.step (.read 0 0 rfl)
  have t := t.step (.read 1 1 rfl)
  have t := t.step (.record 1 1 rfl)
  have t := t.step (.record 0 0 rfl)
  have t := t.step (.mark 0 rfl)
  have t := t.step (.list 0 [(0, some 7)] rfl (by intro t n; simp [upd]; grind))
  have t := t.step (.close 0 0 (some 7) [] rfl)
  have t := t.step (.send 0 0 7 [] rfl)
  have t := t.step (.leave 0 rfl)
  have t := t.step (.unknown 7 0 (by simp [upd2]) rfl)
  refine ⟨_, t, ⟨?_, ?_, ?_, ?_, ?_⟩, rfl, rfl, fun _ => rfl, rfl, rfl, rfl, rfl, ⟨rfl, rfl, rfl, rfl, ?_, rfl, ?_, rfl, ?_⟩⟩ <;>
    (intros; simp [upd, upd2]) <;> grind [KPc.has, KPc.sends]

/-! ## The hypotheses can be met -/

theorem after {G : S → Nat → Nat → Prop} {s s' : S} (_ : Step G s s') : Steps G s' s' := .refl
theorem afterwards {G : S → Nat → Nat → Prop} {s : S} (_ : Reach G s) : Steps G s s := .refl

/-- A recorded start: stopping the job reaches it. -/
theorem recorded : Reach Once { ({} : S) with
      row := upd (fun _ => .absent) 0 .active, ex := upd (upd (upd (fun _ => .none) 0 .picked) 0 .registered) 0 .running, tk := upd (fun _ => 0) 0 0,
      wk := upd (fun _ => 0) 0 7, born := upd (fun _ => false) 0 true, reg := upd2 (fun _ _ => none) 7 0 (some 0),
      smsg := upd (upd (fun _ => 0) 0 1) 0 0, hearer := upd (fun _ => none) 0 (some 0),
      hpc := upd (upd (upd (fun _ => .idle) 0 (.got 0)) 0 (.record 0)) 0 .idle, node := upd (fun _ => none) 0 (some 7),
      writer := upd (fun _ => 0) 0 0 } := by
  have t := begun Once fun s h => Once.of_none h
  have t := t.step (.hear 0 0 rfl (by simp [upd]))
  have t := t.step (.read 0 0 rfl)
  exact t.step (.record 0 0 rfl)

example : ∃ s0 s1 s, Reach Once s0 ∧ s0.live = true ∧ s0.ex 0 = .running ∧ s0.row (s0.tk 0) = .active ∧
    s0.node (s0.tk 0) = some (s0.wk 0) ∧ Step Once s0 s1 ∧ s1.kpc 0 = .marked ∧ Steps Once s1 s ∧ Quiet s ∧ s.cutK = false ∧
    s.ex 0 = .running ∧ s.killed 0 = true := by
  have r := recorded
  have hk : ∀ {s : S}, Reach Once s → s.kpc 0 = .idle → s.kpc 0 = .idle := fun _ h => h
  have m := Step.mark (G := Once) 0 (hk r rfl)
  have t := after m
  have t := t.tail (.list 0 [(0, some 7)] rfl (by intro t n; simp [upd]; grind))
  have t := t.tail (.close 0 0 (some 7) [] rfl)
  have t := t.tail (.send 0 0 7 [] rfl)
  have t := t.tail (.leave 0 rfl)
  have t := t.tail (.find 0 7 0 0 rfl (by simp [upd2]) rfl)
  have t := t.tail (.kill 0 7 0 0 rfl)
  have t := t.tail (.forget 0 7 0 0 rfl)
  refine ⟨_, _, _, r, rfl, rfl, rfl, rfl, m, rfl, t, ⟨?_, ?_, ?_, ?_, ?_⟩, rfl, rfl, rfl⟩ <;> (intros; simp [upd, upd2]) <;> grind

example : ∃ s0 s, Reach OncePerWorker s0 ∧ s0.live = false ∧ s0.ex 0 = .none ∧ Steps OncePerWorker s0 s ∧ Quiet s ∧ s.cutS 0 = false ∧
    s.ex 0 = .running ∧ s.killed 0 = true := by
  have t : Reach OncePerWorker {} := .init
  have t := t.step (.create 0 rfl)
  have t := t.step (.mark 0 rfl)
  have t := t.step (.list 0 [(0, none)] rfl (by intro t n; simp [upd]; grind))
  have t := t.step (.close 0 0 none [] rfl)
  have t := t.step (.skip 0 0 [] rfl)
  have t := t.step (.leave 0 rfl)
  have r := t
  have t := afterwards t
  have t := t.tail (.pick 0 0 7 rfl (by simp [upd]) (once_perWorker (Once.of_none fun _ => rfl)))
  have t := t.tail (.register 0 rfl)
  have t := t.tail (.announce 0 rfl)
  have t := t.tail (.hear 0 0 rfl (by simp [upd]))
  have t := t.tail (.read 0 0 rfl)
  have t := t.tail (.tell 0 0 rfl)
  have t := t.tail (.find 0 7 0 0 rfl (by simp [upd, upd2]) rfl)
  have t := t.tail (.kill 0 7 0 0 rfl)
  have t := t.tail (.forget 0 7 0 0 rfl)
  refine ⟨_, _, r, rfl, rfl, t, ⟨?_, ?_, ?_, ?_, ?_⟩, rfl, rfl, rfl⟩ <;> (intros; simp [upd, upd2]) <;> grind

end Tork.CancelRun

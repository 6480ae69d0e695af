import Verif.Types
/-!
# Stopping a job while its tasks start: coordinators and workers interleaved

The statements of

* `/repo/internal/coordinator/handlers/cancel.go:29-60 handle` and `62-101 cancelActiveTasks` (which `handlers/job.go:198-239 failJob` calls
  too),
* `/repo/internal/coordinator/handlers/started.go:32-77 handle`,
* `/repo/internal/worker/worker.go:87-99 cancelTask`, `106-158 doHandleTask`, `160-184 runTask` with the map of running tasks
  (`/repo/internal/syncx/map.go`)

run concurrently, any number of each, for the tasks of one job. A handler may stop at any point (crash, error of the datastore or the
broker); a worker may be killed; announcements of a start may be delivered several times.

Simplified: of the job the model has whether it is SCHEDULED or RUNNING (`live`); once stopped it is not restarted. Of a task's row it has
whether the state is one of `TaskStateActive` (`/repo/task.go:26-31`) and the node. Tasks with a sub-job are left out (no worker runs them).
The middleware around `runTask` is left out. Every execution has a number of its own; nothing in the code reads it.
-/

namespace Tork.CancelRun

inductive Row
  /-- not created yet -/
  | absent
  /-- CREATED, PENDING, SCHEDULED or RUNNING -/
  | active
  | closed
  deriving DecidableEq

/-- Where an execution of a task is (`runTask`). -/
inductive Ex
  /-- no such execution yet -/
  | none
  /-- the worker has received the task -/
  | picked
  /-- it is in the worker's map of running tasks -/
  | registered
  /-- its start has been announced; the runtime is working -/
  | running
  /-- `runTask` has returned, or the worker has died -/
  | over
  deriving DecidableEq

/-- The handler of an announced start. -/
inductive HPc
  | idle
  /-- has the message about execution `e` -/
  | got (e : Nat)
  /-- has read that the job is not running: about to send the cancellation -/
  | tell (e : Nat)
  /-- has read that the job is running: about to write the node into the row -/
  | record (e : Nat)
  deriving DecidableEq

/-- The handler that stops the job. -/
inductive KPc
  | idle
  /-- the row of the job has been written -/
  | marked
  /-- the active tasks with their nodes, as read; not dealt with yet -/
  | todo (l : List (Nat × Option Nat))
  /-- the row of the first one has been written; its node is to be told -/
  | sending (t : Nat) (n : Option Nat) (l : List (Nat × Option Nat))
  deriving DecidableEq

/-- `cancelTask` of a worker. -/
inductive CPc
  | idle
  /-- found the entry of execution `e`: about to call its `cancel` -/
  | found (w t e : Nat)
  /-- has called it: about to delete the entry -/
  | called (w t e : Nat)
  deriving DecidableEq

structure S where
  live : Bool := true
  row : Nat → Row := fun _ => .absent
  node : Nat → Option Nat := fun _ => none
  ex : Nat → Ex := fun _ => .none
  /-- task and worker of an execution -/
  tk : Nat → Nat := fun _ => 0
  wk : Nat → Nat := fun _ => 0
  /-- `Worker.tasks`, by worker and task -/
  reg : Nat → Nat → Option Nat := fun _ _ => none
  /-- the context of the execution has been cancelled by a message -/
  killed : Nat → Bool := fun _ => false
  /-- messages in the queue `started`, by execution -/
  smsg : Nat → Nat := fun _ => 0
  hpc : Nat → HPc := fun _ => .idle
  kpc : Nat → KPc := fun _ => .idle
  /-- messages in the queues of the nodes, by worker and task -/
  mail : Nat → Nat → Nat := fun _ _ => 0
  cpc : Nat → CPc := fun _ => .idle
  /- What follows is history; no step depends on it. -/
  /-- the job was running when the worker received the task -/
  born : Nat → Bool := fun _ => false
  /-- when the job was stopped, the row of the task was active and named the worker of this execution -/
  shown : Nat → Bool := fun _ => false
  /-- the handler that stopped the job -/
  stopper : Option Nat := none
  /-- the handler that was the first to close the row -/
  closer : Nat → Option Nat := fun _ => none
  /-- the first handler that received the announcement -/
  hearer : Nat → Option Nat := fun _ => none
  /-- the first call of `cancelTask` that found the execution -/
  finder : Nat → Option Nat := fun _ => none
  /-- the execution whose node the row names -/
  writer : Nat → Nat := fun _ => 0
  /-- some handler with the announcement of this execution did not finish -/
  cutS : Nat → Bool := fun _ => false
  /-- some handler that stops the job did not finish -/
  cutK : Bool := false

def upd {α : Type} (f : Nat → α) (k : Nat) (v : α) : Nat → α := fun i => if i = k then v else f i

def upd2 {α : Type} (f : Nat → Nat → α) (a b : Nat) (v : α) : Nat → Nat → α := fun i j => if i = a ∧ j = b then v else f i j

/-- The first value stays. -/
def first (o : Option Nat) (k : Nat) : Option Nat := match o with | none => some k | some x => some x

/-- The execution has begun and is not over. -/
def Ex.alive : Ex → Bool
  | .picked | .registered | .running => true
  | _ => false

@[grind =] theorem first_none (k : Nat) : first none k = some k := rfl
@[grind =] theorem first_some (x k : Nat) : first (some x) k = some x := rfl
@[grind .] theorem first_ne (o : Option Nat) (k : Nat) : first o k ≠ none := by cases o <;> simp [first]

theorem Ex.alive_iff (x : Ex) : x.alive = true ↔ x ≠ .none ∧ x ≠ .over := by cases x <;> simp [Ex.alive]

/-- One step. `G s t w`: worker `w` may receive task `t`. -/
inductive Step (G : S → Nat → Nat → Prop) (s : S) : S → Prop
  /-- a task is created (`CreateTask`, wherever called) -/
  | create (t : Nat) (hr : s.row t = .absent) : Step G s { s with row := upd s.row t .active }
  /-- the scheduler writes its state whatever it was (`scheduler.go:80-91`) -/
  | schedule (t : Nat) (hr : s.row t ≠ .absent) : Step G s { s with row := upd s.row t .active }
  /-- the outcome an execution has reported is written (`completed.go`, `error.go`) -/
  | outcome (e : Nat) (he : s.ex e = .over) : Step G s { s with row := upd s.row (s.tk e) .closed }
  /-- the job completes -/
  | complete : Step G s { s with live := false }
  /-- worker `w` receives task `t` (`worker.go:102-109`) -/
  | pick (e t w : Nat) (he : s.ex e = .none) (hr : s.row t ≠ .absent) (hg : G s t w) :
      Step G s { s with ex := upd s.ex e .picked, tk := upd s.tk e t, wk := upd s.wk e w, born := upd s.born e s.live }
  /-- `w.tasks.Set` (`worker.go:170-173`) -/
  | register (e : Nat) (he : s.ex e = .picked) :
      Step G s { s with ex := upd s.ex e .registered, reg := upd2 s.reg (s.wk e) (s.tk e) (some e) }
  /-- `PublishTask(ctx, QUEUE_STARTED, t)` (`worker.go:176`) -/
  | announce (e : Nat) (he : s.ex e = .registered) :
      Step G s { s with ex := upd s.ex e .running, smsg := upd s.smsg e (s.smsg e + 1) }
  /-- `runTask` returns, for whatever reason; `defer w.tasks.Delete(t.ID)` (`worker.go:174`) -/
  | finish (e : Nat) (he : s.ex e = .registered ∨ s.ex e = .running) :
      Step G s { s with ex := upd s.ex e .over, reg := upd2 s.reg (s.wk e) (s.tk e) none }
  /-- a worker dies; its queue is deleted (`rabbitmq.go` declares it exclusive) -/
  | die (w : Nat) :
      Step G s { s with
        ex := fun e => if s.wk e = w ∧ (s.ex e).alive = true then .over else s.ex e
        reg := fun w' t => if w' = w then none else s.reg w' t
        mail := fun w' t => if w' = w then 0 else s.mail w' t }
  /-- the broker delivers an announcement again -/
  | again (e : Nat) (he : s.hearer e ≠ none) : Step G s { s with smsg := upd s.smsg e (s.smsg e + 1) }
  /-- a handler receives an announcement -/
  | hear (h e : Nat) (hp : s.hpc h = .idle) (hm : s.smsg e ≠ 0) :
      Step G s { s with hpc := upd s.hpc h (.got e), smsg := upd s.smsg e (s.smsg e - 1), hearer := upd s.hearer e (first (s.hearer e) h) }
  /-- `GetJobByID`, and the test of its state (`started.go:37-43`) -/
  | read (h e : Nat) (hp : s.hpc h = .got e) :
      Step G s { s with hpc := upd s.hpc h (if s.live then .record e else .tell e) }
  /-- `PublishTask(ctx, node.Queue, t)` (`started.go:44-49`) -/
  | tell (h e : Nat) (hp : s.hpc h = .tell e) :
      Step G s { s with hpc := upd s.hpc h .idle, mail := upd2 s.mail (s.wk e) (s.tk e) (s.mail (s.wk e) (s.tk e) + 1) }
  /-- `UpdateTask`: the state stays active or inactive, the node is written (`started.go:60-76`) -/
  | record (h e : Nat) (hp : s.hpc h = .record e) :
      Step G s { s with hpc := upd s.hpc h .idle, node := upd s.node (s.tk e) (some (s.wk e)), writer := upd s.writer (s.tk e) e }
  /-- the handler of an announcement ends early -/
  | cutStart (h e : Nat) (hp : s.hpc h = .got e ∨ s.hpc h = .tell e ∨ s.hpc h = .record e) :
      Step G s { s with hpc := upd s.hpc h .idle, cutS := upd s.cutS e true }
  /-- `UpdateJob` of the handler that stops the job (`cancel.go:31-40`, `job.go:201-212`) -/
  | mark (k : Nat) (hp : s.kpc k = .idle) :
      Step G s { s with
        kpc := upd s.kpc k .marked
        live := false
        stopper := if s.live then some k else s.stopper
        shown := fun e => if s.live then
            (s.ex e).alive && decide (s.row (s.tk e) = .active) && decide (s.node (s.tk e) = some (s.wk e))
          else s.shown e }
  /-- `GetActiveTasks` (`cancel.go:64`) -/
  | list (k : Nat) (l : List (Nat × Option Nat)) (hp : s.kpc k = .marked)
      (hl : ∀ t n, (t, n) ∈ l ↔ s.row t = .active ∧ s.node t = n) :
      Step G s { s with kpc := upd s.kpc k (.todo l) }
  /-- `UpdateTask`: CANCELLED (`cancel.go:70-75`) -/
  | close (k t : Nat) (n : Option Nat) (l : List (Nat × Option Nat)) (hp : s.kpc k = .todo ((t, n) :: l)) :
      Step G s { s with
        kpc := upd s.kpc k (.sending t n l)
        row := upd s.row t .closed
        closer := upd s.closer t (first (s.closer t) k) }
  /-- `t.NodeID != ""`: `PublishTask(ctx, node.Queue, t)` (`cancel.go:87-97`) -/
  | send (k t w : Nat) (l : List (Nat × Option Nat)) (hp : s.kpc k = .sending t (some w) l) :
      Step G s { s with kpc := upd s.kpc k (.todo l), mail := upd2 s.mail w t (s.mail w t + 1) }
  /-- `t.NodeID == ""` -/
  | skip (k t : Nat) (l : List (Nat × Option Nat)) (hp : s.kpc k = .sending t none l) :
      Step G s { s with kpc := upd s.kpc k (.todo l) }
  /-- all done -/
  | leave (k : Nat) (hp : s.kpc k = .todo []) : Step G s { s with kpc := upd s.kpc k .idle }
  /-- the handler that stops the job ends early -/
  | cutStop (k : Nat) (hp : s.kpc k ≠ .idle) : Step G s { s with kpc := upd s.kpc k .idle, cutK := true }
  /-- `cancelTask` finds the task in the map (`worker.go:88`) -/
  | find (c w t e : Nat) (hp : s.cpc c = .idle) (hm : s.mail w t ≠ 0) (hr : s.reg w t = some e) :
      Step G s { s with cpc := upd s.cpc c (.found w t e), mail := upd2 s.mail w t (s.mail w t - 1), finder := upd s.finder e (first (s.finder e) c) }
  /-- … or not (`worker.go:89-92`) -/
  | unknown (w t : Nat) (hm : s.mail w t ≠ 0) (hr : s.reg w t = none) :
      Step G s { s with mail := upd2 s.mail w t (s.mail w t - 1) }
  /-- `rt.cancel()` (`worker.go:94`) -/
  | kill (c w t e : Nat) (hp : s.cpc c = .found w t e) :
      Step G s { s with cpc := upd s.cpc c (.called w t e), killed := upd s.killed e true }
  /-- `w.tasks.Delete(t.ID)` (`worker.go:95`) -/
  | forget (c w t e : Nat) (hp : s.cpc c = .called w t e) :
      Step G s { s with cpc := upd s.cpc c .idle, reg := upd2 s.reg w t none }

/-- Executions from the beginning. -/
inductive Reach (G : S → Nat → Nat → Prop) : S → Prop
  | init : Reach G {}
  | step {s s'} (h : Reach G s) (hs : Step G s s') : Reach G s'

/-- Nothing is under way: no message, no handler. -/
structure Quiet (s : S) : Prop where
  starts : ∀ e, s.smsg e = 0
  hearing : ∀ h, s.hpc h = .idle
  stopping : ∀ k, s.kpc k = .idle
  mail : ∀ w t, s.mail w t = 0
  cancelling : ∀ c, s.cpc c = .idle

/-- Worker `w` has not received task `t` before. -/
def OncePerWorker (s : S) (t w : Nat) : Prop := ∀ e, s.ex e ≠ .none → s.tk e = t → s.wk e ≠ w

/-- No worker has received task `t` before. -/
def Once (s : S) (t _w : Nat) : Prop := ∀ e, s.ex e ≠ .none → s.tk e ≠ t

/-! ## Invariants -/

/-- The map: an execution that is in it and has not been told to stop can be found. -/
structure Map (s : S) : Prop where
  unique : ∀ e e', s.ex e ≠ .none → s.ex e' ≠ .none → s.tk e = s.tk e' → s.wk e = s.wk e' → e = e'
  entry : ∀ w t e, s.reg w t = some e → s.ex e ≠ .none ∧ s.tk e = t ∧ s.wk e = w
  found : ∀ c w t e, s.cpc c = .found w t e → s.ex e ≠ .none ∧ s.tk e = t ∧ s.wk e = w
  called : ∀ c w t e, s.cpc c = .called w t e → s.ex e ≠ .none ∧ s.tk e = t ∧ s.wk e = w ∧ s.killed e = true
  here : ∀ e, s.ex e = .registered ∨ s.ex e = .running → s.killed e = false → s.reg (s.wk e) (s.tk e) = some e
  fresh : ∀ e, s.ex e = .none → s.killed e = false ∧ s.smsg e = 0 ∧ s.shown e = false ∧ s.hearer e = none
  hpc : ∀ h e, s.hpc h = .got e ∨ s.hpc h = .tell e ∨ s.hpc h = .record e → s.ex e ≠ .none ∧ s.ex e ≠ .picked ∧ s.ex e ≠ .registered
  smsg : ∀ e, s.smsg e ≠ 0 → s.ex e ≠ .picked ∧ s.ex e ≠ .registered
  heard : ∀ e, s.hearer e ≠ none → s.ex e ≠ .picked ∧ s.ex e ≠ .registered

theorem Map.init : Map {} := by constructor <;> simp

set_option maxHeartbeats 2000000 in
theorem map_step {G : S → Nat → Nat → Prop} (hG : ∀ s t w, G s t w → OncePerWorker s t w) {s s' : S} (h : Map s) (hs : Step G s s') : Map s' := by
  obtain ⟨h1, h2, h3, h4, h5, h6, h7, h8, h9⟩ := h
  cases hs with
  | pick e t w he hr hg =>
    have hg := hG _ _ _ hg
    unfold OncePerWorker at hg
    constructor <;> dsimp only <;> grind [upd]
  | die w => constructor <;> simp only [Ex.alive_iff] <;> grind
  | find c w t e hp hm hr => constructor <;> dsimp only <;> grind [upd, upd2]
  | kill c w t e hp => constructor <;> dsimp only <;> grind [upd, upd2]
  | forget c w t e hp => constructor <;> dsimp only <;> grind [upd, upd2]
  | read h e hp => constructor <;> dsimp only <;> grind [upd, upd2]
  | mark k hp =>
    have al := fun e => Ex.alive_iff (s.ex e)
    constructor <;> dsimp only <;> grind
  | hear h e hp hm => constructor <;> dsimp only <;> grind [upd, upd2, first]
  | register e he => constructor <;> dsimp only <;> grind [upd, upd2]
  | announce e he => constructor <;> dsimp only <;> grind [upd, upd2]
  | finish e he => constructor <;> dsimp only <;> grind [upd, upd2]
  | again e he => constructor <;> dsimp only <;> grind [upd, upd2]
  | _ => constructor <;> dsimp only <;> grind [upd, upd2]

/-- Nothing happens to the tasks of a job that has not been stopped. -/
structure Calm (s : S) : Prop where
  kpc : s.live = true → ∀ k, s.kpc k = .idle
  tell : s.live = true → ∀ h e, s.hpc h ≠ .tell e
  mail : s.live = true → ∀ w t, s.mail w t = 0
  cpc : s.live = true → ∀ c, s.cpc c = .idle
  killed : s.live = true → ∀ e, s.killed e = false
  stopper : s.live = true → s.stopper = none
  shown : s.live = true → ∀ e, s.shown e = false
  closer : s.live = true → ∀ t, s.closer t = none
  born : ∀ e, s.ex e ≠ .none → s.born e = false → s.live = false

theorem Calm.init : Calm {} := by constructor <;> simp

set_option maxHeartbeats 2000000 in
theorem calm_step {G : S → Nat → Nat → Prop} {s s' : S} (h : Calm s) (hs : Step G s s') : Calm s' := by
  obtain ⟨h1, h2, h3, h4, h5, h6, h7, h8, h9⟩ := h
  cases hs with
  | die w => constructor <;> simp only [Ex.alive_iff] <;> grind
  | _ => constructor <;> dsimp only <;> grind [upd, upd2, first]

/-- The execution is over, or has been told to stop, or the message that says so waits on its worker, or is being handled there. -/
def Told (s : S) (e : Nat) : Prop :=
  s.ex e = .over ∨ s.killed e = true ∨ s.mail (s.wk e) (s.tk e) ≠ 0 ∨ s.finder e ≠ none

/-- An execution that starts after the job was stopped. -/
structure Late (s : S) : Prop where
  finder : ∀ e c, s.finder e = some c → s.ex e = .over ∨ s.killed e = true ∨ s.cpc c = .found (s.wk e) (s.tk e) e
  asked : ∀ e, s.finder e ≠ none → s.ex e ≠ .none
  unheard : ∀ e, s.ex e = .running → s.hearer e = none → s.smsg e ≠ 0
  heard : ∀ e h, s.ex e = .running → s.born e = false → s.hearer e = some h →
    s.hpc h = .got e ∨ s.hpc h = .tell e ∨ s.cutS e = true ∨ Told s e

theorem Late.init : Late {} := by constructor <;> simp

/-- What a step does to `Told`. -/
theorem told_step {G : S → Nat → Nat → Prop} {s s' : S} (hM : Map s) (hs : Step G s s') (e : Nat) (he : s.ex e = .running) (h : Told s e) :
    Told s' e := by
  have a1 := hM.here e (.inr he)
  have a2 := hM.entry (s.wk e) (s.tk e)
  have a3 := fun e' => hM.unique e e' (by rw [he]; simp)
  unfold Told at *
  cases hs with
  | die w => simp only [Ex.alive_iff]; grind
  | _ => dsimp only; grind [upd, upd2, first]


set_option maxHeartbeats 2000000 in
theorem late_step {G : S → Nat → Nat → Prop} {s s' : S} (hM : Map s) (hM' : Map s') (hC : Calm s) (h : Late s) (hs : Step G s s') : Late s' := by
  have ht := fun e he hx => told_step hM hs e he hx
  obtain ⟨m1, m2, m3, m4, m5, m6, m7, m8, m9⟩ := hM
  obtain ⟨h1, h2, h3, h4⟩ := h
  have c9 := hC.born
  have hrun : ∀ e, s'.ex e = .running → s.ex e = .running ∨ (s.ex e = .registered ∧ s'.hearer e = none) := by
    cases hs with
    | die w => simp only [Ex.alive_iff]; grind
    | _ => dsimp only; grind [upd]
  constructor
  · clear hM' ht hrun m1 m4 m5 m7 m8 m9 h3 h4 c9
    cases hs with
    | die w => simp only [Ex.alive_iff]; grind
    | find c w t e hp hm hr =>
      intro e0 c0 hc
      dsimp only at hc ⊢
      have b1 := m2 w t e hr
      have b2 := h1 e0 c0
      have b3 := h1 e
      by_cases he : e0 = e
      · subst he
        cases hf : s.finder e0 with
        | none => grind [upd]
        | some x => grind [upd]
      · grind [upd]
    | _ => dsimp only; grind [upd, upd2, first]
  · cases hs with
    | die w => simp only [Ex.alive_iff]; grind
    | _ => dsimp only; grind [upd, upd2, first]
  · cases hs with
    | die w => simp only [Ex.alive_iff]; grind
    | _ => dsimp only; grind [upd, upd2, first]
  · intro e h hr hb hh
    rcases hrun e hr with hr' | ⟨_, hn⟩
    · have t1 := ht e hr'
      have t2 := h4 e
      have t3 := h3 e hr'
      have t4 := m6 e
      by_cases hT : Told s' e
      · exact .inr (.inr (.inr hT))
      have hT' : ¬ Told s e := fun x => hT (t1 x)
      cases hs with
      | die w => revert hr; simp only [Ex.alive_iff]; grind
      | tell h' e' hp =>
        have : ¬ (e' = e) := by
          rintro rfl
          exact hT (.inr (.inr (.inl (by simp [upd2]))))
        revert hr hb hh; dsimp only; grind [upd]
      | hear h' e' hp hm =>
        clear hM' ht hrun t1 hT h1 h2 h3 h4 m1 m2 m3 m4 m5 m7 m8 m9
        dsimp only at hr hb hh ⊢
        by_cases he : e' = e
        · subst he
          cases hf : s.hearer e' with
          | none => grind [upd]
          | some x => grind [upd]
        · grind [upd]
      | _ => clear hM' ht hrun; revert hr hb hh; dsimp only; grind [upd, upd2, first]
    · rw [hn] at hh; exact nomatch hh

/-- The entry is still to be dealt with. -/
def KPc.has : KPc → Nat × Option Nat → Prop
  | .todo l, x => x ∈ l
  | .sending _ _ l, x => x ∈ l
  | _, _ => False

/-- The row has been written, the node is to be told. -/
def KPc.sends : KPc → Nat → Option Nat → Prop
  | .sending t n _, t', n' => t = t' ∧ n = n'
  | _, _, _ => False

@[grind =] theorem has_idle (x) : KPc.has .idle x = False := rfl
@[grind =] theorem has_marked (x) : KPc.has .marked x = False := rfl
@[grind =] theorem has_todo (l x) : KPc.has (.todo l) x = (x ∈ l) := rfl
@[grind =] theorem has_sending (t n l x) : KPc.has (.sending t n l) x = (x ∈ l) := rfl
@[grind =] theorem sends_idle (t n) : KPc.sends .idle t n = False := rfl
@[grind =] theorem sends_marked (t n) : KPc.sends .marked t n = False := rfl
@[grind =] theorem sends_todo (l t n) : KPc.sends (.todo l) t n = False := rfl
@[grind =] theorem sends_sending (t n l t' n') : KPc.sends (.sending t n l) t' n' = (t = t' ∧ n = n') := rfl

/-- Every task is executed once at most. -/
structure Single (s : S) : Prop where
  unique : ∀ e e', s.ex e ≠ .none → s.ex e' ≠ .none → s.tk e = s.tk e' → e = e'
  writer : ∀ t w, s.node t = some w →
    s.tk (s.writer t) = t ∧ s.wk (s.writer t) = w ∧ (s.ex (s.writer t) = .running ∨ s.ex (s.writer t) = .over)

theorem Single.init : Single {} := by constructor <;> simp

set_option maxHeartbeats 2000000 in
theorem single_step {G : S → Nat → Nat → Prop} (hG : ∀ s t w, G s t w → Once s t w) {s s' : S} (hM : Map s) (h : Single s)
    (hs : Step G s s') : Single s' := by
  have m7 := hM.hpc
  obtain ⟨h1, h2⟩ := h
  cases hs with
  | pick e t w he hr hg =>
    have hg := hG _ _ _ hg
    unfold Once at hg
    constructor <;> dsimp only <;> grind [upd]
  | die w => constructor <;> simp only [Ex.alive_iff] <;> grind
  | record h e hp =>
    have b := m7 h e (.inr (.inr hp))
    have b' : s.ex e = .running ∨ s.ex e = .over := by cases hx : s.ex e <;> simp_all
    constructor <;> dsimp only <;> grind [upd]
  | _ => constructor <;> dsimp only <;> grind [upd]

/-- An execution whose node was in the row when the job was stopped. -/
structure Shown (s : S) : Prop where
  alive : ∀ e, s.shown e = true → s.ex e = .running ∨ s.ex e = .over
  node : ∀ e, s.shown e = true → s.node (s.tk e) = some (s.wk e)
  entry : ∀ e k n, s.shown e = true → (s.kpc k).has (s.tk e, n) → n = some (s.wk e)
  sent : ∀ e k n, s.shown e = true → (s.kpc k).sends (s.tk e) n → n = some (s.wk e)
  stopper : ∀ e, s.shown e = true → s.stopper ≠ none
  open_ : ∀ e, s.shown e = true → s.closer (s.tk e) = none → s.ex e = .over ∨ s.row (s.tk e) = .active
  first : ∀ e k, s.shown e = true → s.closer (s.tk e) = none → s.stopper = some k →
    s.cutK = true ∨ s.ex e = .over ∨ s.kpc k = .marked ∨ (s.kpc k).has (s.tk e, some (s.wk e))
  closer : ∀ e k, s.shown e = true → s.closer (s.tk e) = some k →
    s.cutK = true ∨ Told s e ∨ (s.kpc k).sends (s.tk e) (some (s.wk e))

theorem Shown.init : Shown {} := by constructor <;> simp

set_option maxHeartbeats 4000000 in
theorem shown_step {G : S → Nat → Nat → Prop} {s s' : S} (hM : Map s) (hC : Calm s) (hS : Single s) (h : Shown s) (hs : Step G s s') :
    Shown s' := by
  have ht := fun e he hx => told_step hM hs e he hx
  have m6 := hM.fresh
  have m7 := hM.hpc
  obtain ⟨s1, s2⟩ := hS
  obtain ⟨h1, h2, h3, h4, h5, h6, h7, h8⟩ := h
  have hover : ∀ e, s.ex e = .over → s'.ex e = .over := by
    cases hs with
    | die w => simp only [Ex.alive_iff]; grind
    | _ => dsimp only; grind [upd]
  have ht' : ∀ e, s.shown e = true → Told s e → Told s' e := fun e he hx => by
    rcases h1 e he with h | h
    · exact ht e h hx
    · exact .inl (hover e h)
  clear ht
  cases hs with
  | mark k hp =>
    have c1 := hC.kpc
    have c7 := hC.shown
    have c8 := hC.closer
    have al := fun e => Ex.alive_iff (s.ex e)
    cases hl : s.live with
    | true =>
      have c1 := c1 hl
      have c8 := c8 hl
      have key : ∀ e, ((s.ex e).alive && decide (s.row (s.tk e) = .active) && decide (s.node (s.tk e) = some (s.wk e))) = true →
          (s.ex e = .running) ∧ s.row (s.tk e) = .active ∧ s.node (s.tk e) = some (s.wk e) := by
        intro e hx
        simp only [Bool.and_eq_true, decide_eq_true_eq] at hx
        obtain ⟨⟨x1, x2⟩, x3⟩ := hx
        have y := s2 _ _ x3
        have x1' := (al e).1 x1
        have : s.writer (s.tk e) = e := s1 _ _ (by grind) x1'.1 y.1
        grind
      clear h1 h2 h3 h4 h5 h6 h7 h8 m6 m7 s1 s2 hover ht'
      constructor <;> simp only [if_true] <;> grind [upd]
    | false =>
      constructor <;> simp only [Bool.false_eq_true, if_false] <;> grind [upd]
  | list k l hp hl => constructor <;> dsimp only <;> grind [upd]
  | pick e t w he hr hg => constructor <;> dsimp only <;> grind [upd]
  | die w =>
    refine ⟨?_, ?_, ?_, ?_, ?_, ?_, ?_, fun e k he hk => (h8 e k he hk).imp_right (Or.imp_left (ht' e he))⟩ <;>
      clear ht' h8 <;> simp only [Ex.alive_iff] <;> grind
  | outcome e he => constructor <;> dsimp only <;> grind [upd]
  | record h e hp => constructor <;> dsimp only <;> grind [upd]
  | close k t n l hp =>
    have b3 := fun e n => h3 e k n
    have b7 := fun e => h7 e k
    have b8 := fun e => h8 e k
    rw [hp] at b3 b7 b8
    simp only [has_todo, sends_todo, List.mem_cons, Prod.mk.injEq] at b3 b7 b8
    clear m6 m7 s1 s2 hM hC
    cases hf : s.closer t with
    | none => rw [first_none]; constructor <;> dsimp only <;> grind [upd]
    | some x =>
      have hu : upd s.closer t (Tork.CancelRun.first (some x) k) = s.closer := by
        funext i; simp only [upd, first_some]; split
        · subst_vars; exact hf.symm
        · rfl
      rw [hf] at ht'
      rw [hu] at ht' ⊢; constructor <;> dsimp only <;> grind [upd]
  | send k t w l hp =>
    have b3 := fun e n => h3 e k n
    have b4 := fun e n => h4 e k n
    have b7 := fun e => h7 e k
    have b8 := fun e => h8 e k
    rw [hp] at b3 b4 b7 b8
    simp only [has_sending, sends_sending] at b3 b4 b7 b8
    clear m6 m7 s1 s2 hM hC
    have key : ∀ e, s.tk e = t → s.wk e = w → Told { s with kpc := upd s.kpc k (.todo l), mail := upd2 s.mail w t (s.mail w t + 1) } e := by
      rintro e rfl rfl
      exact .inr (.inr (.inl (by simp [upd2])))
    constructor <;> dsimp only <;> grind [upd]
  | skip k t l hp =>
    have b3 := fun e n => h3 e k n
    have b4 := fun e n => h4 e k n
    have b7 := fun e => h7 e k
    have b8 := fun e => h8 e k
    rw [hp] at b3 b4 b7 b8
    simp only [has_sending, sends_sending] at b3 b4 b7 b8
    clear m6 m7 s1 s2 hM hC
    constructor <;> dsimp only <;> grind [upd]
  | leave k hp => constructor <;> dsimp only <;> grind [upd]
  | cutStop k hp => constructor <;> dsimp only <;> grind [upd]
  | _ => constructor <;> dsimp only <;> grind [upd]

end Tork.CancelRun

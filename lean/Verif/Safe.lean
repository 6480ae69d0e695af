import Verif.World
import Verif.DSLemmas
import Verif.LifecycleSpec
/-!
# A program logic for goroutines and its soundness

`Safe p T G post` says that every operation program `p` can perform, whatever the other goroutines do
in between, respects the database invariant and the step specification. `T` are the UUIDs drawn by
this goroutine and not yet used up, or received with the message that starts a job (start tokens).
`G` is ghost knowledge: the immutable part of every task ever created and, for every started
job, a lower bound of its position.
-/

namespace Tork
open Prog

/-- The immutable part of a task. -/
structure Static where
  jobID : Nat
  parentID : Nat
  position : Nat
  isPar : Bool
  isEach : Bool
  isSub : Bool
  var : String
  branches : Nat
  detached : Bool
  deriving DecidableEq

def Task.static (t : Task) : Static :=
  ⟨t.jobID, t.parentID, t.position, t.parallel.isSome, t.each.isSome, t.subJob.isSome,
   t.var, t.branches, t.detachedSub⟩

/-- A task with work of its own. -/
def Static.plain (s : Static) : Prop := s.isPar = false ∧ s.isEach = false ∧ s.isSub = false

structure Ghost where
  st : Nat → Option Static := fun _ => none
  pos : Nat → Option Nat := fun _ => none
  /-- the job's position has passed its last task -/
  past : Nat → Prop := fun _ => False
  /-- the counter of the composite task has reached its target -/
  full : Nat → Prop := fun _ => False
  /-- a sub-job of the task has completed -/
  subDone : Nat → Prop := fun _ => False
  /-- the parent task of the job -/
  jpar : Nat → Nat → Prop := fun _ _ => False
  /-- the task has been handed out: it is not CREATED any more -/
  rel : Nat → Prop := fun _ => False

structure Ghost.le (G G' : Ghost) : Prop where
  st : ∀ n s, G.st n = some s → G'.st n = some s
  pos : ∀ n p, G.pos n = some p → ∃ p', G'.pos n = some p' ∧ p ≤ p'
  past : ∀ n, G.past n → G'.past n
  full : ∀ n, G.full n → G'.full n
  subDone : ∀ n, G.subDone n → G'.subDone n
  jpar : ∀ n p, G.jpar n p → G'.jpar n p
  rel : ∀ n, G.rel n → G'.rel n

theorem Ghost.le.refl (G : Ghost) : G.le G :=
  ⟨fun _ _ h => h, fun _ p h => ⟨p, h, Nat.le_refl _⟩, fun _ h => h, fun _ h => h, fun _ h => h, fun _ _ h => h, fun _ h => h⟩
theorem Ghost.le.trans {a b c : Ghost} (h1 : a.le b) (h2 : b.le c) : a.le c :=
  ⟨fun n s h => h2.st n s (h1.st n s h), fun n p h => by
    obtain ⟨p', h', hl⟩ := h1.pos n p h
    obtain ⟨p'', h'', hl'⟩ := h2.pos n p' h'
    exact ⟨p'', h'', Nat.le_trans hl hl'⟩, fun n h => h2.past n (h1.past n h),
   fun n h => h2.full n (h1.full n h), fun n h => h2.subDone n (h1.subDone n h),
   fun n p h => h2.jpar n p (h1.jpar n p h), fun n h => h2.rel n (h1.rel n h)⟩

/-- The job has been started. -/
def Ghost.started (G : Ghost) (n : Nat) : Prop := ∃ p, G.pos n = some p
/-- The job has been started and its position is at least `q`. -/
def Ghost.atLeast (G : Ghost) (n q : Nat) : Prop := ∃ p, G.pos n = some p ∧ q ≤ p

theorem Ghost.started.mono {G G' : Ghost} {n : Nat} (h : G.started n) (hl : G.le G') : G'.started n := by
  obtain ⟨p, h⟩ := h; obtain ⟨p', h', _⟩ := hl.pos n p h; exact ⟨p', h'⟩
theorem Ghost.atLeast.mono {G G' : Ghost} {n q : Nat} (h : G.atLeast n q) (hl : G.le G') :
    G'.atLeast n q := by
  obtain ⟨p, h, hq⟩ := h; obtain ⟨p', h', hp⟩ := hl.pos n p h; exact ⟨p', h', Nat.le_trans hq hp⟩

/-- A task definition as submitted: nothing happened to it yet. -/
inductive Task.Fresh : Task → Prop
  | mk {t : Task} (retry : ∀ r, t.retry = some r → r.attempts = 0) (node : t.nodeID = 0)
      (parent : t.parentID = 0)
      (par : ∀ p, t.parallel = some p → p.completions = 0)
      (parT : ∀ p, t.parallel = some p → ∀ c ∈ p.tasks, Task.Fresh c)
      (ea : ∀ e, t.each = some e → e.completions = 0)
      (eaT : ∀ e, t.each = some e → Task.Fresh e.task)
      (subT : ∀ s, t.subJob = some s → ∀ c ∈ s.tasks, Task.Fresh c) : Task.Fresh t

/-- Sub-task definitions carried by a task are fresh. -/
structure Task.Nested (t : Task) : Prop where
  par : ∀ p, t.parallel = some p → ∀ c ∈ p.tasks, Task.Fresh c
  ea : ∀ e, t.each = some e → Task.Fresh e.task
  sub : ∀ s, t.subJob = some s → ∀ c ∈ s.tasks, Task.Fresh c

def Task.RetryOK (t : Task) : Prop := ∀ r, t.retry = some r → r.attempts ≤ r.limit

/-- Invariant of a task row. -/
structure TaskInv (G : Ghost) (t : Task) : Prop where
  st : G.st t.id = some t.static
  retry : t.RetryOK
  nested : t.Nested
  progress : 0 ≤ t.progress ∧ t.progress ≤ 100
  node : t.nodeID ≠ 0 → G.started t.jobID ∧ G.rel t.id
  zero : t.state = .created → t.count = 0

/-- The parent task of a sub-job belongs to a started job. -/
def ParentOK (G : Ghost) (parentID : Nat) : Prop :=
  parentID ≠ 0 → ∃ s, G.st parentID = some s ∧ G.started s.jobID ∧ s.isPar = false ∧ s.isEach = false ∧
    G.rel parentID

/-- A task may be recorded as COMPLETED: if it is composite, its counter has reached the target; if it stands
for an attached sub-job, a sub-job of it has completed. -/
structure MayComplete (G : Ghost) (n : Nat) (s : Static) : Prop where
  full : s.isPar = true ∨ s.isEach = true → G.full n
  sub : s.isPar = false → s.isEach = false → s.isSub = true → s.detached = false → G.subDone n

/-- Invariant of a job row. -/
structure JobInv (G : Ghost) (j : Job) : Prop where
  tasks : ∀ t ∈ j.tasks, t.Fresh
  parent : ParentOK G j.parentID
  pend : j.state = .pending → j.position = 0
  done : j.state = .completed → j.tasks.length < j.position
  began : j.state ≠ .pending → j.position ≠ 0

/-- Invariant of a ghost entry. -/
structure StaticInv (G : Ghost) (n : Nat) (s : Static) : Prop where
  nz : n ≠ 0
  self : s.parentID ≠ n
  parent : s.parentID ≠ 0 → ∃ sp, G.st s.parentID = some sp ∧ sp.jobID = s.jobID ∧ G.rel s.parentID
  pos : s.parentID = 0 → s.position ≤ 1 ∨ G.atLeast s.jobID s.position

/-- The database invariant. -/
structure Inv (G : Ghost) (ds : DS) : Prop where
  tasks : ∀ id t, ds.task? id = some t → TaskInv G t
  jobs : ∀ id j, ds.job? id = some j → JobInv G j
  pos : ∀ n p, G.pos n = some p → ∃ j, ds.job? n = some j ∧ j.state ≠ .pending ∧ p ≤ j.position
  past : ∀ n, G.past n → ∃ j, ds.job? n = some j ∧ j.state ≠ .pending ∧ j.tasks.length < j.position
  ghost : ∀ n s, G.st n = some s → StaticInv G n s
  jpar : ∀ n p, G.jpar n p → ∃ j, ds.job? n = some j ∧ j.parentID = p
  rel : ∀ n, G.rel n → ∃ t, ds.task? n = some t ∧ t.state ≠ .created
  nodes : ∀ n ∈ ds.nodes, isExclusiveQueue n.queue = true
  keysT : (ds.tasks.map (·.id)).Nodup
  keysJ : (ds.jobs.map (·.id)).Nodup

/-- Invariant of a task in a message (or held by a handler). -/
structure MsgTask (G : Ghost) (t : Task) : Prop where
  st : G.st t.id = some t.static
  started : G.started t.jobID
  retry : t.RetryOK
  nested : t.Nested
  rel : G.rel t.id

/-- Invariant of a job in a message (or held by a handler). -/
structure MsgJob (rok : Nat → Prop) (G : Ghost) (j : Job) : Prop where
  tasks : ∀ t ∈ j.tasks, t.Fresh
  parent : ParentOK G j.parentID
  restart : j.state = .restart → rok j.id ∧ G.atLeast j.id j.position
  notDone : j.state ≠ .completed

/-- What the queue of a task message says about the task. -/
structure QueueOK (G : Ghost) (q : String) (t : Task) : Prop where
  done : q = QUEUE_COMPLETED → t.state = .completed → MayComplete G t.id t.static
  work : isTaskQueue q = true ∨ q = QUEUE_REDELIVERIES → t.static.plain
  /-- only cancellations, sent to one worker, carry a count -/
  zero : isExclusiveQueue q = false → t.count = 0

/-- Message invariant. -/
def MsgOK (rok : Nat → Prop) (G : Ghost) : Msg → Prop
  | .task q t => MsgTask G t ∧ QueueOK G q t
  | .job j => MsgJob rok G j
  | .progress t => MsgTask G t ∧ t.count = 0
  | _ => True

theorem ParentOK.mono {G G' : Ghost} {n : Nat} (h : ParentOK G n) (hl : G.le G') : ParentOK G' n := by
  intro hn
  obtain ⟨s, h1, h2, h3, h4, h5⟩ := h hn
  exact ⟨s, hl.st _ _ h1, h2.mono hl, h3, h4, hl.rel _ h5⟩

theorem MayComplete.mono {G G' : Ghost} {n : Nat} {s : Static} (h : MayComplete G n s) (hl : G.le G') :
    MayComplete G' n s :=
  ⟨fun h1 => hl.full _ (h.full h1), fun h1 h2 h3 h4 => hl.subDone _ (h.sub h1 h2 h3 h4)⟩

theorem MayComplete.plain {G : Ghost} {n : Nat} {s : Static} (h : s.plain) : MayComplete G n s :=
  ⟨fun h1 => by rcases h1 with h1 | h1 <;> simp [h.1, h.2.1] at h1, fun _ _ h3 => by simp [h.2.2] at h3⟩

theorem QueueOK.mono {G G' : Ghost} {q : String} {t : Task} (h : QueueOK G q t) (hl : G.le G') :
    QueueOK G' q t :=
  ⟨fun h1 h2 => (h.done h1 h2).mono hl, h.work, h.zero⟩

theorem TaskInv.mono {G G' : Ghost} {t : Task} (h : TaskInv G t) (hl : G.le G') : TaskInv G' t :=
  ⟨hl.st _ _ h.st, h.retry, h.nested, h.progress, fun hn => ⟨(h.node hn).1.mono hl, hl.rel _ (h.node hn).2⟩, h.zero⟩

theorem JobInv.mono {G G' : Ghost} {j : Job} (h : JobInv G j) (hl : G.le G') : JobInv G' j :=
  ⟨h.tasks, h.parent.mono hl, h.pend, h.done, h.began⟩

theorem StaticInv.mono {G G' : Ghost} {n : Nat} {s : Static} (h : StaticInv G n s) (hl : G.le G') :
    StaticInv G' n s :=
  ⟨h.nz, h.self, fun hp => by obtain ⟨sp, h1, h2, h3⟩ := h.parent hp; exact ⟨sp, hl.st _ _ h1, h2, hl.rel _ h3⟩,
   fun hp => (h.pos hp).imp id fun h => h.mono hl⟩

theorem MsgTask.mono {G G' : Ghost} {t : Task} (h : MsgTask G t) (hl : G.le G') : MsgTask G' t :=
  ⟨hl.st _ _ h.st, h.started.mono hl, h.retry, h.nested, hl.rel _ h.rel⟩

theorem MsgJob.mono {rok : Nat → Prop} {G G' : Ghost} {j : Job} (h : MsgJob rok G j) (hl : G.le G') :
    MsgJob rok G' j :=
  ⟨h.tasks, h.parent.mono hl, fun hs => ⟨(h.restart hs).1, (h.restart hs).2.mono hl⟩, h.notDone⟩

theorem MsgOK.mono {rok : Nat → Prop} {G G' : Ghost} {m : Msg} (h : MsgOK rok G m) (hl : G.le G') :
    MsgOK rok G' m := by
  cases m with
  | task q t => exact ⟨MsgTask.mono h.1 hl, h.2.mono hl⟩
  | job j => exact MsgJob.mono h hl
  | progress t => exact ⟨MsgTask.mono h.1 hl, h.2⟩
  | _ => trivial

/-- The job is PENDING if it exists, and no task was created with this id. -/
structure Unused (G : Ghost) (ds : DS) (n : Nat) : Prop where
  pend : ∀ j, ds.job? n = some j → j.state = .pending
  fresh : G.st n = none

/-- How a job row may change; `tok`: by the owner of its start token. -/
structure JobChange (tok rok : Prop) (a b : Job) : Prop where
  keep : SameJob a b
  state : b.state = a.state ∨ (a.state ≠ .pending ∧ JobEdge rok a.state b.state) ∨
    (tok ∧ b.state = .scheduled ∧ b.position = 1)

/-- The effect of an operation by a goroutine owning `T`. -/
structure Eff (rok : Nat → Prop) (T : List Nat) (ds ds' : DS) : Prop where
  tasks : ∀ id a, ds.task? id = some a → ∃ b, ds'.task? id = some b ∧ SameTask a b ∧
    (b.state = a.state ∨ TaskEdge a.composite a.state b.state)
  newTasks : ∀ id b, ds.task? id = none → ds'.task? id = some b →
    (b.state = .pending ∨ b.state = .created ∨ b.state = .failed) ∧ b.count = 0
  jobs : ∀ id a, ds.job? id = some a → ∃ b, ds'.job? id = some b ∧ JobChange (id ∈ T) (rok id) a b
  newJobs : ∀ id b, ds.job? id = none → ds'.job? id = some b →
    id ∈ T ∧ b.state = .pending ∧ b.position = 0 ∧ b.context.tasks = []
  advance : ∀ id a b, ds.job? id = some a → ds'.job? id = some b → b.position ≠ a.position →
    (id ∈ T ∧ b.state = .scheduled ∧ b.position = 1 ∧ b.context = a.context) ∨
    (a.state ≠ .pending ∧ b.position = a.position + 1 ∧ ∃ tid c c', ds.task? tid = some c ∧
      ds'.task? tid = some c' ∧ c.jobID = id ∧ c.parentID = 0 ∧ Finishes c c' ∧
      (∀ x, x ≠ tid → ds'.task? x = ds.task? x) ∧
      ∃ r, c'.result = sanitizeString r ∧ b.context = recordIn a.context c.var r)
  counted : ∀ id a b, ds.task? id = some a → ds'.task? id = some b → b.count ≠ a.count →
    b.count = a.count + 1 ∧ ∃ tid c c', ds.task? tid = some c ∧ ds'.task? tid = some c' ∧
      c.parentID = id ∧ Finishes c c'
  done : ∀ id a b, ds.task? id = some a → ds'.task? id = some b → a.state ≠ .completed →
    b.state = .completed →
    (a.parentID = 0 → ∃ j j', ds.job? a.jobID = some j ∧ ds'.job? a.jobID = some j' ∧
      j.state ≠ .pending ∧ j'.position = j.position + 1) ∧
    (a.parentID ≠ 0 → ∃ p p', ds.task? a.parentID = some p ∧ ds'.task? a.parentID = some p' ∧
      p'.count = p.count + 1)
  context : ∀ id a b, ds.job? id = some a → ds'.job? id = some b → b.context ≠ a.context →
    ∃ tid c c' r, ds.task? tid = some c ∧ ds'.task? tid = some c' ∧ c.jobID = id ∧ Finishes c c' ∧
      c.var ≠ "" ∧ r ≠ "" ∧ c'.result = sanitizeString r ∧
      b.context = { a.context with tasks := mset a.context.tasks c.var r } ∧
      (c.parentID = 0 → b.position = a.position + 1)
  recorded : ∀ id a b, ds.task? id = some a → ds'.task? id = some b → a.state ≠ .completed →
    b.state = .completed → ∃ r, b.result = sanitizeString r ∧ (r ≠ "" → a.var ≠ "" →
      ∃ j j', ds.job? a.jobID = some j ∧ ds'.job? a.jobID = some j' ∧
        j'.context = { j.context with tasks := mset j.context.tasks a.var r })

/-- The counter of the row has reached its target. -/
def Task.Full (t : Task) : Prop :=
  (∀ p, t.parallel = some p → p.tasks.length ≤ p.completions) ∧
  (t.parallel = none → ∀ e, t.each = some e → e.size ≤ e.completions)

/-- What is newly known in `G'` is visible in the database. -/
structure Seen (G G' : Ghost) (ds' : DS) : Prop where
  full : ∀ n, G'.full n → G.full n ∨ ∃ t, ds'.task? n = some t ∧ t.Full
  sub : ∀ n, G'.subDone n → G.subDone n ∨ ∃ id j, ds'.job? id = some j ∧ j.parentID = n ∧ j.state = .completed

/-- Only tasks that may are recorded as COMPLETED. -/
def Joins (G : Ghost) (ds ds' : DS) : Prop :=
  ∀ id a b, ds.task? id = some a → ds'.task? id = some b → a.state ≠ .completed → b.state = .completed →
    MayComplete G id a.static

theorem Seen.refl (G : Ghost) (ds : DS) : Seen G G ds := ⟨fun _ => .inl, fun _ => .inl⟩

theorem isTaskQueue_not_exclusive {q : String} (h : isTaskQueue q = true) : isExclusiveQueue q = false := by
  cases hq : isExclusiveQueue q with
  | false => rfl
  | true => simp [isTaskQueue, hq] at h

/-- Everything an operation must establish, in ghost state `G1`, from `ds`. -/
structure OpEff (rok : Nat → Prop) (T T' : List Nat) (G1 G2 : Ghost) (ds ds' : DS) (ms : List Msg) :
    Prop where
  le : G1.le G2
  own : ∀ n s, G1.st n = none → G2.st n = some s → n ∈ T
  inv : Inv G2 ds'
  eff : Eff rok T ds ds'
  msgs : ∀ m ∈ ms, MsgOK rok G2 m ∧ m.startsJob = false
  unused : ∀ n ∈ T', Unused G2 ds' n
  seen : Seen G1 G2 ds'
  joins : Joins G1 ds ds'

/-- The tokens left after publishing a message. -/
def Msg.tokensAfter (m : Msg) (T : List Nat) : List Nat :=
  match m with
  | .job j => if j.state = .pending then T.erase j.id else T
  | _ => T

def Safe (rok : Nat → Prop) {α : Type} : Prog α → List Nat → Ghost → (List Nat → Ghost → α → Prop) → Prop
  | .ret a, T, G, post => ∀ G', G.le G' → post T G' a
  | .db op k, T, G, post => ∃ T' : List Nat, T'.Sublist T ∧
      (∀ e, Safe rok (k (.error e)) T' G post) ∧
      (∀ G1 ds, G.le G1 → Inv G1 ds → (∀ n ∈ T, Unused G1 ds n) →
        (∃ G2, OpEff rok T T' G1 G2 ds (op.run ds).2.1 (op.run ds).2.2 ∧
          ∀ g, (op.run ds).1 = .ok g → Safe rok (k (.ok g)) T' G2 post) ∧
        ∀ x ∈ op.partials ds, ∃ G2, OpEff rok T T' G1 G2 ds x.1 x.2)
  | .pub m k, T, G, post => (∀ j, m = .job j → j.state = .pending → j.id ∈ T) ∧
      (∀ G1, G.le G1 → MsgOK rok G1 m) ∧ ∀ r, Safe rok (k r) (m.tokensAfter T) G post
  | .nondet k, T, G, post => ∀ n, Safe rok (k n) T G post
  | .uuid k, T, G, post => ∀ n, n ≠ 0 → n ∉ T → Safe rok (k n) (n :: T) G post
  | .panic _, _, _, _ => True

/-- Knowledge only helps. -/
theorem Safe.le {rok : Nat → Prop} {α : Type} {p : Prog α} {T : List Nat} {G G' : Ghost}
    {post : List Nat → Ghost → α → Prop} (h : Safe rok p T G post) (hl : G.le G') :
    Safe rok p T G' post := by
  induction p generalizing T G G' with
  | ret a => exact fun G'' h' => h G'' (hl.trans h')
  | db op k ih =>
    obtain ⟨T', h1, h2, h3⟩ := h
    exact ⟨T', h1, fun e => ih _ (h2 e) hl, fun G1 ds hg => h3 G1 ds (hl.trans hg)⟩
  | pub m k ih => exact ⟨h.1, fun G1 hg => h.2.1 G1 (hl.trans hg), fun r => ih _ (h.2.2 r) hl⟩
  | nondet k ih => exact fun n => ih _ (h n) hl
  | uuid k ih => exact fun n hn hT => ih _ (h n hn hT) hl
  | panic s => trivial

theorem Safe.mono {rok : Nat → Prop} {α : Type} {p : Prog α} {T : List Nat} {G : Ghost}
    {post post' : List Nat → Ghost → α → Prop}
    (h : Safe rok p T G post) (hp : ∀ T G a, post T G a → post' T G a) : Safe rok p T G post' := by
  induction p generalizing T G with
  | ret a => exact fun G' h' => hp _ _ _ (h G' h')
  | db op k ih =>
    obtain ⟨T', h1, h2, h3⟩ := h
    refine ⟨T', h1, fun e => ih _ (h2 e), fun G1 ds hg hi hu => ?_⟩
    obtain ⟨⟨G2, h4, h5⟩, h6⟩ := h3 G1 ds hg hi hu
    exact ⟨⟨G2, h4, fun g hg => ih _ (h5 g hg)⟩, h6⟩
  | pub m k ih => exact ⟨h.1, h.2.1, fun r => ih _ (h.2.2 r)⟩
  | nondet k ih => exact fun n => ih _ (h n)
  | uuid k ih => exact fun n hn hT => ih _ (h n hn hT)
  | panic s => trivial

theorem Safe.bind {rok : Nat → Prop} {α β : Type} {p : Prog α} {f : α → Prog β} {T : List Nat} {G : Ghost}
    {post : List Nat → Ghost → β → Prop}
    (h : Safe rok p T G fun T' G' a => Safe rok (f a) T' G' post) : Safe rok (p.bind f) T G post := by
  induction p generalizing T G with
  | ret a => exact h G (Ghost.le.refl G)
  | db op k ih =>
    obtain ⟨T', h1, h2, h3⟩ := h
    refine ⟨T', h1, fun e => ih _ (h2 e), fun G1 ds hg hi hu => ?_⟩
    obtain ⟨⟨G2, h4, h5⟩, h6⟩ := h3 G1 ds hg hi hu
    exact ⟨⟨G2, h4, fun g hg => ih _ (h5 g hg)⟩, h6⟩
  | pub m k ih => exact ⟨h.1, h.2.1, fun r => ih _ (h.2.2 r)⟩
  | nondet k ih => exact fun n => ih _ (h n)
  | uuid k ih => exact fun n hn hT => ih _ (h n hn hT)
  | panic s => trivial

/-- The postcondition is established in some larger ghost state. -/
theorem Safe.le_post {rok : Nat → Prop} {α : Type} {p : Prog α} {T : List Nat} {G : Ghost}
    {post post' : List Nat → Ghost → α → Prop}
    (h : Safe rok p T G post) (hp : ∀ T G' a, G.le G' → post T G' a → post' T G' a) : Safe rok p T G post' := by
  induction p generalizing T G with
  | ret a => exact fun G' h' => hp _ _ _ h' (h G' h')
  | db op k ih =>
    obtain ⟨T', h1, h2, h3⟩ := h
    refine ⟨T', h1, fun e => ih _ (h2 e) hp, fun G1 ds hg hi hu => ?_⟩
    obtain ⟨⟨G2, h4, h5⟩, h6⟩ := h3 G1 ds hg hi hu
    exact ⟨⟨G2, h4, fun g hgg => ih _ (h5 g hgg) fun T G' a hl => hp T G' a ((hg.trans h4.le).trans hl)⟩, h6⟩
  | pub m k ih => exact ⟨h.1, h.2.1, fun r => ih _ (h.2.2 r) hp⟩
  | nondet k ih => exact fun n => ih _ (h n) hp
  | uuid k ih => exact fun n hn hT => ih _ (h n hn hT) hp
  | panic s => trivial

/-! ## Soundness -/

/-- Two lists of the same length related element by element. -/
inductive All2 {α : Type _} {β : Type _} (R : α → β → Prop) : List α → List β → Prop
  | nil : All2 R [] []
  | cons {a : α} {b : β} {l : List α} {m : List β} : R a b → All2 R l m → All2 R (a :: l) (b :: m)

/-- Ids of the jobs with an undelivered start message. -/
def startTokens (ms : List Msg) : List Nat :=
  ms.filterMap fun m => match m with
    | .job j => if j.state = .pending then some j.id else none
    | _ => none

theorem startTokens_append (a b : List Msg) : startTokens (a ++ b) = startTokens a ++ startTokens b := by
  simp [startTokens]

theorem startTokens_nostart {ms : List Msg} (h : ∀ m ∈ ms, m.startsJob = false) : startTokens ms = [] := by
  rw [startTokens, List.filterMap_eq_nil_iff]
  intro m hm
  have := h m hm
  cases m with
  | job j => simp [Msg.startsJob] at this; simp [this]
  | _ => rfl

/-- Tokens of a single message. -/
def Msg.tokens (m : Msg) : List Nat := startTokens [m]

abbrev SafeT (rok : Nat → Prop) (G : Ghost) (p : Prog Unit) (T : List Nat) : Prop :=
  Safe rok p T G fun _ _ _ => True

/-- The invariant of the whole system; `toks` assigns to every goroutine the tokens it owns. -/
structure WInv (rok : Nat → Prop) (w : World) (toks : List (List Nat)) (G : Ghost) : Prop where
  db : Inv G w.ds
  msgs : ∀ m ∈ w.msgs, MsgOK rok G m
  threads : All2 (SafeT rok G) w.threads toks
  nodup : (toks.flatten ++ startTokens w.msgs).Nodup
  pend : ∀ n ∈ toks.flatten ++ startTokens w.msgs, n < w.next ∧ Unused G w.ds n
  fresh : ∀ id j, w.ds.job? id = some j → id < w.next
  freshT : ∀ n s, G.st n = some s → n < w.next
  next : w.next ≠ 0

theorem all2_split {α β : Type _} {R : α → β → Prop} {a : List α} {p : α} {b : List α} {l : List β}
    (h : All2 R (a ++ p :: b) l) :
    ∃ la q lb, l = la ++ q :: lb ∧ All2 R a la ∧ R p q ∧ All2 R b lb := by
  induction a generalizing l with
  | nil => cases h with | cons h1 h2 => exact ⟨[], _, _, rfl, .nil, h1, h2⟩
  | cons x a ih =>
    cases h with
    | cons h1 h2 =>
      obtain ⟨la, q, lb, rfl, h3, h4, h5⟩ := ih h2
      exact ⟨_ :: la, q, lb, rfl, .cons h1 h3, h4, h5⟩

theorem all2_append {α β : Type _} {R : α → β → Prop} {a b : List α} {la lb : List β}
    (h1 : All2 R a la) (h2 : All2 R b lb) : All2 R (a ++ b) (la ++ lb) := by
  induction h1 with
  | nil => exact h2
  | cons h _ ih => exact .cons h ih

theorem all2_imp {α β : Type _} {R S : α → β → Prop} (hi : ∀ a b, R a b → S a b) {a : List α} {la : List β}
    (h1 : All2 R a la) : All2 S a la := by
  induction h1 with
  | nil => exact .nil
  | cons h _ ih => exact .cons (hi _ _ h) ih

/-- Every program the environment can start is safe. -/
structure EnvSafe (E : Env) : Prop where
  deliver : ∀ m p G, MsgOK E.restartOK G m → coordinatorHandler E.C E.fuel m = some p →
    Safe E.restartOK p m.tokens G fun _ _ _ => True
  work : ∀ t r G, MsgTask G t → t.static.plain → t.count = 0 → E.workerOK r →
    Safe E.restartOK (doHandleTask E.C r t) [] G fun _ _ _ => True
  spawn : ∀ p G, Spawn E p → Safe E.restartOK p [] G fun _ _ _ => True

theorem Safe.discard {rok : Nat → Prop} {α : Type} {p : Prog α} {T : List Nat} {G : Ghost}
    (h : Safe rok p T G fun _ _ _ => True) : Safe rok p.discard T G fun _ _ _ => True :=
  Safe.bind (h.mono fun _ _ _ _ _ _ => trivial)

theorem SameTask.refl (a : Task) : SameTask a a := ⟨by cases a; rfl, rfl, rfl, rfl, rfl, rfl⟩
theorem SameJob.refl (a : Job) : SameJob a a := rfl

theorem Eff.refl (rok : Nat → Prop) (T : List Nat) {ds ds' : DS} (ht : ∀ id, ds'.task? id = ds.task? id)
    (hj : ∀ id, ds'.job? id = ds.job? id) : Eff rok T ds ds' where
  tasks id a h := ⟨a, by rw [ht, h], SameTask.refl a, .inl rfl⟩
  newTasks id b h1 h2 := by rw [ht, h1] at h2; simp at h2
  jobs id a h := ⟨a, by rw [hj, h], SameJob.refl a, .inl rfl⟩
  newJobs id b h1 h2 := by rw [hj, h1] at h2; simp at h2
  advance id a b h1 h2 h3 := by rw [hj, h1] at h2; cases h2; exact absurd rfl h3
  counted id a b h1 h2 h3 := by rw [ht, h1] at h2; cases h2; exact absurd rfl h3
  done id a b h1 h2 h3 h4 := by rw [ht, h1] at h2; cases h2; exact absurd h4 h3
  context id a b h1 h2 h3 := by rw [hj, h1] at h2; cases h2; exact absurd rfl h3
  recorded id a b h1 h2 h3 h4 := by rw [ht, h1] at h2; cases h2; exact absurd h4 h3

/-- What the effect of one goroutine means for the observer. -/
theorem Eff.toStep {rok : Nat → Prop} {T : List Nat} {G : Ghost} {ds ds' : DS} (h : Eff rok T ds ds')
    (hi : Inv G ds) (hu : ∀ n ∈ T, Unused G ds n) : DsStep rok ds ds' where
  tasks := h.tasks
  newTasks := h.newTasks
  jobs id a ha := by
    obtain ⟨b, hb, hk, hs⟩ := h.jobs id a ha
    refine ⟨b, hb, hk, ?_⟩
    rcases hs with h1 | h1 | h1
    · exact .inl h1
    · exact .inr h1.2
    · rw [(hu id h1.1).pend a ha, h1.2.1]; exact .inr .start
  newJobs id b h1 h2 := (h.newJobs id b h1 h2).2
  advance id a b h1 h2 h3 := by
    rcases h.advance id a b h1 h2 h3 with h4 | h4
    · have := (hu id h4.1).pend a h1
      exact .inl ⟨this, (hi.jobs id a h1).pend this, h4.2⟩
    · exact .inr h4
  counted := h.counted
  done := h.done
  context := h.context
  recorded := h.recorded

theorem DsStep.refl (rok : Nat → Prop) {ds ds' : DS} (ht : ∀ id, ds'.task? id = ds.task? id)
    (hj : ∀ id, ds'.job? id = ds.job? id) : DsStep rok ds ds' where
  tasks id a h := ⟨a, by rw [ht, h], SameTask.refl a, .inl rfl⟩
  newTasks id b h1 h2 := by rw [ht, h1] at h2; simp at h2
  jobs id a h := ⟨a, by rw [hj, h], SameJob.refl a, .inl rfl⟩
  newJobs id b h1 h2 := by rw [hj, h1] at h2; simp at h2
  advance id a b h1 h2 h3 := by rw [hj, h1] at h2; cases h2; exact absurd rfl h3
  counted id a b h1 h2 h3 := by rw [ht, h1] at h2; cases h2; exact absurd rfl h3
  done id a b h1 h2 h3 h4 := by rw [ht, h1] at h2; cases h2; exact absurd h4 h3
  context id a b h1 h2 h3 := by rw [hj, h1] at h2; cases h2; exact absurd rfl h3
  recorded id a b h1 h2 h3 h4 := by rw [ht, h1] at h2; cases h2; exact absurd h4 h3

/-- Jobs whose token is owned elsewhere stay unused. -/
theorem OpEff.unused_other {rok : Nat → Prop} {T T' : List Nat} {G1 G2 : Ghost} {ds ds' : DS}
    {ms : List Msg} (h : OpEff rok T T' G1 G2 ds ds' ms) {n : Nat} (hn : n ∉ T)
    (hp : Unused G1 ds n) : Unused G2 ds' n := by
  constructor
  · intro b hb
    cases ha : ds.job? n with
    | none => exact absurd (h.eff.newJobs n b ha hb).1 hn
    | some a =>
      obtain ⟨b', hb', _, hs⟩ := h.eff.jobs n a ha
      rw [hb] at hb'; cases hb'
      have hpa := hp.pend a ha
      rcases hs with h1 | h1 | h1
      · rw [h1, hpa]
      · exact absurd hpa h1.1
      · exact absurd h1.1 hn
  · cases hg : G2.st n with
    | none => rfl
    | some s => exact absurd (h.own n s hp.fresh hg) hn

theorem OpEff.refl {rok : Nat → Prop} {T T' : List Nat} {G : Ghost} {ds : DS} (hi : Inv G ds)
    (hT : T'.Sublist T) (hu : ∀ n ∈ T, Unused G ds n) : OpEff rok T T' G G ds ds [] :=
  ⟨Ghost.le.refl G, fun n s h1 h2 => by rw [h1] at h2; simp at h2, hi,
   Eff.refl rok T (fun _ => rfl) (fun _ => rfl), by simp, fun n hn => hu n (hT.subset hn), .refl _ _,
   fun id a b h1 h2 h3 h4 => by rw [h1] at h2; cases h2; exact absurd h4 h3⟩

/-- Combine the effect of the goroutine owning `T` with the rest of the world. -/
theorem winv_eff {rok : Nat → Prop} {w : World} {la lb : List (List Nat)} {T T' : List Nat} {G G2 : Ghost}
    (hi : WInv rok w (la ++ T :: lb) G) {ds' : DS} {ms : List Msg}
    (he : OpEff rok T T' G G2 w.ds ds' ms)
    (hT' : T'.Sublist T) {ths : List (Prog Unit)}
    (hth : All2 (SafeT rok G2) ths (la ++ T' :: lb)) :
    WInv rok { ds := ds', msgs := w.msgs ++ ms, threads := ths, next := w.next } (la ++ T' :: lb) G2 ∧
    DsStep rok w.ds ds' := by
  have hst : startTokens ms = [] := startTokens_nostart fun m hm => (he.msgs m hm).2
  have hsub : ((la ++ T' :: lb).flatten ++ startTokens (w.msgs ++ ms)).Sublist
      ((la ++ T :: lb).flatten ++ startTokens w.msgs) := by
    rw [startTokens_append, hst, List.append_nil]
    apply List.Sublist.append_right
    simp only [List.flatten_append, List.flatten_cons]
    exact List.Sublist.append_left (List.Sublist.append_right hT' _) _
  have hpT : ∀ n ∈ T, Unused G w.ds n := fun n hn => (hi.pend n (by simp [hn])).2
  have hlt : ∀ n ∈ T, n < w.next := fun n hn => (hi.pend n (by simp [hn])).1
  have hdisj : ∀ n ∈ (la ++ T' :: lb).flatten ++ startTokens (w.msgs ++ ms), n ∉ T' → n ∉ T := by
    intro n hn hnT' hnT
    rw [startTokens_append, hst, List.append_nil] at hn
    simp only [List.flatten_append, List.flatten_cons, List.mem_append] at hn
    have hnd := hi.nodup
    simp only [List.flatten_append, List.flatten_cons, List.append_assoc] at hnd
    rw [List.nodup_append] at hnd
    obtain ⟨_, hnd2, hd1⟩ := hnd
    rw [List.nodup_append] at hnd2
    obtain ⟨_, _, hd2⟩ := hnd2
    rcases hn with (h | h | h) | h
    · exact hd1 n h n (by simp [hnT]) rfl
    · exact hnT' h
    · exact hd2 n hnT n (by simp [h]) rfl
    · exact hd2 n hnT n (by simp [h]) rfl
  refine ⟨⟨he.inv, ?_, hth, hsub.nodup hi.nodup, ?_, ?_, ?_, hi.next⟩, he.eff.toStep hi.db hpT⟩
  · intro m hm
    rcases List.mem_append.1 hm with h | h
    · exact (hi.msgs m h).mono he.le
    · exact (he.msgs m h).1
  · intro n hn
    have hold := hi.pend n (hsub.subset hn)
    refine ⟨hold.1, ?_⟩
    by_cases hnT' : n ∈ T'
    · exact he.unused n hnT'
    · exact he.unused_other (hdisj n hn hnT') hold.2
  · intro id j hj
    cases hold : w.ds.job? id with
    | some a => exact hi.fresh id a hold
    | none => exact hlt _ (he.eff.newJobs _ _ hold hj).1
  · intro n s hn
    cases hold : G.st n with
    | some s' => exact hi.freshT n s' hold
    | none => exact hlt _ (he.own n s hold hn)

/-- One step preserves the invariant and respects the specification. -/
theorem step_sound {E : Env} (hE : EnvSafe E) {w w' : World} {toks : List (List Nat)} {G : Ghost}
    (hi : WInv E.restartOK w toks G) (hs : Step E w w') :
    (∃ toks' G', WInv E.restartOK w' toks' G' ∧ G.le G' ∧ Seen G G' w'.ds) ∧
    DsStep E.restartOK w.ds w'.ds ∧ Joins G w.ds w'.ds := by
  have hid : DsStep E.restartOK w.ds w.ds ∧ Joins G w.ds w.ds := ⟨.refl _ (fun _ => rfl) (fun _ => rfl),
    fun id a b h1 h2 h3 h4 => by rw [h1] at h2; cases h2; exact absurd h4 h3⟩
  have same : ∀ {w' : World} {toks' : List (List Nat)}, WInv E.restartOK w' toks' G →
      ∃ toks' G', WInv E.restartOK w' toks' G' ∧ G.le G' ∧ Seen G G' w'.ds :=
    fun h => ⟨_, _, h, .refl G, .refl _ _⟩
  cases hs with
  | op a b p p' ds' ms n' ht hp =>
    have hth := hi.threads
    rw [ht] at hth
    obtain ⟨la, T, lb, rfl, h1, h2, h3⟩ := all2_split hth
    have hpT : ∀ n ∈ T, Unused G w.ds n := fun n hn => (hi.pend n (by simp [hn])).2
    have up : ∀ {G2 : Ghost}, G.le G2 → ∀ {p : Prog Unit} {T' : List Nat}, SafeT E.restartOK G2 p T' →
        All2 (SafeT E.restartOK G2) (a ++ p :: b) (la ++ T' :: lb) := fun hl _ _ hs =>
      all2_append (all2_imp (fun _ _ h => Safe.le h hl) h1)
        (.cons hs (all2_imp (fun _ _ h => Safe.le h hl) h3))
    cases hp with
    | dbOk op k =>
      obtain ⟨T', hs1, hs2, hs3⟩ := h2
      obtain ⟨⟨G2, he, hg⟩, _⟩ := hs3 G w.ds (.refl G) hi.db hpT
      have hk : SafeT E.restartOK G2 (k (op.run w.ds).1) T' := by
        cases hr : (op.run w.ds).1 with
        | error e => exact Safe.le (hs2 e) he.le
        | ok g => exact hg g hr
      have := winv_eff hi he hs1 (up he.le hk)
      exact ⟨⟨_, _, this.1, he.le, he.seen⟩, this.2, he.joins⟩
    | dbFail op k _ _ e =>
      obtain ⟨T', hs1, hs2, hs3⟩ := h2
      have := winv_eff hi (OpEff.refl hi.db hs1 hpT) hs1 (up (.refl G) (hs2 e))
      exact ⟨same this.1, hid⟩
    | dbLost op k _ _ e =>
      obtain ⟨T', hs1, hs2, hs3⟩ := h2
      obtain ⟨⟨G2, he, hg⟩, _⟩ := hs3 G w.ds (.refl G) hi.db hpT
      have := winv_eff hi he hs1 (up he.le (Safe.le (hs2 e) he.le))
      exact ⟨⟨_, _, this.1, he.le, he.seen⟩, this.2, he.joins⟩
    | dbPartial op k _ _ e x hx =>
      obtain ⟨T', hs1, hs2, hs3⟩ := h2
      obtain ⟨G2, he⟩ := (hs3 G w.ds (.refl G) hi.db hpT).2 x hx
      have := winv_eff hi he hs1 (up he.le (Safe.le (hs2 e) he.le))
      exact ⟨⟨_, _, this.1, he.le, he.seen⟩, this.2, he.joins⟩
    | pubOk m k | pubLost m k _ _ e =>
      obtain ⟨hj, hq, hk⟩ := h2
      refine ⟨same (toks' := la ++ m.tokensAfter T :: lb) ⟨hi.db, ?_, up (.refl G) (hk _), ?_, ?_,
        hi.fresh, hi.freshT, hi.next⟩, hid⟩
      · intro x hx
        simp at hx
        rcases hx with hx | rfl
        · exact hi.msgs x hx
        · exact hq G (.refl G)
      all_goals
        have hperm : ((la ++ m.tokensAfter T :: lb).flatten ++ startTokens (w.msgs ++ [m])).Perm
            ((la ++ T :: lb).flatten ++ startTokens w.msgs) := by
          rw [startTokens_append]
          cases m with
          | job j =>
            by_cases hjp : j.state = .pending
            · have hmem := hj j rfl hjp
              have h1 : (Msg.job j).tokensAfter T = T.erase j.id := by simp [Msg.tokensAfter, hjp]
              have h2 : startTokens [Msg.job j] = [j.id] := by simp [startTokens, hjp]
              rw [h1, h2]
              simp only [List.flatten_append, List.flatten_cons, List.append_assoc]
              apply List.Perm.append_left
              have e1 : (T.erase j.id ++ (lb.flatten ++ (startTokens w.msgs ++ [j.id]))).Perm
                  (T.erase j.id ++ (j.id :: (lb.flatten ++ startTokens w.msgs))) := by
                apply List.Perm.append_left
                rw [← List.append_assoc]
                exact List.perm_append_singleton _ _
              refine e1.trans ?_
              refine List.perm_middle.trans ?_
              rw [← List.cons_append]
              exact (List.perm_cons_erase hmem).symm.append_right _
            · have h1 : (Msg.job j).tokensAfter T = T := by simp [Msg.tokensAfter, hjp]
              have h2 : startTokens [Msg.job j] = [] := by simp [startTokens, hjp]
              rw [h1, h2, List.append_nil]
          | _ => simp [Msg.tokensAfter, startTokens]
      · exact hperm.nodup_iff.2 hi.nodup
      · intro n hn; exact hi.pend n (hperm.mem_iff.1 hn)
    | pubFail m k _ _ e =>
      obtain ⟨hj, hq, hk⟩ := h2
      have hsub : (m.tokensAfter T).Sublist T := by
        unfold Msg.tokensAfter
        split
        · split
          · exact List.erase_sublist
          · exact List.Sublist.refl _
        · exact List.Sublist.refl _
      have := winv_eff hi (OpEff.refl hi.db hsub hpT) hsub (up (.refl G) (hk (.error e)))
      exact ⟨same this.1, hid⟩
    | nondet k _ _ x =>
      have := winv_eff hi (OpEff.refl hi.db (List.Sublist.refl T) hpT) (List.Sublist.refl T)
        (up (.refl G) (h2 x))
      exact ⟨same this.1, hid⟩
    | uuid k =>
      have hfr : w.next ∉ (la ++ T :: lb).flatten ++ startTokens w.msgs := by
        intro hc; exact absurd (hi.pend _ hc).1 (Nat.lt_irrefl _)
      have hperm : ((la ++ (w.next :: T) :: lb).flatten ++ startTokens (w.msgs ++ [])).Perm
          (w.next :: ((la ++ T :: lb).flatten ++ startTokens w.msgs)) := by
        simp only [List.append_nil, List.flatten_append, List.flatten_cons, List.append_assoc,
          List.cons_append]
        exact List.perm_middle
      refine ⟨same (toks' := la ++ (w.next :: T) :: lb) ⟨hi.db, ?_, up (.refl G) (h2 w.next hi.next
          fun hc => hfr (by simp [hc])),
        ?_, ?_, ?_, ?_, ?_⟩, hid⟩
      · intro x hx; simp at hx; exact hi.msgs x hx
      · rw [hperm.nodup_iff]; exact List.nodup_cons.2 ⟨hfr, hi.nodup⟩
      · intro n hn
        have hn := hperm.mem_iff.1 hn
        rcases List.mem_cons.1 hn with rfl | hn
        · refine ⟨Nat.lt_succ_self _, ?_, ?_⟩
          · intro j hj
            exact absurd (hi.fresh _ j hj) (Nat.lt_irrefl _)
          · cases hg : G.st w.next with
            | none => rfl
            | some s => exact absurd (hi.freshT _ s hg) (Nat.lt_irrefl _)
        · exact ⟨Nat.lt_succ_of_lt (hi.pend n hn).1, (hi.pend n hn).2⟩
      · intro id j hj; exact Nat.lt_succ_of_lt (hi.fresh id j hj)
      · intro n s hn; exact Nat.lt_succ_of_lt (hi.freshT n s hn)
      · exact Nat.succ_ne_zero _
  | crash a b p ht =>
    have hth := hi.threads
    rw [ht] at hth
    obtain ⟨la, T, lb, rfl, h1, h2, h3⟩ := all2_split hth
    have hsub : ((la ++ lb).flatten ++ startTokens w.msgs).Sublist
        ((la ++ T :: lb).flatten ++ startTokens w.msgs) := by
      simp only [List.flatten_append, List.flatten_cons, List.append_assoc]
      exact List.Sublist.append_left (List.sublist_append_right _ _) _
    exact ⟨same (toks' := la ++ lb) ⟨hi.db, hi.msgs, all2_append h1 h3, hsub.nodup hi.nodup,
      fun n hn => hi.pend n (hsub.subset hn), hi.fresh, hi.freshT, hi.next⟩, hid⟩
  | deliver a b m p hm hp =>
    have hq : MsgOK E.restartOK G m := hi.msgs m (by simp [hm])
    have hsafe := (hE.deliver m p G hq hp).discard
    have hperm : ((toks ++ [m.tokens]).flatten ++ startTokens (a ++ b)).Perm
        (toks.flatten ++ startTokens w.msgs) := by
      rw [hm, startTokens_append, startTokens_append]
      have : startTokens (m :: b) = m.tokens ++ startTokens b := startTokens_append [m] b
      rw [this]
      simp only [List.flatten_append, List.flatten_cons, List.flatten_nil, List.append_nil,
        List.append_assoc]
      apply List.Perm.append_left
      rw [← List.append_assoc, ← List.append_assoc]
      exact List.perm_append_comm.append_right _
    refine ⟨same (toks' := toks ++ [m.tokens]) ⟨hi.db, ?_, all2_append hi.threads (.cons hsafe .nil),
      hperm.nodup_iff.2 hi.nodup, fun n hn => hi.pend n (hperm.mem_iff.1 hn), hi.fresh, hi.freshT,
      hi.next⟩, hid⟩
    intro x hx
    apply hi.msgs x
    rw [hm]; simp at hx ⊢
    rcases hx with h | h <;> simp [h]
  | work a b q t r hm hq hr =>
    have hqm : MsgOK E.restartOK G (.task q t) := hi.msgs (.task q t) (by simp [hm])
    have hsafe := (hE.work t r G hqm.1 (hqm.2.work (.inl hq)) (hqm.2.zero (isTaskQueue_not_exclusive hq)) hr).discard
    have hst : startTokens w.msgs = startTokens (a ++ b) := by
      rw [hm]; simp [startTokens]
    refine ⟨same (toks' := toks ++ [[]]) ⟨hi.db, ?_, all2_append hi.threads (.cons hsafe .nil), ?_, ?_,
      hi.fresh, hi.freshT, hi.next⟩, hid⟩
    · intro x hx
      apply hi.msgs x
      rw [hm]; simp at hx ⊢
      rcases hx with h | h <;> simp [h]
    · simp only [List.flatten_append, List.flatten_cons, List.flatten_nil, List.append_nil]
      rw [← hst]; exact hi.nodup
    · simp only [List.flatten_append, List.flatten_cons, List.flatten_nil, List.append_nil]
      rw [← hst]; exact hi.pend
  | redeliver a b q t hm hq =>
    have hqm : MsgOK E.restartOK G (.task q t) := hi.msgs (.task q t) (by simp [hm])
    have hst : startTokens (a ++ b ++ [Msg.task QUEUE_REDELIVERIES t]) = startTokens w.msgs := by
      rw [hm]; simp [startTokens]
    refine ⟨same (toks' := toks) ⟨hi.db, ?_, hi.threads, by rw [hst]; exact hi.nodup, by rw [hst]; exact hi.pend,
      hi.fresh, hi.freshT, hi.next⟩, hid⟩
    intro x hx
    simp at hx
    rcases hx with h | h | rfl
    · exact hi.msgs x (by rw [hm]; simp [h])
    · exact hi.msgs x (by rw [hm]; simp [h])
    · exact ⟨hqm.1, fun h => absurd h (by decide), fun _ => hqm.2.work (.inl hq),
        fun _ => hqm.2.zero (isTaskQueue_not_exclusive hq)⟩
  | lose a b m hm =>
    have hsub : (toks.flatten ++ startTokens (a ++ b)).Sublist (toks.flatten ++ startTokens w.msgs) := by
      apply List.Sublist.append_left
      rw [hm]
      exact List.Sublist.filterMap _ (List.Sublist.append_left (List.sublist_cons_self _ _) _)
    refine ⟨same (toks' := toks) ⟨hi.db, ?_, hi.threads, hsub.nodup hi.nodup,
      fun n hn => hi.pend n (hsub.subset hn), hi.fresh, hi.freshT, hi.next⟩, hid⟩
    intro x hx
    apply hi.msgs x
    rw [hm]; simp at hx ⊢
    rcases hx with h | h <;> simp [h]
  | dup m hm hns =>
    have hst : startTokens (w.msgs ++ [m]) = startTokens w.msgs := by
      rw [startTokens_append, startTokens_nostart (ms := [m]) (by simpa using hns), List.append_nil]
    refine ⟨same (toks' := toks) ⟨hi.db, ?_, hi.threads, by rw [hst]; exact hi.nodup, by rw [hst]; exact hi.pend,
      hi.fresh, hi.freshT, hi.next⟩, hid⟩
    intro x hx
    simp at hx
    rcases hx with h | rfl
    · exact hi.msgs x h
    · exact hi.msgs _ hm
  | spawn p hp =>
    have hsafe := hE.spawn p G hp
    refine ⟨same (toks' := toks ++ [[]]) ⟨hi.db, hi.msgs, all2_append hi.threads (.cons hsafe .nil), ?_, ?_,
      hi.fresh, hi.freshT, hi.next⟩, hid⟩
    · simpa using hi.nodup
    · simpa using hi.pend
  | nodes ns hq =>
    refine ⟨same (toks' := toks) ⟨⟨hi.db.tasks, hi.db.jobs, hi.db.pos, hi.db.past, hi.db.ghost, hi.db.jpar, hi.db.rel, hq, hi.db.keysT, hi.db.keysJ⟩,
      hi.msgs, hi.threads, hi.nodup, fun n hn => ⟨(hi.pend n hn).1, (hi.pend n hn).2.pend,
        (hi.pend n hn).2.fresh⟩, hi.fresh, hi.freshT, hi.next⟩, ?_, ?_⟩
    · exact .refl _ (fun _ => rfl) (fun _ => rfl)
    · exact hid.2

theorem init_winv (rok : Nat → Prop) : WInv rok {} [] {} :=
  ⟨⟨by simp [DS.task?], by simp [DS.job?], by simp, by simp, by simp, by simp, by simp, by simp, by simp, by simp⟩, by simp, .nil,
   by simp [startTokens], by simp [startTokens], by simp [DS.job?], by simp, by decide⟩

theorem steps_winv {E : Env} (hE : EnvSafe E) {w w' : World} (h : Steps E w w')
    (hw : ∃ toks G, WInv E.restartOK w toks G) : ∃ toks G, WInv E.restartOK w' toks G := by
  induction h with
  | refl => exact hw
  | tail h1 hs ih => 
    obtain ⟨toks, G, hi⟩ := ih
    obtain ⟨⟨toks', G', h, _⟩, _⟩ := step_sound hE hi hs
    exact ⟨toks', G', h⟩

theorem reachable_winv {E : Env} (hE : EnvSafe E) {w : World} (h : Reachable E w) :
    ∃ toks G, WInv E.restartOK w toks G := steps_winv hE h ⟨[], {}, init_winv _⟩

/-- Every step between reachable worlds obeys the specification. -/
theorem reachable_step {E : Env} (hE : EnvSafe E) {w w' : World} (h : Reachable E w) (hs : Step E w w') :
    DsStep E.restartOK w.ds w'.ds := by
  obtain ⟨toks, G, hi⟩ := reachable_winv hE h
  exact (step_sound hE hi hs).2.1

end Tork

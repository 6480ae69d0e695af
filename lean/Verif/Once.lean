import Verif.Calm
import Mathlib.Data.Finset.Card
import Mathlib.Data.Finset.Image
/-!
# A logic of rights: things that happen at most once, or at most so many times

Two facts about whole systems need an account of *rights* that are handed on and never duplicated: a task is handed to the
workers at most once, and an each task never has more children at work than its concurrency limit. A right is held by a
message or by a goroutine. `pend n` is the right to schedule task `n`, `own n` is what remains of it while `n` is at work,
`dead n` is what remains of it when `n` has failed, `fire p` is the right to start one more child of the each task `p`.
Rights are ghost state: they occur in proofs only. They may be lost (goroutines die, messages get lost) but not copied.
-/

namespace Tork

/-- Released and not finished. -/
def TaskState.atWork (s : TaskState) : Bool :=
  match s with
  | .pending | .scheduled | .running => true
  | _ => false

/-- The queues from which a task gets to a worker: the workers' queues and the queue of redeliveries. -/
def isWorkQueue (q : String) : Bool := isTaskQueue q || q = QUEUE_REDELIVERIES

/-- A task without parallel, each and sub-job section. -/
def Task.single (t : Task) : Bool := t.parallel.isNone && t.each.isNone && t.subJob.isNone

/-- The three kinds of systems considered.
* `once`: everything can go wrong, except that the broker does not deliver twice a message that is on its way to a worker;
* `noRetry`: the same, and operations do not fail half-way, and the report that a task was skipped is not delivered twice;
* `calm`: operations do not fail (but goroutines die and messages get lost), messages that carry a task on are not delivered
  twice, and the start report of a task is handled when its node is known. -/
inductive Mode
  | once
  | noRetry
  | calm
  deriving DecidableEq

/-- The messages that are delivered at most once. -/
def Mode.single : Mode → Msg → Bool
  | M, .task q t => q = QUEUE_PENDING ||
    match M with
    | .once => isWorkQueue q
    | .noRetry => q = QUEUE_COMPLETED && t.state = .skipped
    | .calm => (isWorkQueue q || q = QUEUE_COMPLETED || q = QUEUE_ERROR) && t.single
  | _, _ => false

namespace Once
open Prog Calm

/-- Rights. -/
inductive Tok
  | pend (n : Nat)
  | own (n : Nat)
  | dead (n : Nat)
  | fire (p : Nat)
  deriving DecidableEq

/-- The rights a message carries. -/
def toks (M : Mode) : Msg → List Tok
  | .task q t => if q = QUEUE_PENDING then [.pend t.id] else if M.single (.task q t) then [.own t.id] else []
  | _ => []

def toksL (M : Mode) (ms : List Msg) : List Tok := (ms.map (toks M)).flatten

theorem toks_free {M : Mode} {m : Msg} (h : M.single m = false) : toks M m = [] := by
  cases m with
  | task q t =>
    have hq : q ≠ QUEUE_PENDING := fun hq => by simp [Mode.single, hq] at h
    show (if q = QUEUE_PENDING then [Tok.pend t.id] else if M.single (.task q t) then [Tok.own t.id] else []) = []
    rw [if_neg hq, h]; rfl
  | _ => rfl

/-- The database and the tasks that have been scheduled. -/
structure St where
  ds : DS
  S : Nat → Prop

/-! ## Tracked tasks -/

def NoRetry (r : Option TaskRetry) : Prop := ∀ x, r = some x → x.limit = 0
def NoRetryD (d : Option JobDefaults) : Prop := ∀ x, d = some x → NoRetry x.retry

def Plain (M : Mode) (t : Task) : Prop := t.single = true ∧ (M = .noRetry → NoRetry t.retry)

/-- The each section has limit `c`, and a template of the kind considered. -/
def EachT (M : Mode) (t : Task) (c : Nat) : Prop := ∃ e, t.each = some e ∧ e.concurrency = c ∧ Plain M e.task

structure Same (M : Mode) (r r' : Task) : Prop where
  parent : r'.parentID = r.parentID
  job : r'.jobID = r.jobID
  par : r'.parallel.isSome = r.parallel.isSome
  ea : r'.each.isSome = r.each.isSome
  sub : r'.subJob.isSome = r.subJob.isSome
  each : ∀ c, EachT M r' c ↔ EachT M r c

variable {M : Mode}

theorem Same.refl (r : Task) : Same M r r := ⟨rfl, rfl, rfl, rfl, rfl, fun _ => Iff.rfl⟩
theorem Same.trans {a b c : Task} (h1 : Same M a b) (h2 : Same M b c) : Same M a c :=
  ⟨h2.parent.trans h1.parent, h2.job.trans h1.job, h2.par.trans h1.par, h2.ea.trans h1.ea, h2.sub.trans h1.sub,
    fun x => (h2.each x).trans (h1.each x)⟩
theorem Same.symm {a b : Task} (h : Same M a b) : Same M b a :=
  ⟨h.parent.symm, h.job.symm, h.par.symm, h.ea.symm, h.sub.symm, fun x => (h.each x).symm⟩

theorem Same.of {a b : Task} (h1 : b.parentID = a.parentID) (h2 : b.jobID = a.jobID) (h3 : b.parallel = a.parallel)
    (h4 : b.each = a.each) (h5 : b.subJob = a.subJob) : Same M a b :=
  ⟨h1, h2, by rw [h3], by rw [h4], by rw [h5], fun c => by unfold EachT; rw [h4]⟩

theorem Same.single {a b : Task} (h : Same M a b) : b.single = a.single := by
  unfold Task.single
  simp only [← Option.not_isSome, h.par, h.ea, h.sub]

/-- An each task with limit `c > 0` of the kind considered. -/
structure Tr (M : Mode) (ds : DS) (p c : Nat) : Prop where
  mode : M ≠ .once
  ne : p ≠ 0
  pos : 0 < c
  row : ∃ r j, ds.task? p = some r ∧ r.parallel.isSome = false ∧ EachT M r c ∧ ds.job? r.jobID = some j ∧
    (M = .noRetry → NoRetryD j.defaults)

/-! ## What stays true -/

structure Le (M : Mode) (a b : St) : Prop where
  tasks : ∀ n r, a.ds.task? n = some r → ∃ r', b.ds.task? n = some r' ∧ Same M r r'
  jobs : ∀ n j, a.ds.job? n = some j → ∃ j', b.ds.job? n = some j' ∧ j'.parentID = j.parentID ∧ j'.defaults = j.defaults
  S : ∀ n, a.S n → b.S n
  nodes : M = .calm → ∀ n, (a.ds.node? n).isSome → (b.ds.node? n).isSome
  back : ∀ p c, HasTask a.ds p → Tr M b.ds p c → Tr M a.ds p c

theorem Le.refl (a : St) : Le M a a := ⟨fun _ r h => ⟨r, h, .refl r⟩, fun _ j h => ⟨j, h, rfl, rfl⟩, fun _ h => h, fun _ _ h => h,
  fun _ _ _ h => h⟩
theorem Le.trans {a b c : St} (h1 : Le M a b) (h2 : Le M b c) : Le M a c := by
  refine ⟨fun n r h => ?_, fun n j h => ?_, fun n h => h2.S n (h1.S n h), fun hm n h => h2.nodes hm n (h1.nodes hm n h),
    fun p c hp h => h1.back p c hp (h2.back p c ?_ h)⟩
  · obtain ⟨r1, k1, k2⟩ := h1.tasks n r h
    obtain ⟨r2, k3, k4⟩ := h2.tasks n r1 k1
    exact ⟨r2, k3, k2.trans k4⟩
  · obtain ⟨j1, k1, k2, k2'⟩ := h1.jobs n j h
    obtain ⟨j2, k3, k4, k4'⟩ := h2.jobs n j1 k1
    exact ⟨j2, k3, k4.trans k2, k4'.trans k2'⟩
  · obtain ⟨r, hr⟩ := hp
    obtain ⟨r', k, _⟩ := h1.tasks _ _ hr
    exact ⟨r', k⟩

theorem Le.hasTask {a b : St} (h : Le M a b) {n : Nat} (hs : HasTask a.ds n) : HasTask b.ds n := by
  obtain ⟨r, h1⟩ := hs
  obtain ⟨r', k, _⟩ := h.tasks _ _ h1
  exact ⟨r', k⟩
theorem Le.hasJob {a b : St} (h : Le M a b) {n : Nat} (hs : HasJob a.ds n) : HasJob b.ds n := by
  obtain ⟨r, h1⟩ := hs
  obtain ⟨r', k, _⟩ := h.jobs _ _ h1
  exact ⟨r', k⟩

theorem Tr.mono {a b : St} {p c : Nat} (h : Tr M a.ds p c) (hl : Le M a b) : Tr M b.ds p c := by
  obtain ⟨h0, h1, h2, r, j, k1, k2, k3, k4, k5⟩ := h
  obtain ⟨r', m1, m2⟩ := hl.tasks _ _ k1
  obtain ⟨j', m3, m4, m5⟩ := hl.jobs _ _ k4
  exact ⟨h0, h1, h2, r', j', m1, m2.par.trans k2, (m2.each c).2 k3, by rw [m2.job]; exact m3, fun hm => by rw [m5]; exact k5 hm⟩

/-! ## The invariant of the database -/

structure Inv (M : Mode) (ds : DS) : Prop where
  keys : (ds.tasks.map (·.id)).Nodup
  parents : ∀ n r, ds.task? n = some r → r.parentID ≠ 0 → HasTask ds r.parentID
  jobs : ∀ n r, ds.task? n = some r → HasJob ds r.jobID
  kids : ∀ n r c, ds.task? n = some r → Tr M ds r.parentID c →
    Plain M r ∧ (M = .noRetry → ∃ j, ds.job? r.jobID = some j ∧ NoRetryD j.defaults)
  nested : ∀ n r, ds.task? n = some r → r.Nested
  defs : ∀ n j, ds.job? n = some j → (∀ t ∈ j.tasks, t.Fresh) ∧
    (j.parentID ≠ 0 → ∃ r, ds.task? j.parentID = some r ∧ r.subJob.isSome = true)
  nodes : ∀ n ∈ ds.nodes, isExclusiveQueue n.queue = true

/-- With the invariant, being tracked does not change. -/
theorem Le.mk' {a b : St} (hi : Inv M a.ds)
    (ht : ∀ n r, a.ds.task? n = some r → ∃ r', b.ds.task? n = some r' ∧ Same M r r')
    (hj : ∀ n j, a.ds.job? n = some j → ∃ j', b.ds.job? n = some j' ∧ j'.parentID = j.parentID ∧ j'.defaults = j.defaults)
    (hS : ∀ n, a.S n → b.S n) (hn : ∀ n, b.ds.node? n = a.ds.node? n) : Le M a b := by
  refine ⟨ht, hj, hS, fun _ n h => by rw [hn]; exact h, fun p c hp h => ?_⟩
  obtain ⟨h0, h1, h2, r, j, k1, k2, k3, k4, k5⟩ := h
  obtain ⟨r0, hr0⟩ := hp
  obtain ⟨r', m1, m2⟩ := ht _ _ hr0
  rw [k1] at m1; cases m1
  obtain ⟨j0, hj0⟩ := hi.jobs _ _ hr0
  obtain ⟨j', m3, _, m5⟩ := hj _ _ hj0
  rw [m2.job, m3] at k4
  cases k4
  exact ⟨h0, h1, h2, r0, j0, hr0, m2.par.symm.trans k2, (m2.each c).1 k3, hj0, fun hm => by rw [← m5]; exact k5 hm⟩

theorem Tr.hasTask {ds : DS} {p c : Nat} (h : Tr M ds p c) : HasTask ds p := by
  obtain ⟨_, _, _, r, j, k1, _⟩ := h
  exact ⟨r, k1⟩

/-! ## Messages -/

structure MsgT (M : Mode) (s : St) (t : Task) : Prop where
  row : ∃ r, s.ds.task? t.id = some r ∧ Same M r t
  nested : t.Nested
  job : HasJob s.ds t.jobID
  plain : ∀ c, Tr M s.ds t.parentID c → Plain M t ∧ (M = .noRetry → ∃ j, s.ds.job? t.jobID = some j ∧ NoRetryD j.defaults)
  parent : t.parentID ≠ 0 → HasTask s.ds t.parentID

structure MsgQ (M : Mode) (s : St) (q : String) (t : Task) : Prop where
  sched : M = .noRetry → ∀ c, Tr M s.ds t.parentID c → (q = QUEUE_COMPLETED ∧ t.state = .completed ∨ isWorkQueue q = true) → s.S t.id
  queue : isWorkQueue q = true → isWorkQueue t.queue = true

structure MsgJ (s : St) (j : Job) : Prop where
  tasks : ∀ t ∈ j.tasks, t.Fresh
  parent : j.parentID ≠ 0 → ∃ r, s.ds.task? j.parentID = some r ∧ r.subJob.isSome = true

def MsgOK (M : Mode) (s : St) : Msg → Prop
  | .task q t => MsgT M s t ∧ MsgQ M s q t
  | .progress t => MsgT M s t
  | .job j => MsgJ s j
  | _ => True

theorem MsgT.hasTask {s : St} {t : Task} (h : MsgT M s t) : HasTask s.ds t.id := by
  obtain ⟨r, hr, _⟩ := h.row; exact ⟨r, hr⟩

/-- Being tracked does not change for the parent of a task that exists. -/
theorem MsgT.mono {s s' : St} {t : Task} (h : MsgT M s t) (hl : Le M s s') : MsgT M s' t := by
  obtain ⟨r, h1, h2⟩ := h.row
  obtain ⟨r', k1, k2⟩ := hl.tasks _ _ h1
  refine ⟨⟨r', k1, k2.symm.trans h2⟩, h.nested, hl.hasJob h.job, fun c hc => ?_, fun hp => hl.hasTask (h.parent hp)⟩
  obtain ⟨k3, k4⟩ := h.plain c (hl.back _ c (h.parent hc.ne) hc)
  refine ⟨k3, fun hm => ?_⟩
  obtain ⟨j, m1, m2⟩ := k4 hm
  obtain ⟨j', m3, _, m4⟩ := hl.jobs _ _ m1
  exact ⟨j', m3, by rw [m4]; exact m2⟩

theorem MsgQ.mono {s s' : St} {q : String} {t : Task} (h : MsgQ M s q t) (ht : MsgT M s t) (hl : Le M s s') : MsgQ M s' q t :=
  ⟨fun hm c hc hq => hl.S _ (h.sched hm c (hl.back _ c (ht.parent hc.ne) hc) hq), h.queue⟩

theorem MsgJ.mono {s s' : St} {j : Job} (h : MsgJ s j) (hl : Le M s s') : MsgJ s' j := by
  refine ⟨h.tasks, fun hp => ?_⟩
  obtain ⟨r, h1, h2⟩ := h.parent hp
  obtain ⟨r', k1, k2⟩ := hl.tasks _ _ h1
  exact ⟨r', k1, k2.sub.trans h2⟩

theorem MsgOK.mono {s s' : St} {m : Msg} (h : MsgOK M s m) (hl : Le M s s') : MsgOK M s' m := by
  cases m with
  | task q t =>
    obtain ⟨h1, h2⟩ : MsgT M s t ∧ MsgQ M s q t := h
    exact ⟨h1.mono hl, h2.mono h1 hl⟩
  | progress t => exact MsgT.mono h hl
  | job j => exact MsgJ.mono h hl
  | _ => trivial

/-- Only fields that do not matter here change. -/
theorem MsgT.upd {s : St} {t u : Task} (h : MsgT M s t) (h1 : u.id = t.id) (h2 : u.jobID = t.jobID)
    (h3 : u.parallel = t.parallel) (h4 : u.each = t.each) (h5 : u.subJob = t.subJob) (h6 : u.parentID = t.parentID)
    (h7 : u.retry = t.retry) : MsgT M s u := by
  obtain ⟨r, k1, k2⟩ := h.row
  refine ⟨⟨r, by rw [h1]; exact k1, k2.trans (.of h6 h2 h3 h4 h5)⟩, ⟨by rw [h3]; exact h.nested.par, by rw [h4]; exact h.nested.ea,
    by rw [h5]; exact h.nested.sub⟩, by rw [h2]; exact h.job, fun c hc => ?_, fun hp => ?_⟩
  · rw [h6] at hc
    obtain ⟨⟨k3, k4⟩, k5⟩ := h.plain c hc
    refine ⟨⟨?_, fun hm => by rw [h7]; exact k4 hm⟩, fun hm => by rw [h2]; exact k5 hm⟩
    unfold Task.single; rw [h3, h4, h5]; exact k3
  · rw [h6] at hp ⊢; exact h.parent hp

/-- A row is a message about itself. -/
theorem Inv.msg {s : St} (hi : Inv M s.ds) {n : Nat} {r : Task} (hr : s.ds.task? n = some r) : MsgT M s r := by
  have hid := (task?_mem hr).2
  exact ⟨⟨r, by rw [hid]; exact hr, .refl r⟩, hi.nested n r hr, hi.jobs n r hr, fun c hc => hi.kids n r c hr hc, hi.parents n r hr⟩

theorem Inv.msgJ {s : St} (hi : Inv M s.ds) {n : Nat} {j : Job} (hr : s.ds.job? n = some j) : MsgJ s j :=
  ⟨(hi.defs n j hr).1, (hi.defs n j hr).2⟩

/-- A task with a parallel, each or sub-job section is no child of a tracked task. -/
theorem MsgT.free {s : St} {t : Task} (h : MsgT M s t) (hs : t.single = false) (c : Nat) : ¬ Tr M s.ds t.parentID c := fun hc => by
  have := (h.plain c hc).1.1
  rw [hs] at this; cases this

/-! ## Rights held -/

def HasTok (O : List Tok) (n : Nat) : Prop := .pend n ∈ O ∨ .own n ∈ O ∨ .dead n ∈ O

/-- Row `r` of task `n` uses up one of the places its parent may fill. -/
def Slot (O : List Tok) (n : Nat) (r : Task) : Prop := r.state.atWork = true ∨ HasTok O n

open Classical in
noncomputable def slots (ds : DS) (O : List Tok) (p : Nat) : Finset Nat :=
  (ds.tasks.map (·.id)).toFinset.filter fun n => ∃ r, ds.task? n = some r ∧ r.parentID = p ∧ Slot O n r

open Classical in
theorem mem_slots {ds : DS} {O : List Tok} {p n : Nat} :
    n ∈ slots ds O p ↔ ∃ r, ds.task? n = some r ∧ r.parentID = p ∧ Slot O n r := by
  unfold slots
  rw [Finset.mem_filter]
  constructor
  · exact fun h => h.2
  · rintro ⟨r, h1, h2⟩
    refine ⟨?_, r, h1, h2⟩
    obtain ⟨a, b⟩ := task?_mem h1
    rw [List.mem_toFinset, List.mem_map]
    exact ⟨r, a, b⟩

/-- The rights `O` are consistent with the database; each task may exceed its limit by `X`. -/
structure Held (M : Mode) (st : St) (X : Nat → Nat) (O : List Tok) : Prop where
  one : ∀ n, O.count (.pend n) + O.count (.own n) + O.count (.dead n) ≤ 1
  rows : ∀ n, HasTok O n → ∃ r, st.ds.task? n = some r ∧ r.state ≠ .created
  dead : ∀ n r, .dead n ∈ O → st.ds.task? n = some r → r.state.atWork = false
  sched : ∀ n, st.S n → .pend n ∉ O ∧ (M = .noRetry → .own n ∉ O) ∧
    ∃ r, st.ds.task? n = some r ∧ r.state ≠ .created ∧ (M = .noRetry → r.state ≠ .skipped)
  limit : ∀ p c, Tr M st.ds p c → (slots st.ds O p).card + O.count (.fire p) ≤ c + X p
  virgin : ∀ p c, Tr M st.ds p c → (.pend p ∈ O ∨ ∃ r, st.ds.task? p = some r ∧ r.state = .created) →
    (∀ n r, st.ds.task? n = some r → r.parentID ≠ p) ∧ .fire p ∉ O
  fires : ∀ p, .fire p ∈ O → HasTask st.ds p

theorem mem_of_count {O O' : List Tok} (h : ∀ x, O'.count x ≤ O.count x) {x : Tok} (hx : x ∈ O') : x ∈ O := by
  have := h x
  have h2 := List.count_pos_iff.2 hx
  exact List.count_pos_iff.1 (by omega)

theorem HasTok.mono {O O' : List Tok} (h : ∀ x, O'.count x ≤ O.count x) {n : Nat} (hx : HasTok O' n) : HasTok O n :=
  hx.imp (mem_of_count h) (Or.imp (mem_of_count h) (mem_of_count h))

/-- Rights may be lost. -/
theorem Held.anti {st : St} {X : Nat → Nat} {O O' : List Tok} (h : Held M st X O) (hc : ∀ x, O'.count x ≤ O.count x) : Held M st X O' where
  one n := by
    have := h.one n
    have h1 := hc (.pend n); have h2 := hc (.own n); have h3 := hc (.dead n)
    omega
  rows n hn := h.rows n (hn.mono hc)
  dead n r hn := h.dead n r (mem_of_count hc hn)
  sched n hn := by
    obtain ⟨h1, h2, h3⟩ := h.sched n hn
    exact ⟨fun hx => h1 (mem_of_count hc hx), fun hm hx => h2 hm (mem_of_count hc hx), h3⟩
  limit p c ht := by
    have h1 := h.limit p c ht
    have h2 := hc (.fire p)
    have h3 : (slots st.ds O' p).card ≤ (slots st.ds O p).card := Finset.card_le_card fun n hn => by
      obtain ⟨r, a, b, d⟩ := mem_slots.1 hn
      exact mem_slots.2 ⟨r, a, b, d.imp (fun x => x) (fun x => x.mono hc)⟩
    omega
  virgin p c ht hp := by
    obtain ⟨h1, h2⟩ := h.virgin p c ht (hp.imp (mem_of_count hc) fun x => x)
    exact ⟨h1, fun hx => h2 (mem_of_count hc hx)⟩
  fires p hp := h.fires p (mem_of_count hc hp)

theorem mem_of_le {O O' : List Tok} {x : Tok} (h : O'.count x ≤ O.count x) (hx : x ∈ O') : x ∈ O := by
  have h2 := List.count_pos_iff.2 hx
  exact List.count_pos_iff.1 (by omega)

/-- The rights about another task only shrink. -/
structure Shrinks (O O' : List Tok) (m : Nat) : Prop where
  pend : O'.count (.pend m) ≤ O.count (.pend m)
  own : O'.count (.own m) ≤ O.count (.own m)
  dead : O'.count (.dead m) ≤ O.count (.dead m)

theorem Shrinks.hasTok {O O' : List Tok} {m : Nat} (h : Shrinks O O' m) (ht : HasTok O' m) : HasTok O m :=
  ht.imp (mem_of_le h.pend) (Or.imp (mem_of_le h.own) (mem_of_le h.dead))

/-- One row changes. -/
theorem Held.set {st st' : St} {X X' : Nat → Nat} {O O' : List Tok} {n : Nat} {r r' : Task} (h : Held M st X O) (hl : Le M st st')
    (hr : st.ds.task? n = some r) (hr' : st'.ds.task? n = some r') (hoth : ∀ m, m ≠ n → st'.ds.task? m = st.ds.task? m)
    (hO : ∀ m, m ≠ n → Shrinks O O' m)
    (h1 : O'.count (.pend n) + O'.count (.own n) + O'.count (.dead n) ≤ 1)
    (hrow : HasTok O' n → r'.state ≠ .created)
    (hdead : .dead n ∈ O' → r'.state.atWork = false)
    (hcre : r'.state = .created → r.state = .created)
    (hpend : .pend n ∈ O' → .pend n ∈ O ∨ r.state = .created)
    (hS : ∀ m, m ≠ n → st'.S m → st.S m)
    (hSn : st'.S n → .pend n ∉ O' ∧ (M = .noRetry → .own n ∉ O') ∧ r'.state ≠ .created ∧ (M = .noRetry → r'.state ≠ .skipped))
    (hfire : ∀ p, O'.count (.fire p) ≤ O.count (.fire p) ∨
      (p = n ∧ (∀ c, Tr M st.ds n c → O'.count (.fire n) ≤ c) ∧ .pend n ∈ O ∧ .pend n ∉ O' ∧ r'.state ≠ .created))
    (hX : ∀ p, p ≠ r.parentID → X p ≤ X' p)
    (hXn : ∀ c, Tr M st.ds r.parentID c →
      (Slot O' n r' → Slot O n r ∧ X r.parentID ≤ X' r.parentID ∨ X r.parentID + 1 ≤ X' r.parentID) ∧
      (¬ Slot O' n r' → Slot O n r ∧ X r.parentID ≤ X' r.parentID + 1 ∨ X r.parentID ≤ X' r.parentID)) : Held M st' X' O' := by
  have hpar : r'.parentID = r.parentID := by
    obtain ⟨r2, k1, k2⟩ := hl.tasks _ _ hr
    rw [hr'] at k1; cases k1; exact k2.parent
  have hex : ∀ m r2, st'.ds.task? m = some r2 → HasTask st.ds m := fun m r2 hm => by
    by_cases hmn : m = n
    · rw [hmn]; exact ⟨r, hr⟩
    · rw [hoth m hmn] at hm; exact ⟨r2, hm⟩
  have hpars : ∀ m r2, st'.ds.task? m = some r2 → ∃ r1, st.ds.task? m = some r1 ∧ r1.parentID = r2.parentID := fun m r2 hm => by
    by_cases hmn : m = n
    · rw [hmn, hr'] at hm; cases hm; exact ⟨r, by rw [hmn]; exact hr, hpar.symm⟩
    · rw [hoth m hmn] at hm; exact ⟨r2, hm, rfl⟩
  have hback : ∀ {p c}, Tr M st'.ds p c → Tr M st.ds p c := fun {p c} ht => by
    obtain ⟨r2, hr2⟩ := ht.hasTask
    exact hl.back p c (hex p r2 hr2) ht
  -- tokens and states of the others
  have hslot : ∀ m r2, m ≠ n → Slot O' m r2 → Slot O m r2 := fun m r2 hm hs => hs.imp (fun x => x) (hO m hm).hasTok
  refine ⟨fun m => ?_, fun m hm => ?_, fun m r2 hm hr2 => ?_, fun m hm => ?_, fun p c ht => ?_, fun p c ht hp => ?_, fun p hp => ?_⟩
  · by_cases hmn : m = n
    · rw [hmn]; exact h1
    · have := h.one m
      obtain ⟨a, b, c⟩ := hO m hmn
      omega
  · by_cases hmn : m = n
    · rw [hmn] at hm ⊢; exact ⟨r', hr', hrow hm⟩
    · rw [hoth m hmn]; exact h.rows m ((hO m hmn).hasTok hm)
  · by_cases hmn : m = n
    · rw [hmn] at hm hr2; rw [hr'] at hr2; cases hr2; exact hdead hm
    · rw [hoth m hmn] at hr2; exact h.dead m r2 (mem_of_le (hO m hmn).dead hm) hr2
  · by_cases hmn : m = n
    · subst hmn
      obtain ⟨a, b, c, d⟩ := hSn hm
      exact ⟨a, b, r', hr', c, d⟩
    · obtain ⟨a, b, c⟩ := h.sched m (hS m hmn hm)
      rw [hoth m hmn]
      exact ⟨fun hx => a (mem_of_le (hO m hmn).pend hx), fun hM hx => b hM (mem_of_le (hO m hmn).own hx), c⟩
  · have ht0 := hback ht
    have hlim := h.limit p c ht0
    rcases hfire p with hf | ⟨rfl, hf, hp1, hp2, hp3⟩
    · by_cases hpp : p = r.parentID
      · subst hpp
        obtain ⟨x1, x2⟩ := hXn c ht0
        by_cases hs : Slot O' n r'
        · have hsub : slots st'.ds O' r.parentID ⊆ insert n ((slots st.ds O r.parentID).erase n) := fun m hm => by
            obtain ⟨r2, a, b, d⟩ := mem_slots.1 hm
            rw [Finset.mem_insert, Finset.mem_erase]
            by_cases hmn : m = n
            · exact .inl hmn
            · rw [hoth m hmn] at a
              exact .inr ⟨hmn, mem_slots.2 ⟨r2, a, b, hslot m r2 hmn d⟩⟩
          have h2 := Finset.card_le_card hsub
          have h3 := Finset.card_insert_le n ((slots st.ds O r.parentID).erase n)
          rcases x1 hs with ⟨y, z⟩ | z
          · have h4 := Finset.card_erase_of_mem (mem_slots.2 ⟨r, hr, rfl, y⟩ : n ∈ slots st.ds O r.parentID)
            have h5 := Finset.card_pos.2 ⟨n, (mem_slots.2 ⟨r, hr, rfl, y⟩ : n ∈ slots st.ds O r.parentID)⟩
            omega
          · have h4 := Finset.card_erase_le (s := slots st.ds O r.parentID) (a := n)
            omega
        · have hsub : slots st'.ds O' r.parentID ⊆ (slots st.ds O r.parentID).erase n := fun m hm => by
            obtain ⟨r2, a, b, d⟩ := mem_slots.1 hm
            rw [Finset.mem_erase]
            by_cases hmn : m = n
            · rw [hmn] at a d; rw [hr'] at a; cases a
              exact absurd d hs
            · rw [hoth m hmn] at a
              exact ⟨hmn, mem_slots.2 ⟨r2, a, b, hslot m r2 hmn d⟩⟩
          have h2 := Finset.card_le_card hsub
          rcases x2 hs with ⟨y, z⟩ | z
          · have h4 := Finset.card_erase_of_mem (mem_slots.2 ⟨r, hr, rfl, y⟩ : n ∈ slots st.ds O r.parentID)
            have h5 := Finset.card_pos.2 ⟨n, (mem_slots.2 ⟨r, hr, rfl, y⟩ : n ∈ slots st.ds O r.parentID)⟩
            omega
          · have h4 := Finset.card_erase_le (s := slots st.ds O r.parentID) (a := n)
            omega
      · have hsub : slots st'.ds O' p ⊆ slots st.ds O p := fun m hm => by
          obtain ⟨r2, a, b, d⟩ := mem_slots.1 hm
          by_cases hmn : m = n
          · rw [hmn, hr'] at a; cases a
            exact absurd (b.symm.trans hpar) hpp
          · rw [hoth m hmn] at a
            exact mem_slots.2 ⟨r2, a, b, hslot m r2 hmn d⟩
        have h2 := Finset.card_le_card hsub
        have h3 := hX p hpp
        omega
    · have hv := (h.virgin p c ht0 (.inl hp1)).1
      have h2 : slots st'.ds O' p = ∅ := by
        refine Finset.eq_empty_of_forall_notMem fun m hm => ?_
        obtain ⟨r2, a, b, d⟩ := mem_slots.1 hm
        obtain ⟨r3, a3, b3⟩ := hpars m r2 a
        exact hv m r3 a3 (b3.trans b)
      rw [h2, Finset.card_empty]
      have := hf c ht0
      omega
  · have ht0 := hback ht
    have hp0 : .pend p ∈ O ∨ ∃ r2, st.ds.task? p = some r2 ∧ r2.state = .created := by
      by_cases hpn : p = n
      · subst hpn
        rcases hp with hp | ⟨r2, a, b⟩
        · exact (hpend hp).imp (fun x => x) fun x => ⟨r, hr, x⟩
        · rw [hr'] at a; cases a; exact .inr ⟨r, hr, hcre b⟩
      · rw [hoth p hpn] at hp
        exact hp.imp (mem_of_le (hO p hpn).pend) fun x => x
    obtain ⟨v1, v2⟩ := h.virgin p c ht0 hp0
    refine ⟨fun m r2 hm => ?_, fun hx => ?_⟩
    · obtain ⟨r3, a3, b3⟩ := hpars m r2 hm
      rw [← b3]; exact v1 m r3 a3
    · rcases hfire p with hf | ⟨rfl, _, _, hp2, hp3⟩
      · exact v2 (mem_of_le hf hx)
      · rcases hp with hp | ⟨r2, a, b⟩
        · exact hp2 hp
        · rw [hr'] at a; cases a; exact hp3 b
  · rcases hfire p with hf | ⟨rfl, _⟩
    · exact hl.hasTask (h.fires p (mem_of_le hf hp))
    · exact ⟨r', hr'⟩

/-- No task row changes. -/
theorem Held.keep {st st' : St} {X : Nat → Nat} {O : List Tok} (h : Held M st X O) (hl : Le M st st')
    (ht : ∀ n, st'.ds.task? n = st.ds.task? n) (hS : st'.S = st.S) : Held M st' X O := by
  have hback : ∀ {p c}, Tr M st'.ds p c → Tr M st.ds p c := fun {p c} h' => by
    obtain ⟨r2, hr2⟩ := h'.hasTask
    rw [ht] at hr2
    exact hl.back p c ⟨r2, hr2⟩ h'
  have hsl : ∀ p, slots st'.ds O p = slots st.ds O p := fun p => by
    ext n; rw [mem_slots, mem_slots, ht]
  refine ⟨h.one, fun m hm => by rw [ht]; exact h.rows m hm, fun m r hm hr => h.dead m r hm (by rw [← ht]; exact hr),
    fun m hm => by rw [ht]; exact h.sched m (by rw [← hS]; exact hm), fun p c hp => by rw [hsl]; exact h.limit p c (hback hp),
    fun p c hp hx => ?_, fun p hp => hl.hasTask (h.fires p hp)⟩
  rw [ht] at hx
  obtain ⟨a, b⟩ := h.virgin p c (hback hp) hx
  exact ⟨fun m r hm => a m r (by rw [← ht]; exact hm), b⟩

/-- A row is added. -/
theorem Held.create {st st' : St} {X : Nat → Nat} {O O' : List Tok} {n : Nat} {x : Task} (hi : Inv M st.ds) (h : Held M st X O)
    (hl : Le M st st') (hn0 : n ≠ 0) (hn : st.ds.task? n = none) (hx : st'.ds.task? n = some x)
    (hoth : ∀ m, m ≠ n → st'.ds.task? m = st.ds.task? m)
    (hself : x.parentID ≠ n) (hS : st'.S = st.S)
    (hO : ∀ m, m ≠ n → Shrinks O O' m)
    (h1 : O'.count (.pend n) ≤ 1) (h2 : .own n ∉ O') (h3 : .dead n ∉ O')
    (hrow : .pend n ∈ O' → x.state ≠ .created)
    (hf : ∀ p, O'.count (.fire p) ≤ O.count (.fire p))
    (hp : ∀ c, Tr M st.ds x.parentID c → (.pend x.parentID ∉ O' ∧ (∀ r, st.ds.task? x.parentID = some r → r.state ≠ .created)) ∧
      (Slot O' n x → O'.count (.fire x.parentID) + 1 ≤ O.count (.fire x.parentID) ∨
        ∃ k r, st.ds.task? k = some r ∧ r.parentID = x.parentID ∧ Slot O k r ∧ ¬ Slot O' k r)) : Held M st' X O' := by
  have hback : ∀ {p c}, p ≠ n → Tr M st'.ds p c → Tr M st.ds p c := fun {p c} hpn h' => by
    obtain ⟨r2, hr2⟩ := h'.hasTask
    rw [hoth p hpn] at hr2
    exact hl.back p c ⟨r2, hr2⟩ h'
  have hnokid : ∀ m r, st.ds.task? m = some r → r.parentID ≠ n := fun m r hm hr => by
    obtain ⟨r2, hr2⟩ := hi.parents m r hm (by rw [hr]; exact hn0)
    rw [hr, hn] at hr2; cases hr2
  have hkid : ∀ m r, st'.ds.task? m = some r → r.parentID ≠ n := fun m r hm => by
    by_cases hmn : m = n
    · rw [hmn, hx] at hm; cases hm; exact hself
    · rw [hoth m hmn] at hm; exact hnokid m r hm
  have hnfire : .fire n ∉ O' := fun hx => by
    obtain ⟨r, hr⟩ := h.fires n (mem_of_le (hf n) hx)
    rw [hn] at hr; cases hr
  have hslot : ∀ m r2, m ≠ n → Slot O' m r2 → Slot O m r2 := fun m r2 hm hs => hs.imp (fun x => x) (hO m hm).hasTok
  refine ⟨fun m => ?_, fun m hm => ?_, fun m r2 hm hr2 => ?_, fun m hm => ?_, fun p c ht => ?_, fun p c ht hpp => ?_, fun p hpp => ?_⟩
  · by_cases hmn : m = n
    · rw [hmn, List.count_eq_zero.2 h2, List.count_eq_zero.2 h3]; omega
    · have := h.one m
      obtain ⟨a, b, c⟩ := hO m hmn
      omega
  · by_cases hmn : m = n
    · rw [hmn] at hm ⊢
      exact ⟨x, hx, hrow (hm.resolve_right fun hh => hh.elim h2 h3)⟩
    · rw [hoth m hmn]; exact h.rows m ((hO m hmn).hasTok hm)
  · by_cases hmn : m = n
    · rw [hmn] at hm; exact absurd hm h3
    · rw [hoth m hmn] at hr2; exact h.dead m r2 (mem_of_le (hO m hmn).dead hm) hr2
  · rw [hS] at hm
    obtain ⟨a, b, c⟩ := h.sched m hm
    have hmn : m ≠ n := fun e => by
      obtain ⟨r, hr, _⟩ := c
      rw [e, hn] at hr; cases hr
    rw [hoth m hmn]
    exact ⟨fun hx => a (mem_of_le (hO m hmn).pend hx), fun hM hx => b hM (mem_of_le (hO m hmn).own hx), c⟩
  · by_cases hpn : p = n
    · subst hpn
      have h5 : slots st'.ds O' p = ∅ := Finset.eq_empty_of_forall_notMem fun m hm => by
        obtain ⟨r2, a, b, d⟩ := mem_slots.1 hm
        exact hkid m r2 a b
      rw [h5, Finset.card_empty, List.count_eq_zero.2 hnfire]; omega
    · have ht0 := hback hpn ht
      have hlim := h.limit p c ht0
      have hfp := hf p
      by_cases hxs : x.parentID = p ∧ Slot O' n x
      · obtain ⟨rfl, hs⟩ := hxs
        rcases (hp c ht0).2 hs with hfi | ⟨k, r, k1, k2, k3, k4⟩
        · have hsub : slots st'.ds O' x.parentID ⊆ insert n (slots st.ds O x.parentID) := fun m hm => by
            obtain ⟨r2, a, b, d⟩ := mem_slots.1 hm
            rw [Finset.mem_insert]
            by_cases hmn : m = n
            · exact .inl hmn
            · rw [hoth m hmn] at a
              exact .inr (mem_slots.2 ⟨r2, a, b, hslot m r2 hmn d⟩)
          have h5 := Finset.card_le_card hsub
          have h6 := Finset.card_insert_le n (slots st.ds O x.parentID)
          omega
        · have hkn : k ≠ n := fun e => by rw [e, hn] at k1; cases k1
          have hsub : slots st'.ds O' x.parentID ⊆ insert n ((slots st.ds O x.parentID).erase k) := fun m hm => by
            obtain ⟨r2, a, b, d⟩ := mem_slots.1 hm
            rw [Finset.mem_insert, Finset.mem_erase]
            by_cases hmn : m = n
            · exact .inl hmn
            · rw [hoth m hmn] at a
              refine .inr ⟨fun e => ?_, mem_slots.2 ⟨r2, a, b, hslot m r2 hmn d⟩⟩
              rw [e] at a d; rw [k1] at a; cases a
              exact k4 d
          have h5 := Finset.card_le_card hsub
          have h6 := Finset.card_insert_le n ((slots st.ds O x.parentID).erase k)
          have hmem : k ∈ slots st.ds O x.parentID := mem_slots.2 ⟨r, k1, k2, k3⟩
          have h7 := Finset.card_erase_of_mem hmem
          have h8 := Finset.card_pos.2 ⟨k, hmem⟩
          omega
      · have hsub : slots st'.ds O' p ⊆ slots st.ds O p := fun m hm => by
          obtain ⟨r2, a, b, d⟩ := mem_slots.1 hm
          by_cases hmn : m = n
          · rw [hmn] at a d; rw [hx] at a; cases a
            exact absurd ⟨b, d⟩ hxs
          · rw [hoth m hmn] at a
            exact mem_slots.2 ⟨r2, a, b, hslot m r2 hmn d⟩
        have h5 := Finset.card_le_card hsub
        omega
  · by_cases hpn : p = n
    · subst hpn; exact ⟨hkid, hnfire⟩
    · have ht0 := hback hpn ht
      rw [hoth p hpn] at hpp
      obtain ⟨v1, v2⟩ := h.virgin p c ht0 (hpp.imp (mem_of_le (hO p hpn).pend) fun x => x)
      refine ⟨fun m r2 hm hr2 => ?_, fun hx => v2 (mem_of_le (hf p) hx)⟩
      by_cases hmn : m = n
      · rw [hmn, hx] at hm; cases hm
        subst hr2
        obtain ⟨y1, y2⟩ := (hp c ht0).1
        rcases hpp with hpp | ⟨r3, a, b⟩
        · exact y1 hpp
        · exact y2 r3 a b
      · rw [hoth m hmn] at hm; exact v1 m r2 hm hr2
  · exact hl.hasTask (h.fires p (mem_of_le (hf p) hpp))

end Once
end Tork

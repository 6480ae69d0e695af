import Verif.BrokerQueue
import Verif.CloneLemmas
/-!
# C31 — in-memory work queues
-/

namespace Tork.Queues

/-- The messages published to `q`, in the order in which the publish calls took effect. -/
def publishedTo {α : Type} (q : String) : List (Lbl α) → List α
  | [] => []
  | .published q' m :: tr => if q' = q then m :: publishedTo q tr else publishedTo q tr
  | _ :: tr => publishedTo q tr

/-- The messages handed to subscribers of `q`, in order; each is handed to one subscriber. -/
def deliveredOn {α : Type} (q : String) : List (Lbl α) → List α
  | [] => []
  | .delivered _ q' m :: tr => if q' = q then m :: deliveredOn q tr else deliveredOn q tr
  | _ :: tr => deliveredOn q tr

/-- The queue is never deleted in the execution. -/
def NeverDeleted {α : Type} (q : String) (tr : List (Lbl α)) : Prop := Lbl.deleted q ∉ tr

/-- The messages waiting in the queue registered under `q`. -/
def waiting {α : Type} (q : String) (s : St α) : List α :=
  match s.map q with
  | none => []
  | some o => (s.objs o).ch

/-- Nobody is in the middle of the first use of `q`: it is registered, and every publisher and subscriber of `q`
uses the registered queue. -/
structure Settled {α : Type} (q : String) (o : Nat) (s : St α) : Prop where
  reg : s.map q = some o
  alloc : o < s.n
  pubs : ∀ p, (∀ m, s.pub p ≠ some (.create q m)) ∧ ∀ o' m, s.pub p = some (.send q o' m) → o' = o
  subs : ∀ i, s.sub i ≠ .create q ∧
    (∀ o', s.sub i = .attach q o' → o' = o) ∧ (∀ o', s.sub i = .idle q o' → o' = o) ∧
    (∀ o' m, s.sub i = .busy q o' m → o' = o)
  /-- nobody uses this queue object under another name -/
  own : (∀ p q' m, s.pub p = some (.send q' o m) → q' = q) ∧ (∀ q', s.map q' = some o → q' = q) ∧
    ∀ i q', (s.sub i = .attach q' o → q' = q) ∧ (s.sub i = .idle q' o → q' = q) ∧ ∀ m, s.sub i = .busy q' o m → q' = q

/-- `q` has never been used. -/
structure Unused {α : Type} (q : String) (s : St α) : Prop where
  reg : s.map q = none
  pubs : ∀ p, (∀ m, s.pub p ≠ some (.create q m)) ∧ ∀ o' m, s.pub p ≠ some (.send q o' m)
  subs : ∀ i, s.sub i ≠ .create q ∧ (∀ o', s.sub i ≠ .attach q o') ∧ (∀ o', s.sub i ≠ .idle q o') ∧
    ∀ o' m, s.sub i ≠ .busy q o' m

theorem upd_self {κ β : Type} [DecidableEq κ] (f : κ → β) (k : κ) (v : β) : upd f k v k = v := if_pos rfl
theorem upd_ne {κ β : Type} [DecidableEq κ] (f : κ → β) {k x : κ} (v : β) (h : x ≠ k) : upd f k v x = f x := if_neg h

theorem publishedTo_append {α : Type} (q : String) (a b : List (Lbl α)) :
    publishedTo q (a ++ b) = publishedTo q a ++ publishedTo q b := by
  induction a with
  | nil => rfl
  | cons l a ih =>
    cases l <;> simp only [List.cons_append, publishedTo, ih]
    split <;> simp

theorem deliveredOn_append {α : Type} (q : String) (a b : List (Lbl α)) :
    deliveredOn q (a ++ b) = deliveredOn q a ++ deliveredOn q b := by
  induction a with
  | nil => rfl
  | cons l a ih =>
    cases l <;> simp only [List.cons_append, deliveredOn, ih]
    split <;> simp

/-- All names and object numbers in use are allocated. -/
structure Bounded {α : Type} (s : St α) : Prop where
  map : ∀ q o, s.map q = some o → o < s.n
  pub : ∀ p q o m, s.pub p = some (.send q o m) → o < s.n
  sub : ∀ i q o, (s.sub i = .attach q o → o < s.n) ∧ (s.sub i = .idle q o → o < s.n) ∧
    (∀ m, s.sub i = .busy q o m → o < s.n) ∧ (s.sub i = .exited q o → o < s.n)

theorem bounded_init {α : Type} : Bounded (St.init (α := α)) :=
  ⟨fun _ _ h => by simp [St.init] at h, fun _ _ _ _ h => by simp [St.init] at h,
   fun _ _ _ => ⟨fun h => by simp [St.init] at h, fun h => by simp [St.init] at h, fun _ h => by simp [St.init] at h,
     fun h => by simp [St.init] at h⟩⟩

theorem bounded_step {α : Type} {s s' : St α} {l : Lbl α} (h : Bounded s) (st : Step s l s') : Bounded s' := by
  obtain ⟨h1, h2, h3⟩ := h
  cases st <;> constructor <;> grind [upd]

theorem settled_step {α : Type} {q : String} {o : Nat} {s s' : St α} {l : Lbl α} (hb : Bounded s) (h : Settled q o s)
    (st : Step s l s') (hd : l ≠ .deleted q) : Settled q o s' := by
  obtain ⟨h1, h2, h3⟩ := hb
  obtain ⟨g1, g2, g3, g4, g5, g6, g7⟩ := h
  cases st <;> constructor <;> grind [upd]

theorem waiting_step {α : Type} {q : String} {o : Nat} {s s' : St α} {l : Lbl α} (hb : Bounded s) (h : Settled q o s)
    (st : Step s l s') (hd : l ≠ .deleted q) :
    waiting q s ++ publishedTo q [l] = deliveredOn q [l] ++ waiting q s' := by
  have h' := settled_step hb h st hd
  have w : waiting q s = (s.objs o).ch := by unfold waiting; rw [h.reg]
  have w' : waiting q s' = (s'.objs o).ch := by unfold waiting; rw [h'.reg]
  rw [w, w']
  obtain ⟨h1, h2, h3⟩ := hb
  obtain ⟨g1, g2, g3, g4, g5, g6, g7⟩ := h
  cases st <;> simp only [publishedTo, deliveredOn] <;> grind [upd]

theorem reach_bounded {α : Type} {s s' : St α} {tr : List (Lbl α)} (hb : Bounded s) (r : Run s tr s') : Bounded s' := by
  induction r with
  | nil => exact hb
  | snoc _ st ih => exact bounded_step ih st

/-- **C31 (exactly once, FIFO).** Once a queue is in use (and as long as it is not deleted), in every interleaving of
any number of publishers and subscribers on any queues: the messages that were waiting followed by those published
to the queue are exactly the messages handed to its subscribers followed by those still waiting, in the same order.
So no message is lost, duplicated or reordered, each is handed to one subscriber, and other queues do not matter. -/
theorem C31_fifo {α : Type} (s s' : St α) (tr₀ tr : List (Lbl α)) (q : String) (o : Nat)
    (h₀ : Run St.init tr₀ s) (hs : Settled q o s) (r : Run s tr s')
    (hd : NeverDeleted q tr) :
    waiting q s ++ publishedTo q tr = deliveredOn q tr ++ waiting q s' ∧ Settled q o s' := by
  have hb := reach_bounded bounded_init h₀
  clear h₀
  induction r with
  | nil => exact ⟨by simp [publishedTo, deliveredOn], hs⟩
  | @snoc b c tr l r st ih =>
    have hd1 : NeverDeleted q tr := fun h => hd (List.mem_append_left _ h)
    have hd2 : l ≠ .deleted q := fun h => hd (by subst h; simp)
    obtain ⟨e, hs'⟩ := ih hd1
    have hb' := reach_bounded hb r
    refine ⟨?_, settled_step hb' hs' st hd2⟩
    rw [publishedTo_append, deliveredOn_append, ← List.append_assoc, e, List.append_assoc, List.append_assoc,
      waiting_step hb' hs' st hd2]

/-- A handler is called with one message at a time: between two deliveries to a subscriber its handler returned. -/
def OneAtATime {α : Type} (i : Nat) : Bool → List (Lbl α) → Prop
  | _, [] => True
  | busy, .delivered j _ _ :: tr => if j = i then busy = false ∧ OneAtATime i true tr else OneAtATime i busy tr
  | busy, .handled j :: tr => if j = i then OneAtATime i false tr else OneAtATime i busy tr
  | busy, _ :: tr => OneAtATime i busy tr

/-- whether subscriber `i` is inside its handler after the observations, starting from `b`. -/
def busyAfter {α : Type} (i : Nat) : Bool → List (Lbl α) → Bool
  | b, [] => b
  | b, .delivered j _ _ :: tr => busyAfter i (if j = i then true else b) tr
  | b, .handled j :: tr => busyAfter i (if j = i then false else b) tr
  | b, _ :: tr => busyAfter i b tr

theorem oneAtATime_append {α : Type} (i : Nat) : ∀ (a b : List (Lbl α)) (x : Bool),
    OneAtATime i x (a ++ b) ↔ OneAtATime i x a ∧ OneAtATime i (busyAfter i x a) b
  | [], b, x => by simp [OneAtATime, busyAfter]
  | l :: a, b, x => by
    cases l <;> simp only [List.cons_append, OneAtATime, busyAfter, oneAtATime_append i a b]
    all_goals grind

theorem busyAfter_append {α : Type} (i : Nat) : ∀ (a b : List (Lbl α)) (x : Bool),
    busyAfter i x (a ++ b) = busyAfter i (busyAfter i x a) b
  | [], b, x => by simp [busyAfter]
  | l :: a, b, x => by
    cases l <;> simp only [List.cons_append, busyAfter, busyAfter_append i a b]

def isBusy {α : Type} : SubSt α → Bool
  | .busy .. => true
  | _ => false

/-- **C31 (sequential handlers).** In every execution each subscriber handles one message at a time. -/
theorem C31_one_at_a_time {α : Type} (s : St α) (tr : List (Lbl α)) (i : Nat) (r : Run St.init tr s) :
    OneAtATime i false tr := by
  suffices h : OneAtATime i false tr ∧ busyAfter i false tr = isBusy (s.sub i) from h.1
  generalize hs0 : (St.init : St α) = s0 at r
  induction r with
  | nil => subst hs0; simp [OneAtATime, busyAfter, isBusy, St.init]
  | @snoc b c tr l r st ih =>
    obtain ⟨h1, h2⟩ := ih
    rw [oneAtATime_append, busyAfter_append, h2]
    refine ⟨⟨h1, ?_⟩, ?_⟩ <;> cases st <;> simp only [OneAtATime, busyAfter, isBusy] <;> grind [upd, isBusy]

/-- **C31 (progress).** A waiting message can always be handed to any idle subscriber of the queue. -/
theorem C31_deliverable {α : Type} (s : St α) (q : String) (o i : Nat) (m : α) (r : List α) (hs : Settled q o s)
    (hi : s.sub i = .idle q o) (hw : waiting q s = m :: r) :
    ∃ s', Step s (.delivered i q m) s' ∧ waiting q s' = r := by
  have w : waiting q s = (s.objs o).ch := by unfold waiting; rw [hs.reg]
  refine ⟨_, Step.deliver s i q o m r hi (w ▸ hw), ?_⟩
  unfold waiting
  simp only [hs.reg, upd_self]

/-- A queue is in use once its first subscription ran undisturbed: from a state in which `q` was never used, the
three steps of subscribing lead to a settled queue. -/
theorem C31_settled_after_subscribe {α : Type} (s : St α) (q : String) (i : Nat) (tr : List (Lbl α)) (h₀ : Run St.init tr s)
    (hu : Unused q s) (hi : s.sub i = .absent) :
    ∃ s' o, Run s [.tau, .tau, .subscribed i q] s' ∧ Settled q o s' ∧ s'.sub i = .idle q o ∧ waiting q s' = [] := by
  have hb := reach_bounded bounded_init h₀
  let s1 : St α := { s with sub := upd s.sub i (.create q) }
  let s2 : St α := { s1 with objs := upd s1.objs s1.n ⟨q, []⟩, n := s1.n + 1, map := upd s1.map q (some s1.n), sub := upd s1.sub i (.attach q s1.n) }
  let s3 : St α := { s2 with sub := upd s2.sub i (.idle q s1.n) }
  refine ⟨s3, s.n, ?_, ?_, ?_, ?_⟩
  · have r1 : Run s [.tau] s1 := .snoc (.nil s) (.subMissing s i q hi hu.reg)
    have r2 : Run s [.tau, .tau] s2 := .snoc r1 (.subCreate s1 i q (upd_self ..))
    exact .snoc r2 (.subAttach s2 i q s1.n (upd_self ..))
  · obtain ⟨h1, h2, h3⟩ := hb
    obtain ⟨u1, u2, u3⟩ := hu
    constructor <;> grind [upd]
  · grind [upd]
  · simp [waiting, s3, s2, s1, upd]

/-! ### The race on first use -/

/-- `o` is an object nobody can reach any more. -/
structure Orphan {α : Type} (q : String) (o : Nat) (l : List α) (s : St α) : Prop where
  here : s.objs o = ⟨q, l⟩
  alloc : o < s.n
  reg : ∀ q', s.map q' ≠ some o
  pub : ∀ p q' m, s.pub p ≠ some (.send q' o m)
  sub : ∀ i q', s.sub i ≠ .attach q' o ∧ s.sub i ≠ .idle q' o ∧ ∀ m, s.sub i ≠ .busy q' o m

theorem orphan_step {α : Type} {q : String} {o : Nat} {ms : List α} {s s' : St α} {l : Lbl α} (h : Orphan q o ms s)
    (st : Step s l s') : Orphan q o ms s' := by
  obtain ⟨h1, h2, h3, h4, h5⟩ := h
  cases st <;> constructor <;> grind [upd]

/-- **Finding (C31).** The first use of a queue is a race: a publisher and a subscriber that use a new queue at the
same time can end up with different queue objects. The publish call succeeds, the subscriber is idle, and in no
continuation is the message ever handed to anybody (it stays in an object without subscribers). -/
theorem C31_first_use_race_loses_message {α : Type} (m : α) (q : String) :
    ∃ (tr : List (Lbl α)) (s : St α) (o o' : Nat), Run St.init tr s ∧ publishedTo q tr = [m] ∧ Lbl.subscribed 0 q ∈ tr ∧
      s.sub 0 = .idle q o' ∧ s.map q = some o' ∧
      ∀ tr' s', Run s tr' s' → (s'.objs o).ch = [m] ∧ ∀ i q', s'.sub i ≠ .attach q' o ∧ s'.sub i ≠ .idle q' o := by
  let s0 : St α := St.init
  let s1 : St α := { s0 with pub := upd s0.pub 0 (some (.create q m)) }
  let s2 : St α := { s1 with sub := upd s1.sub 0 (.create q) }
  let s3 : St α := { s2 with objs := upd s2.objs s2.n ⟨q, []⟩, n := s2.n + 1, map := upd s2.map q (some s2.n),
                             pub := upd s2.pub 0 (some (.send q s2.n m)) }
  let s4 : St α := { s3 with objs := upd s3.objs s3.n ⟨q, []⟩, n := s3.n + 1, map := upd s3.map q (some s3.n),
                             sub := upd s3.sub 0 (.attach q s3.n) }
  let s5 : St α := { s4 with sub := upd s4.sub 0 (.idle q s3.n) }
  let s6 : St α := { s5 with objs := upd s5.objs 0 ⟨(s5.objs 0).name, (s5.objs 0).ch ++ [m]⟩, pub := upd s5.pub 0 none }
  have r1 : Run s0 [.tau] s1 := .snoc (.nil s0) (.pubMissing s0 0 q m rfl rfl)
  have r2 : Run s0 [.tau, .tau] s2 := .snoc r1 (.subMissing s1 0 q rfl rfl)
  have r3 : Run s0 [.tau, .tau, .tau] s3 := .snoc r2 (.pubCreate s2 0 q m rfl)
  have r4 : Run s0 [.tau, .tau, .tau, .tau] s4 := .snoc r3 (.subCreate s3 0 q rfl)
  have r5 : Run s0 [.tau, .tau, .tau, .tau, .subscribed 0 q] s5 := .snoc r4 (.subAttach s4 0 q 1 rfl)
  have hs : s5.pub 0 = some (.send q 0 m) := rfl
  have hc : (s5.objs 0).ch = [] := by simp [s5, s4, s3, s2, s1, s0, St.init, upd]
  have r6 : Run s0 ([.tau, .tau, .tau, .tau, .subscribed 0 q] ++ [.published q m]) s6 :=
    .snoc r5 (.pubSend s5 0 q 0 m hs (by rw [hc]; exact Nat.zero_lt_succ _))
  have ho : Orphan q 0 [m] s6 := by
    constructor
    · simp [s6, s5, s4, s3, s2, s1, s0, St.init, upd]
    · show 0 < 2; decide
    · intro q'; simp only [s6, s5, s4, s3, s2, s1, s0, St.init, upd]; grind
    · intro p q' m'; simp only [s6, s5, s4, s3, s2, s1, s0, St.init, upd]; grind
    · intro i q'; simp only [s6, s5, s4, s3, s2, s1, s0, St.init, upd]; grind
  refine ⟨_, s6, 0, 1, r6, by simp [publishedTo], by simp, rfl, ?_, ?_⟩
  · simp [s6, s5, s4, s3, s2, s1, s0, St.init, upd]
  · intro tr' s' r
    have : Orphan q 0 [m] s' := by
      clear r1 r2 r3 r4 r5 r6 hs hc
      generalize s6 = a at r ho
      induction r with
      | nil => exact ho
      | snoc _ st ih => exact orphan_step ih st
    refine ⟨by rw [this.here], fun i q' => ⟨(this.sub i q').1, (this.sub i q').2.1⟩⟩

/-- What a task subscriber gets is the published task (`Clone` on publish and on delivery,
`inmemory.go:162-169`), except that redelivery counters are forgotten. -/
theorem C31_task_payload (t : Task) : t.clone.clone = t.forgetRedelivery := by
  rw [clone_forget t, clone_forget, forget_of_undelivered]
  exact forget_undelivered t

end Tork.Queues

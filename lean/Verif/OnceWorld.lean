import Verif.OnceWorker
/-! Whole systems: the rights held stay consistent with the database in every reachable state. -/

namespace Tork
open Prog

/-- One operation of one goroutine, with the faults of the mode (`PStep`, Verif/World.lean). -/
inductive PStepM (M : Mode) {α : Type} : Prog α → DS → Nat → Prog α → DS → List Msg → Nat → Prop
  | dbOk {γ : Type} (op : DbOp γ) (k) (ds n) : PStepM M (.db op k) ds n (k (op.run ds).1) (op.run ds).2.1 (op.run ds).2.2 n
  | dbFail {γ : Type} (op : DbOp γ) (k) (ds n) (e : Err) (hM : M ≠ .calm) : PStepM M (.db op k) ds n (k (.error e)) ds [] n
  | dbLost {γ : Type} (op : DbOp γ) (k) (ds n) (e : Err) (hM : M ≠ .calm) :
      PStepM M (.db op k) ds n (k (.error e)) (op.run ds).2.1 (op.run ds).2.2 n
  | dbPartial {γ : Type} (op : DbOp γ) (k) (ds n) (e : Err) (x : DS × List Msg) (hx : x ∈ op.partials ds) (hM : M = .once) :
      PStepM M (.db op k) ds n (k (.error e)) x.1 x.2 n
  | pubOk (m : Msg) (k) (ds n) : PStepM M (.pub m k) ds n (k (.ok ())) ds [m] n
  | pubFail (m : Msg) (k) (ds n) (e : Err) (hM : M ≠ .calm) : PStepM M (.pub m k) ds n (k (.error e)) ds [] n
  | pubLost (m : Msg) (k) (ds n) (e : Err) (hM : M ≠ .calm) : PStepM M (.pub m k) ds n (k (.error e)) ds [m] n
  | nondet (k : Nat → Prog α) (ds n) (x : Nat) : PStepM M (.nondet k) ds n (k x) ds [] n
  | uuid (k : Nat → Prog α) (ds n) : PStepM M (.uuid k) ds n (k n) ds [] (n + 1)

/-- The steps of the systems of a mode: those of `Step` (Verif/World.lean) with the restrictions marked. The second index is
the task handed to a worker, if any. -/
inductive StepM (M : Mode) (E : Env) : World → Option Nat → World → Prop
  /-- restriction: the faults of the mode -/
  | op (w : World) (a b : List (Prog Unit)) (p p' : Prog Unit) (ds' : DS) (ms : List Msg) (n' : Nat)
      (ht : w.threads = a ++ p :: b) (hp : PStepM M p w.ds w.next p' ds' ms n') :
      StepM M E w none { ds := ds', msgs := w.msgs ++ ms, threads := a ++ p' :: b, next := n' }
  | crash (w : World) (a b : List (Prog Unit)) (p : Prog Unit) (ht : w.threads = a ++ p :: b) :
      StepM M E w none { w with threads := a ++ b }
  /-- restriction: in mode `calm`, the start of a task is handled when the node that reports it is known -/
  | deliver (w : World) (a b : List Msg) (m : Msg) (p : Prog Res) (hm : w.msgs = a ++ m :: b)
      (hp : coordinatorHandler E.C E.fuel m = some p)
      (hn : M = .calm → ∀ t, m = .task QUEUE_STARTED t → (w.ds.node? t.nodeID).isSome) :
      StepM M E w none { w with msgs := a ++ b, threads := w.threads ++ [p.discard] }
  | work (w : World) (a b : List Msg) (q : String) (t : Task) (r : WorkerRun)
      (hm : w.msgs = a ++ Msg.task q t :: b) (hq : isTaskQueue q = true) (hr : E.workerOK r) :
      StepM M E w (some t.id) { w with msgs := a ++ b, threads := w.threads ++ [(doHandleTask E.C r t).discard] }
  | redeliver (w : World) (a b : List Msg) (q : String) (t : Task)
      (hm : w.msgs = a ++ Msg.task q t :: b) (hq : isTaskQueue q = true) :
      StepM M E w none { w with msgs := a ++ b ++ [Msg.task QUEUE_REDELIVERIES t] }
  | lose (w : World) (a b : List Msg) (m : Msg) (hm : w.msgs = a ++ m :: b) :
      StepM M E w none { w with msgs := a ++ b }
  /-- restriction: the messages `Mode.single` are not duplicated -/
  | dup (w : World) (m : Msg) (hm : m ∈ w.msgs) (hs : m.startsJob = false) (hd : M.single m = false) :
      StepM M E w none { w with msgs := w.msgs ++ [m] }
  | spawn (w : World) (p : Prog Unit) (hp : Spawn E p) :
      StepM M E w none { w with threads := w.threads ++ [p] }
  /-- restriction: in mode `calm`, the nodes known stay known -/
  | nodes (w : World) (ns : List Node) (hq : ∀ n ∈ ns, isExclusiveQueue n.queue = true)
      (hk : M = .calm → ∀ n, (w.ds.node? n).isSome → (({ w.ds with nodes := ns } : DS).node? n).isSome) :
      StepM M E w none { w with ds := { w.ds with nodes := ns } }

/-- Runs from `w` to `w'`, with the tasks handed to workers on the way, in order. -/
inductive StepsM (M : Mode) (E : Env) : World → List Nat → World → Prop
  | refl (w : World) : StepsM M E w [] w
  | tail {w w' w'' : World} {l : List Nat} {x : Option Nat} : StepsM M E w l w' → StepM M E w' x w'' → StepsM M E w (l ++ x.toList) w''

theorem PStepM.pstep {M : Mode} {α : Type} {p p' : Prog α} {ds ds' : DS} {n n' : Nat} {ms : List Msg} (h : PStepM M p ds n p' ds' ms n') :
    PStep p ds n p' ds' ms n' := by
  cases h with
  | dbOk op k => exact .dbOk op k _ _
  | dbFail op k _ _ e => exact .dbFail op k _ _ e
  | dbLost op k _ _ e => exact .dbLost op k _ _ e
  | dbPartial op k _ _ e x hx => exact .dbPartial op k _ _ e x hx
  | pubOk m k => exact .pubOk m k _ _
  | pubFail m k _ _ e => exact .pubFail m k _ _ e
  | pubLost m k _ _ e => exact .pubLost m k _ _ e
  | nondet k _ _ x => exact .nondet k _ _ x
  | uuid k => exact .uuid k _ _

/-- The systems of a mode are systems. -/
theorem StepM.step {M : Mode} {E : Env} {w w' : World} {x : Option Nat} (h : StepM M E w x w') : Step E w w' := by
  cases h with
  | op a b p p' ds' ms n' ht hp => exact .op w a b p p' ds' ms n' ht hp.pstep
  | crash a b p ht => exact .crash w a b p ht
  | deliver a b m p hm hp => exact .deliver w a b m p hm hp
  | work a b q t r hm hq hr => exact .work w a b q t r hm hq hr
  | redeliver a b q t hm hq => exact .redeliver w a b q t hm hq
  | lose a b m hm => exact .lose w a b m hm
  | dup m hm hs => exact .dup w m hm hs
  | spawn p hp => exact .spawn w p hp
  | nodes ns hq => exact .nodes w ns hq

namespace Once
open Prog Calm

abbrev Ann := List Nat × List Tok

abbrev GoodT (M : Mode) (s : St) (p : Prog Unit) (a : Ann) : Prop := Good M p a.1 a.2 s Any

def obs (M : Mode) (ms : List Msg) (ann : List Ann) (done : List Nat) : List Tok :=
  toksL M ms ++ (ann.map Prod.snd).flatten ++ done.map Tok.own

structure WInv (M : Mode) (w : World) (ann : List Ann) (S : Nat → Prop) (done : List Nat) : Prop where
  db : Inv M w.ds
  msgs : ∀ m ∈ w.msgs, MsgOK M ⟨w.ds, S⟩ m
  threads : All2 (GoodT M ⟨w.ds, S⟩) w.threads ann
  nodup : (ann.map Prod.fst).flatten.Nodup
  own : ∀ n ∈ (ann.map Prod.fst).flatten, n < w.next ∧ Calm.Unused w.ds n
  fresh : ∀ n, w.next ≤ n → Calm.Unused w.ds n
  next : w.next ≠ 0
  zero : 0 ∉ (ann.map Prod.fst).flatten ∧ Calm.Unused w.ds 0
  held : Held M ⟨w.ds, S⟩ X0 (obs M w.msgs ann done)

variable {M : Mode}

theorem toksL_append (a b : List Msg) : toksL M (a ++ b) = toksL M a ++ toksL M b := by
  unfold toksL; rw [List.map_append, List.flatten_append]

theorem toksL_cons (m : Msg) (b : List Msg) : toksL M (m :: b) = toks M m ++ toksL M b := rfl

theorem toksL_one (m : Msg) : toksL M [m] = toks M m := by rw [toksL_cons, toksL_nil, List.append_nil]

/-- The rights of everybody but one goroutine. -/
def rest (M : Mode) (ms : List Msg) (la lb : List Ann) (done : List Nat) : List Tok :=
  toksL M ms ++ (la.map Prod.snd).flatten ++ (lb.map Prod.snd).flatten ++ done.map Tok.own

theorem obs_before {ms : List Msg} {la lb : List Ann} {T : List Nat} {o : List Tok} {done : List Nat} (x : Tok) :
    (obs M ms (la ++ (T, o) :: lb) done).count x = (rest M ms la lb done ++ o).count x := by
  unfold obs rest
  simp only [List.map_append, List.map_cons, List.flatten_append, List.flatten_cons, List.count_append]
  omega

theorem obs_after {ms ms' : List Msg} {la lb : List Ann} {T : List Nat} {o : List Tok} {done : List Nat} (x : Tok) :
    (obs M (ms ++ ms') (la ++ (T, o) :: lb) done).count x = (rest M ms la lb done ++ (o ++ toksL M ms')).count x := by
  unfold obs rest
  rw [toksL_append]
  simp only [List.map_append, List.map_cons, List.flatten_append, List.flatten_cons, List.count_append]
  omega

theorem flatten_mid {a b : List Ann} {x : Ann} :
    ((a ++ x :: b).map Prod.fst).flatten = (a.map Prod.fst).flatten ++ (x.1 ++ (b.map Prod.fst).flatten) := by
  simp

theorem nodup_mid {a b : List Ann} {T T' : List Nat} {o o' : List Tok} (hs : T'.Sublist T)
    (h : ((a ++ (T, o) :: b).map Prod.fst).flatten.Nodup) :
    ((a ++ (T', o') :: b).map Prod.fst).flatten.Nodup := by
  rw [flatten_mid] at *
  exact (List.Sublist.append (List.Sublist.refl _) (hs.append (List.Sublist.refl _))).nodup h

theorem threads_op {s s' : St} {a b : List (Prog Unit)} {p : Prog Unit} {la lb : List Ann}
    {x : Ann} (hl : Le M s s') (h1 : All2 (GoodT M s) a la) (h3 : All2 (GoodT M s) b lb)
    (h2 : GoodT M s' p x) : All2 (GoodT M s') (a ++ p :: b) (la ++ x :: lb) :=
  all2_append (all2_imp (fun _ _ h => Good.le h hl) h1) (.cons h2 (all2_imp (fun _ _ h => Good.le h hl) h3))

theorem OpOK.drop {T T' : List Nat} {o o' : List Tok} {st st' : St} {ms : List Msg} (h : OpOK M T T' o o' st st' ms) :
    OpOK M T [] o [] st st' ms :=
  ⟨h.le, h.inv, fun A hA => (h.held A hA).anti fun x => by simp only [List.count_append, List.count_nil]; omega, h.ownT, h.ownJ,
    fun n hn => (by cases hn), h.msgs⟩

/-- Sending a message. -/
theorem OpOK.send {T : List Nat} {o o' : List Tok} {st : St} {m : Msg} (hi : Inv M st.ds) (hu : ∀ n ∈ T, Calm.Unused st.ds n)
    (hm : MsgOK M st m) (ho : Sub (o' ++ toks M m) o) : OpOK M T T o o' st st [m] where
  le := .refl st
  inv := hi
  held A h := by rw [toksL_one]; exact h.anti (ho.left A)
  ownT _ h h' := absurd h h'
  ownJ _ h h' := absurd h h'
  unused := hu
  msgs x hx := by rw [List.mem_singleton.1 hx]; exact hm

/-- A goroutine performs an operation that does not draw an id. -/
theorem winv_op {w : World} {la lb : List Ann} {T T' : List Nat} {o o' : List Tok} {S S' : Nat → Prop} {done : List Nat}
    (h : WInv M w (la ++ (T, o) :: lb) S done) {a b : List (Prog Unit)} {p' : Prog Unit} {ds' : DS} {ms : List Msg}
    (h1 : All2 (GoodT M ⟨w.ds, S⟩) a la) (h3 : All2 (GoodT M ⟨w.ds, S⟩) b lb) (hsub : T'.Sublist T)
    (hok : OpOK M T T' o o' ⟨w.ds, S⟩ ⟨ds', S'⟩ ms) (hg : Good M p' T' o' ⟨ds', S'⟩ Any) :
    WInv M { ds := ds', msgs := w.msgs ++ ms, threads := a ++ p' :: b, next := w.next } (la ++ (T', o') :: lb) S' done := by
  have hown : ∀ n, n ∈ T → n ∈ ((la ++ (T, o) :: lb).map Prod.fst).flatten := fun n hn => by
    rw [flatten_mid]; exact List.mem_append_right _ (List.mem_append_left _ hn)
  have keep : ∀ n, n ∉ T → Calm.Unused w.ds n → Calm.Unused ds' n := fun n hn hu =>
    ⟨by
      cases hj : ds'.job? n with
      | none => rfl
      | some j => exact absurd (hok.ownJ n hu.job (by rw [hj]; simp)) hn,
     by
      cases hj : ds'.task? n with
      | none => rfl
      | some j => exact absurd (hok.ownT n hu.task (by rw [hj]; simp)) hn⟩
  refine ⟨hok.inv, fun m hm => ?_, threads_op hok.le h1 h3 hg, nodup_mid hsub h.nodup, fun n hn => ?_, fun n hn => ?_, h.next,
    ⟨fun hz => ?_, keep 0 (fun hT => h.zero.1 (hown 0 hT)) h.zero.2⟩, ?_⟩
  · rcases List.mem_append.1 hm with hm | hm
    · exact (h.msgs m hm).mono hok.le
    · exact hok.msgs m hm
  · rw [flatten_mid] at hn
    have hnd := h.nodup
    have hownn := h.own n
    rw [flatten_mid] at hnd hownn
    rw [List.nodup_append] at hnd
    obtain ⟨_, hnd2, hnd3⟩ := hnd
    rw [List.nodup_append] at hnd2
    rcases List.mem_append.1 hn with hn | hn
    · have := hownn (List.mem_append_left _ hn)
      refine ⟨this.1, keep n (fun hT => ?_) this.2⟩
      exact hnd3 n hn n (List.mem_append_left _ hT) rfl
    · rcases List.mem_append.1 hn with hn | hn
      · exact ⟨(hownn (List.mem_append_right _ (List.mem_append_left _ (hsub.subset hn)))).1, hok.unused n hn⟩
      · have := hownn (List.mem_append_right _ (List.mem_append_right _ hn))
        refine ⟨this.1, keep n (fun hT => ?_) this.2⟩
        exact hnd2.2.2 n hT n hn rfl
  · refine keep n (fun hT => ?_) (h.fresh n hn)
    have := (h.own n (hown n hT)).1
    have hn : w.next ≤ n := hn
    omega
  · have h0 := h.zero.1
    rw [flatten_mid] at hz h0
    rcases List.mem_append.1 hz with hz | hz
    · exact h0 (List.mem_append_left _ hz)
    · rcases List.mem_append.1 hz with hz | hz
      · exact h0 (List.mem_append_right _ (List.mem_append_left _ (hsub.subset hz)))
      · exact h0 (List.mem_append_right _ (List.mem_append_right _ hz))
  · exact (hok.held (rest M w.msgs la lb done) (h.held.anti fun x => Nat.le_of_eq (obs_before x).symm)).anti
      fun x => Nat.le_of_eq (obs_after x)

/-- What is recorded of a step: in mode `once` the tasks handed to workers. -/
def ran (M : Mode) (x : Option Nat) : List Nat := if M = .once then x.toList else []

theorem ran_none : ran M none = [] := by unfold ran; split <;> rfl

/-- The set of messages or of goroutines changes, the database does not. -/
theorem WInv.re {w : World} {ann ann' : List Ann} {S : Nat → Prop} {done done' : List Nat} (h : WInv M w ann S done)
    {ms : List Msg} {th : List (Prog Unit)} (hms : ∀ m ∈ ms, MsgOK M ⟨w.ds, S⟩ m) (hth : All2 (GoodT M ⟨w.ds, S⟩) th ann')
    (hsub : (ann'.map Prod.fst).flatten.Sublist (ann.map Prod.fst).flatten)
    (ho : ∀ x, (obs M ms ann' done').count x ≤ (obs M w.msgs ann done).count x) :
    WInv M { w with msgs := ms, threads := th } ann' S done' :=
  ⟨h.db, hms, hth, hsub.nodup h.nodup, fun n hn => h.own n (hsub.subset hn), h.fresh, h.next,
    ⟨fun hz => h.zero.1 (hsub.subset hz), h.zero.2⟩, h.held.anti ho⟩

theorem fst_push (ann : List Ann) (o : List Tok) : ((ann ++ [([], o)]).map Prod.fst).flatten.Sublist (ann.map Prod.fst).flatten := by
  simp

theorem winv_init (M : Mode) : WInv M {} [] (fun _ => False) [] where
  db := ⟨List.nodup_nil, fun n r h => (by cases h), fun n r h => (by cases h), fun n r c h => (by cases h), fun n r h => (by cases h),
    fun n j h => (by cases h), fun n h => (by cases h)⟩
  msgs := fun m h => by cases h
  threads := .nil
  nodup := List.nodup_nil
  own := fun n h => by cases h
  fresh := fun n _ => ⟨rfl, rfl⟩
  next := by decide
  zero := ⟨fun h => (by cases h), rfl, rfl⟩
  held := by
    have ht : ∀ p c, ¬ Tr M ({} : DS) p c := fun p c h => by
      obtain ⟨r, hr⟩ := h.hasTask; cases hr
    have hx : ∀ n, ¬ HasTok (obs M [] [] []) n := fun n h => by
      rcases h with h | h | h <;> cases h
    exact ⟨fun n => Nat.zero_le _, fun n h => absurd h (hx n), fun n r h => absurd (.inr (.inr h)) (hx n), fun n h => h.elim,
      fun p c h => absurd h (ht p c), fun p c h => absurd h (ht p c), fun p h => by cases h⟩

theorem taskQueue_work {q : String} (hq : isTaskQueue q = true) : isWorkQueue q = true := by
  unfold isWorkQueue; rw [hq]; rfl

theorem taskQueue_pending {q : String} (hq : isTaskQueue q = true) : q ≠ QUEUE_PENDING := fun h => by
  rw [h] at hq; revert hq; decide +kernel

theorem winv_step {E : Env} (hE : E.WellFormed) {w w' : World} {ann : List Ann} {S : Nat → Prop} {done : List Nat} {x : Option Nat}
    (h : WInv M w ann S done) (hs : StepM M E w x w') : ∃ ann' S', WInv M w' ann' S' (done ++ ran M x) := by
  cases hs with
  | op a b p p' ds' ms n' ht hp =>
    rw [ran_none, List.append_nil]
    have hth := h.threads
    rw [ht] at hth
    obtain ⟨la, ⟨T, o⟩, lb, rfl, h1, h2, h3⟩ := all2_split hth
    have hown : ∀ n, n ∈ T → n ∈ ((la ++ (T, o) :: lb).map Prod.fst).flatten := fun n hn => by
      rw [flatten_mid]; exact List.mem_append_right _ (List.mem_append_left _ hn)
    have hu : ∀ n ∈ T, Calm.Unused w.ds n := fun n hn => (h.own n (hown n hn)).2
    have hrefl : OpOK M T T o o ⟨w.ds, S⟩ ⟨w.ds, S⟩ [] := OpOK.refl h.db hu
    cases hp with
    | dbOk op k =>
      obtain ⟨_, T', o', S', hsub, hok, hg⟩ := h2.2 ⟨w.ds, S⟩ (Le.refl _) h.db hu
      exact ⟨_, S', winv_op h h1 h3 hsub hok hg⟩
    | dbFail op k _ _ e hM => exact ⟨_, S, winv_op h h1 h3 (List.nil_sublist _) hrefl.drop (h2.1 hM e)⟩
    | dbLost op k _ _ e hM =>
      obtain ⟨_, T', o', S', hsub, hok, hg⟩ := h2.2 ⟨w.ds, S⟩ (Le.refl _) h.db hu
      exact ⟨_, S', winv_op h h1 h3 (List.nil_sublist _) hok.drop ((h2.1 hM e).le hok.le)⟩
    | dbPartial op k _ _ e x hx hM =>
      obtain ⟨h4, _⟩ := h2.2 ⟨w.ds, S⟩ (Le.refl _) h.db hu
      obtain ⟨S', hok⟩ := h4 hM x hx
      exact ⟨_, S', winv_op h h1 h3 (List.nil_sublist _) hok ((h2.1 (by rw [hM]; decide) e).le hok.le)⟩
    | pubOk m k =>
      obtain ⟨hm, _, o', ho, hg⟩ := h2
      exact ⟨_, S, winv_op h h1 h3 (List.Sublist.refl _) (OpOK.send h.db hu hm ho) hg⟩
    | pubFail m k _ _ e hM =>
      obtain ⟨_, h4, _⟩ := h2
      exact ⟨_, S, winv_op h h1 h3 (List.nil_sublist _) hrefl.drop (h4 hM e)⟩
    | pubLost m k _ _ e hM =>
      obtain ⟨hm, h4, o', ho, hg⟩ := h2
      exact ⟨_, S, winv_op h h1 h3 (List.nil_sublist _) (OpOK.send h.db hu hm ho).drop (h4 hM e)⟩
    | nondet k _ _ x => exact ⟨_, S, winv_op h h1 h3 (List.Sublist.refl _) hrefl (h2 x)⟩
    | uuid k =>
      have hnT : ∀ n ∈ ((la ++ (T, o) :: lb).map Prod.fst).flatten, n ≠ w.next := fun n hn he => by
        have := (h.own n hn).1; omega
      refine ⟨la ++ (w.next :: T, o) :: lb, S, ⟨h.db, ?_, threads_op (Le.refl _) h1 h3 (h2 w.next h.next (fun hx =>
        hnT _ (hown _ hx) rfl) fun r hr => ?_), ?_, ?_, ?_, ?_, ⟨fun hz => ?_, h.zero.2⟩, ?_⟩⟩
      · intro m hm
        exact h.msgs m (by simpa using hm)
      · have := (h.fresh w.next (Nat.le_refl _)).task
        rw [show (St.mk w.ds S).ds.task? w.next = w.ds.task? w.next from rfl, this] at hr
        cases hr
      · have hnd := h.nodup
        rw [flatten_mid] at *
        refine (List.perm_middle (l₁ := (la.map Prod.fst).flatten) (a := w.next)
          (l₂ := T ++ (lb.map Prod.fst).flatten)).nodup_iff.2 ?_
        exact List.nodup_cons.2 ⟨fun hx => hnT _ hx rfl, hnd⟩
      · intro n hn
        rw [flatten_mid] at hn
        have hn := (List.perm_middle (l₁ := (la.map Prod.fst).flatten) (a := w.next)
          (l₂ := T ++ (lb.map Prod.fst).flatten)).mem_iff.1 hn
        show n < w.next + 1 ∧ _
        rcases List.mem_cons.1 hn with rfl | hn
        · exact ⟨Nat.lt_succ_self _, h.fresh _ (Nat.le_refl _)⟩
        · have := h.own n (by rw [flatten_mid]; exact hn)
          exact ⟨by omega, this.2⟩
      · intro n hn
        have hn : w.next + 1 ≤ n := hn
        exact h.fresh n (by omega)
      · show w.next + 1 ≠ 0
        omega
      · rw [flatten_mid] at hz
        have hz := (List.perm_middle (l₁ := (la.map Prod.fst).flatten) (a := w.next)
          (l₂ := T ++ (lb.map Prod.fst).flatten)).mem_iff.1 hz
        rcases List.mem_cons.1 hz with hz | hz
        · exact h.next hz.symm
        · exact h.zero.1 (by rw [flatten_mid]; exact hz)
      · refine h.held.anti fun x => ?_
        rw [obs_before (T := T), show (World.mk w.ds (w.msgs ++ []) (a ++ k w.next :: b) (w.next + 1)).msgs = w.msgs from List.append_nil _, obs_before]
  | crash a b p ht =>
    rw [ran_none, List.append_nil]
    have hth := h.threads
    rw [ht] at hth
    obtain ⟨la, ⟨T, o⟩, lb, rfl, h1, h2, h3⟩ := all2_split hth
    refine ⟨la ++ lb, S, h.re h.msgs (all2_append h1 h3) ?_ fun x => ?_⟩
    · rw [flatten_mid, List.map_append, List.flatten_append]
      exact (List.Sublist.refl _).append (List.sublist_append_right _ _)
    · unfold obs
      simp only [List.map_append, List.map_cons, List.flatten_append, List.flatten_cons, List.count_append]
      omega
  | deliver a b m p hm hp hn =>
    rw [ran_none, List.append_nil]
    have hmok := h.msgs m (by rw [hm]; simp)
    have hk : KnownNode M ⟨w.ds, S⟩ m := by
      cases m with
      | task q t => exact fun hM hq => hn hM t (by rw [hq])
      | _ => trivial
    have hg := good_discard (good_coord (T := []) E.C E.fuel hp hmok hk)
    refine ⟨ann ++ [([], toks M m)], S, h.re (fun y hy => h.msgs y ?_) (all2_append h.threads (.cons hg .nil)) (fst_push _ _) fun y => ?_⟩
    · rw [hm]; rcases List.mem_append.1 hy with hy | hy <;> simp [hy]
    · rw [hm]
      unfold obs
      rw [toksL_append, toksL_append, toksL_cons]
      simp only [List.map_append, List.map_cons, List.map_nil, List.flatten_append, List.flatten_cons, List.flatten_nil,
        List.count_append, List.count_nil]
      omega
  | work a b q t r hm hq hr =>
    obtain ⟨ht, hmq⟩ : MsgT M ⟨w.ds, S⟩ t ∧ MsgQ M ⟨w.ds, S⟩ q t := h.msgs (.task q t) (by rw [hm]; simp)
    have hsub : ∀ y ∈ a ++ b, MsgOK M ⟨w.ds, S⟩ y := fun y hy => h.msgs y (by
      rw [hm]; rcases List.mem_append.1 hy with hy | hy <;> simp [hy])
    have hS : M = .noRetry → ∀ c, Tr M w.ds t.parentID c → S t.id := fun hM c hc => hmq.sched hM c hc (.inr (taskQueue_work hq))
    by_cases hM : M = .once
    · have hg := good_discard (good_doHandleTask (M := M) (T := []) (o := []) E.C (hE.worker r hr) ht hS fun hc => by rw [hM] at hc; cases hc)
      refine ⟨ann ++ [([], [])], S, h.re hsub (all2_append h.threads (.cons hg .nil)) (fst_push _ _) fun y => ?_⟩
      have htk : toks M (.task q t) = [.own t.id] := by
        show (if q = QUEUE_PENDING then [Tok.pend t.id] else if M.single (.task q t) then [Tok.own t.id] else []) = _
        rw [if_neg (taskQueue_pending hq), if_pos]
        rw [hM]
        show (decide (q = QUEUE_PENDING) || isWorkQueue q) = true
        rw [taskQueue_work hq]; simp
      have hran : ran M (some t.id) = [t.id] := by unfold ran; rw [if_pos hM]; rfl
      rw [hm, hran]
      unfold obs
      rw [toksL_append, toksL_append, toksL_cons, htk]
      simp only [List.map_append, List.map_cons, List.map_nil, List.flatten_append, List.flatten_cons, List.flatten_nil,
        List.count_append, List.count_nil]
      omega
    · have hran : ran M (some t.id) = [] := by unfold ran; rw [if_neg hM]
      rw [hran, List.append_nil]
      have hg := good_discard (good_doHandleTask (M := M) (T := []) (o := toks M (.task q t)) E.C (hE.worker r hr) ht hS fun hc hsg => by
        show Tok.own t.id ∈ (if q = QUEUE_PENDING then [Tok.pend t.id] else if M.single (.task q t) then [Tok.own t.id] else [])
        rw [if_neg (taskQueue_pending hq), if_pos]
        · exact List.mem_singleton_self _
        · rw [hc]
          show (decide (q = QUEUE_PENDING) || ((isWorkQueue q || decide (q = QUEUE_COMPLETED) || decide (q = QUEUE_ERROR)) && t.single)) = true
          rw [hsg, taskQueue_work hq]; simp)
      refine ⟨ann ++ [([], toks M (.task q t))], S, h.re hsub (all2_append h.threads (.cons hg .nil)) (fst_push _ _) fun y => ?_⟩
      rw [hm]
      unfold obs
      rw [toksL_append, toksL_append, toksL_cons]
      simp only [List.map_append, List.map_cons, List.map_nil, List.flatten_append, List.flatten_cons, List.flatten_nil,
        List.count_append, List.count_nil]
      omega
  | redeliver a b q t hm hq =>
    rw [ran_none, List.append_nil]
    obtain ⟨ht, hmq⟩ : MsgT M ⟨w.ds, S⟩ t ∧ MsgQ M ⟨w.ds, S⟩ q t := h.msgs (.task q t) (by rw [hm]; simp)
    refine ⟨ann, S, h.re (fun y hy => ?_) h.threads (List.Sublist.refl _) fun y => ?_⟩
    · rcases List.mem_append.1 hy with hy | hy
      · exact h.msgs y (by rw [hm]; rcases List.mem_append.1 hy with hy | hy <;> simp [hy])
      · rw [List.mem_singleton.1 hy]
        exact ⟨ht, fun hM c hc _ => hmq.sched hM c hc (.inr (taskQueue_work hq)), fun _ => hmq.queue (taskQueue_work hq)⟩
    · rw [hm]
      unfold obs
      have hmv : Sub (toks M (.task QUEUE_REDELIVERIES t)) (toks M (.task q t)) := toks_move (taskQueue_work hq) (.inl workQueue_redeliveries) rfl rfl
      have := hmv y
      rw [toksL_append, toksL_append, toksL_append, toksL_cons, toksL_cons, toksL_nil]
      simp only [List.count_append, List.count_nil]
      omega
  | lose a b m hm =>
    rw [ran_none, List.append_nil]
    refine ⟨ann, S, h.re (fun y hy => h.msgs y ?_) h.threads (List.Sublist.refl _) fun y => ?_⟩
    · rw [hm]; rcases List.mem_append.1 hy with hy | hy <;> simp [hy]
    · rw [hm]
      unfold obs
      rw [toksL_append, toksL_append, toksL_cons]
      simp only [List.count_append]
      omega
  | dup m hm hs hd =>
    rw [ran_none, List.append_nil]
    refine ⟨ann, S, h.re (fun y hy => ?_) h.threads (List.Sublist.refl _) fun y => ?_⟩
    · rcases List.mem_append.1 hy with hy | hy
      · exact h.msgs y hy
      · rw [List.mem_singleton.1 hy]; exact h.msgs m hm
    · unfold obs
      rw [toksL_append, toksL_one, toks_free hd, List.append_nil]
  | spawn p hp =>
    rw [ran_none, List.append_nil]
    refine ⟨ann ++ [([], [])], S, h.re h.msgs (all2_append h.threads (.cons (good_spawn hE hp) .nil)) (fst_push _ _) fun y => ?_⟩
    unfold obs
    simp
  | nodes ns hq hk =>
    rw [ran_none, List.append_nil]
    have hT : ∀ {p c}, Tr M ({ w.ds with nodes := ns } : DS) p c → Tr M w.ds p c := fun h => ⟨h.mode, h.ne, h.pos, h.row⟩
    have hl : Le M ⟨w.ds, S⟩ ⟨{ w.ds with nodes := ns }, S⟩ :=
      ⟨fun _ r h => ⟨r, h, .refl r⟩, fun _ j h => ⟨j, h, rfl, rfl⟩, fun _ h => h, hk, fun p c _ h => hT h⟩
    have hi : Inv M ({ w.ds with nodes := ns } : DS) := ⟨h.db.keys, h.db.parents, h.db.jobs, fun n r c hr hc => h.db.kids n r c hr (hT hc),
      h.db.nested, h.db.defs, hq⟩
    exact ⟨ann, S, ⟨hi, fun m hm => (h.msgs m hm).mono hl, all2_imp (fun _ _ hg => Good.le hg hl) h.threads, h.nodup,
      fun n hn => ⟨(h.own n hn).1, (h.own n hn).2.job, (h.own n hn).2.task⟩, fun n hn => ⟨(h.fresh n hn).job, (h.fresh n hn).task⟩, h.next,
      ⟨h.zero.1, h.zero.2.job, h.zero.2.task⟩, h.held.keep hl (fun _ => rfl) rfl⟩⟩

theorem winv_steps {E : Env} (hE : E.WellFormed) {w : World} {l : List Nat} (h : StepsM M E {} l w) :
    ∃ ann S, WInv M w ann S (if M = .once then l else []) := by
  suffices K : ∀ w0, StepsM M E w0 l w → w0 = {} → ∃ ann S, WInv M w ann S (if M = .once then l else []) from K _ h rfl
  clear h
  intro w0 h
  induction h with
  | refl => rintro rfl; refine ⟨[], fun _ => False, ?_⟩; rw [ite_self]; exact winv_init M
  | @tail w' w'' l x _ hs ih =>
    intro hw
    obtain ⟨ann, S, h⟩ := ih hw
    obtain ⟨ann', S', h'⟩ := winv_step hE h hs
    refine ⟨ann', S', ?_⟩
    unfold ran at h'
    by_cases hM : M = .once
    · rw [if_pos hM] at h' ⊢; rw [if_pos hM] at h'; exact h'
    · rw [if_neg hM] at h' ⊢; rw [if_neg hM] at h'; exact h'

end Once

theorem StepsM.steps {M : Mode} {E : Env} {w w' : World} {l : List Nat} (h : StepsM M E w l w') : Steps E w w' := by
  induction h with
  | refl => exact .refl _
  | tail _ hs ih => exact .tail ih hs.step

end Tork

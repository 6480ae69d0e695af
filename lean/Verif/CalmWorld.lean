import Verif.CalmHandlers
import Verif.World
import Verif.Drive
/-!
# The fault-free system

`CalmStep` is the step relation of `World.lean` without its faults: operations do not fail by themselves, goroutines end only
by returning, and no message that somebody listens to is lost. The interleaving of the operations of all goroutines is
arbitrary, messages are delivered in any order, and — as the broker may redeliver — any message may be delivered again.
-/

namespace Tork.Calm
open Prog

/-- An operation that does not fail by itself (it may still be refused by the database, `op.run`). -/
inductive OkStep {α : Type} : Prog α → DS → Nat → Prog α → DS → List Msg → Nat → Prop
  | db {γ : Type} (op : DbOp γ) (k) (ds n) :
      OkStep (.db op k) ds n (k (op.run ds).1) (op.run ds).2.1 (op.run ds).2.2 n
  | pub (m : Msg) (k) (ds n) : OkStep (.pub m k) ds n (k (.ok ())) ds [m] n
  | nondet (k : Nat → Prog α) (ds n) (x : Nat) : OkStep (.nondet k) ds n (k x) ds [] n
  | uuid (k : Nat → Prog α) (ds n) : OkStep (.uuid k) ds n (k n) ds [] (n + 1)

/-- Nobody handles this message: no coordinator (`coordinator.go:239-288`) and no worker takes it as work. Left are events
without listener, heartbeats (which touch no job) and messages to a node's private queue. -/
def Unheard (E : Env) (m : Msg) : Prop :=
  coordinatorHandler E.C E.fuel m = none ∧ ∀ q t, m = .task q t → ¬ WorkQueue q

inductive CalmStep (E : Env) : World → World → Prop
  /-- a goroutine performs its next operation -/
  | op (w : World) (a b : List (Prog Unit)) (p p' : Prog Unit) (ds' : DS) (ms : List Msg) (n' : Nat)
      (ht : w.threads = a ++ p :: b) (hp : OkStep p w.ds w.next p' ds' ms n') :
      CalmStep E w { ds := ds', msgs := w.msgs ++ ms, threads := a ++ p' :: b, next := n' }
  /-- a goroutine returns -/
  | finish (w : World) (a b : List (Prog Unit)) (ht : w.threads = a ++ .ret () :: b) :
      CalmStep E w { w with threads := a ++ b }
  /-- a message is delivered to a coordinator -/
  | deliver (w : World) (a b : List Msg) (m : Msg) (p : Prog Res) (hm : w.msgs = a ++ m :: b)
      (hp : coordinatorHandler E.C E.fuel m = some p) :
      CalmStep E w { w with msgs := a ++ b, threads := w.threads ++ [p.discard] }
  /-- a task is delivered to a worker subscribed to its queue -/
  | work (w : World) (a b : List Msg) (q : String) (t : Task) (r : WorkerRun)
      (hm : w.msgs = a ++ Msg.task q t :: b) (hq : WorkQueue q) (hr : E.workerOK r) :
      CalmStep E w { w with msgs := a ++ b, threads := w.threads ++ [(doHandleTask E.C r t).discard] }
  /-- a message nobody takes as work disappears -/
  | drop (w : World) (a b : List Msg) (m : Msg) (hm : w.msgs = a ++ m :: b) (hd : Unheard E m) :
      CalmStep E w { w with msgs := a ++ b }
  /-- any message is delivered once more -/
  | dup (w : World) (m : Msg) (hm : m ∈ w.msgs) : CalmStep E w { w with msgs := w.msgs ++ [m] }
  /-- a user request or a cron entry starts a goroutine -/
  | spawn (w : World) (p : Prog Unit) (hp : Spawn E p) : CalmStep E w { w with threads := w.threads ++ [p] }
  /-- nodes register, change their status, disappear -/
  | nodes (w : World) (ns : List Node) : CalmStep E w { w with ds := { w.ds with nodes := ns } }

inductive CalmSteps (E : Env) : World → World → Prop
  | refl (w : World) : CalmSteps E w w
  | tail {w w' w'' : World} : CalmSteps E w w' → CalmStep E w' w'' → CalmSteps E w w''

/-- Jobs of regular tasks, submitted directly or by a schedule, and middleware that does not swallow tasks. -/
structure CalmEnv (E : Env) : Prop where
  submit : ∀ j, E.submitOK j → RegularJob E.C j
  fire : ∀ sj, E.fireOK sj → RegularJob E.C (scheduledInstance 0 0 sj)
  worker : ∀ r, E.workerOK r → Tame r
  fuel : E.fuel ≠ 0

/-! ## The invariant -/

abbrev GoodT (C : Cfg) (ds : DS) (p : Prog Unit) (a : List Nat × List Nat) : Prop := Good C p a.1 a.2 ds fin

structure CInv (C : Cfg) (w : World) (ann : List (List Nat × List Nat)) : Prop where
  db : Inv C w.ds
  msgs : ∀ m ∈ w.msgs, MsgOK C w.ds m
  threads : All2 (GoodT C w.ds) w.threads ann
  nodup : (ann.map Prod.fst).flatten.Nodup
  own : ∀ n ∈ (ann.map Prod.fst).flatten, n < w.next ∧ Unused w.ds n
  fresh : ∀ n, w.next ≤ n → Unused w.ds n
  next : w.next ≠ 0
  cover : ∀ n, Live w.ds n → (∃ m ∈ w.msgs, n ∈ toks m) ∨ ∃ a ∈ ann, n ∈ a.2

theorem Good.discard {C : Cfg} {α : Type} {p : Prog α} {T o : List Nat} {s : DS} (h : Good C p T o s fin) :
    Good C p.discard T o s fin := by
  refine Good.bind (h.mono fun T o s' a _ (ho : o = []) => ?_)
  exact fun _ _ => ho

theorem good_spawn {E : Env} (hE : CalmEnv E) {p : Prog Unit} (hp : Spawn E p) (s : DS) : Good E.C p [] [] s fin := by
  cases hp with
  | submit u j h => exact (good_apiSubmit (hE.submit j h)).discard
  | cancel id => exact good_apiCancel.discard
  | restart id h => exact good_apiRestart.discard
  | fire sj h => exact good_fire (hE.fire sj h)

theorem not_carries {E : Env} {q : String} {t : Task} (h : Unheard E (.task q t)) : ¬ Carries q := by
  obtain ⟨h1, h2⟩ := h
  unfold coordinatorHandler at h1
  dsimp only at h1
  rintro (h | h | h | h)
  · subst h; revert h1; simp [QUEUE_PENDING, QUEUE_REDELIVERIES]
  · subst h; revert h1; simp [QUEUE_COMPLETED, QUEUE_PENDING, QUEUE_REDELIVERIES]
  · subst h; revert h1; simp [QUEUE_ERROR, QUEUE_STARTED, QUEUE_COMPLETED, QUEUE_PENDING, QUEUE_REDELIVERIES]
  · exact h2 q t rfl h

theorem toks_unheard {E : Env} {m : Msg} (h : Unheard E m) : toks m = [] := by
  cases m with
  | task q t => exact toks_none (not_carries h) t
  | job j => exact absurd h.1 (by simp [coordinatorHandler])
  | _ => rfl

theorem cinv_init (C : Cfg) : CInv C {} [] where
  db := ⟨fun n j h => (by cases h), fun n t h => (by cases h), List.nodup_nil⟩
  msgs := fun m h => by cases h
  threads := .nil
  nodup := List.nodup_nil
  own := fun n h => by cases h
  fresh := fun n _ => ⟨rfl, rfl⟩
  next := by decide
  cover := fun n ⟨j, h, _⟩ => by cases h

theorem flatten_mid {a b : List (List Nat × List Nat)} {x : List Nat × List Nat} :
    ((a ++ x :: b).map Prod.fst).flatten = (a.map Prod.fst).flatten ++ (x.1 ++ (b.map Prod.fst).flatten) := by
  simp

/-- A goroutine's ids are replaced by some of them. -/
theorem nodup_mid {a b : List (List Nat × List Nat)} {T T' o o' : List Nat} (hs : T'.Sublist T)
    (h : ((a ++ (T, o) :: b).map Prod.fst).flatten.Nodup) :
    ((a ++ (T', o') :: b).map Prod.fst).flatten.Nodup := by
  rw [flatten_mid] at *
  exact (List.Sublist.append (List.Sublist.refl _) (hs.append (List.Sublist.refl _))).nodup h

theorem threads_op {C : Cfg} {ds ds' : DS} {a b : List (Prog Unit)} {p : Prog Unit} {la lb : List (List Nat × List Nat)}
    {x : List Nat × List Nat} (hl : Le ds ds') (h1 : All2 (GoodT C ds) a la) (h3 : All2 (GoodT C ds) b lb)
    (h2 : GoodT C ds' p x) : All2 (GoodT C ds') (a ++ p :: b) (la ++ x :: lb) :=
  all2_append (all2_imp (fun _ _ h => Good.le h hl) h1) (.cons h2 (all2_imp (fun _ _ h => Good.le h hl) h3))

theorem cinv_step {E : Env} (hE : CalmEnv E) {w w' : World} {ann : List (List Nat × List Nat)} (h : CInv E.C w ann)
    (hs : CalmStep E w w') : ∃ ann', CInv E.C w' ann' := by
  cases hs with
  | op a b p p' ds' ms n' ht hp =>
    have hth := h.threads
    rw [ht] at hth
    obtain ⟨la, ⟨T, o⟩, lb, rfl, h1, h2, h3⟩ := all2_split hth
    have hown : ∀ n, n ∈ T → n ∈ ((la ++ (T, o) :: lb).map Prod.fst).flatten := fun n hn => by
      rw [flatten_mid]; exact List.mem_append_right _ (List.mem_append_left _ hn)
    have hcov : ∀ o' : List Nat, (∀ n ∈ o, n ∈ o' ∨ ∃ m ∈ ms, n ∈ toks m) → ∀ n,
        ((∃ m ∈ w.msgs, n ∈ toks m) ∨ ∃ x ∈ la ++ (T, o) :: lb, n ∈ x.2) → ∀ T',
        (∃ m ∈ w.msgs ++ ms, n ∈ toks m) ∨ ∃ x ∈ la ++ (T', o') :: lb, n ∈ x.2 := by
      intro o' hoo n hn T'
      rcases hn with ⟨m, hm, hn⟩ | ⟨x, hx, hn⟩
      · exact .inl ⟨m, List.mem_append_left _ hm, hn⟩
      · rcases List.mem_append.1 hx with hx | hx
        · exact .inr ⟨x, List.mem_append_left _ hx, hn⟩
        · rcases List.mem_cons.1 hx with rfl | hx
          · rcases hoo n hn with hn | ⟨m, hm, hn⟩
            · exact .inr ⟨(T', o'), by simp, hn⟩
            · exact .inl ⟨m, List.mem_append_right _ hm, hn⟩
          · exact .inr ⟨x, by simp [hx], hn⟩
    cases hp with
    | db op k =>
      obtain ⟨T', o', hsub, hok, hmsg, hg⟩ := h2 w.ds (Le.refl _) h.db fun n hn => (h.own n (hown n hn)).2
      have keep : ∀ n, n ∉ T → Unused w.ds n → Unused (op.run w.ds).2.1 n := fun n hn hu =>
        ⟨by
          cases hj : (op.run w.ds).2.1.job? n with
          | none => rfl
          | some j => exact absurd (hok.ownJ n hu.job (by rw [hj]; simp)) hn,
         by
          cases hj : (op.run w.ds).2.1.task? n with
          | none => rfl
          | some j => exact absurd (hok.ownT n hu.task (by rw [hj]; simp)) hn⟩
      refine ⟨la ++ (T', o') :: lb, ⟨hok.inv, ?_, threads_op hok.le h1 h3 hg, nodup_mid hsub h.nodup, ?_, ?_, h.next, ?_⟩⟩
      · intro m hm
        rcases List.mem_append.1 hm with hm | hm
        · exact (h.msgs m hm).mono hok.le
        · rw [hmsg] at hm; cases hm
      · intro n hn
        rw [flatten_mid] at hn
        have hnd := h.nodup
        have hownn := h.own n
        rw [flatten_mid] at hnd hownn
        rw [List.nodup_append] at hnd
        obtain ⟨_, hnd2, hnd3⟩ := hnd
        rw [List.nodup_append] at hnd2
        rcases List.mem_append.1 hn with hn | hn
        · have := hownn (List.mem_append_left _ hn)
          refine ⟨this.1, keep n (fun hT => ?_) this.2⟩
          exact hnd3 n hn n (List.mem_append_left _ hT) rfl
        · rcases List.mem_append.1 hn with hn | hn
          · exact ⟨(hownn (List.mem_append_right _ (List.mem_append_left _ (hsub.subset hn)))).1, hok.unused n hn⟩
          · have := hownn (List.mem_append_right _ (List.mem_append_right _ hn))
            refine ⟨this.1, keep n (fun hT => ?_) this.2⟩
            exact hnd2.2.2 n hT n hn rfl
      · intro n hn
        refine keep n (fun hT => ?_) (h.fresh n hn)
        have := (h.own n (hown n hT)).1
        have hn : w.next ≤ n := hn
        omega
      · intro n hl
        have hl : Live (op.run w.ds).2.1 n := hl
        by_cases hno : n ∈ o ∨ ¬ Live w.ds n
        · exact .inr ⟨(T', o'), by simp, hok.cover n hl hno⟩
        · have hlo : Live w.ds n := Classical.byContradiction fun hx => hno (.inr hx)
          rcases h.cover n hlo with ⟨m, hm, hn⟩ | ⟨x, hx, hn⟩
          · exact .inl ⟨m, List.mem_append_left _ hm, hn⟩
          · rcases List.mem_append.1 hx with hx | hx
            · exact .inr ⟨x, List.mem_append_left _ hx, hn⟩
            · rcases List.mem_cons.1 hx with rfl | hx
              · exact absurd (.inl hn) hno
              · exact .inr ⟨x, by simp [hx], hn⟩
    | pub m k =>
      obtain ⟨hm, o', ho, hg⟩ := h2
      refine ⟨la ++ (T, o') :: lb, ⟨h.db, ?_, threads_op (Le.refl _) h1 h3 hg, nodup_mid (List.Sublist.refl _) h.nodup,
        ?_, h.fresh, h.next, ?_⟩⟩
      · intro x hx
        rcases List.mem_append.1 hx with hx | hx
        · exact h.msgs x hx
        · rw [List.mem_singleton.1 hx]; exact hm
      · intro n hn
        refine h.own n ?_
        rw [flatten_mid] at *; exact hn
      · intro n hl
        exact hcov o' (fun n hn => (ho n hn).imp (fun h => h) fun h => ⟨m, List.mem_singleton.2 rfl, h⟩) n (h.cover n hl) T
    | nondet k _ _ x =>
      refine ⟨la ++ (T, o) :: lb, ⟨h.db, ?_, threads_op (Le.refl _) h1 h3 (h2 x), h.nodup, h.own, h.fresh, h.next, ?_⟩⟩
      · intro m hm
        exact h.msgs m (by simpa using hm)
      · intro n hl
        exact hcov o (fun n hn => .inl hn) n (h.cover n hl) T
    | uuid k =>
      have hnT : ∀ n ∈ ((la ++ (T, o) :: lb).map Prod.fst).flatten, n ≠ w.next := fun n hn he => by
        have := (h.own n hn).1; omega
      refine ⟨la ++ (w.next :: T, o) :: lb, ⟨h.db, ?_, threads_op (Le.refl _) h1 h3 (h2 w.next h.next fun hx =>
        hnT _ (hown _ hx) rfl), ?_, ?_, ?_, ?_, ?_⟩⟩
      · intro m hm
        exact h.msgs m (by simpa using hm)
      · have hnd := h.nodup
        rw [flatten_mid] at *
        refine (List.perm_middle (l₁ := (la.map Prod.fst).flatten) (a := w.next)
          (l₂ := T ++ (lb.map Prod.fst).flatten)).nodup_iff.2 ?_
        exact List.nodup_cons.2 ⟨fun hx => hnT _ hx rfl, hnd⟩
      · intro n hn
        rw [flatten_mid] at hn
        have hn := (List.perm_middle (l₁ := (la.map Prod.fst).flatten) (a := w.next)
          (l₂ := T ++ (lb.map Prod.fst).flatten)).mem_iff.1 hn
        show n < w.next + 1 ∧ _
        rcases List.mem_cons.1 hn with rfl | hn
        · exact ⟨Nat.lt_succ_self _, h.fresh _ (Nat.le_refl _)⟩
        · have := h.own n (by rw [flatten_mid]; exact hn)
          exact ⟨by omega, this.2⟩
      · intro n hn
        have hn : w.next + 1 ≤ n := hn
        exact h.fresh n (by omega)
      · show w.next + 1 ≠ 0
        omega
      · intro n hl
        exact hcov o (fun n hn => .inl hn) n (h.cover n hl) _
  | finish a b ht =>
    have hth := h.threads
    rw [ht] at hth
    obtain ⟨la, ⟨T, o⟩, lb, rfl, h1, h2, h3⟩ := all2_split hth
    have ho : o = [] := h2 w.ds (Le.refl _)
    have hsub : ((la ++ lb).map Prod.fst).flatten.Sublist ((la ++ (T, o) :: lb).map Prod.fst).flatten := by
      rw [flatten_mid, List.map_append, List.flatten_append]
      exact (List.Sublist.refl _).append (List.sublist_append_right _ _)
    refine ⟨la ++ lb, ⟨h.db, h.msgs, all2_append h1 h3, hsub.nodup h.nodup, fun n hn => h.own n (hsub.subset hn), h.fresh,
      h.next, fun n hl => ?_⟩⟩
    rcases h.cover n hl with hx | ⟨x, hx, hn⟩
    · exact .inl hx
    · rcases List.mem_append.1 hx with hx | hx
      · exact .inr ⟨x, List.mem_append_left _ hx, hn⟩
      · rcases List.mem_cons.1 hx with rfl | hx
        · rw [ho] at hn; cases hn
        · exact .inr ⟨x, List.mem_append_right _ hx, hn⟩
  | deliver a b m p hm hp =>
    have hmok := h.msgs m (by rw [hm]; simp)
    obtain ⟨fu, hfu⟩ := Nat.exists_eq_succ_of_ne_zero hE.fuel
    rw [hfu] at hp
    have hg := (good_coordinator (T := []) hmok hp).discard
    refine ⟨ann ++ [([], toks m)], ⟨h.db, fun x hx => h.msgs x ?_, all2_append h.threads (.cons hg .nil),
      by simpa using h.nodup, fun n hn => h.own n (by simpa using hn), h.fresh, h.next, fun n hl => ?_⟩⟩
    · rw [hm]; rcases List.mem_append.1 hx with hx | hx <;> simp [hx]
    · rcases h.cover n hl with ⟨x, hx, hn⟩ | ⟨x, hx, hn⟩
      · rw [hm] at hx
        rcases List.mem_append.1 hx with hx | hx
        · exact .inl ⟨x, List.mem_append_left _ hx, hn⟩
        · rcases List.mem_cons.1 hx with rfl | hx
          · exact .inr ⟨([], toks x), by simp, hn⟩
          · exact .inl ⟨x, List.mem_append_right _ hx, hn⟩
      · exact .inr ⟨x, List.mem_append_left _ hx, hn⟩
  | work a b q t r hm hq hr =>
    have hmok : MsgTask E.C w.ds t := h.msgs (.task q t) (by rw [hm]; simp)
    have hg := (good_doHandleTask (T := []) (hE.worker r hr) hmok).discard
    refine ⟨ann ++ [([], [t.jobID])], ⟨h.db, fun x hx => h.msgs x ?_, all2_append h.threads (.cons hg .nil),
      by simpa using h.nodup, fun n hn => h.own n (by simpa using hn), h.fresh, h.next, fun n hl => ?_⟩⟩
    · rw [hm]; rcases List.mem_append.1 hx with hx | hx <;> simp [hx]
    · rcases h.cover n hl with ⟨x, hx, hn⟩ | ⟨x, hx, hn⟩
      · rw [hm] at hx
        rcases List.mem_append.1 hx with hx | hx
        · exact .inl ⟨x, List.mem_append_left _ hx, hn⟩
        · rcases List.mem_cons.1 hx with rfl | hx
          · rw [toks_task (.inr (.inr (.inr hq)))] at hn
            exact .inr ⟨([], [t.jobID]), by simp, hn⟩
          · exact .inl ⟨x, List.mem_append_right _ hx, hn⟩
      · exact .inr ⟨x, List.mem_append_left _ hx, hn⟩
  | drop a b m hm hd =>
    refine ⟨ann, ⟨h.db, fun x hx => h.msgs x ?_, h.threads, h.nodup, h.own, h.fresh, h.next, fun n hl => ?_⟩⟩
    · rw [hm]; rcases List.mem_append.1 hx with hx | hx <;> simp [hx]
    · rcases h.cover n hl with ⟨x, hx, hn⟩ | hx
      · rw [hm] at hx
        rcases List.mem_append.1 hx with hx | hx
        · exact .inl ⟨x, List.mem_append_left _ hx, hn⟩
        · rcases List.mem_cons.1 hx with rfl | hx
          · rw [toks_unheard hd] at hn; cases hn
          · exact .inl ⟨x, List.mem_append_right _ hx, hn⟩
      · exact .inr hx
  | dup m hm =>
    refine ⟨ann, ⟨h.db, fun x hx => ?_, h.threads, h.nodup, h.own, h.fresh, h.next, fun n hl => ?_⟩⟩
    · rcases List.mem_append.1 hx with hx | hx
      · exact h.msgs x hx
      · rw [List.mem_singleton.1 hx]; exact h.msgs m hm
    · exact (h.cover n hl).imp (fun ⟨x, hx, hn⟩ => ⟨x, List.mem_append_left _ hx, hn⟩) fun h => h
  | spawn p hp =>
    refine ⟨ann ++ [([], [])], ⟨h.db, h.msgs, all2_append h.threads (.cons (good_spawn hE hp w.ds) .nil),
      by simpa using h.nodup, fun n hn => h.own n (by simpa using hn), h.fresh, h.next, fun n hl => ?_⟩⟩
    exact (h.cover n hl).imp (fun h => h) fun ⟨x, hx, hn⟩ => ⟨x, List.mem_append_left _ hx, hn⟩
  | nodes ns =>
    have hl : Le w.ds { w.ds with nodes := ns } := ⟨fun _ h => h, fun _ h => h, fun _ h => h⟩
    exact ⟨ann, ⟨⟨h.db.jobs, h.db.tasks, h.db.keysT⟩, fun m hm => (h.msgs m hm).mono hl,
      all2_imp (fun _ _ hg => Good.le hg hl) h.threads, h.nodup, fun n hn => ⟨(h.own n hn).1, (h.own n hn).2.job, (h.own n hn).2.task⟩,
      fun n hn => ⟨(h.fresh n hn).job, (h.fresh n hn).task⟩, h.next, h.cover⟩⟩

theorem cinv_steps {E : Env} (hE : CalmEnv E) {w : World} (h : CalmSteps E {} w) : ∃ ann, CInv E.C w ann := by
  suffices H : ∀ w0, CalmSteps E w0 w → w0 = {} → ∃ ann, CInv E.C w ann from H _ h rfl
  clear h
  intro w0 h
  induction h with
  | refl => rintro rfl; exact ⟨[], cinv_init E.C⟩
  | tail _ hs ih => intro hw; obtain ⟨ann, h⟩ := ih hw; exact cinv_step hE h hs

/-! ## Schedules -/

theorem CalmSteps.trans {E : Env} {a b c : World} (h1 : CalmSteps E a b) (h2 : CalmSteps E b c) : CalmSteps E a c := by
  induction h2 with
  | refl => exact h1
  | tail _ hs ih => exact .tail ih hs

theorem calm_exec (E : Env) (p : Prog Unit) (s : Sys) (a b : List (Prog Unit)) (m0 : List Msg)
    (h : (p.exec s).1 = some ()) :
    CalmSteps E { ds := s.ds, msgs := m0 ++ s.out, threads := a ++ p :: b, next := s.next }
      { ds := (p.exec s).2.ds, msgs := m0 ++ (p.exec s).2.out, threads := a ++ b, next := (p.exec s).2.next } := by
  induction p generalizing s with
  | ret x => exact .tail (.refl _) (.finish _ a b rfl)
  | panic e => cases h
  | db op k ih =>
    have h := ih (op.run s.ds).1 { s with ds := (op.run s.ds).2.1, out := s.out ++ (op.run s.ds).2.2 } h
    refine CalmSteps.trans (.tail (.refl _) (.op _ a b _ _ _ _ _ rfl (.db op k s.ds s.next))) ?_
    simpa [Prog.exec, List.append_assoc] using h
  | pub m k ih =>
    have h := ih (.ok ()) { s with out := s.out ++ [m] } h
    refine CalmSteps.trans (.tail (.refl _) (.op _ a b _ _ _ _ _ rfl (.pub m k s.ds s.next))) ?_
    simpa [Prog.exec, List.append_assoc] using h
  | nondet k ih =>
    have h := ih (s.o s.tick) { s with tick := s.tick + 1 } h
    refine CalmSteps.trans (.tail (.refl _) (.op _ a b _ _ _ _ _ rfl (.nondet k s.ds s.next (s.o s.tick)))) ?_
    simpa [Prog.exec] using h
  | uuid k ih =>
    have h := ih s.next { s with next := s.next + 1 } h
    refine CalmSteps.trans (.tail (.refl _) (.op _ a b _ _ _ _ _ rfl (.uuid k s.ds s.next))) ?_
    simpa [Prog.exec] using h

/-- Did the goroutine `p`, started in `w`, return? -/
def returns (w : World) (p : Prog Unit) : Bool := (p.exec { ds := w.ds, out := [], next := w.next }).1.isSome

theorem calm_run (E : Env) (w : World) (p : Prog Unit) (h : returns w p = true) :
    CalmSteps E { w with threads := w.threads ++ [p] } (w.run p) := by
  have h' : (p.exec { ds := w.ds, out := [], next := w.next }).1 = some () := by
    unfold returns at h
    cases hx : (p.exec { ds := w.ds, out := [], next := w.next }).1 with
    | none => rw [hx] at h; cases h
    | some x => rfl
  have := calm_exec E p { ds := w.ds, out := [], next := w.next } w.threads [] w.msgs h'
  simpa [World.run] using this

/-- Actions of a simple schedule, in which every goroutine runs to its end before the next one starts. -/
inductive Act
  | submit (j : Job)
  | cancel (id : Nat)
  | restart (id : Nat)
  | deliver (i : Nat)
  | work (i : Nat) (r : WorkerRun)
  | again (i : Nat)

def Act.allowed (E : Env) : Act → Prop
  | .submit j => E.submitOK j
  | .restart id => E.restartOK id
  | .work _ r => E.workerOK r
  | _ => True

def World.start (w : World) (p : Prog Unit) : Option World := if returns w p then some (w.run p) else none

def Act.play (E : Env) (w : World) : Act → Option World
  | .submit j => World.start w (apiSubmit none j).discard
  | .cancel id => World.start w (apiCancel id).discard
  | .restart id => World.start w (apiRestart id).discard
  | .deliver i =>
    match w.msgs[i]? with
    | none => none
    | some m =>
      match coordinatorHandler E.C E.fuel m with
      | none => none
      | some p => World.start { w with msgs := w.msgs.take i ++ w.msgs.drop (i + 1) } p.discard
  | .work i r =>
    match w.msgs[i]? with
    | some (.task q t) =>
      if isCoordinatorQueue q || ['x', '-'].isPrefixOf q.toList then none
      else World.start { w with msgs := w.msgs.take i ++ w.msgs.drop (i + 1) } (doHandleTask E.C r t).discard
    | _ => none
  | .again i => (w.msgs[i]?).map fun m => { w with msgs := w.msgs ++ [m] }

/-- Perform a list of actions. -/
def playAll (E : Env) : World → List Act → Option World
  | w, [] => some w
  | w, a :: l => (a.play E w).bind fun w' => playAll E w' l

theorem calm_start {E : Env} {w w' : World} {p : Prog Unit} (h : World.start w p = some w') :
    CalmSteps E { w with threads := w.threads ++ [p] } w' := by
  unfold World.start at h
  split at h
  · cases h; exact calm_run E w p ‹_›
  · cases h

theorem play_sound {E : Env} {w w' : World} {a : Act} (ha : a.allowed E) (h : a.play E w = some w') : CalmSteps E w w' := by
  cases a with
  | submit j => exact (CalmSteps.tail (.refl _) (.spawn w _ (.submit none j ha))).trans (calm_start h)
  | cancel id => exact (CalmSteps.tail (.refl _) (.spawn w _ (.cancel id))).trans (calm_start h)
  | restart id => exact (CalmSteps.tail (.refl _) (.spawn w _ (.restart id ha))).trans (calm_start h)
  | deliver i =>
    unfold Act.play at h
    dsimp only at h
    split at h
    · cases h
    · rename_i m hm
      split at h
      · cases h
      · rename_i p hp
        exact (CalmSteps.tail (.refl _) (.deliver w _ _ m p (split_at hm) hp)).trans (calm_start h)
  | work i r =>
    unfold Act.play at h
    dsimp only at h
    split at h
    · rename_i q t hm
      split at h
      · cases h
      · rename_i hq
        simp only [Bool.or_eq_true, not_or, Bool.not_eq_true] at hq
        refine (CalmSteps.tail (.refl _) (.work w _ _ q t r (split_at hm) ⟨hq.1, fun hx => ?_⟩ ha)).trans (calm_start h)
        exact absurd (List.isPrefixOf_iff_prefix.2 hx) (by rw [hq.2]; decide)
    · cases h
  | again i =>
    unfold Act.play at h
    dsimp only at h
    cases hm : w.msgs[i]? with
    | none => rw [hm] at h; cases h
    | some m =>
      rw [hm] at h
      cases h
      exact .tail (.refl _) (.dup w m (List.mem_of_getElem? hm))

theorem playAll_sound {E : Env} {w w' : World} {l : List Act} (ha : ∀ a ∈ l, a.allowed E) (h : playAll E w l = some w') :
    CalmSteps E w w' := by
  induction l generalizing w with
  | nil => cases h; exact .refl _
  | cons a l ih =>
    unfold playAll at h
    cases hx : a.play E w with
    | none => rw [hx] at h; cases h
    | some w1 =>
      rw [hx] at h
      exact (play_sound (ha a (List.mem_cons_self ..)) hx).trans (ih (fun b hb => ha b (List.mem_cons_of_mem _ hb)) h)

end Tork.Calm

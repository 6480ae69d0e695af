import Verif.FlowWorker
/-! The fault-free system with composite tasks: the tokens cover the needs in every reachable state. -/

namespace Tork.Flow
open Prog Calm

/-- Jobs of sound tasks nested at most `H` deep, submitted directly or by a schedule, and middleware that does not swallow tasks. -/
structure SoundEnv (E : Env) (H : Nat) : Prop where
  submit : ∀ j, E.submitOK j → SoundJob E.C H j ∧ j.parentID = 0
  fire : ∀ sj, E.fireOK sj → SoundJob E.C H (scheduledInstance 0 0 sj)
  worker : ∀ r, E.workerOK r → Tame r
  fuel : H ≤ E.fuel

/-! ## Coverage -/

/-- The obligations at work cover all needs. -/
def Covers (ds : DS) (E : List Edge) (l : List Ob) : Prop :=
  ∀ x : Place, Ob.doom x.1 ∈ l ∨ need ds E x ≤ l.count (.tok x) + inn E x

theorem Covers.mono {ds : DS} {E : List Edge} {l l' : List Ob} (h : Covers ds E l) (hl : ∀ x, l.count x ≤ l'.count x) : Covers ds E l' := by
  intro x
  refine (h x).imp (fun hd => ?_) fun hd => ?_
  · have := hl (.doom x.1)
    have h2 := List.count_pos_iff.2 hd
    exact List.count_pos_iff.1 (by omega)
  · have := hl (.tok x); omega

theorem Covers.op {C : Cfg} {H : Nat} {T T' : List Nat} {o o' A : List Ob} {E E' : List Edge} {ds ds' : DS} {ms : List Msg}
    (hc : Covers ds E (A ++ o)) (h : OpOK C H T T' o o' E E' ds ds' ms) : Covers ds' E' (A ++ (o' ++ toksL C ms)) := by
  intro x
  rcases h.cover x with h1 | h1 | h1
  · exact .inl (List.mem_append_right _ h1)
  · right; rw [List.count_append]; omega
  · rcases hc x with h2 | h2
    · rcases List.mem_append.1 h2 with h2 | h2
      · exact .inl (List.mem_append_left _ h2)
      · rcases h.dooms _ h2 with h3 | h3
        · exact .inl (List.mem_append_right _ h3)
        · right; rw [need_dead h.invE h3]; omega
    · right
      rw [List.count_append] at h2 ⊢
      omega

theorem Covers.pub {ds : DS} {E : List Edge} {o o' A ms : List Ob} (hc : Covers ds E (A ++ o)) (h : PubOK o o' ms) :
    Covers ds E (A ++ (o' ++ ms)) := by
  intro x
  rcases hc x with h2 | h2
  · rcases List.mem_append.1 h2 with h2 | h2
    · exact .inl (List.mem_append_left _ h2)
    · exact .inl (List.mem_append_right _ (h.dooms _ h2))
  · rcases h.cover x with h1 | h1
    · exact .inl (List.mem_append_right _ h1)
    · right
      rw [List.count_append] at h2 ⊢
      omega

/-! ## The invariant -/

abbrev Ann := List Nat × List Ob

abbrev GoodT (C : Cfg) (H : Nat) (ds : DS) (p : Prog Unit) (a : Ann) : Prop := Good C H p a.1 a.2 ds fin

noncomputable def obs (C : Cfg) (ms : List Msg) (ann : List Ann) : List Ob := toksL C ms ++ (ann.map Prod.snd).flatten

structure FInv (C : Cfg) (H : Nat) (w : World) (ann : List Ann) (E : List Edge) : Prop where
  db : Inv C H w.ds
  invE : InvE w.ds E
  msgs : ∀ m ∈ w.msgs, MsgOK C H w.ds m
  threads : All2 (GoodT C H w.ds) w.threads ann
  nodup : (ann.map Prod.fst).flatten.Nodup
  own : ∀ n ∈ (ann.map Prod.fst).flatten, n < w.next ∧ Calm.Unused w.ds n
  fresh : ∀ n, w.next ≤ n → Calm.Unused w.ds n
  next : w.next ≠ 0
  cover : Covers w.ds E (obs C w.msgs ann)

theorem toksL_append {C : Cfg} (a b : List Msg) : toksL C (a ++ b) = toksL C a ++ toksL C b := by
  unfold toksL; rw [List.map_append, List.flatten_append]

theorem toksL_cons {C : Cfg} (m : Msg) (b : List Msg) : toksL C (m :: b) = toks C m ++ toksL C b := rfl

theorem toksL_one {C : Cfg} (m : Msg) : toksL C [m] = toks C m := by rw [toksL_cons, toksL_nil, List.append_nil]

/-- One goroutine takes a step: what it owed becomes what it owes and what it has sent. -/
theorem obs_step {C : Cfg} {ms ms' : List Msg} {la lb : List Ann} {T T' : List Nat} {o o' : List Ob} {x : Ob} :
    (obs C ms (la ++ (T, o) :: lb)).count x = (obs C ms (la ++ lb) ++ o).count x ∧
    (obs C (ms ++ ms') (la ++ (T', o') :: lb)).count x = (obs C ms (la ++ lb) ++ (o' ++ toksL C ms')).count x := by
  unfold obs
  rw [toksL_append]
  simp only [List.map_append, List.map_cons, List.flatten_append, List.flatten_cons, List.count_append]
  omega

theorem Good.discard {C : Cfg} {H : Nat} {α : Type} {p : Prog α} {T : List Nat} {o : List Ob} {s : DS} (h : Good C H p T o s fin) :
    Good C H p.discard T o s fin := by
  refine Good.bind (h.mono fun T o s' a _ (ho : o = []) => ?_)
  exact fun _ _ => ho

theorem good_spawn {E : Env} {H : Nat} (hE : SoundEnv E H) {p : Prog Unit} (hp : Spawn E p) (s : DS) : Good E.C H p [] [] s fin := by
  cases hp with
  | submit u j h => exact (good_apiSubmit (hE.submit j h).1 (hE.submit j h).2).discard
  | cancel id => exact good_apiCancel.discard
  | restart id h => exact good_apiRestart.discard
  | fire sj h => exact good_fire (hE.fire sj h)

theorem toks_unheard {E : Env} {m : Msg} (h : Unheard E m) : toks E.C m = [] := by
  cases m with
  | task q t => exact toks_none (not_carries h) t
  | job j => exact absurd h.1 (by simp [coordinatorHandler])
  | _ => rfl

theorem finv_init (C : Cfg) (H : Nat) : FInv C H {} [] [] where
  db := ⟨fun n j h => (by cases h), fun n t h => (by cases h), List.nodup_nil⟩
  invE := ⟨fun e h => (by cases h), fun e h => (by cases h), fun e h => (by cases h), fun _ => Nat.zero_le _⟩
  msgs := fun m h => by cases h
  threads := .nil
  nodup := List.nodup_nil
  own := fun n h => by cases h
  fresh := fun n _ => ⟨rfl, rfl⟩
  next := by decide
  cover := fun x => .inr (by
    unfold need
    split
    · rw [if_neg (fun ⟨j, h, _⟩ => by cases h)]; exact Nat.zero_le _
    · rw [if_pos (by rfl)]; exact Nat.zero_le _)

theorem flatten_mid {a b : List Ann} {x : Ann} :
    ((a ++ x :: b).map Prod.fst).flatten = (a.map Prod.fst).flatten ++ (x.1 ++ (b.map Prod.fst).flatten) := by
  simp

/-- A goroutine's ids are replaced by some of them. -/
theorem nodup_mid {a b : List Ann} {T T' : List Nat} {o o' : List Ob} (hs : T'.Sublist T)
    (h : ((a ++ (T, o) :: b).map Prod.fst).flatten.Nodup) :
    ((a ++ (T', o') :: b).map Prod.fst).flatten.Nodup := by
  rw [flatten_mid] at *
  exact (List.Sublist.append (List.Sublist.refl _) (hs.append (List.Sublist.refl _))).nodup h

theorem threads_op {C : Cfg} {H : Nat} {ds ds' : DS} {a b : List (Prog Unit)} {p : Prog Unit} {la lb : List Ann}
    {x : Ann} (hl : Le ds ds') (h1 : All2 (GoodT C H ds) a la) (h3 : All2 (GoodT C H ds) b lb)
    (h2 : GoodT C H ds' p x) : All2 (GoodT C H ds') (a ++ p :: b) (la ++ x :: lb) :=
  all2_append (all2_imp (fun _ _ h => Good.le h hl) h1) (.cons h2 (all2_imp (fun _ _ h => Good.le h hl) h3))

theorem used_lt {C : Cfg} {H : Nat} {w : World} {ann : List Ann} {E : List Edge} (h : FInv C H w ann E) {m : Nat} (hm : Used w.ds m) :
    m < w.next := by
  refine Classical.byContradiction fun hn => ?_
  have hf := h.fresh m (by omega)
  rcases hm with ⟨r, hr⟩ | ⟨r, hr⟩
  · rw [hf.task] at hr; cases hr
  · rw [hf.job] at hr; cases hr

theorem finv_step {E : Env} {H : Nat} (hE : SoundEnv E H) {w w' : World} {ann : List Ann} {ed : List Edge} (h : FInv E.C H w ann ed)
    (hs : CalmStep E w w') : ∃ ann' ed', FInv E.C H w' ann' ed' := by
  cases hs with
  | op a b p p' ds' ms n' ht hp =>
    have hth := h.threads
    rw [ht] at hth
    obtain ⟨la, ⟨T, o⟩, lb, rfl, h1, h2, h3⟩ := all2_split hth
    have hown : ∀ n, n ∈ T → n ∈ ((la ++ (T, o) :: lb).map Prod.fst).flatten := fun n hn => by
      rw [flatten_mid]; exact List.mem_append_right _ (List.mem_append_left _ hn)
    have hcov : Covers w.ds ed (obs E.C w.msgs (la ++ lb) ++ o) :=
      h.cover.mono fun x => Nat.le_of_eq (obs_step (ms' := []) (T' := T) (o' := o)).1
    have hback : ∀ {ds' : DS} {ed' : List Edge} {ms : List Msg} (T' : List Nat) (o' : List Ob),
        Covers ds' ed' (obs E.C w.msgs (la ++ lb) ++ (o' ++ toksL E.C ms)) →
        Covers ds' ed' (obs E.C (w.msgs ++ ms) (la ++ (T', o') :: lb)) := fun T' o' hc =>
      hc.mono fun x => Nat.le_of_eq (obs_step (T := T) (o := o)).2.symm
    cases hp with
    | db op k =>
      obtain ⟨T', o', ed', hsub, hok, hg⟩ := h2 w.ds ed (Le.refl _) h.db h.invE fun n hn => (h.own n (hown n hn)).2
      have keep : ∀ n, n ∉ T → Calm.Unused w.ds n → Calm.Unused (op.run w.ds).2.1 n := fun n hn hu =>
        ⟨by
          cases hj : (op.run w.ds).2.1.job? n with
          | none => rfl
          | some j => exact absurd (hok.ownJ n hu.job (by rw [hj]; simp)) hn,
         by
          cases hj : (op.run w.ds).2.1.task? n with
          | none => rfl
          | some j => exact absurd (hok.ownT n hu.task (by rw [hj]; simp)) hn⟩
      refine ⟨la ++ (T', o') :: lb, ed', ⟨hok.inv, hok.invE, ?_, threads_op hok.le h1 h3 hg, nodup_mid hsub h.nodup, ?_, ?_, h.next,
        hback T' o' (hcov.op hok)⟩⟩
      · intro m hm
        rcases List.mem_append.1 hm with hm | hm
        · exact (h.msgs m hm).mono hok.le
        · exact hok.msgs m hm
      · intro n hn
        rw [flatten_mid] at hn
        have hnd := h.nodup
        have hownn := h.own n
        rw [flatten_mid] at hnd hownn
        rw [List.nodup_append] at hnd
        obtain ⟨_, hnd2, hnd3⟩ := hnd
        rw [List.nodup_append] at hnd2
        rcases List.mem_append.1 hn with hn | hn
        · have := hownn (List.mem_append_left _ hn)
          refine ⟨this.1, keep n (fun hT => ?_) this.2⟩
          exact hnd3 n hn n (List.mem_append_left _ hT) rfl
        · rcases List.mem_append.1 hn with hn | hn
          · exact ⟨(hownn (List.mem_append_right _ (List.mem_append_left _ (hsub.subset hn)))).1, hok.unused n hn⟩
          · have := hownn (List.mem_append_right _ (List.mem_append_right _ hn))
            refine ⟨this.1, keep n (fun hT => ?_) this.2⟩
            exact hnd2.2.2 n hT n hn rfl
      · intro n hn
        refine keep n (fun hT => ?_) (h.fresh n hn)
        have := (h.own n (hown n hT)).1
        have hn : w.next ≤ n := hn
        omega
    | pub m k =>
      obtain ⟨hm, o', ho, hg⟩ := h2
      refine ⟨la ++ (T, o') :: lb, ed, ⟨h.db, h.invE, ?_, threads_op (Le.refl _) h1 h3 hg, nodup_mid (List.Sublist.refl _) h.nodup,
        ?_, h.fresh, h.next, hback T o' (by rw [toksL_one]; exact hcov.pub ho)⟩⟩
      · intro x hx
        rcases List.mem_append.1 hx with hx | hx
        · exact h.msgs x hx
        · rw [List.mem_singleton.1 hx]; exact hm
      · intro n hn
        refine h.own n ?_
        rw [flatten_mid] at *; exact hn
    | nondet k _ _ x =>
      refine ⟨la ++ (T, o) :: lb, ed, ⟨h.db, h.invE, ?_, threads_op (Le.refl _) h1 h3 (h2 x), h.nodup, h.own, h.fresh, h.next,
        hback T o (by rw [toksL_nil, List.append_nil o]; exact hcov)⟩⟩
      intro m hm
      exact h.msgs m (by simpa using hm)
    | uuid k =>
      have hnT : ∀ n ∈ ((la ++ (T, o) :: lb).map Prod.fst).flatten, n ≠ w.next := fun n hn he => by
        have := (h.own n hn).1; omega
      refine ⟨la ++ (w.next :: T, o) :: lb, ed, ⟨h.db, h.invE, ?_, threads_op (Le.refl _) h1 h3 (h2 w.next h.next (fun hx =>
        hnT _ (hown _ hx) rfl) fun m hm => used_lt h hm), ?_, ?_, ?_, ?_,
        hback (w.next :: T) o (by rw [toksL_nil, List.append_nil o]; exact hcov)⟩⟩
      · intro m hm
        exact h.msgs m (by simpa using hm)
      · have hnd := h.nodup
        rw [flatten_mid] at *
        refine (List.perm_middle (l₁ := (la.map Prod.fst).flatten) (a := w.next)
          (l₂ := T ++ (lb.map Prod.fst).flatten)).nodup_iff.2 ?_
        exact List.nodup_cons.2 ⟨fun hx => hnT _ hx rfl, hnd⟩
      · intro n hn
        rw [flatten_mid] at hn
        have hn := (List.perm_middle (l₁ := (la.map Prod.fst).flatten) (a := w.next)
          (l₂ := T ++ (lb.map Prod.fst).flatten)).mem_iff.1 hn
        show n < w.next + 1 ∧ _
        rcases List.mem_cons.1 hn with rfl | hn
        · exact ⟨Nat.lt_succ_self _, h.fresh _ (Nat.le_refl _)⟩
        · have := h.own n (by rw [flatten_mid]; exact hn)
          exact ⟨by omega, this.2⟩
      · intro n hn
        have hn : w.next + 1 ≤ n := hn
        exact h.fresh n (by omega)
      · show w.next + 1 ≠ 0
        omega
  | finish a b ht =>
    have hth := h.threads
    rw [ht] at hth
    obtain ⟨la, ⟨T, o⟩, lb, rfl, h1, h2, h3⟩ := all2_split hth
    have ho : o = [] := h2 w.ds (Le.refl _)
    have hsub : ((la ++ lb).map Prod.fst).flatten.Sublist ((la ++ (T, o) :: lb).map Prod.fst).flatten := by
      rw [flatten_mid, List.map_append, List.flatten_append]
      exact (List.Sublist.refl _).append (List.sublist_append_right _ _)
    refine ⟨la ++ lb, ed, ⟨h.db, h.invE, h.msgs, all2_append h1 h3, hsub.nodup h.nodup, fun n hn => h.own n (hsub.subset hn), h.fresh,
      h.next, h.cover.mono fun x => ?_⟩⟩
    have := (obs_step (C := E.C) (ms := w.msgs) (ms' := []) (la := la) (lb := lb) (T := T) (T' := T) (o := o) (o' := o) (x := x)).1
    rw [ho, List.append_nil] at this
    rw [ho]
    exact Nat.le_of_eq this
  | deliver a b m p hm hp =>
    have hmok := h.msgs m (by rw [hm]; simp)
    have hg := (good_coordinator (T := []) hE.fuel hmok hp).discard
    refine ⟨ann ++ [([], toks E.C m)], ed, ⟨h.db, h.invE, fun x hx => h.msgs x ?_, all2_append h.threads (.cons hg .nil),
      by simpa using h.nodup, fun n hn => h.own n (by simpa using hn), h.fresh, h.next, h.cover.mono fun x => ?_⟩⟩
    · rw [hm]; rcases List.mem_append.1 hx with hx | hx <;> simp [hx]
    · show (obs E.C w.msgs ann).count x ≤ (obs E.C (a ++ b) (ann ++ [([], toks E.C m)])).count x
      rw [hm]
      unfold obs
      rw [toksL_append, toksL_append, toksL_cons]
      simp only [List.map_append, List.map_cons, List.map_nil, List.flatten_append, List.flatten_cons, List.flatten_nil,
        List.count_append, List.count_nil]
      omega
  | work a b q t r hm hq hr =>
    have hmok : MsgTask E.C H w.ds t := h.msgs (.task q t) (by rw [hm]; simp)
    have hg := (good_doHandleTask (T := []) (hE.worker r hr) hmok).discard
    have htk : toks E.C (.task q t) = [.tok (tgt t)] := toks_task (.inr (.inr (.inr hq))) (fun hx => by
      have := hq.1
      rw [hx] at this; revert this; decide +kernel) t
    refine ⟨ann ++ [([], [.tok (tgt t)])], ed, ⟨h.db, h.invE, fun x hx => h.msgs x ?_, all2_append h.threads (.cons hg .nil),
      by simpa using h.nodup, fun n hn => h.own n (by simpa using hn), h.fresh, h.next, h.cover.mono fun x => ?_⟩⟩
    · rw [hm]; rcases List.mem_append.1 hx with hx | hx <;> simp [hx]
    · show (obs E.C w.msgs ann).count x ≤ (obs E.C (a ++ b) (ann ++ [([], [.tok (tgt t)])])).count x
      rw [hm]
      unfold obs
      rw [toksL_append, toksL_append, toksL_cons, htk]
      simp only [List.map_append, List.map_cons, List.map_nil, List.flatten_append, List.flatten_cons, List.flatten_nil,
        List.count_append, List.count_nil]
      omega
  | drop a b m hm hd =>
    refine ⟨ann, ed, ⟨h.db, h.invE, fun x hx => h.msgs x ?_, h.threads, h.nodup, h.own, h.fresh, h.next, h.cover.mono fun x => ?_⟩⟩
    · rw [hm]; rcases List.mem_append.1 hx with hx | hx <;> simp [hx]
    · show (obs E.C w.msgs ann).count x ≤ (obs E.C (a ++ b) ann).count x
      rw [hm]
      unfold obs
      rw [toksL_append, toksL_append, toksL_cons, toks_unheard hd]
      exact Nat.le_refl _
  | dup m hm =>
    refine ⟨ann, ed, ⟨h.db, h.invE, fun x hx => ?_, h.threads, h.nodup, h.own, h.fresh, h.next, h.cover.mono fun x => ?_⟩⟩
    · rcases List.mem_append.1 hx with hx | hx
      · exact h.msgs x hx
      · rw [List.mem_singleton.1 hx]; exact h.msgs m hm
    · show (obs E.C w.msgs ann).count x ≤ (obs E.C (w.msgs ++ [m]) ann).count x
      unfold obs
      rw [toksL_append]
      simp only [List.count_append]
      omega
  | spawn p hp =>
    refine ⟨ann ++ [([], [])], ed, ⟨h.db, h.invE, h.msgs, all2_append h.threads (.cons (good_spawn hE hp w.ds) .nil),
      by simpa using h.nodup, fun n hn => h.own n (by simpa using hn), h.fresh, h.next, h.cover.mono fun x => ?_⟩⟩
    show (obs E.C w.msgs ann).count x ≤ (obs E.C w.msgs (ann ++ [([], [])])).count x
    unfold obs
    simp
  | nodes ns =>
    have hl : Le w.ds { w.ds with nodes := ns } := ⟨fun _ r h => ⟨r, h, .refl r⟩, fun _ j h => ⟨j, h, rfl, fun h => h⟩⟩
    have hu : Upd E.C w.ds { w.ds with nodes := ns } :=
      ⟨fun _ r h => ⟨r, h, .refl _ r⟩, fun _ h => h, fun _ j h => ⟨j, h, .refl j⟩, fun _ h => h, rfl⟩
    exact ⟨ann, ed, ⟨hu.inv h.db, h.invE.upd hl (List.Sublist.refl _) (fun e he => h.invE.live e he), fun m hm => (h.msgs m hm).mono hl,
      all2_imp (fun _ _ hg => Good.le hg hl) h.threads, h.nodup, fun n hn => ⟨(h.own n hn).1, (h.own n hn).2.job, (h.own n hn).2.task⟩,
      fun n hn => ⟨(h.fresh n hn).job, (h.fresh n hn).task⟩, h.next, h.cover⟩⟩

theorem finv_steps {E : Env} {H : Nat} (hE : SoundEnv E H) {w : World} (h : CalmSteps E {} w) : ∃ ann ed, FInv E.C H w ann ed := by
  suffices K : ∀ w0, CalmSteps E w0 w → w0 = {} → ∃ ann ed, FInv E.C H w ann ed from K _ h rfl
  clear h
  intro w0 h
  induction h with
  | refl => rintro rfl; exact ⟨[], [], finv_init E.C H⟩
  | tail _ hs ih => intro hw; obtain ⟨ann, ed, h⟩ := ih hw; exact finv_step hE h hs

/-! ## Rest -/

/-- Debts go to older tasks and jobs. -/
def rank (x : Place) : Nat := if x.2 = 0 then x.1 else x.2

theorem rank_tgt {C : Cfg} {H : Nat} {ds : DS} (hi : Inv C H ds) {n : Nat} {r : Task} (hr : ds.task? n = some r) : rank (tgt r) < n := by
  have h1 := hi.parent_lt hr
  have h2 := (hi.tasks _ _ hr).job
  have h3 := (task?_mem hr).2
  unfold rank tgt
  dsimp only
  split <;> omega

theorem rank_lt {C : Cfg} {H : Nat} {ds : DS} {E : List Edge} (hi : Inv C H ds) (he : InvE ds E) {e : Edge} (h : e ∈ E) :
    rank e.2 < rank e.1 := by
  by_cases h0 : e.1.2 = 0
  · obtain ⟨j, S, h1, h2, h3, h4⟩ := he.job e h h0
    have k := rank_tgt hi h3
    obtain ⟨_, _, _, k2⟩ := (hi.jobs _ _ h1).parent h2
    have k3 := (job?_mem h1).2
    rw [h4]
    have : rank e.1 = e.1.1 := by unfold rank; rw [if_pos h0]
    omega
  · obtain ⟨r, h1, h2, h3⟩ := he.task e h h0
    have k := rank_tgt hi h1
    rw [h3]
    have : rank e.1 = e.1.2 := by unfold rank; rw [if_neg h0]
    omega

theorem le_sum_of_mem {l : List Nat} {n : Nat} (h : n ∈ l) : n ≤ l.sum := by
  induction l with
  | nil => cases h
  | cons a l ih =>
    rw [List.sum_cons]
    rcases List.mem_cons.1 h with rfl | h
    · omega
    · have := ih h; omega

/-- With nobody at work there are no debts, and no live job. -/
theorem covers_nil {C : Cfg} {H : Nat} {ds : DS} {E : List Edge} (hi : Inv C H ds) (he : InvE ds E) (hc : Covers ds E []) (J : Nat) :
    ¬ Live ds J := by
  have hneed : ∀ x, need ds E x ≤ inn E x := fun x => by
    rcases hc x with h | h
    · cases h
    · simpa using h
  have hin : ∀ x, 1 ≤ inn E x → ∃ e ∈ E, e.2 = x := fun x hx => by
    obtain ⟨e, h1, h2⟩ := List.countP_pos_iff.1 (show 0 < inn E x from hx)
    exact ⟨e, h1, of_decide_eq_true h2⟩
  have hup : ∀ e ∈ E, ∃ e' ∈ E, rank e.1 < rank e'.1 := fun e h => by
    have hout : out E e.1 ≠ 0 := fun h0 => by
      have := List.countP_eq_zero.1 h0 e h
      simp at this
    have : 1 ≤ need ds E e.1 := by
      unfold need
      by_cases h0 : e.1.2 = 0
      · rw [if_pos h0, if_pos (he.live e h)]; exact Nat.le_refl 1
      · rw [if_neg h0, if_neg hout]; omega
    obtain ⟨e', h1, h2⟩ := hin e.1 (Nat.le_trans this (hneed _))
    exact ⟨e', h1, by rw [← h2]; exact rank_lt hi he h1⟩
  intro hl
  have : 1 ≤ need ds E (J, 0) := by
    unfold need
    rw [if_pos rfl, if_pos hl]; exact Nat.le_refl 1
  obtain ⟨e0, h0, _⟩ := hin _ (Nat.le_trans this (hneed _))
  have key : ∀ k, ∃ e ∈ E, k ≤ rank e.1 := fun k => by
    induction k with
    | zero => exact ⟨e0, h0, Nat.zero_le _⟩
    | succ k ih =>
      obtain ⟨e, h1, h2⟩ := ih
      obtain ⟨e', h3, h4⟩ := hup e h1
      exact ⟨e', h3, by omega⟩
  obtain ⟨e, h1, h2⟩ := key ((E.map fun e => rank e.1).sum + 1)
  have := le_sum_of_mem (List.mem_map.2 ⟨e, h1, rfl⟩ : rank e.1 ∈ E.map fun e => rank e.1)
  omega

end Tork.Flow

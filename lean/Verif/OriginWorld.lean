import Verif.OriginHandlers
/-!
# Where tasks come from: every reachable world

The invariant `Inv` of `Origin.lean` holds in every reachable world, whatever is lost, duplicated, interleaved or killed.
-/

namespace Tork.Origin
open Prog

variable {E : Env}

theorem Recorded.step {w w' : World} {n : Nat} {k v : String} (h : Recorded E w n k v) (hs : Steps E w w') : Recorded E w' n k v := by
  obtain ⟨w0, j, h1, h2, h3⟩ := h
  exact ⟨w0, j, h1, h2.trans hs, h3⟩

theorem Produced.step {w w' : World} {n : Nat} {k v : String} (h : Produced E w n k v) (hs : Steps E w w') : Produced E w' n k v := by
  obtain ⟨a, b, tid, c, c', h1, h2, h3, h4⟩ := h
  exact ⟨a, b, tid, c, c', h1, h2, h3.trans hs, h4⟩

def Value (E : Env) (w : World) (n : Nat) (k v : String) : Prop := Recorded E w n k v ∧ (E.WellFormed → Produced E w n k v)

theorem Value.step {w w' : World} {n : Nat} {k v : String} (h : Value E w n k v) (hs : Steps E w w') : Value E w' n k v :=
  ⟨h.1.step hs, fun hE => (h.2 hE).step hs⟩

theorem mem_mset {m : StrMap} {k v a b : String} (h : (a, b) ∈ mset m k v) : (a, b) ∈ m ∨ a = k ∧ b = v := by
  induction m with
  | nil =>
    rw [mset] at h
    cases List.mem_singleton.1 h
    exact .inr ⟨rfl, rfl⟩
  | cons kv m ih =>
    obtain ⟨x, y⟩ := kv
    rw [mset] at h
    split at h
    · rcases List.mem_cons.1 h with h | h
      · cases h; exact .inr ⟨rfl, rfl⟩
      · exact .inl (List.mem_cons_of_mem _ h)
    · rcases List.mem_cons.1 h with h | h
      · cases h; exact .inl (List.mem_cons_self ..)
      · exact (ih h).imp (List.mem_cons_of_mem _) id

/-- Some time up to now job `n` was at position `k` with context `c`. -/
def Snapped (E : Env) (w : World) (n k : Nat) (c : JobContext) : Prop :=
  ∃ w0 j0, Reachable E w0 ∧ Steps E w0 w ∧ w0.ds.job? n = some j0 ∧ j0.position = k ∧ j0.context = c

theorem Snapped.step {w w' : World} {n k : Nat} {c : JobContext} (h : Snapped E w n k c) (hs : Steps E w w') : Snapped E w' n k c := by
  obtain ⟨w0, j, h1, h2, h3⟩ := h
  exact ⟨w0, j, h1, h2.trans hs, h3⟩

/-- Positions and contexts jobs have had. -/
abbrev Log := Nat → Nat → JobContext → Prop

/-- The log after a step contains the log before it, and what the jobs are after it. -/
def Log.Grows (S S' : Log) (w' : World) : Prop :=
  (∀ n k c, S n k c → S' n k c) ∧ ∀ n j, w'.ds.job? n = some j → S' n j.position j.context

variable {S S' : Log}

structure OInv (E : Env) (S : Log) (w : World) (G : Ghost) (own : List (Option Nat)) : Prop where
  inv : Inv E G w.ds
  msgs : ∀ m ∈ w.msgs, MsgOK E G m
  threads : All2 (fun p T => Good E p G T done) w.threads own
  apart : own.Pairwise fun a b => ∀ n, a = some n → b = some n → False
  own : ∀ n, some n ∈ own → n < w.next ∧ G.defs n = none
  bound : ∀ n d, G.defs n = some d → n < w.next
  vals : ∀ n k v, G.vals n k v → Value E w n k v
  snaps : ∀ n k c, G.snaps n k c → G.stored n → S n k c

theorem good_discard {α : Type} {p : Prog α} {G : Ghost} {T : Option Nat} {post : Ghost → α → Prop} (h : Good E p G T post) :
    Good E p.discard G T done := Good.seq h fun _ _ _ _ => fun _ _ => trivial

theorem all2_le {G G' : Ghost} (hl : G.le G') {l : List (Prog Unit)} {o : List (Option Nat)}
    (h : All2 (fun p T => Good E p G T done) l o) : All2 (fun p T => Good E p G' T done) l o :=
  all2_imp (fun _ _ h => h.le hl) h

/-- A goroutine that owns nothing joins. -/
theorem OInv.join {w : World} {G : Ghost} {o : List (Option Nat)} (h : OInv E S w G o) {p : Prog Unit} (hp : Good E p G none done)
    (ms : List Msg) (hms : ∀ m ∈ ms, MsgOK E G m) (hs : Steps E w { w with msgs := ms, threads := w.threads ++ [p] })
    (hS : S.Grows S' { w with msgs := ms, threads := w.threads ++ [p] }) :
    OInv E S' { w with msgs := ms, threads := w.threads ++ [p] } G (o ++ [none]) where
  inv := h.inv
  msgs := hms
  threads := all2_append h.threads (.cons hp .nil)
  apart := by
    rw [List.pairwise_append]
    refine ⟨h.apart, List.pairwise_singleton _ _, fun a _ b hb n _ h2 => ?_⟩
    rw [List.mem_singleton.1 hb] at h2; cases h2
  own n hn := by
    rcases List.mem_append.1 hn with hn | hn
    · exact h.own n hn
    · cases List.mem_singleton.1 hn
  bound := h.bound
  vals n k v hv := (h.vals n k v hv).step hs
  snaps n k c hc hn := hS.1 _ _ _ (h.snaps n k c hc hn)

/-- Only messages change. -/
theorem OInv.mail {w : World} {G : Ghost} {o : List (Option Nat)} (h : OInv E S w G o)
    (ms : List Msg) (hms : ∀ m ∈ ms, MsgOK E G m) (hs : Steps E w { w with msgs := ms })
    (hS : S.Grows S' { w with msgs := ms }) : OInv E S' { w with msgs := ms } G o :=
  ⟨h.inv, hms, h.threads, h.apart, h.own, h.bound, fun n k v hv => (h.vals n k v hv).step hs,
    fun n k c hc hn => hS.1 _ _ _ (h.snaps n k c hc hn)⟩

theorem oinv_db {w : World} {G G' : Ghost} {a b : List (Prog Unit)} {p' : Prog Unit} {oa ob : List (Option Nat)} {T T' : Option Nat}
    {ds' : DS} {ms : List Msg}
    (h : OInv E S w G (oa ++ T :: ob)) (ha : All2 (fun p T => Good E p G T done) a oa) (hb : All2 (fun p T => Good E p G T done) b ob)
    (hn : Next E G T ds' ms G' T') (hg : Good E p' G' T' done)
    (h0 : Reachable E w) (hr : Reachable E { ds := ds', msgs := w.msgs ++ ms, threads := a ++ p' :: b, next := w.next })
    (hs1 : Step E w { ds := ds', msgs := w.msgs ++ ms, threads := a ++ p' :: b, next := w.next })
    (hS : S.Grows S' { ds := ds', msgs := w.msgs ++ ms, threads := a ++ p' :: b, next := w.next }) :
    OInv E S' { ds := ds', msgs := w.msgs ++ ms, threads := a ++ p' :: b, next := w.next } G' (oa ++ T' :: ob) := by
  have hs := Steps.tail (.refl _) hs1
  have hsub : ∀ n, T' = some n → T = some n := fun n hT => by
    rcases hn.own with h0 | ⟨h0, _⟩
    · rw [h0] at hT; cases hT
    · rw [← h0]; exact hT
  have hap := h.apart
  rw [List.pairwise_append, List.pairwise_cons] at hap
  obtain ⟨p1, ⟨p2, p3⟩, p4⟩ := hap
  have keep : ∀ n, T ≠ some n → G'.defs n = G.defs n := fun n hT =>
    Classical.byContradiction fun hd => hT (hn.defs n hd)
  refine ⟨hn.inv, ?_, all2_append (all2_le hn.le ha) (.cons hg (all2_le hn.le hb)), ?_, ?_, ?_, ?_, ?_⟩
  · intro m hm
    rcases List.mem_append.1 hm with hm | hm
    · exact (h.msgs m hm).mono hn.le
    · exact hn.msgs m hm
  · rw [List.pairwise_append, List.pairwise_cons]
    refine ⟨p1, ⟨fun x hx n h1 h2 => p2 x hx n (hsub n h1) h2, p3⟩, fun x hx y hy n h1 h2 => ?_⟩
    rcases List.mem_cons.1 hy with rfl | hy
    · exact p4 x hx T (List.mem_cons_self ..) n h1 (hsub n h2)
    · exact p4 x hx y (List.mem_cons_of_mem _ hy) n h1 h2
  · intro n hn'
    rcases List.mem_append.1 hn' with hm | hm
    · have := h.own n (List.mem_append_left _ hm)
      exact ⟨this.1, by rw [keep n fun hT => p4 _ hm T (List.mem_cons_self ..) n rfl hT]; exact this.2⟩
    · rcases List.mem_cons.1 hm with hm | hm
      · have := h.own n (hsub n hm.symm ▸ by simp)
        refine ⟨this.1, ?_⟩
        rcases hn.own with h0 | ⟨h0, h5⟩
        · rw [h0] at hm; cases hm
        · exact h5 n (hsub n hm.symm)
      · have := h.own n (List.mem_append_right _ (List.mem_cons_of_mem _ hm))
        exact ⟨this.1, by rw [keep n fun hT => p2 _ hm n hT rfl]; exact this.2⟩
  · intro n d hd
    by_cases hT : T = some n
    · exact (h.own n (hT ▸ by simp)).1
    · rw [keep n hT] at hd; exact h.bound n d hd
  · intro n k v hv
    rcases hn.vals n k v hv with hv | ⟨hst, j, hj, hk⟩
    · exact (h.vals n k v hv).step hs
    · refine ⟨⟨_, j, hr, .refl _, hj, hk⟩, fun hE => ?_⟩
      obtain ⟨j0, hj0⟩ := (h.inv.stored n).1 hst
      have old : (k, v) ∈ j0.context.tasks → Produced E _ n k v := fun hk => by
        have := (h.inv.jobs n j0 hj0).2.1 k v hk
        rw [(job?_mem hj0).2] at this
        exact ((h.vals n k v this).step hs).2 hE
      by_cases hc : j.context = j0.context
      · rw [hc] at hk; exact old hk
      · obtain ⟨tid, c, c', r, e1, e2, e3, ⟨e4, e5, _⟩, e6, e7, e8, e9, -⟩ :=
          (reachable_step (env_safe hE) h0 hs1).context n j0 j hj0 hj hc
        rw [e9] at hk
        rcases mem_mset hk with hk | ⟨rfl, rfl⟩
        · exact old hk
        · exact ⟨w, _, tid, c, c', h0, hs1, .refl _, e1, e2, e3, rfl, e6, e7, e8, e4, e5⟩
  · intro n k c hc hst
    rcases hn.snaps n k c hc with hc | hc
    · have hd := h.inv.snaps n k c hc
      cases hg : G.defs n with
      | none => exact absurd hg hd
      | some d => exact hS.1 _ _ _ (h.snaps n k c hc ((hn.kept n d hg).1 hst))
    · obtain ⟨j, h1, h2, h3⟩ := hc hst
      rw [← h2, ← h3]
      exact hS.2 n j h1

theorem oinv_step {w w' : World} {G : Ghost} {o : List (Option Nat)} (h : OInv E S w G o) (hr0 : Reachable E w) (hst : Step E w w')
    (hS : S.Grows S' w') : ∃ G' o', G.le G' ∧ OInv E S' w' G' o' := by
  have hr' : Reachable E w' := .tail hr0 hst
  have hss : Steps E w w' := .tail (.refl _) hst
  have hsub : ∀ {a b : List Msg} {m : Msg}, w.msgs = a ++ m :: b → MsgOK E G m ∧ ∀ x ∈ a ++ b, MsgOK E G x := fun {a b m} hm => by
    have hw := h.msgs
    rw [hm] at hw
    refine ⟨hw m (by simp), fun x hx => hw x ?_⟩
    rcases List.mem_append.1 hx with hx | hx
    · exact List.mem_append_left _ hx
    · exact List.mem_append_right _ (List.mem_cons_of_mem _ hx)
  have strict : ∀ {q : String}, isTaskQueue q = true → ¬ Loose q := fun {q} hq hl => by
    unfold isTaskQueue at hq
    rw [Bool.and_eq_true] at hq
    rcases hl with rfl | hl
    · exact absurd hq.1 (by decide)
    · rw [hl] at hq; exact absurd hq.2 (by decide)
  have hst' := hst
  cases hst with
  | op a b p p' ds' ms n' ht hp =>
    have hth := h.threads
    rw [ht] at hth
    obtain ⟨oa, T, ob, rfl, h1, h2, h3⟩ := all2_split hth
    have hown : ∀ n, T = some n → G.defs n = none := fun n hT => (h.own n (hT ▸ by simp)).2
    have go : ∀ {γ : Type} {op : DbOp γ} {k : Except Err γ → Prog Unit} {r ds' ms}, Good E (.db op k) G T done → Outcome op w.ds r ds' ms →
        Reachable E { ds := ds', msgs := w.msgs ++ ms, threads := a ++ k r :: b, next := w.next } →
        Step E w { ds := ds', msgs := w.msgs ++ ms, threads := a ++ k r :: b, next := w.next } →
        S.Grows S' { ds := ds', msgs := w.msgs ++ ms, threads := a ++ k r :: b, next := w.next } →
        ∃ G' o', G.le G' ∧ OInv E S' { ds := ds', msgs := w.msgs ++ ms, threads := a ++ k r :: b, next := w.next } G' o' := by
      intro γ op k r ds' ms hg ho hr hs hS
      obtain ⟨G2, T', hn, hk⟩ := hg G w.ds (.refl _) h.inv hown r ds' ms ho
      exact ⟨G2, _, hn.le, oinv_db h h1 h3 hn hk hr0 hr hs hS⟩
    have stay : ∀ ms, (∀ m ∈ ms, MsgOK E G m) → Next E G T w.ds ms G T := fun ms hm =>
      ⟨.refl _, h.inv, hm, fun _ _ _ h => .inl h, fun _ _ _ h => .inl h, fun _ _ _ => Iff.rfl, fun _ h => absurd rfl h, .inr ⟨rfl, hown⟩⟩
    cases hp with
    | dbOk op k => exact go h2 .ok hr' hst' hS
    | dbFail op k _ _ e => exact go h2 (.fail e) hr' hst' hS
    | dbLost op k _ _ e => exact go h2 (.lost e) hr' hst' hS
    | dbPartial op k _ _ e x hx => exact go h2 (.part e x hx) hr' hst' hS
    | pubOk m k => exact ⟨G, _, .refl _, oinv_db h h1 h3 (stay _ fun x hx => List.mem_singleton.1 hx ▸ h2.1) (h2.2 _) hr0 hr' hst' hS⟩
    | pubFail m k _ _ e => exact ⟨G, _, .refl _, oinv_db h h1 h3 (stay _ fun x hx => by cases hx) (h2.2 _) hr0 hr' hst' hS⟩
    | pubLost m k _ _ e => exact ⟨G, _, .refl _, oinv_db h h1 h3 (stay _ fun x hx => List.mem_singleton.1 hx ▸ h2.1) (h2.2 _) hr0 hr' hst' hS⟩
    | nondet k _ _ x => exact ⟨G, _, .refl _, oinv_db h h1 h3 (stay _ fun x hx => by cases hx) (h2 x) hr0 hr' hst' hS⟩
    | uuid k =>
      have hap := h.apart
      rw [List.pairwise_append, List.pairwise_cons] at hap
      obtain ⟨p1, ⟨p2, p3⟩, p4⟩ := hap
      have old : ∀ x ∈ oa ++ ob, x = some w.next → False := fun x hx hxn => by
        subst hxn
        have : some w.next ∈ oa ++ T :: ob := by
          rcases List.mem_append.1 hx with hx | hx
          · exact List.mem_append_left _ hx
          · exact List.mem_append_right _ (List.mem_cons_of_mem _ hx)
        exact absurd (h.own _ this).1 (Nat.lt_irrefl _)
      refine ⟨G, oa ++ some w.next :: ob, .refl _, h.inv, ?_, all2_append h1 (.cons (h2 w.next) h3), ?_, ?_, ?_, ?_, ?_⟩
      · intro m hm
        exact h.msgs m (by simpa using hm)
      · rw [List.pairwise_append, List.pairwise_cons]
        refine ⟨p1, ⟨fun x hx n e1 e2 => ?_, p3⟩, fun x hx y hy n e1 e2 => ?_⟩
        · cases e1; exact old x (List.mem_append_right _ hx) e2
        · rcases List.mem_cons.1 hy with rfl | hy
          · cases e2; exact old x (List.mem_append_left _ hx) e1
          · exact p4 x hx y (List.mem_cons_of_mem _ hy) n e1 e2
      · intro n hn
        have hn' : some n ∈ oa ++ T :: ob ∨ n = w.next := by
          rcases List.mem_append.1 hn with hn | hn
          · exact .inl (List.mem_append_left _ hn)
          · rcases List.mem_cons.1 hn with hn | hn
            · exact .inr (Option.some.inj hn)
            · exact .inl (List.mem_append_right _ (List.mem_cons_of_mem _ hn))
        rcases hn' with hn' | rfl
        · exact ⟨Nat.lt_succ_of_lt (h.own n hn').1, (h.own n hn').2⟩
        · refine ⟨Nat.lt_succ_self _, ?_⟩
          cases hd : G.defs w.next with
          | none => rfl
          | some d => exact absurd (h.bound _ _ hd) (Nat.lt_irrefl _)
      · exact fun n d hd => Nat.lt_succ_of_lt (h.bound n d hd)
      · exact fun n k v hv => (h.vals n k v hv).step hss
      · exact fun n k c hc hn => hS.1 _ _ _ (h.snaps n k c hc hn)
  | crash a b p ht =>
    have hth := h.threads
    rw [ht] at hth
    obtain ⟨oa, T, ob, rfl, h1, h2, h3⟩ := all2_split hth
    have hap := h.apart
    rw [List.pairwise_append, List.pairwise_cons] at hap
    obtain ⟨p1, ⟨p2, p3⟩, p4⟩ := hap
    refine ⟨G, oa ++ ob, .refl _, h.inv, h.msgs, all2_append h1 h3, ?_, ?_, h.bound, fun n k v hv => (h.vals n k v hv).step hss,
      fun n k c hc hn => hS.1 _ _ _ (h.snaps n k c hc hn)⟩
    · rw [List.pairwise_append]
      exact ⟨p1, p3, fun x hx y hy => p4 x hx y (List.mem_cons_of_mem _ hy)⟩
    · intro n hn
      refine h.own n ?_
      rcases List.mem_append.1 hn with hn | hn
      · exact List.mem_append_left _ hn
      · exact List.mem_append_right _ (List.mem_cons_of_mem _ hn)
  | deliver a b m p hm hp =>
    obtain ⟨h1, h2⟩ := hsub hm
    exact ⟨G, _, .refl _, h.join (good_discard (good_coordinator h1 hp)) _ h2 hss hS⟩
  | work a b q t r hm hq hw =>
    obtain ⟨h1, h2⟩ := hsub hm
    exact ⟨G, _, .refl _, h.join (good_discard (good_worker hw (h1.2 (strict hq)).1 ((h1.2 (strict hq)).2.2.1 (.inl hq)))) _ h2 hss hS⟩
  | redeliver a b q t hm hq =>
    obtain ⟨h1, h2⟩ := hsub hm
    refine ⟨G, _, .refl _, h.mail _ (fun x hx => ?_) hss hS⟩
    rcases List.mem_append.1 hx with hx | hx
    · exact h2 x hx
    · rw [List.mem_singleton.1 hx]
      exact ⟨h1.1, fun _ => ⟨(h1.2 (strict hq)).1, (h1.2 (strict hq)).2.1, fun _ => (h1.2 (strict hq)).2.2.1 (.inl hq), (h1.2 (strict hq)).2.2.2.1,
        fun _ => (h1.2 (strict hq)).2.2.2.2 (.inr (.inl hq))⟩⟩
  | lose a b m hm => exact ⟨G, _, .refl _, h.mail _ (hsub hm).2 hss hS⟩
  | dup m hm hs =>
    refine ⟨G, _, .refl _, h.mail _ (fun x hx => ?_) hss hS⟩
    rcases List.mem_append.1 hx with hx | hx
    · exact h.msgs x hx
    · rw [List.mem_singleton.1 hx]; exact h.msgs m hm
  | spawn p hp => exact ⟨G, _, .refl _, h.join (good_spawn hp) _ h.msgs hss hS⟩
  | nodes ns hq =>
    exact ⟨G, o, .refl _, ⟨⟨h.inv.tasks, h.inv.jobs, h.inv.works, h.inv.defs, h.inv.stored, h.inv.snaps, hq, h.inv.keysT, h.inv.results, h.inv.ends⟩, h.msgs, h.threads, h.apart, h.own,
      h.bound, fun n k v hv => (h.vals n k v hv).step hss, fun n k c hc hn => hS.1 _ _ _ (h.snaps n k c hc hn)⟩⟩

theorem oinv_init : OInv E S {} {} [] where
  inv := ⟨fun n t h => (by cases h), fun n j h => (by cases h), fun n k h => (by cases h), fun n d h => (by cases h),
    fun n => ⟨False.elim, fun ⟨j, h⟩ => (by cases h)⟩, fun n k c h => h.elim, fun n h => (by cases h), List.nodup_nil, fun n j h => (by cases h), fun n t h => (by cases h)⟩
  msgs m hm := by cases hm
  threads := .nil
  apart := .nil
  own n h := by cases h
  bound n d h := by cases h
  vals n k v h := h.elim
  snaps n k c h := h.elim

theorem oinv_reachable {w : World} (h : Reachable E w) : ∃ G o, OInv E (Snapped E w) w G o := by
  have : ∀ w0 w1, Steps E w0 w1 → w0 = {} → ∃ G o, OInv E (Snapped E w1) w1 G o := by
    intro w0 w1 hs
    induction hs with
    | refl => rintro rfl; exact ⟨_, _, oinv_init⟩
    | tail hs hst ih =>
      rintro rfl
      obtain ⟨G, o, hi⟩ := ih rfl
      obtain ⟨G', o', _, hi'⟩ := oinv_step hi hs hst (S' := Snapped E _) ⟨fun n k c h => h.step (.tail (.refl _) hst), fun n j hj => ⟨_, j, hs.tail hst, .refl _, hj, rfl, rfl⟩⟩
      exact ⟨G', o', hi'⟩
  exact this _ _ h rfl

/-! ## What the invariant says without ghosts -/

theorem OInv.defined {w : World} {G : Ghost} {o : List (Option Nat)} (h : OInv E S w G o) {n k : Nat} {d : Task} (hj : G.J n k d) :
    Defined w n k d := by
  obtain ⟨h1, f, h2, h3, h4⟩ := hj
  obtain ⟨j, hj⟩ := (h.inv.stored n).1 h1
  have hok := h.inv.jobs n j hj
  have hid : j.id = n := (job?_mem hj).2
  have := hok.1
  rw [hid, h2] at this
  cases this
  exact ⟨j, hj, h3, h4⟩

theorem OInv.context {w : World} {G : Ghost} {o : List (Option Nat)} (h : OInv E S w G o) {n k : Nat} {c : JobContext} (hc : G.Cx n k c) :
    (∃ j, w.ds.job? n = some j ∧ c.inputs = j.context.inputs ∧ c.secrets = j.context.secrets ∧ c.job = j.context.job ∧
      ∀ k v, (k, v) ∈ c.tasks → Recorded E w n k v) ∧ ∃ p, S n p c ∧ max 1 p = k := by
  obtain ⟨h1, ⟨f, h2, h3, h4, h5, h6⟩, p, hp, hk⟩ := hc
  obtain ⟨j, hj⟩ := (h.inv.stored n).1 h1
  have hok := h.inv.jobs n j hj
  have hid : j.id = n := (job?_mem hj).2
  have := hok.1
  rw [hid, h2] at this
  cases this
  exact ⟨⟨j, hj, h3, h4, h5, fun k v hk => (h.vals n k v (h6 k v hk)).1⟩, p, h.snaps n p c hp h1, hk⟩

theorem OInv.contextOf {w : World} {G : Ghost} {o : List (Option Nat)} (h : OInv E (Snapped E w) w G o) {n k : Nat} {c : JobContext} (hc : G.Cx n k c) :
    ContextOf E w n k c := by
  obtain ⟨h1, p, ⟨w0, j0, g1, g2, g3, g4, g5⟩, hk⟩ := h.context hc
  exact ⟨h1, w0, j0, g1, g2, g3, g5, by rw [g4]; exact hk⟩

theorem OInv.row {w : World} {G : Ghost} {o : List (Option Nat)} (h : OInv E S w G o) {t : Task} (ht : TaskOK G t) : Row w t := by
  obtain ⟨⟨r, hr⟩, _⟩ := h.inv.works _ _ ht
  refine ⟨r, hr, ?_⟩
  have := h.inv.tasks _ _ hr
  rw [show G.works t.id = some (key t) from ht] at this
  exact key_eq.1 (Option.some.inj this).symm

theorem OInv.made {w : World} {G : Ghost} {o : List (Option Nat)} (h : OInv E (Snapped E w) w G o) {t : Task} (ht : TaskOK G t) :
    Made E (Defined w) (ContextOf E w) (Row w) t :=
  Made.imp (ht.made h.inv) (fun _ _ _ hj => h.defined hj) (fun _ _ _ hc => h.contextOf hc) fun _ ht => h.row ht

/-- The same in terms of a log of the history. -/
theorem OInv.madeIn {w : World} {G : Ghost} {o : List (Option Nat)} (h : OInv E S w G o) {t : Task} (ht : TaskOK G t) :
    Made E (Defined w) (fun n k c => ∃ p, S n p c ∧ max 1 p = k) (Row w) t :=
  Made.imp (ht.made h.inv) (fun _ _ _ hj => h.defined hj) (fun _ _ _ hc => (h.context hc).2) fun _ ht => h.row ht

/-- A stored task stays the same work. -/
theorem OInv.kept {w w' : World} {G G' : Ghost} {o o' : List (Option Nat)} (h : OInv E S w G o) (h' : OInv E S' w' G' o') (hl : G.le G') {n : Nat} {t t' : Task}
    (ht : w.ds.task? n = some t) (ht' : w'.ds.task? n = some t') : SameWork t t' := by
  have h1 := hl.works _ _ (h.inv.tasks n t ht)
  have h2 := h'.inv.tasks n t' ht'
  rw [h1] at h2
  exact key_eq.1 (Option.some.inj h2)

/-- The same for the worlds of the system. -/
theorem kept_step {w w' : World} (hw : Reachable E w) (hs : Step E w w') {n : Nat} {t t' : Task} (ht : w.ds.task? n = some t)
    (ht' : w'.ds.task? n = some t') : SameWork t t' := by
  obtain ⟨G, o, hi⟩ := oinv_reachable hw
  obtain ⟨G', o', hl, hi'⟩ := oinv_step hi hw hs (S' := fun _ _ _ => True) ⟨fun _ _ _ _ => trivial, fun _ _ _ => trivial⟩
  exact hi.kept hi' hl ht ht'

end Tork.Origin

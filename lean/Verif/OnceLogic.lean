import Verif.Once
/-! The logic of rights: `Good p T o s post` says that program `p`, owning the fresh ids `T` and the rights `o`, never uses more. -/

namespace Tork.Once
open Prog Calm

abbrev Sub (a b : List Tok) : Prop := ∀ x, a.count x ≤ b.count x

theorem Sub.refl (a : List Tok) : Sub a a := fun _ => Nat.le_refl _
theorem Sub.nil (a : List Tok) : Sub [] a := fun _ => Nat.zero_le _
theorem Sub.trans {a b c : List Tok} (h1 : Sub a b) (h2 : Sub b c) : Sub a c := fun x => Nat.le_trans (h1 x) (h2 x)
theorem Sub.left {a b : List Tok} (A : List Tok) (h : Sub a b) : Sub (A ++ a) (A ++ b) := fun x => by
  rw [List.count_append, List.count_append]; have := h x; omega
theorem Sub.mem {a b : List Tok} (h : Sub a b) {x : Tok} (hx : x ∈ a) : x ∈ b := mem_of_count h hx

def X0 : Nat → Nat := fun _ => 0

/-- The effect of one transaction by a goroutine owning the ids `T` and the rights `o`. -/
structure OpOK (M : Mode) (T T' : List Nat) (o o' : List Tok) (st st' : St) (ms : List Msg) : Prop where
  le : Le M st st'
  inv : Inv M st'.ds
  held : ∀ A, Held M st X0 (A ++ o) → Held M st' X0 (A ++ (o' ++ toksL M ms))
  ownT : ∀ n, st.ds.task? n = none → st'.ds.task? n ≠ none → n ∈ T
  ownJ : ∀ n, st.ds.job? n = none → st'.ds.job? n ≠ none → n ∈ T
  unused : ∀ n ∈ T', Calm.Unused st'.ds n
  msgs : ∀ m ∈ ms, MsgOK M st' m

abbrev Post (α : Type) := List Nat → List Tok → St → α → Prop

def Good (M : Mode) {α : Type} : Prog α → List Nat → List Tok → St → Post α → Prop
  | .ret a, T, o, s, post => ∀ s', Le M s s' → ∃ T1 o1, T1.Sublist T ∧ Sub o1 o ∧ post T1 o1 s' a
  | .db op k, T, o, s, post =>
      (M ≠ .calm → ∀ e, Good M (k (.error e)) [] [] s post) ∧
      ∀ st, Le M s st → Inv M st.ds → (∀ n ∈ T, Calm.Unused st.ds n) →
        (M = .once → ∀ x ∈ op.partials st.ds, ∃ S', OpOK M T [] o [] st ⟨x.1, S'⟩ x.2) ∧
        ∃ T' o' S', T'.Sublist T ∧ OpOK M T T' o o' st ⟨(op.run st.ds).2.1, S'⟩ (op.run st.ds).2.2 ∧
          Good M (k (op.run st.ds).1) T' o' ⟨(op.run st.ds).2.1, S'⟩ post
  | .pub m k, T, o, s, post => MsgOK M s m ∧ (M ≠ .calm → ∀ e, Good M (k (.error e)) [] [] s post) ∧
      ∃ o', Sub (o' ++ toks M m) o ∧ Good M (k (.ok ())) T o' s post
  | .nondet k, T, o, s, post => ∀ n, Good M (k n) T o s post
  | .uuid k, T, o, s, post => ∀ n, n ≠ 0 → n ∉ T → (∀ r, s.ds.task? n ≠ some r) → Good M (k n) (n :: T) o s post
  | .panic _, _, _, _, _ => True

variable {M : Mode} {α β γ : Type} {T : List Nat} {o : List Tok} {s : St}

theorem Good.le {p : Prog α} {s' : St} {post : Post α} (h : Good M p T o s post) (hl : Le M s s') : Good M p T o s' post := by
  induction p generalizing T o s s' with
  | ret a => exact fun s'' h' => h s'' (hl.trans h')
  | db op k ih => exact ⟨fun hm e => ih _ (h.1 hm e) hl, fun st hd => h.2 st (hl.trans hd)⟩
  | pub m k ih =>
    obtain ⟨h1, h2, o', h3, h4⟩ := h
    exact ⟨h1.mono hl, fun hm e => ih _ (h2 hm e) hl, o', h3, ih _ h4 hl⟩
  | nondet k ih => exact fun n => ih _ (h n) hl
  | uuid k ih =>
    refine fun n hn hT hu => ih _ (h n hn hT fun r hr => ?_) hl
    obtain ⟨r', k1, _⟩ := hl.tasks _ _ hr
    exact hu r' k1
  | panic s => trivial

theorem OpOK.weak {T T1 T' : List Nat} {o o1 o' : List Tok} {st st' : St} {ms : List Msg} (h : OpOK M T T' o o' st st' ms)
    (hT : T.Sublist T1) (ho : Sub o o1) : OpOK M T1 T' o1 o' st st' ms :=
  ⟨h.le, h.inv, fun A hA => h.held A (hA.anti (ho.left A)), fun n a b => hT.subset (h.ownT n a b), fun n a b => hT.subset (h.ownJ n a b),
    h.unused, h.msgs⟩

/-- More ids and more rights do no harm. -/
theorem Good.weak {p : Prog α} {T1 : List Nat} {o1 : List Tok} {post : Post α} (h : Good M p T o s post) (hT : T.Sublist T1) (ho : Sub o o1) :
    Good M p T1 o1 s post := by
  induction p generalizing T T1 o o1 s with
  | ret a =>
    intro s' hl
    obtain ⟨T2, o2, h1, h2, h3⟩ := h s' hl
    exact ⟨T2, o2, h1.trans hT, h2.trans ho, h3⟩
  | db op k ih =>
    refine ⟨h.1, fun st hd hi hu => ?_⟩
    obtain ⟨hp, T', o', S', h1, h2, h3⟩ := h.2 st hd hi fun n hn => hu n (hT.subset hn)
    refine ⟨fun hm x hx => ?_, T', o', S', h1.trans hT, h2.weak hT ho, h3⟩
    obtain ⟨S', h4⟩ := hp hm x hx
    exact ⟨S', h4.weak hT ho⟩
  | pub m k ih =>
    obtain ⟨h1, h2, o', h3, h4⟩ := h
    exact ⟨h1, h2, o', h3.trans ho, ih _ h4 hT (Sub.refl _)⟩
  | nondet k ih => exact fun n => ih _ (h n) hT ho
  | uuid k ih => exact fun n hn hnT hu => ih _ (h n hn (fun hx => hnT (hT.subset hx)) hu) (hT.cons₂ n) ho
  | panic s => trivial

theorem Good.mono {p : Prog α} {post post' : Post α} (h : Good M p T o s post)
    (hp : ∀ T o s' a, Le M s s' → post T o s' a → post' T o s' a) : Good M p T o s post' := by
  induction p generalizing T o s with
  | ret a =>
    intro s' hl
    obtain ⟨T2, o2, h1, h2, h3⟩ := h s' hl
    exact ⟨T2, o2, h1, h2, hp _ _ _ _ hl h3⟩
  | db op k ih =>
    refine ⟨fun hm e => ih _ (h.1 hm e) hp, fun st hd hi hu => ?_⟩
    obtain ⟨hpp, T', o', S', h1, h2, h3⟩ := h.2 st hd hi hu
    exact ⟨hpp, T', o', S', h1, h2, ih _ h3 fun T o s' a hl => hp T o s' a ((hd.trans h2.le).trans hl)⟩
  | pub m k ih =>
    obtain ⟨h1, h2, o', h3, h4⟩ := h
    exact ⟨h1, fun hm e => ih _ (h2 hm e) hp, o', h3, ih _ h4 hp⟩
  | nondet k ih => exact fun n => ih _ (h n) hp
  | uuid k ih => exact fun n hn hnT hu => ih _ (h n hn hnT hu) hp
  | panic s => trivial

theorem Good.bind {p : Prog α} {f : α → Prog β} {post : Post β}
    (h : Good M p T o s fun T' o' s' a => Good M (f a) T' o' s' post) : Good M (p.bind f) T o s post := by
  induction p generalizing T o s with
  | ret a =>
    obtain ⟨T1, o1, h1, h2, h3⟩ := h s (Le.refl s)
    exact h3.weak h1 h2
  | db op k ih =>
    refine ⟨fun hm e => ih _ (h.1 hm e), fun st hd hi hu => ?_⟩
    obtain ⟨hpp, T', o', S', h1, h2, h3⟩ := h.2 st hd hi hu
    exact ⟨hpp, T', o', S', h1, h2, ih _ h3⟩
  | pub m k ih =>
    obtain ⟨h1, h2, o', h3, h4⟩ := h
    exact ⟨h1, fun hm e => ih _ (h2 hm e), o', h3, ih _ h4⟩
  | nondet k ih => exact fun n => ih _ (h n)
  | uuid k ih => exact fun n hn hnT hu => ih _ (h n hn hnT hu)
  | panic s => trivial

/-- Sequencing with a postcondition. -/
theorem Good.seq {p : Prog α} {f : α → Prog β} {mid : Post α} {post : Post β}
    (h : Good M p T o s mid) (hf : ∀ T' o' s' a, Le M s s' → mid T' o' s' a → Good M (f a) T' o' s' post) :
    Good M (p.bind f) T o s post :=
  Good.bind (h.mono fun T o s' a hl hm => hf T o s' a hl hm)

variable {post : Post α}

theorem good_ret {a : α} (h : ∀ s', Le M s s' → post T o s' a) : Good M (.ret a) T o s post :=
  fun s' hl => ⟨T, o, List.Sublist.refl _, Sub.refl _, h s' hl⟩

theorem good_now {k : Nat → Prog α} (h : ∀ n, Good M (k n) T o s post) : Good M (Prog.now.bind k) T o s post := h
theorem good_seed {k : Nat → Prog α} (h : ∀ n, Good M (k n) T o s post) : Good M (Prog.seed.bind k) T o s post := h
theorem good_uuid {k : Nat → Prog α}
    (h : ∀ n, n ≠ 0 → n ∉ T → (∀ r, s.ds.task? n ≠ some r) → Good M (k n) (n :: T) o s post) :
    Good M (Prog.newUUID.bind k) T o s post := h

/-- Publishing; the error continuation has no rights left. -/
theorem good_pub {m : Msg} {k : Except Err Unit → Prog α} (hm : MsgOK M s m) (o' : List Tok) (ho : Sub (o' ++ toks M m) o)
    (he : M ≠ .calm → ∀ e, Good M (k (.error e)) [] [] s post) (h : Good M (k (.ok ())) T o' s post) :
    Good M ((publish m).bind k) T o s post := ⟨hm, he, o', ho, h⟩

/-! ## Transactions -/

theorem toksL_nil : toksL M [] = [] := rfl

theorem OpOK.refl {st : St} (hi : Inv M st.ds) (hu : ∀ n ∈ T, Calm.Unused st.ds n) : OpOK M T T o o st st [] where
  le := .refl st
  inv := hi
  held A h := by rw [toksL_nil, List.append_nil]; exact h
  ownT _ h h' := absurd h h'
  ownJ _ h h' := absurd h h'
  unused := hu
  msgs _ h := by cases h

/-- A transaction. -/
theorem good_tx {f : DS → Except Err (γ × DS)} {k : Except Err γ → Prog α}
    (he : ∀ T' o' st e, Le M s st → (M = .calm → Inv M st.ds ∧ f st.ds = .error e ∧ Sub o o') → Good M (k (.error e)) T' o' st post)
    (h : ∀ st g ds', Le M s st → Inv M st.ds → (∀ n ∈ T, Calm.Unused st.ds n) → f st.ds = .ok (g, ds') →
      ∃ T' o' S', T'.Sublist T ∧ OpOK M T T' o o' st ⟨ds', S'⟩ [] ∧ Good M (k (.ok g)) T' o' ⟨ds', S'⟩ post) :
    Good M ((tx f).bind k) T o s post := by
  refine ⟨fun hm e => he [] [] s e (.refl s) fun hc => absurd hc hm, fun st hd hi hu => ⟨fun _ x hx => (by cases hx), ?_⟩⟩
  show ∃ T' o' S', T'.Sublist T ∧ OpOK M T T' o o' st ⟨((DbOp.of f).run st.ds).2.1, S'⟩ ((DbOp.of f).run st.ds).2.2 ∧
    Good M (k ((DbOp.of f).run st.ds).1) T' o' ⟨((DbOp.of f).run st.ds).2.1, S'⟩ post
  cases hf : f st.ds with
  | error e =>
    rw [run_of_err hf]
    exact ⟨T, o, st.S, List.Sublist.refl _, OpOK.refl hi hu, he T o st e hd fun _ => ⟨hi, hf, Sub.refl _⟩⟩
  | ok x =>
    obtain ⟨g, ds'⟩ := x
    rw [run_of_ok hf]
    exact h st g ds' hd hi hu hf

/-- A transaction that reads only. -/
theorem good_read {f : DS → Except Err (γ × DS)} {k : Except Err γ → Prog α}
    (hf : ∀ ds g ds', f ds = .ok (g, ds') → ds' = ds)
    (he : ∀ T' o' st e, Le M s st → (M = .calm → Inv M st.ds ∧ f st.ds = .error e ∧ Sub o o') → Good M (k (.error e)) T' o' st post)
    (h : ∀ st g, Le M s st → Inv M st.ds → f st.ds = .ok (g, st.ds) → Good M (k (.ok g)) T o st post) :
    Good M ((tx f).bind k) T o s post := by
  refine good_tx he fun st g ds' hd hi hu hx => ?_
  have e := hf _ _ _ hx
  subst e
  exact ⟨T, o, st.S, List.Sublist.refl _, OpOK.refl hi hu, h st g hd hi hx⟩

theorem good_getJob {id : Nat} {k : Except Err Job → Prog α}
    (he : ∀ T' o' st e, Le M s st → (M = .calm → ¬ HasJob s.ds id ∧ Sub o o') → Good M (k (.error e)) T' o' st post)
    (h : ∀ st j, Le M s st → Inv M st.ds → st.ds.job? id = some j → Good M (k (.ok j)) T o st post) :
    Good M ((tx (getJob id)).bind k) T o s post := by
  refine good_read (fun ds g ds' hg => ?_) (fun T' o' st e hd hx => he T' o' st e hd fun hm => ?_) fun st g hd hi hg => ?_
  · unfold getJob at hg; split at hg
    · exact absurd hg (by simp)
    · cases hg; rfl
  · obtain ⟨_, h1, h2⟩ := hx hm
    refine ⟨fun hj => ?_, h2⟩
    obtain ⟨j, hj⟩ := hd.hasJob hj
    unfold getJob at h1; rw [hj] at h1; cases h1
  · unfold getJob at hg; split at hg
    · exact absurd hg (by simp)
    · cases hg; exact h st _ hd hi ‹_›

theorem good_getTask {id : Nat} {k : Except Err Task → Prog α}
    (he : ∀ T' o' st e, Le M s st → (M = .calm → ¬ HasTask s.ds id ∧ Sub o o') → Good M (k (.error e)) T' o' st post)
    (h : ∀ st j, Le M s st → Inv M st.ds → st.ds.task? id = some j → Good M (k (.ok j)) T o st post) :
    Good M ((tx (getTask id)).bind k) T o s post := by
  refine good_read (fun ds g ds' hg => ?_) (fun T' o' st e hd hx => he T' o' st e hd fun hm => ?_) fun st g hd hi hg => ?_
  · unfold getTask at hg; split at hg
    · exact absurd hg (by simp)
    · cases hg; rfl
  · obtain ⟨_, h1, h2⟩ := hx hm
    refine ⟨fun hj => ?_, h2⟩
    obtain ⟨j, hj⟩ := hd.hasTask hj
    unfold getTask at h1; rw [hj] at h1; cases h1
  · unfold getTask at hg; split at hg
    · exact absurd hg (by simp)
    · cases hg; exact h st _ hd hi ‹_›

theorem good_getNode {id : Nat} {k : Except Err Node → Prog α}
    (he : ∀ T' o' st e, Le M s st → (M = .calm → ¬ (s.ds.node? id).isSome ∧ Sub o o') → Good M (k (.error e)) T' o' st post)
    (h : ∀ st j, Le M s st → Inv M st.ds → isExclusiveQueue j.queue = true → Good M (k (.ok j)) T o st post) :
    Good M ((tx (getNode id)).bind k) T o s post := by
  refine good_read (fun ds g ds' hg => ?_) (fun T' o' st e hd hx => he T' o' st e hd fun hm => ?_) fun st g hd hi hg => ?_
  · unfold getNode at hg; split at hg
    · exact absurd hg (by simp)
    · cases hg; rfl
  · obtain ⟨_, h1, h2⟩ := hx hm
    refine ⟨fun hj => ?_, h2⟩
    have hj := hd.nodes hm id hj
    unfold getNode at h1
    cases hn : st.ds.node? id with
    | none => rw [hn] at hj; cases hj
    | some n => rw [hn] at h1; cases h1
  · unfold getNode at hg; split at hg
    · exact absurd hg (by simp)
    · cases hg
      rename_i hn
      exact h st _ hd hi (hi.nodes _ (List.mem_of_find?_eq_some hn))

theorem good_getActive {id : Nat} {k : Except Err (List Task) → Prog α}
    (he : ∀ T' o' st e, Le M s st → Good M (k (.error e)) T' o' st post)
    (h : ∀ st ts, Le M s st → (∀ t ∈ ts, MsgT M st t) → Good M (k (.ok ts)) T o st post) :
    Good M ((tx (getActiveTasks id)).bind k) T o s post := by
  refine good_read (fun ds g ds' hg => ?_) (fun T' o' st e hd hx => he T' o' st e hd) fun st g hd hi hg => ?_
  · unfold getActiveTasks at hg; cases hg; rfl
  · unfold getActiveTasks at hg
    simp only [Except.ok.injEq, Prod.mk.injEq] at hg
    refine h st g hd fun t ht => ?_
    rw [← hg.1] at ht
    have ht := List.mem_filter.1 ht
    exact hi.msg (task?_of_mem hi.keys ht.1)

end Tork.Once

import Verif.OnceLogic
/-! The transactions of the handlers, in the logic of rights. -/

namespace Tork.Once
open Prog Calm

def Tok.id : Tok → Nat
  | .pend n | .own n | .dead n | .fire n => n

variable {M : Mode} {α γ : Type} {T : List Nat} {o : List Tok} {s : St} {post : Post α}

/-- Every right of the list is about task `n`. -/
def About (n : Nat) (o : List Tok) : Prop := ∀ y ∈ o, y.id = n

theorem About.count {n : Nat} {o : List Tok} (h : About n o) {x : Tok} (hx : x.id ≠ n) : o.count x = 0 :=
  List.count_eq_zero.2 fun hm => hx (h x hm)

theorem About.nil {n : Nat} : About n [] := fun _ h => by cases h
theorem About.single {n : Nat} {x : Tok} (h : x.id = n) : About n [x] := fun y hy => by
  rw [List.mem_singleton] at hy; rw [hy]; exact h
theorem About.fires {n c : Nat} : About n (List.replicate c (.fire n)) := fun y hy => by
  rw [(List.mem_replicate.1 hy).2]; rfl

/-! ## Rows of tasks -/

/-- A row may be changed this way. -/
structure RowOK (M : Mode) (ds : DS) (r u : Task) : Prop where
  same : Same M r (persistTask r u)
  nested : (persistTask r u).Nested
  retry : M = .noRetry → ∀ c, Tr M ds r.parentID c → NoRetry u.retry

theorem rowOK_of {ds : DS} (hi : Inv M ds) {n : Nat} {r u : Task} (hr : ds.task? n = some r) (h1 : u.parallel = r.parallel)
    (h2 : u.each = r.each) (h3 : u.subJob = r.subJob)
    (h4 : M = .noRetry → ∀ c, Tr M ds r.parentID c → NoRetry r.retry → NoRetry u.retry) : RowOK M ds r u := by
  refine ⟨.of rfl rfl h1 h2 h3, ⟨?_, ?_, ?_⟩, fun hm c hc => h4 hm c hc ((hi.kids n r c hr hc).1.2 hm)⟩
  · show ∀ p, u.parallel = some p → _
    rw [h1]; exact (hi.nested n r hr).par
  · show ∀ p, u.each = some p → _
    rw [h2]; exact (hi.nested n r hr).ea
  · show ∀ p, u.subJob = some p → _
    rw [h3]; exact (hi.nested n r hr).sub

theorem task?_set {ds : DS} {id : Nat} {r u : Task} (hr : ds.task? id = some r) (n : Nat) :
    (ds.setTask id u).task? n = if n = id then some (persistTask r u) else ds.task? n := by
  rw [task?_setTask]
  by_cases h : n = id
  · rw [if_pos h, if_pos h, h, hr]; rfl
  · rw [if_neg h, if_neg h]

theorem set_le {st : St} {S' : Nat → Prop} {id : Nat} {r u : Task} (hi : Inv M st.ds) (hr : st.ds.task? id = some r)
    (hu : RowOK M st.ds r u) (hS : ∀ n, st.S n → S' n) : Le M st ⟨st.ds.setTask id u, S'⟩ := by
  refine Le.mk' hi (fun n r0 h0 => ?_) (fun n j hj => ⟨j, hj, rfl, rfl⟩) hS fun n => rfl
  show ∃ r', (st.ds.setTask id u).task? n = some r' ∧ _
  rw [task?_set hr]
  by_cases h : n = id
  · rw [if_pos h]
    rw [h, hr] at h0; cases h0
    exact ⟨_, rfl, hu.same⟩
  · rw [if_neg h]; exact ⟨r0, h0, .refl r0⟩

theorem set_inv {st : St} {id : Nat} {r u : Task} (hi : Inv M st.ds) (hr : st.ds.task? id = some r)
    (hu : RowOK M st.ds r u) : Inv M (st.ds.setTask id u) := by
  have hl : Le M st ⟨st.ds.setTask id u, st.S⟩ := set_le hi hr hu fun n h => h
  have hold : ∀ n r', (st.ds.setTask id u).task? n = some r' → ∃ r0, st.ds.task? n = some r0 ∧ r'.parentID = r0.parentID ∧
      r'.jobID = r0.jobID ∧ (n = id ∧ r0 = r ∧ r' = persistTask r u ∨ r' = r0) := fun n r' hr' => by
    rw [task?_set hr] at hr'
    by_cases h : n = id
    · rw [if_pos h] at hr'; cases hr'
      exact ⟨r, by rw [h]; exact hr, rfl, rfl, .inl ⟨h, rfl, rfl⟩⟩
    · rw [if_neg h] at hr'
      exact ⟨r', hr', rfl, rfl, .inr rfl⟩
  refine ⟨by rw [keys_setTask]; exact hi.keys, fun n r' hr' hp => ?_, fun n r' hr' => ?_, fun n r' c hr' hc => ?_, fun n r' hr' => ?_,
    fun n j hj => ?_, hi.nodes⟩
  · obtain ⟨r0, h1, h2, h3, _⟩ := hold n r' hr'
    rw [h2] at hp ⊢
    exact hl.hasTask (hi.parents n r0 h1 hp)
  · obtain ⟨r0, h1, h2, h3, _⟩ := hold n r' hr'
    rw [h3]; exact hi.jobs n r0 h1
  · obtain ⟨r0, h1, h2, h3, h4⟩ := hold n r' hr'
    rw [h2] at hc
    have hc0 := hl.back _ c (hi.parents n r0 h1 hc.ne) hc
    obtain ⟨k1, k2⟩ := hi.kids n r0 c h1 hc0
    refine ⟨?_, by rw [h3]; exact k2⟩
    rcases h4 with ⟨e1, e2, e3⟩ | e
    · rw [e2] at k1 h1 hc0
      rw [e3]
      refine ⟨?_, fun hm => hu.retry hm c hc0⟩
      rw [hu.same.single]; exact k1.1
    · rw [e]; exact k1
  · obtain ⟨r0, h1, h2, h3, h4⟩ := hold n r' hr'
    rcases h4 with ⟨e1, e2, e3⟩ | e
    · rw [e3]; exact hu.nested
    · rw [e]; exact hi.nested n r0 h1
  · obtain ⟨h1, h2⟩ := hi.defs n j hj
    refine ⟨h1, fun hp => ?_⟩
    obtain ⟨r0, h3, h4⟩ := h2 hp
    obtain ⟨r', h5, h6⟩ := hl.tasks _ _ h3
    exact ⟨r', h5, h6.sub.trans h4⟩

theorem unused_set {ds : DS} {id : Nat} {r u : Task} (hr : ds.task? id = some r) {n : Nat} (h : Calm.Unused ds n) :
    Calm.Unused (ds.setTask id u) n := by
  refine ⟨h.job, ?_⟩
  rw [task?_set hr]
  by_cases hn : n = id
  · have := h.task; rw [hn, hr] at this; cases this
  · rw [if_neg hn]; exact h.task

/-- One row changes. -/
theorem opok_set {st : St} {S' : Nat → Prop} {o' : List Tok} {id : Nat} {r u : Task} (hi : Inv M st.ds) (hr : st.ds.task? id = some r)
    (hu : ∀ n ∈ T, Calm.Unused st.ds n) (h : RowOK M st.ds r u) (hS : ∀ n, st.S n → S' n)
    (hh : ∀ A, Held M st X0 (A ++ o) → Held M ⟨st.ds.setTask id u, S'⟩ X0 (A ++ o')) :
    OpOK M T T o o' st ⟨st.ds.setTask id u, S'⟩ [] where
  le := set_le hi hr h hS
  inv := set_inv hi hr h
  held A hA := by rw [toksL_nil, List.append_nil]; exact hh A hA
  ownT n h1 h2 := by
    exfalso; apply h2
    show (st.ds.setTask id u).task? n = none
    rw [task?_set hr]
    by_cases hn : n = id
    · rw [hn, hr] at h1; cases h1
    · rw [if_neg hn]; exact h1
  ownJ n h1 h2 := absurd h1 h2
  unused n hn := unused_set hr (hu n hn)
  msgs m hm := by cases hm

theorem good_set {id : Nat} {m : Task → Task} {k : Except Err Unit → Prog α}
    (he : ∀ T' o' st e, Le M s st → (M = .calm → ¬ HasTask s.ds id ∧ Sub o o') → Good M (k (.error e)) T' o' st post)
    (h : ∀ st r, Le M s st → Inv M st.ds → st.ds.task? id = some r → RowOK M st.ds r (m r) ∧ ∃ o' S', (∀ n, st.S n → S' n) ∧
      (∀ A, Held M st X0 (A ++ o) → Held M ⟨st.ds.setTask id (m r), S'⟩ X0 (A ++ o')) ∧
      (Le M s ⟨st.ds.setTask id (m r), S'⟩ → Good M (k (.ok ())) T o' ⟨st.ds.setTask id (m r), S'⟩ post)) :
    Good M ((tx (updateTask' id m)).bind k) T o s post := by
  refine good_tx (fun T' o' st e hd hx => he T' o' st e hd fun hm => ?_) fun st g ds' hd hi hu hf => ?_
  · obtain ⟨_, h1, h2⟩ := hx hm
    refine ⟨fun hj => ?_, h2⟩
    obtain ⟨j, hj⟩ := hd.hasTask hj
    unfold updateTask' updateTask at h1; rw [hj] at h1; cases h1
  · unfold updateTask' updateTask at hf
    cases hr : st.ds.task? id with
    | none => rw [hr] at hf; cases hf
    | some r =>
      rw [hr] at hf; cases hf
      obtain ⟨h1, o', S', h2, h3, h4⟩ := h st r hd hi hr
      have hop := opok_set (T := T) hi hr hu h1 h2 h3
      exact ⟨T, o', S', List.Sublist.refl _, hop, h4 (hd.trans hop.le)⟩

/-! ### Keeping the rights -/

/-- The new state `b` uses no place that `a` does not use. -/
structure Lower (a b : TaskState) : Prop where
  work : b.atWork = true → a.atWork = true
  created : b = .created → a = .created
  skipped : b = .skipped → a = .skipped

theorem Lower.refl (a : TaskState) : Lower a a := ⟨fun h => h, fun h => h, fun h => h⟩

theorem held_lower {st : St} {A : List Tok} {id : Nat} {r u : Task} (hi : Inv M st.ds) (hr : st.ds.task? id = some r)
    (hu : RowOK M st.ds r u) (hs : Lower r.state u.state) (h : Held M st X0 A) : Held M ⟨st.ds.setTask id u, st.S⟩ X0 A := by
  have hl : Le M st ⟨st.ds.setTask id u, st.S⟩ := set_le hi hr hu fun n h => h
  have hslot : Slot A id (persistTask r u) → Slot A id r := fun hx => hx.imp hs.work fun x => x
  refine h.set hl hr (r' := persistTask r u) (by show (st.ds.setTask id u).task? id = _; rw [task?_set hr, if_pos rfl])
    (fun m hm => by show (st.ds.setTask id u).task? m = _; rw [task?_set hr, if_neg hm]) (fun m _ => ⟨Nat.le_refl _, Nat.le_refl _, Nat.le_refl _⟩)
    (h.one id) (fun hx hc => ?_) (fun hx => ?_) hs.created (fun hx => .inl hx) (fun m _ hm => hm) (fun hm => ?_)
    (fun p => .inl (Nat.le_refl _)) (fun p _ => Nat.le_refl _) fun c hc => ⟨fun hx => .inl ⟨hslot hx, Nat.le_refl _⟩, fun _ => .inr (Nat.le_refl _)⟩
  · obtain ⟨r0, h1, h2⟩ := h.rows id hx
    rw [hr] at h1; cases h1
    exact h2 (hs.created hc)
  · have h1 := h.dead id r hx hr
    cases hw : (persistTask r u).state.atWork with
    | false => rfl
    | true => rw [hs.work hw] at h1; cases h1
  · obtain ⟨h1, h2, r0, h3, h4, h5⟩ := h.sched id hm
    rw [hr] at h3; cases h3
    exact ⟨h1, h2, fun hc => h4 (hs.created hc), fun hm hc => h5 hm (hs.skipped hc)⟩

/-- A row changes, the rights stay. -/
theorem good_lower {id : Nat} {m : Task → Task} {k : Except Err Unit → Prog α}
    (he : ∀ T' o' st e, Le M s st → (M = .calm → ¬ HasTask s.ds id ∧ Sub o o') → Good M (k (.error e)) T' o' st post)
    (hm : ∀ r, (m r).parallel = r.parallel ∧ (m r).each = r.each ∧ (m r).subJob = r.subJob ∧ (m r).retry = r.retry ∧ Lower r.state (m r).state)
    (h : ∀ s', Le M s s' → Good M (k (.ok ())) T o s' post) :
    Good M ((tx (updateTask' id m)).bind k) T o s post := by
  refine good_set he fun st r hd hi hr => ?_
  obtain ⟨h1, h2, h3, h4, h5⟩ := hm r
  have hok : RowOK M st.ds r (m r) := rowOK_of hi hr h1 h2 h3 fun _ _ _ hx => by rw [h4]; exact hx
  exact ⟨hok, o, st.S, fun n hn => hn, fun A hA => held_lower hi hr hok h5 hA, fun hl => h _ hl⟩

/-! ### Exchanging a right -/

def Tok.main : Tok → Bool
  | .fire _ => false
  | _ => true

theorem hasTok_of {O : List Tok} {x : Tok} (hx : x ∈ O) (hm : x.main = true) : HasTok O x.id := by
  cases x with
  | pend n => exact .inl hx
  | own n => exact .inr (.inl hx)
  | dead n => exact .inr (.inr hx)
  | fire n => cases hm

/-- The holder of a right about `n` is the only one. -/
theorem alone {st : St} {A : List Tok} {x : Tok} {X : Nat → Nat} (h : Held M st X (A ++ [x])) (hm : x.main = true) : ¬ HasTok A x.id := by
  have h1 := h.one x.id
  simp only [List.count_append] at h1
  have h2 : [x].count (.pend x.id) + [x].count (.own x.id) + [x].count (.dead x.id) = 1 := by
    cases x with
    | pend n => simp [Tok.id]
    | own n => simp [Tok.id]
    | dead n => simp [Tok.id]
    | fire n => cases hm
  rintro (hx | hx | hx)
  all_goals
    have := List.count_pos_iff.2 hx
    omega

theorem held_swap {st : St} {S' : Nat → Prop} {A o' : List Tok} {x : Tok} {n : Nat} {r u : Task} (hi : Inv M st.ds)
    (hr : st.ds.task? n = some r) (hu : RowOK M st.ds r u) (hS0 : ∀ n, st.S n → S' n)
    (hid : x.id = n) (hx : x.main = true) (ho' : About n o') (hcnt : o'.count (.pend n) + o'.count (.own n) + o'.count (.dead n) ≤ 1)
    (hc : u.state ≠ .created) (hdead : .dead n ∈ o' → u.state.atWork = false) (hpend : .pend n ∈ o' → x = .pend n)
    (hS : ∀ m, m ≠ n → S' m → st.S m)
    (hSn : S' n → .pend n ∉ o' ∧ (M = .noRetry → .own n ∉ o') ∧ (M = .noRetry → u.state ≠ .skipped))
    (hfire : .fire n ∉ o' ∨ x = .pend n ∧ .pend n ∉ o' ∧ ∀ c, Tr M st.ds n c → o'.count (.fire n) ≤ c)
    (h : Held M st X0 (A ++ [x])) : Held M ⟨st.ds.setTask n u, S'⟩ X0 (A ++ o') := by
  have hl : Le M st ⟨st.ds.setTask n u, S'⟩ := set_le hi hr hu hS0
  have hal := alone h hx
  rw [hid] at hal
  have hxO : x ∈ A ++ [x] := List.mem_append_right _ (List.mem_singleton_self x)
  have hslot : Slot (A ++ [x]) n r := .inr (by rw [← hid]; exact hasTok_of hxO hx)
  have hA : A.count (.pend n) = 0 ∧ A.count (.own n) = 0 ∧ A.count (.dead n) = 0 :=
    ⟨List.count_eq_zero.2 fun h => hal (.inl h), List.count_eq_zero.2 fun h => hal (.inr (.inl h)), List.count_eq_zero.2 fun h => hal (.inr (.inr h))⟩
  have hax : About n [x] := .single hid
  have hcount : ∀ y : Tok, y.id ≠ n → (A ++ o').count y ≤ (A ++ [x]).count y := fun y hy => by
    rw [List.count_append, List.count_append, ho'.count hy]; omega
  refine h.set hl hr (r' := persistTask r u) (by show (st.ds.setTask n u).task? n = _; rw [task?_set hr, if_pos rfl])
    (fun m hm => by show (st.ds.setTask n u).task? m = _; rw [task?_set hr, if_neg hm])
    (fun m hm => ⟨hcount _ hm, hcount _ hm, hcount _ hm⟩) (by simp only [List.count_append]; omega) (fun _ => hc) (fun hd => ?_)
    (fun hx => absurd hx hc) (fun hp => ?_) hS (fun hs => ?_) (fun p => ?_) (fun p _ => Nat.le_refl _)
    fun c hc => ⟨fun _ => .inl ⟨hslot, Nat.le_refl _⟩, fun _ => .inr (Nat.le_refl _)⟩
  · rcases List.mem_append.1 hd with hd | hd
    · exact absurd (.inr (.inr hd)) hal
    · exact hdead hd
  · rcases List.mem_append.1 hp with hp | hp
    · exact absurd (.inl hp) hal
    · exact .inl (by rw [← hpend hp]; exact hxO)
  · obtain ⟨h1, h2, h3⟩ := hSn hs
    refine ⟨fun hp => ?_, fun hm hp => ?_, hc, h3⟩
    · exact (List.mem_append.1 hp).elim (fun hp => hal (.inl hp)) h1
    · exact (List.mem_append.1 hp).elim (fun hp => hal (.inr (.inl hp))) (h2 hm)
  · by_cases hp : p = n
    · subst hp
      rcases hfire with hf | ⟨hf1, hf2, hf3⟩
      · left
        rw [List.count_append, List.count_append, List.count_eq_zero.2 hf]; omega
      · right
        refine ⟨rfl, fun c ht => ?_, by rw [← hf1]; exact hxO, fun hp => ?_, hc⟩
        · have hv := (h.virgin p c ht (.inl (by rw [← hf1]; exact hxO))).2
          have : A.count (.fire p) = 0 := List.count_eq_zero.2 fun h => hv (List.mem_append_left _ h)
          rw [List.count_append, this]
          have := hf3 c ht
          omega
        · exact (List.mem_append.1 hp).elim (fun hp => hal (.inl hp)) hf2
    · exact .inl (hcount _ hp)

/-! ## Rows of jobs -/

theorem job?_set {ds : DS} {id : Nat} {r u : Job} (hr : ds.job? id = some r) (n : Nat) :
    (ds.setJob id u).job? n = if n = id then some (persistJob r u) else ds.job? n := by
  rw [job?_setJob]
  by_cases h : n = id
  · rw [if_pos h, if_pos h, h, hr]; rfl
  · rw [if_neg h, if_neg h]

theorem setJob_le {st : St} {id : Nat} {r u : Job} (hi : Inv M st.ds) (hr : st.ds.job? id = some r) :
    Le M st ⟨st.ds.setJob id u, st.S⟩ := by
  refine Le.mk' hi (fun n r0 h0 => ⟨r0, h0, .refl r0⟩) (fun n j hj => ?_) (fun n h => h) fun n => rfl
  show ∃ j', (st.ds.setJob id u).job? n = some j' ∧ _
  rw [job?_set hr]
  by_cases h : n = id
  · rw [if_pos h]; rw [h, hr] at hj; cases hj; exact ⟨_, rfl, rfl, rfl⟩
  · rw [if_neg h]; exact ⟨j, hj, rfl, rfl⟩

theorem setJob_inv {st : St} {id : Nat} {r u : Job} (hi : Inv M st.ds) (hr : st.ds.job? id = some r) : Inv M (st.ds.setJob id u) := by
  have hl : Le M st ⟨st.ds.setJob id u, st.S⟩ := setJob_le hi hr
  refine ⟨hi.keys, hi.parents, fun n r0 h => hl.hasJob (hi.jobs n r0 h), fun n r0 c h hc => ?_, hi.nested, fun n j hj => ?_, hi.nodes⟩
  · obtain ⟨k1, k2⟩ := hi.kids n r0 c h (hl.back _ c (hi.parents n r0 h hc.ne) hc)
    refine ⟨k1, fun hm => ?_⟩
    obtain ⟨j, h1, h2⟩ := k2 hm
    obtain ⟨j', h3, _, h4⟩ := hl.jobs _ _ h1
    exact ⟨j', h3, by rw [h4]; exact h2⟩
  · rw [job?_set hr] at hj
    by_cases h : n = id
    · rw [if_pos h] at hj; cases hj; exact hi.defs id r hr
    · rw [if_neg h] at hj; exact hi.defs n j hj

theorem opok_setJob {st : St} {id : Nat} {r u : Job} (hi : Inv M st.ds) (hr : st.ds.job? id = some r)
    (hu : ∀ n ∈ T, Calm.Unused st.ds n) : OpOK M T T o o st ⟨st.ds.setJob id u, st.S⟩ [] where
  le := setJob_le hi hr
  inv := setJob_inv hi hr
  held A hA := by rw [toksL_nil, List.append_nil]; exact hA.keep (setJob_le hi hr) (fun n => rfl) rfl
  ownT n h1 h2 := absurd h1 h2
  ownJ n h1 h2 := by
    exfalso; apply h2
    show (st.ds.setJob id u).job? n = none
    rw [job?_set hr]
    by_cases hn : n = id
    · rw [hn, hr] at h1; cases h1
    · rw [if_neg hn]; exact h1
  unused n hn := by
    refine ⟨?_, (hu n hn).task⟩
    show (st.ds.setJob id u).job? n = none
    rw [job?_set hr]
    by_cases h : n = id
    · have := (hu n hn).job; rw [h, hr] at this; cases this
    · rw [if_neg h]; exact (hu n hn).job
  msgs m hm := by cases hm

theorem good_setJob {id : Nat} {m : Job → Except Err (γ × Job)} {k : Except Err γ → Prog α}
    (he : ∀ T' o' st e, Le M s st → (M = .calm → (¬ HasJob s.ds id ∨ ∃ j, m j = .error e) ∧ Sub o o') → Good M (k (.error e)) T' o' st post)
    (h : ∀ s' j g u, Le M s s' → Inv M s'.ds → s'.ds.job? id = some j → m j = .ok (g, u) → Le M s ⟨s'.ds.setJob id u, s'.S⟩ →
      Good M (k (.ok g)) T o ⟨s'.ds.setJob id u, s'.S⟩ post) :
    Good M ((tx (updateJob id m)).bind k) T o s post := by
  refine good_tx (fun T' o' st e hd hx => he T' o' st e hd fun hm => ?_) fun st g ds' hd hi hu hf => ?_
  · obtain ⟨_, h1, h2⟩ := hx hm
    refine ⟨?_, h2⟩
    by_cases hj : HasJob s.ds id
    · obtain ⟨j, hj⟩ := hd.hasJob hj
      unfold updateJob at h1; rw [hj] at h1
      dsimp only at h1
      right; refine ⟨j, ?_⟩
      split at h1
      · rename_i e' h'; cases h1; exact h'
      · cases h1
    · exact .inl hj
  · unfold updateJob at hf
    cases hr : st.ds.job? id with
    | none => rw [hr] at hf; cases hf
    | some r =>
      rw [hr] at hf
      dsimp only at hf
      split at hf
      · cases hf
      · rename_i g' u hmr
        cases hf
        have hop : OpOK M T T o o st ⟨st.ds.setJob id u, st.S⟩ [] := opok_setJob hi hr hu
        exact ⟨T, o, st.S, List.Sublist.refl _, hop, h st r g u hd hi hr hmr (hd.trans hop.le)⟩

theorem good_updJob {id : Nat} {m : Job → Job} {k : Except Err Unit → Prog α}
    (he : ∀ T' o' st e, Le M s st → (M = .calm → ¬ HasJob s.ds id ∧ Sub o o') → Good M (k (.error e)) T' o' st post)
    (h : ∀ s', Le M s s' → Good M (k (.ok ())) T o s' post) :
    Good M ((tx (updateJob' id m)).bind k) T o s post := by
  refine good_setJob (fun T' o' st e hd hx => he T' o' st e hd fun hm => ?_) fun s' j g u hd hi hj hm hl => h _ hl
  obtain ⟨h1, h2⟩ := hx hm
  exact ⟨h1.elim (fun h => h) fun ⟨j, hj⟩ => (by cases hj), h2⟩

/-! ## New rows -/

theorem task?_new {ds : DS} {x : Task} (h : ds.task? x.id = none) (n : Nat) :
    DS.task? { ds with tasks := ds.tasks ++ [taskRow x] } n = if n = x.id then some (taskRow x) else ds.task? n := by
  rw [task?_append]
  show (ds.task? n).or (if x.id = n then some (taskRow x) else none) = _
  by_cases hn : n = x.id
  · rw [if_pos hn, if_pos hn.symm, hn, h]; rfl
  · rw [if_neg hn, if_neg fun h => hn h.symm]
    cases ds.task? n <;> rfl

/-- A task that may be created. -/
structure NewTask (M : Mode) (st : St) (x : Task) : Prop where
  id : x.id ≠ 0
  self : x.parentID ≠ x.id
  nested : x.Nested
  parent : x.parentID ≠ 0 → HasTask st.ds x.parentID
  plain : ∀ c, Tr M st.ds x.parentID c → Plain M x ∧ (M = .noRetry → ∃ j, st.ds.job? x.jobID = some j ∧ NoRetryD j.defaults)

theorem NewTask.mono {st st' : St} {x : Task} (h : NewTask M st x) (hl : Le M st st') : NewTask M st' x := by
  refine ⟨h.id, h.self, h.nested, fun hp => hl.hasTask (h.parent hp), fun c hc => ?_⟩
  obtain ⟨k3, k4⟩ := h.plain c (hl.back _ c (h.parent hc.ne) hc)
  refine ⟨k3, fun hm => ?_⟩
  obtain ⟨j, m1, m2⟩ := k4 hm
  obtain ⟨j', m3, _, m4⟩ := hl.jobs _ _ m1
  exact ⟨j', m3, by rw [m4]; exact m2⟩

theorem new_le {st : St} {x : Task} (hi : Inv M st.ds) (hn : st.ds.task? x.id = none) :
    Le M st ⟨{ st.ds with tasks := st.ds.tasks ++ [taskRow x] }, st.S⟩ := by
  refine Le.mk' hi (fun n r0 h0 => ⟨r0, ?_, .refl r0⟩) (fun n j hj => ⟨j, hj, rfl, rfl⟩) (fun n h => h) fun n => rfl
  show DS.task? { st.ds with tasks := st.ds.tasks ++ [taskRow x] } n = some r0
  rw [task?_new hn, if_neg]
  · exact h0
  · intro e; rw [e, hn] at h0; cases h0

theorem new_inv {st : St} {x : Task} (hi : Inv M st.ds) (hn : st.ds.task? x.id = none) (hj : HasJob st.ds x.jobID)
    (h : NewTask M st x) : Inv M { st.ds with tasks := st.ds.tasks ++ [taskRow x] } := by
  have hl := new_le (x := x) hi hn
  have hold : ∀ n r', DS.task? { st.ds with tasks := st.ds.tasks ++ [taskRow x] } n = some r' →
      n = x.id ∧ r' = taskRow x ∨ n ≠ x.id ∧ st.ds.task? n = some r' := fun n r' hr' => by
    rw [task?_new hn] at hr'
    by_cases he : n = x.id
    · rw [if_pos he] at hr'; cases hr'; exact .inl ⟨he, rfl⟩
    · rw [if_neg he] at hr'; exact .inr ⟨he, hr'⟩
  refine ⟨?_, fun n r' hr' hp => ?_, fun n r' hr' => ?_, fun n r' c hr' hc => ?_, fun n r' hr' => ?_, fun n j hj => ?_, hi.nodes⟩
  · show ((st.ds.tasks ++ [taskRow x]).map (·.id)).Nodup
    rw [List.map_append, List.nodup_append]
    refine ⟨hi.keys, List.nodup_singleton _, fun a ha b hb e => ?_⟩
    obtain ⟨r, hr, hra⟩ := List.mem_map.1 ha
    rw [List.map_singleton, List.mem_singleton] at hb
    have := task?_of_mem hi.keys hr
    have he : r.id = x.id := by rw [hra, e, hb]; rfl
    rw [he, hn] at this; cases this
  · rcases hold n r' hr' with ⟨_, rfl⟩ | ⟨_, h1⟩
    · exact hl.hasTask (h.parent hp)
    · exact hl.hasTask (hi.parents n r' h1 hp)
  · rcases hold n r' hr' with ⟨_, rfl⟩ | ⟨_, h1⟩
    · exact hj
    · exact hi.jobs n r' h1
  · rcases hold n r' hr' with ⟨_, rfl⟩ | ⟨_, h1⟩
    · obtain ⟨k1, k2⟩ := h.plain c (hl.back _ c (h.parent hc.ne) hc)
      exact ⟨k1, k2⟩
    · exact hi.kids n r' c h1 (hl.back _ c (hi.parents n r' h1 hc.ne) hc)
  · rcases hold n r' hr' with ⟨_, rfl⟩ | ⟨_, h1⟩
    · exact ⟨h.nested.par, h.nested.ea, h.nested.sub⟩
    · exact hi.nested n r' h1
  · obtain ⟨h1, h2⟩ := hi.defs n j hj
    refine ⟨h1, fun hp => ?_⟩
    obtain ⟨r0, h3, h4⟩ := h2 hp
    obtain ⟨r', h5, h6⟩ := hl.tasks _ _ h3
    exact ⟨r', h5, h6.sub.trans h4⟩

/-- The rights exchanged for the new row `x`: `a` becomes `b`. -/
structure Trade (M : Mode) (st : St) (x : Task) (a b : List Tok) : Prop where
  pend : b.count (.pend x.id) ≤ 1
  own : .own x.id ∉ b
  dead : .dead x.id ∉ b
  rest : ∀ y : Tok, y ≠ .pend x.id → b.count y ≤ a.count y
  state : .pend x.id ∈ b → x.state ≠ .created
  /-- the parent is past its start -/
  past : ∀ c, Tr M st.ds x.parentID c → st.S x.parentID ∨
    (∃ k r, st.ds.task? k = some r ∧ r.parentID = x.parentID ∧ k ≠ x.id)
  place : ∀ c, Tr M st.ds x.parentID c → x.state.atWork = true ∨ .pend x.id ∈ b →
    b.count (.fire x.parentID) + 1 ≤ a.count (.fire x.parentID) ∨
    ∃ k r, st.ds.task? k = some r ∧ r.parentID = x.parentID ∧ k ≠ x.id ∧ .dead k ∈ a ∧ .dead k ∉ b

theorem held_new {st : St} {x : Task} {A a b : List Tok} (hi : Inv M st.ds) (hn : st.ds.task? x.id = none)
    (h : NewTask M st x) (ht : Trade M st x a b) (hh : Held M st X0 (A ++ a)) :
    Held M ⟨{ st.ds with tasks := st.ds.tasks ++ [taskRow x] }, st.S⟩ X0 (A ++ b) := by
  have hA : ¬ HasTok A x.id := fun hx => by
    obtain ⟨r, hr, _⟩ := hh.rows x.id (hx.imp (List.mem_append_left _) (Or.imp (List.mem_append_left _) (List.mem_append_left _)))
    rw [hn] at hr; cases hr
  have hnot : ∀ {y : Tok}, y ∈ A → y.main = true → y.id ≠ x.id := fun {y} hy hm he => hA (by rw [← he]; exact hasTok_of hy hm)
  have hc : ∀ y : Tok, y ≠ .pend x.id → (A ++ b).count y ≤ (A ++ a).count y := fun y hy => by
    rw [List.count_append, List.count_append]; have := ht.rest y hy; omega
  refine hh.create (st' := ⟨{ st.ds with tasks := st.ds.tasks ++ [taskRow x] }, st.S⟩) (n := x.id) (x := taskRow x) hi (new_le hi hn) h.id hn
    (by show DS.task? { st.ds with tasks := st.ds.tasks ++ [taskRow x] } x.id = _; rw [task?_new hn, if_pos rfl])
    (fun m hm => by show DS.task? { st.ds with tasks := st.ds.tasks ++ [taskRow x] } m = _; rw [task?_new hn, if_neg hm])
    h.self rfl (fun m hm => ⟨hc _ fun e => hm (by cases e; rfl), hc _ fun e => (by cases e), hc _ fun e => (by cases e)⟩) ?_ ?_ ?_ (fun hx => ?_)
    (fun p => hc _ fun e => by cases e) fun c htr => ⟨⟨fun hp => ?_, fun r hr hcr => ?_⟩, fun hs => ?_⟩
  · rw [List.count_append, List.count_eq_zero.2 fun hx => hA (.inl hx)]
    have := ht.pend; omega
  · exact fun hx => (List.mem_append.1 hx).elim (fun hx => hA (.inr (.inl hx))) ht.own
  · exact fun hx => (List.mem_append.1 hx).elim (fun hx => hA (.inr (.inr hx))) ht.dead
  · exact (List.mem_append.1 hx).elim (fun hx => absurd (.inl hx) hA) ht.state
  · have hp' : .pend x.parentID ∈ A ++ a := mem_of_le (hc _ fun e => h.self (Tok.pend.inj e)) hp
    rcases ht.past c htr with hS | ⟨k, r, h1, h2, _⟩
    · exact (hh.sched _ hS).1 hp'
    · exact (hh.virgin _ c htr (.inl hp')).1 k r h1 h2
  · rcases ht.past c htr with hS | ⟨k, r1, h1, h2, _⟩
    · obtain ⟨_, _, r0, h3, h4, _⟩ := hh.sched _ hS
      have hr' : st.ds.task? x.parentID = some r := hr
      rw [h3] at hr'; cases hr'
      exact h4 hcr
    · exact (hh.virgin _ c htr (.inr ⟨r, hr, hcr⟩)).1 k r1 h1 h2
  · have hs' : x.state.atWork = true ∨ .pend x.id ∈ b := by
      rcases hs with hs | hs | hs | hs
      · exact .inl hs
      · exact .inr ((List.mem_append.1 hs).elim (fun hx => absurd (.inl hx) hA) fun h => h)
      · exact absurd hs fun hx => (List.mem_append.1 hx).elim (fun hx => hA (.inr (.inl hx))) ht.own
      · exact absurd hs fun hx => (List.mem_append.1 hx).elim (fun hx => hA (.inr (.inr hx))) ht.dead
    rcases ht.place c htr hs' with hf | ⟨k, r, h1, h2, h3, h4, h5⟩
    · left
      show (A ++ b).count (.fire x.parentID) + 1 ≤ (A ++ a).count (.fire x.parentID)
      rw [List.count_append, List.count_append]; omega
    · refine .inr ⟨k, r, h1, h2, .inr (.inr (.inr (List.mem_append_right _ h4))), ?_⟩
      have h1k := hh.one k
      simp only [List.count_append] at h1k
      have h4k := List.count_pos_iff.2 h4
      have p1 : A.count (.pend k) + a.count (.pend k) = 0 := by omega
      have p2 : A.count (.own k) + a.count (.own k) = 0 := by omega
      have p3 : A.count (.dead k) = 0 := by omega
      rintro (hx | hx | hx | hx)
      · have := hh.dead k r (List.mem_append_right _ h4) h1
        rw [this] at hx; cases hx
      · have hk := hc (.pend k) fun e => h3 (by cases e; rfl)
        have := List.count_pos_iff.2 hx
        rw [List.count_append (l₁ := A) (l₂ := a)] at hk
        omega
      · have hk := hc (.own k) fun e => by cases e
        have := List.count_pos_iff.2 hx
        rw [List.count_append (l₁ := A) (l₂ := a)] at hk
        omega
      · rcases List.mem_append.1 hx with hx | hx
        · have := List.count_pos_iff.2 hx; omega
        · exact h5 hx

/-- A task row is created; the creator knows its id. -/
theorem good_new {n : Nat} {x : Task} {o' : List Tok} {k : Except Err Unit → Prog α} (hx : x.id = n) (hn : n ∉ T)
    (hnew : NewTask M s x)
    (he : ∀ T' o' st e, Le M s st → (M = .calm → (¬ HasJob s.ds x.jobID ∨ x.createdAt = none) ∧ Sub o o') → Good M (k (.error e)) T' o' st post)
    (ht : ∀ st, Le M s st → Inv M st.ds → Trade M st x o o')
    (h : ∀ s', Le M s s' → s'.ds.task? n = some (taskRow x) → HasJob s'.ds x.jobID → Good M (k (.ok ())) T o' s' post) :
    Good M ((tx (createTask x)).bind k) (n :: T) o s post := by
  subst hx
  refine ⟨fun hm e => he [] [] s e (.refl s) fun hc => absurd hc hm, fun st hd hi hu => ⟨fun _ x hx => (by cases hx), ?_⟩⟩
  have hun := (hu x.id (List.mem_cons_self ..)).task
  show ∃ T' o'' S', T'.Sublist (x.id :: T) ∧ OpOK M (x.id :: T) T' o o'' st ⟨((DbOp.of (createTask x)).run st.ds).2.1, S'⟩ ((DbOp.of (createTask x)).run st.ds).2.2 ∧
    Good M (k ((DbOp.of (createTask x)).run st.ds).1) T' o'' ⟨((DbOp.of (createTask x)).run st.ds).2.1, S'⟩ post
  have hsome : ¬ (st.ds.task? x.id).isSome = true := by rw [hun]; exact Bool.false_ne_true
  by_cases hbad : (st.ds.job? x.jobID).isNone = true ∨ x.createdAt.isNone = true
  · have hf : createTask x st.ds = .error "error inserting task to the db" := by
      unfold createTask
      rw [if_neg hsome]
      rcases hbad with hb | hb
      · rw [if_pos hb]
      · rw [if_pos hb]
        by_cases hb' : (st.ds.job? x.jobID).isNone = true
        · rw [if_pos hb']
        · rw [if_neg hb']
    rw [run_of_err hf]
    refine ⟨_, o, st.S, List.Sublist.refl _, OpOK.refl hi hu, he _ o st _ hd fun _ => ⟨hbad.imp (fun hb hj => ?_) fun hb => ?_, Sub.refl _⟩⟩
    · obtain ⟨j, hj⟩ := hd.hasJob hj
      rw [hj] at hb; cases hb
    · simpa using hb
  · have hb1 : ¬ (st.ds.job? x.jobID).isNone = true := fun h => hbad (.inl h)
    have hb2 : ¬ x.createdAt.isNone = true := fun h => hbad (.inr h)
    have hf : createTask x st.ds = .ok ((), { st.ds with tasks := st.ds.tasks ++ [taskRow x] }) := by
      unfold createTask
      rw [if_neg hsome, if_neg hb1, if_neg hb2]
    rw [run_of_ok hf]
    have hj : HasJob st.ds x.jobID := by
      cases hj : st.ds.job? x.jobID with
      | none => rw [hj] at hb1; exact absurd rfl hb1
      | some j => exact ⟨j, hj⟩
    have hle := new_le (x := x) hi hun
    refine ⟨T, o', st.S, List.sublist_cons_self _ _, ⟨hle, new_inv hi hun hj (hnew.mono hd), fun A hA => ?_, fun m h1 h2 => ?_,
      fun m h1 h2 => absurd h1 h2, fun m hm => ?_, fun m hm => (by cases hm)⟩, h _ (hd.trans hle) ?_ hj⟩
    · show Held M _ X0 (A ++ (o' ++ toksL M []))
      rw [toksL_nil, List.append_nil]
      exact held_new hi hun (hnew.mono hd) (ht st hd hi) hA
    · by_cases hm : m = x.id
      · rw [hm]; exact List.mem_cons_self ..
      · exfalso; apply h2
        show DS.task? { st.ds with tasks := st.ds.tasks ++ [taskRow x] } m = none
        rw [task?_new hun, if_neg hm]; exact h1
    · have hu' := hu m (List.mem_cons_of_mem _ hm)
      refine ⟨hu'.job, ?_⟩
      show DS.task? { st.ds with tasks := st.ds.tasks ++ [taskRow x] } m = none
      rw [task?_new hun, if_neg]
      · exact hu'.task
      · exact fun e => hn (by rw [← e]; exact hm)
    · show DS.task? { st.ds with tasks := st.ds.tasks ++ [taskRow x] } x.id = _
      rw [task?_new hun, if_pos rfl]

/-! ## New jobs -/

theorem good_newJob {n : Nat} {j : Job} {k : Except Err Unit → Prog α} (hj : j.id = n) (hn : n ∉ T)
    (hm : MsgJ s j)
    (he : ∀ T' o' st e, Le M s st → (M = .calm → j.id = 0 ∧ Sub o o') → Good M (k (.error e)) T' o' st post)
    (h : ∀ s', Le M s s' → HasJob s'.ds n → Good M (k (.ok ())) T o s' post) :
    Good M ((tx (createJob j)).bind k) (n :: T) o s post := by
  subst hj
  refine ⟨fun hm e => he [] [] s e (.refl s) fun hc => absurd hc hm, fun st hd hi hu => ⟨fun _ x hx => (by cases hx), ?_⟩⟩
  have hun := (hu j.id (List.mem_cons_self ..)).job
  show ∃ T' o'' S', T'.Sublist (j.id :: T) ∧ OpOK M (j.id :: T) T' o o'' st ⟨((DbOp.of (createJob j)).run st.ds).2.1, S'⟩ ((DbOp.of (createJob j)).run st.ds).2.2 ∧
    Good M (k ((DbOp.of (createJob j)).run st.ds).1) T' o'' ⟨((DbOp.of (createJob j)).run st.ds).2.1, S'⟩ post
  have hsome : ¬ (st.ds.job? j.id).isSome = true := by rw [hun]; exact Bool.false_ne_true
  by_cases h0 : j.id = 0
  · have hf : createJob j st.ds = .error "job id must not be empty" := by
      unfold createJob; rw [if_pos h0]
    rw [run_of_err hf]
    exact ⟨_, o, st.S, List.Sublist.refl _, OpOK.refl hi hu, he _ o st _ hd fun _ => ⟨h0, Sub.refl _⟩⟩
  · have hf : createJob j st.ds = .ok ((), { st.ds with jobs := st.ds.jobs ++ [jobRow st.ds.guest j] }) := by
      unfold createJob; rw [if_neg h0, if_neg hsome]
    rw [run_of_ok hf]
    have hjob : ∀ m, DS.job? { st.ds with jobs := st.ds.jobs ++ [jobRow st.ds.guest j] } m =
        if m = j.id then some (jobRow st.ds.guest j) else st.ds.job? m := fun m => by
      rw [job?_append]
      show (st.ds.job? m).or (if j.id = m then some (jobRow st.ds.guest j) else none) = _
      by_cases hm : m = j.id
      · rw [if_pos hm, if_pos hm.symm, hm, hun]; rfl
      · rw [if_neg hm, if_neg fun h => hm h.symm]
        cases st.ds.job? m <;> rfl
    have hle : Le M st ⟨{ st.ds with jobs := st.ds.jobs ++ [jobRow st.ds.guest j] }, st.S⟩ := by
      refine Le.mk' hi (fun n r0 h0 => ⟨r0, h0, .refl r0⟩) (fun n j0 hj0 => ⟨j0, ?_, rfl, rfl⟩) (fun n h => h) fun n => rfl
      show DS.job? { st.ds with jobs := st.ds.jobs ++ [jobRow st.ds.guest j] } n = some j0
      rw [hjob, if_neg]
      · exact hj0
      · intro e; rw [e, hun] at hj0; cases hj0
    refine ⟨T, o, st.S, List.sublist_cons_self _ _, ⟨hle, ⟨hi.keys, hi.parents, fun n r hr => hle.hasJob (hi.jobs n r hr), fun n r c hr hc => ?_,
      hi.nested, fun n j0 hj0 => ?_, hi.nodes⟩, fun A hA => ?_, fun m h1 h2 => absurd h1 h2, fun m h1 h2 => ?_, fun m hm => ?_, fun m hm => (by cases hm)⟩,
      h _ (hd.trans hle) ⟨_, by rw [hjob, if_pos rfl]⟩⟩
    · obtain ⟨k1, k2⟩ := hi.kids n r c hr (hle.back _ c (hi.parents n r hr hc.ne) hc)
      refine ⟨k1, fun hM => ?_⟩
      obtain ⟨j1, h1, h2⟩ := k2 hM
      obtain ⟨j', h3, _, h4⟩ := hle.jobs _ _ h1
      exact ⟨j', h3, by rw [h4]; exact h2⟩
    · have hj0 : DS.job? { st.ds with jobs := st.ds.jobs ++ [jobRow st.ds.guest j] } n = some j0 := hj0
      rw [hjob] at hj0
      by_cases hn : n = j.id
      · rw [if_pos hn] at hj0; cases hj0
        have := hm.mono hd
        exact ⟨this.tasks, this.parent⟩
      · rw [if_neg hn] at hj0; exact hi.defs n j0 hj0
    · show Held M _ X0 (A ++ (o ++ toksL M []))
      rw [toksL_nil, List.append_nil]; exact hA.keep hle (fun n => rfl) rfl
    · by_cases hm : m = j.id
      · rw [hm]; exact List.mem_cons_self ..
      · exfalso; apply h2
        show DS.job? { st.ds with jobs := st.ds.jobs ++ [jobRow st.ds.guest j] } m = none
        rw [hjob, if_neg hm]; exact h1
    · have hu' := hu m (List.mem_cons_of_mem _ hm)
      refine ⟨?_, hu'.task⟩
      show DS.job? { st.ds with jobs := st.ds.jobs ++ [jobRow st.ds.guest j] } m = none
      rw [hjob, if_neg]
      · exact hu'.job
      · exact fun e => hn (by rw [← e]; exact hm)

end Tork.Once

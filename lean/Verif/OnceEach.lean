import Verif.OnceOps
/-! Completing a child of a composite task, in the logic of rights. -/

namespace Tork.Once
open Prog Calm

variable {M : Mode} {α γ : Type} {T : List Nat} {o : List Tok} {s : St} {post : Post α}

/-- Rows change, none appears. -/
structure Rows (M : Mode) (st st' : St) : Prop where
  le : Le M st st'
  inv : Inv M st'.ds
  task : ∀ n, st.ds.task? n = none → st'.ds.task? n = none
  job : ∀ n, st.ds.job? n = none → st'.ds.job? n = none

theorem Rows.trans {a b c : St} (h1 : Rows M a b) (h2 : Rows M b c) : Rows M a c :=
  ⟨h1.le.trans h2.le, h2.inv, fun n h => h2.task n (h1.task n h), fun n h => h2.job n (h1.job n h)⟩

theorem Rows.refl {a : St} (h : Inv M a.ds) : Rows M a a := ⟨.refl a, h, fun _ h => h, fun _ h => h⟩

theorem rows_set {st : St} {id : Nat} {r u : Task} (hi : Inv M st.ds) (hr : st.ds.task? id = some r) (h : RowOK M st.ds r u) :
    Rows M st ⟨st.ds.setTask id u, st.S⟩ := by
  refine ⟨set_le hi hr h fun n h => h, set_inv hi hr h, fun n hn => ?_, fun n hn => hn⟩
  show (st.ds.setTask id u).task? n = none
  rw [task?_set hr]
  by_cases hx : n = id
  · rw [hx, hr] at hn; cases hn
  · rw [if_neg hx]; exact hn

theorem rows_setJob {st : St} {id : Nat} {r u : Job} (hi : Inv M st.ds) (hr : st.ds.job? id = some r) :
    Rows M st ⟨st.ds.setJob id u, st.S⟩ := by
  refine ⟨setJob_le hi hr, setJob_inv hi hr, fun n hn => hn, fun n hn => ?_⟩
  show (st.ds.setJob id u).job? n = none
  rw [job?_set hr]
  by_cases hx : n = id
  · rw [hx, hr] at hn; cases hn
  · rw [if_neg hx]; exact hn

theorem Rows.op {st st' : St} {T' : List Nat} {o' : List Tok} {ms : List Msg} (h : Rows M st st') (hT : T'.Sublist T) (hu : ∀ n ∈ T, Calm.Unused st.ds n)
    (hh : ∀ A, Held M st X0 (A ++ o) → Held M st' X0 (A ++ (o' ++ toksL M ms))) (hm : ∀ m ∈ ms, MsgOK M st' m) :
    OpOK M T T' o o' st st' ms :=
  ⟨h.le, h.inv, hh, fun n h1 h2 => absurd (h.task n h1) h2, fun n h1 h2 => absurd (h.job n h1) h2,
    fun n hn => ⟨h.job n (hu n (hT.subset hn)).job, h.task n (hu n (hT.subset hn)).task⟩, hm⟩

/-! ## The three changes -/

/-- A waiting child is released. -/
theorem held_release {st : St} {O : List Tok} {X X' : Nat → Nat} {id : Nat} {r : Task} (hi : Inv M st.ds) (hr : st.ds.task? id = some r)
    (hc : r.state = .created) (hX : ∀ q, q ≠ r.parentID → X q ≤ X' q) (hXp : ∀ c, Tr M st.ds r.parentID c → X r.parentID + 1 ≤ X' r.parentID)
    (h : Held M st X O) : Held M ⟨st.ds.setTask id { r with state := .pending }, st.S⟩ X' (O ++ [.pend id]) := by
  have hu : RowOK M st.ds r { r with state := .pending } := rowOK_of hi hr rfl rfl rfl fun _ _ _ hx => hx
  have hno : ¬ HasTok O id := fun hx => by
    obtain ⟨r0, h1, h2⟩ := h.rows id hx
    rw [hr] at h1; cases h1; exact h2 hc
  have h0 : O.count (.pend id) = 0 ∧ O.count (.own id) = 0 ∧ O.count (.dead id) = 0 :=
    ⟨List.count_eq_zero.2 fun h => hno (.inl h), List.count_eq_zero.2 fun h => hno (.inr (.inl h)), List.count_eq_zero.2 fun h => hno (.inr (.inr h))⟩
  have hab : About id [Tok.pend id] := .single rfl
  have hle : ∀ y : Tok, y.id ≠ id → (O ++ [Tok.pend id]).count y ≤ O.count y := fun y hy => by
    rw [List.count_append, hab.count hy]; omega
  refine h.set (set_le hi hr hu fun n h => h) hr (r' := persistTask r { r with state := .pending })
    (by show (st.ds.setTask id _).task? id = _; rw [task?_set hr, if_pos rfl])
    (fun m hm => by show (st.ds.setTask id _).task? m = _; rw [task?_set hr, if_neg hm])
    (fun m hm => ⟨hle (.pend m) hm, hle (.own m) hm, hle (.dead m) hm⟩) ?_ (fun _ hx => (by cases hx)) (fun hx => ?_) (fun hx => (by cases hx)) (fun _ => .inr hc)
    (fun m _ hm => hm) (fun hS => ?_) (fun p => .inl ?_) hX fun c htr => ⟨fun _ => .inr (hXp c htr), fun _ => .inr ?_⟩
  · simp only [List.count_append, h0.1, h0.2.1, h0.2.2]; simp
  · rcases List.mem_append.1 hx with hx | hx
    · exact absurd (.inr (.inr hx)) hno
    · rw [List.mem_singleton] at hx; cases hx
  · obtain ⟨_, _, r0, h1, h2, _⟩ := h.sched id hS
    rw [hr] at h1; cases h1; exact absurd hc h2
  · rw [List.count_append]; simp
  · have := hXp c htr; omega

/-- A row is completed. -/
theorem held_complete {st : St} {O O' : List Tok} {X : Nat → Nat} {id : Nat} {r u : Task} (hi : Inv M st.ds) (hr : st.ds.task? id = some r)
    (hu : RowOK M st.ds r u) (hf : r.state.finishable) (hs : u.state = .completed ∨ u.state = .skipped) (hO : ∀ x, O'.count x ≤ O.count x)
    (hskip : M = .noRetry → u.state = .skipped → ¬ st.S id) (hX : ∀ q, q ≠ r.parentID → X q = 0)
    (hXp : X r.parentID = 0 ∨ X r.parentID ≤ 1 ∧ ∀ c, Tr M st.ds r.parentID c → Slot O id r ∧ ¬ HasTok O' id)
    (h : Held M st X O) : Held M ⟨st.ds.setTask id u, st.S⟩ X0 O' := by
  have hcr : u.state ≠ .created := fun hx => by rw [hx] at hs; rcases hs with hs | hs <;> cases hs
  have hw : u.state.atWork = false := by rcases hs with hs | hs <;> rw [hs] <;> rfl
  have hcr0 : r.state ≠ .created := fun hx => by unfold TaskState.finishable at hf; rw [hx] at hf; rcases hf with hs | hs | hs <;> cases hs
  refine h.set (set_le hi hr hu fun n h => h) hr (r' := persistTask r u)
    (by show (st.ds.setTask id _).task? id = _; rw [task?_set hr, if_pos rfl])
    (fun m hm => by show (st.ds.setTask id _).task? m = _; rw [task?_set hr, if_neg hm])
    (fun m hm => ⟨hO _, hO _, hO _⟩) ?_ (fun _ => hcr) (fun _ => hw) (fun hx => absurd hx hcr) (fun hx => .inl (mem_of_le (hO _) hx))
    (fun m _ hm => hm) (fun hS => ?_) (fun p => .inl (hO _)) (fun q hq => by rw [hX q hq]; exact Nat.le_refl _) fun c htr => ?_
  · have := h.one id
    have h1 := hO (.pend id); have h2 := hO (.own id); have h3 := hO (.dead id)
    omega
  · obtain ⟨h1, h2, r0, h3, h4, h5⟩ := h.sched id hS
    exact ⟨fun hx => h1 (mem_of_le (hO _) hx), fun hm hx => h2 hm (mem_of_le (hO _) hx), hcr, fun hm hx => hskip hm hx hS⟩
  · have hslot : Slot O' id (persistTask r u) → HasTok O' id := fun hx => hx.resolve_left (by show ¬ u.state.atWork = true; rw [hw]; exact Bool.false_ne_true)
    rcases hXp with h0 | ⟨h1, h2⟩
    · rw [h0]
      exact ⟨fun hx => .inl ⟨.inr ((hslot hx).mono hO), Nat.le_refl _⟩, fun _ => .inr (Nat.le_refl _)⟩
    · obtain ⟨h3, h4⟩ := h2 c htr
      exact ⟨fun hx => absurd (hslot hx) h4, fun _ => .inl ⟨h3, by show X r.parentID ≤ 0 + 1; omega⟩⟩

/-- The changes of a completion, one after the other. -/
theorem subTaskTx_steps {t : Task} {m : Task → Except Err (γ × Task)} {ds ds' : DS} {g : γ} (h : subTaskTx t m ds = .ok (g, ds')) :
    ∃ r p v, ds.task? t.id = some r ∧ r.state.finishable ∧ (ds.setTask t.id (finRow t r)).task? t.parentID = some p ∧ m p = .ok (g, v) ∧
      (ds' = (ds.setTask t.id (finRow t r)).setTask t.parentID v ∨
        ∃ j u, ((ds.setTask t.id (finRow t r)).setTask t.parentID v).job? t.jobID = some j ∧
          ds' = ((ds.setTask t.id (finRow t r)).setTask t.parentID v).setJob t.jobID u) := by
  unfold subTaskTx at h
  split at h
  · cases h
  · rename_i x1 ds1 h1
    split at h
    · cases h
    · rename_i g2 ds2 h2
      split at h
      · cases h
      · rename_i x3 ds3 h3
        cases h
        obtain ⟨r, u1, hr, hm1, rfl⟩ := updateTask_ok h1
        obtain ⟨p, u2, hp, hm2, rfl⟩ := updateTask_ok h2
        obtain ⟨hf, rfl⟩ := completeTaskRow_ok hm1
        refine ⟨r, p, u2, hr, hf, hp, hm2, ?_⟩
        unfold contextTx at h3
        split at h3
        · right
          split at h3
          · rename_i x hx
            cases h3
            unfold updateJob' updateJob at hx
            split at hx
            · cases hx
            · rename_i j hj
              cases hx
              exact ⟨j, _, hj, rfl⟩
          · cases h3
        · cases h3; exact .inl rfl

/-- What the transaction on the row of the parent may do. -/
structure ParentRow (M : Mode) (m : Task → Except Err (γ × Task)) : Prop where
  state : ∀ p g v, m p = .ok (g, v) → v.state = p.state
  row : ∀ ds n p g v, Inv M ds → ds.task? n = some p → m p = .ok (g, v) → RowOK M ds p v

theorem parentRow_par : ParentRow M parallelRow := by
  have hx : ∀ p g v, parallelRow p = .ok (g, v) → ∃ q, p.parallel = some q ∧ v = { p with parallel := some { q with completions := q.completions + 1 } } :=
    fun p g v h => by
      unfold parallelRow at h
      split at h
      · cases h
      · rename_i q hq; cases h; exact ⟨q, hq, rfl⟩
  refine ⟨fun p g v h => ?_, fun ds n p g v hi hp h => ?_⟩
  · obtain ⟨q, _, rfl⟩ := hx p g v h; rfl
  · obtain ⟨q, hq, rfl⟩ := hx p g v h
    have hn := hi.nested n p hp
    refine ⟨⟨rfl, rfl, ?_, rfl, rfl, fun c => Iff.rfl⟩, ⟨fun q' hq' => ?_, hn.ea, hn.sub⟩, fun hm c hc => (hi.kids n p c hp hc).1.2 hm⟩
    · show true = p.parallel.isSome
      rw [hq]; rfl
    · cases hq'; exact hn.par q hq

theorem eachT_of {a b : Task} {e e' : EachTask Task} (ha : a.each = some e) (hb : b.each = some e') (h1 : e'.concurrency = e.concurrency)
    (h2 : e'.task = e.task) (c : Nat) : EachT M b c ↔ EachT M a c := by
  unfold EachT
  rw [ha, hb]
  constructor
  · rintro ⟨x, hx, h3, h4⟩; cases hx; exact ⟨e, rfl, h1.symm.trans h3, by rw [← h2]; exact h4⟩
  · rintro ⟨x, hx, h3, h4⟩; cases hx; exact ⟨e', rfl, h1.trans h3, by rw [h2]; exact h4⟩

theorem parentRow_each : ParentRow M eachParentRow := by
  have hx : ∀ p g v, eachParentRow p = .ok (g, v) → ∃ q, p.each = some q ∧ v = { p with each := some { q with completions := q.completions + 1, index := q.index + 1 } } :=
    fun p g v h => by
      unfold eachParentRow at h
      split at h
      · cases h
      · rename_i q hq; cases h; exact ⟨q, hq, rfl⟩
  refine ⟨fun p g v h => ?_, fun ds n p g v hi hp h => ?_⟩
  · obtain ⟨q, _, rfl⟩ := hx p g v h; rfl
  · obtain ⟨q, hq, rfl⟩ := hx p g v h
    have hn := hi.nested n p hp
    refine ⟨⟨rfl, rfl, rfl, ?_, rfl, fun c => eachT_of (e' := { q with completions := q.completions + 1, index := q.index + 1 }) hq rfl rfl rfl c⟩, ⟨hn.par, fun q' hq' => ?_, hn.sub⟩, fun hm c hc => (hi.kids n p c hp hc).1.2 hm⟩
    · show true = p.each.isSome
      rw [hq]; rfl
    · cases hq'; exact hn.ea q hq

theorem finRow_ok {ds : DS} (hi : Inv M ds) {n : Nat} {t r : Task} (hr : ds.task? n = some r) : RowOK M ds r (finRow t r) :=
  rowOK_of hi hr rfl rfl rfl fun _ _ _ hx => hx

/-- A completed child, as far as rights are concerned. -/
theorem sub_rows {st : St} {t : Task} {m : Task → Except Err (γ × Task)} {ds' : DS} {g : γ} {O O' : List Tok} {X : Nat → Nat}
    (hm : ParentRow M m) (hi : Inv M st.ds) (hs : t.state = .completed ∨ t.state = .skipped) (h : subTaskTx t m st.ds = .ok (g, ds')) :
    Rows M st ⟨ds', st.S⟩ ∧ ((∀ x, O'.count x ≤ O.count x) → (M = .noRetry → t.state = .skipped → ¬ st.S t.id) →
      (∀ r, st.ds.task? t.id = some r → r.state.finishable → (∀ q, q ≠ r.parentID → X q = 0) ∧
        (X r.parentID = 0 ∨ X r.parentID ≤ 1 ∧ ∀ c, Tr M st.ds r.parentID c → Slot O t.id r ∧ ¬ HasTok O' t.id)) →
      Held M st X O → Held M ⟨ds', st.S⟩ X0 O') := by
  obtain ⟨r, p, v, hr, hf, hp, hmp, hds⟩ := subTaskTx_steps h
  have ok1 : RowOK M st.ds r (finRow t r) := finRow_ok hi hr
  have r1 := rows_set hi hr ok1
  have ok2 := hm.row _ _ _ _ _ r1.inv hp hmp
  have r2 := rows_set (st := ⟨st.ds.setTask t.id (finRow t r), st.S⟩) r1.inv hp ok2
  have h2 : (∀ x, O'.count x ≤ O.count x) → (M = .noRetry → t.state = .skipped → ¬ st.S t.id) →
      (∀ r, st.ds.task? t.id = some r → r.state.finishable → (∀ q, q ≠ r.parentID → X q = 0) ∧
        (X r.parentID = 0 ∨ X r.parentID ≤ 1 ∧ ∀ c, Tr M st.ds r.parentID c → Slot O t.id r ∧ ¬ HasTok O' t.id)) →
      Held M st X O → Held M ⟨(st.ds.setTask t.id (finRow t r)).setTask t.parentID v, st.S⟩ X0 O' := fun hO hskip hX hh => by
    have h1 : Held M ⟨st.ds.setTask t.id (finRow t r), st.S⟩ X0 O' := held_complete hi hr ok1 hf hs hO hskip (hX r hr hf).1 (hX r hr hf).2 hh
    exact held_lower (st := ⟨st.ds.setTask t.id (finRow t r), st.S⟩) r1.inv hp ok2 (by rw [hm.state _ _ _ hmp]; exact .refl _) h1
  rcases hds with rfl | ⟨j, u, hj, rfl⟩
  · exact ⟨r1.trans r2, h2⟩
  · have r3 := rows_setJob (u := u) (st := ⟨(st.ds.setTask t.id (finRow t r)).setTask t.parentID v, st.S⟩) r2.inv hj
    exact ⟨(r1.trans r2).trans r3, fun a b c d => (h2 a b c d).keep r3.le (fun n => rfl) rfl⟩

/-! ## In the logic -/

/-- What a goroutine needs to complete task `t`. -/
structure CompleteOK (M : Mode) (s : St) (t : Task) (o : List Tok) : Prop where
  state : t.state = .completed ∨ t.state = .skipped
  noRetry : M = .noRetry → (t.state = .completed ∧ ∀ c, Tr M s.ds t.parentID c → s.S t.id) ∨ .own t.id ∈ o
  calm : M = .calm → ∀ c, Tr M s.ds t.parentID c → .own t.id ∈ o

theorem skip_free {st : St} {t : Task} {O : List Tok} {X : Nat → Nat} (h : Held M st X O)
    (hn : M = .noRetry → t.state = .completed ∨ .own t.id ∈ O) : M = .noRetry → t.state = .skipped → ¬ st.S t.id := fun hm hs hS => by
  rcases hn hm with h1 | h1
  · rw [h1] at hs; cases hs
  · exact (h.sched _ hS).2.1 hm h1

theorem sub_le {A o : List Tok} (x : Tok) : (A ++ ([] : List Tok)).count x ≤ (A ++ o).count x := by
  rw [List.append_nil, List.count_append]; omega

/-- Completing a branch of a parallel task. -/
theorem good_parTx {t : Task} {k : Except Err Bool → Prog α} (hc : CompleteOK M s t o)
    (he : ∀ T' o' st e, Le M s st → (M = .calm → Sub o o') → Good M (k (.error e)) T' o' st post)
    (h : ∀ s' b, Le M s s' → Good M (k (.ok b)) T o s' post) : Good M ((tx (subTaskTx t parallelRow)).bind k) T o s post := by
  refine good_tx (fun T' o' st e hd hx => he T' o' st e hd fun hm => (hx hm).2.2) fun st g ds' hd hi hu hf => ?_
  have hr := sub_rows (M := M) (st := st) (O := []) (O' := []) (X := X0) parentRow_par hi hc.state hf
  refine ⟨T, o, st.S, List.Sublist.refl _, hr.1.op (List.Sublist.refl _) hu (fun A hA => ?_) (fun m hm => by cases hm), h _ _ (hd.trans hr.1.le)⟩
  rw [toksL_nil, List.append_nil]
  exact (sub_rows (O := A ++ o) (O' := A ++ o) (X := X0) parentRow_par hi hc.state hf).2 (fun x => Nat.le_refl _)
    (skip_free hA fun hm => (hc.noRetry hm).imp (fun h => h.1) (List.mem_append_right _)) (fun r _ _ => ⟨fun q _ => rfl, .inl rfl⟩) hA

theorem workQueue_pending : isWorkQueue QUEUE_PENDING = false := by decide +kernel

theorem toks_pending (t : Task) : toks M (.task QUEUE_PENDING t) = [.pend t.id] := by
  show (if QUEUE_PENDING = QUEUE_PENDING then [Tok.pend t.id] else if M.single (.task QUEUE_PENDING t) then [Tok.own t.id] else []) = _
  rw [if_pos rfl]

theorem MsgQ.pending {st : St} {t : Task} : MsgQ M st QUEUE_PENDING t := by
  refine ⟨fun _ c _ h => ?_, fun h => ?_⟩
  · rcases h with ⟨h, _⟩ | h
    · exact absurd h (by decide +kernel)
    · rw [workQueue_pending] at h; cases h
  · rw [workQueue_pending] at h; cases h

/-- Once the next child is found the transaction does not fail. -/
theorem eachNext_ok {t next : Task} {ds : DS} (hkeys : (ds.tasks.map (·.id)).Nodup) (hj : HasJob ds t.jobID) (h : eachNext t ds = .ok (some next)) :
    ∃ c, ds.task? c.id = some c ∧ c.parentID = t.parentID ∧ c.state = .created ∧ next = { c with state := .pending } ∧
      ∃ r, ds.task? t.id = some r ∧ r.state.finishable ∧
      ∃ g ds', subTaskTx t eachParentRow (ds.setTask next.id next) = .ok (g, ds') ∧ g = false := by
  unfold eachNext at h
  cases hr : ds.task? t.id with
  | none => rw [hr] at h; cases h
  | some r =>
    rw [hr] at h
    dsimp only at h
    cases hc : completeTaskRow t r with
    | error e => rw [hc] at h; cases h
    | ok x =>
      obtain ⟨g0, u0⟩ := x
      rw [hc] at h
      obtain ⟨hf, hu0⟩ := completeTaskRow_ok hc
      dsimp only at h
      cases hp : ds.task? t.parentID with
      | none => rw [hp] at h; cases h
      | some p =>
        rw [hp] at h
        dsimp only at h
        cases hpe : p.each with
        | none => rw [hpe] at h; cases h
        | some e =>
          rw [hpe] at h
          dsimp only at h
          by_cases hfire : eachFires e = true
          · rw [if_pos hfire] at h
            unfold getNextTask at h
            cases hg : ds.tasks.find? (fun x => decide (x.parentID = p.id) && decide (x.state = .created)) with
            | none => rw [hg] at h; cases h
            | some c =>
              rw [hg] at h
              cases h
              have h1 := List.mem_of_find?_eq_some hg
              have h2 := List.find?_some hg
              rw [Bool.and_eq_true, decide_eq_true_eq, decide_eq_true_eq] at h2
              have hcc := task?_of_mem hkeys h1
              have hpid := (task?_mem hp).2
              refine ⟨c, hcc, by rw [h2.1, hpid], h2.2, rfl, r, rfl, hf, ?_⟩
              have hne : t.id ≠ c.id := fun e => by
                rw [e, hcc] at hr; cases hr
                unfold TaskState.finishable at hf; rw [h2.2] at hf; rcases hf with hs | hs | hs <;> cases hs
              obtain ⟨j, hj⟩ := hj
              have e1 : updateTask t.id (completeTaskRow t) (ds.setTask c.id { c with state := .pending }) =
                  .ok (g0, (ds.setTask c.id { c with state := .pending }).setTask t.id u0) := by
                unfold updateTask
                rw [task?_set hcc, if_neg hne, hr]
                dsimp only
                rw [hc]
              obtain ⟨p', hp', hpe'⟩ : ∃ p', ((ds.setTask c.id { c with state := .pending }).setTask t.id u0).task? t.parentID = some p' ∧ p'.each = some e := by
                have hr' : (ds.setTask c.id { c with state := .pending }).task? t.id = some r := by rw [task?_set hcc, if_neg hne, hr]
                rw [task?_set hr']
                by_cases hx : t.parentID = t.id
                · rw [if_pos hx]
                  rw [hx, hr] at hp; cases hp
                  exact ⟨_, rfl, by rw [hu0]; exact hpe⟩
                · rw [if_neg hx, task?_set hcc]
                  by_cases hy : t.parentID = c.id
                  · rw [if_pos hy]
                    rw [hy, hcc] at hp; cases hp
                    exact ⟨_, rfl, hpe⟩
                  · rw [if_neg hy, hp]; exact ⟨p, rfl, hpe⟩
              have e2 : updateTask t.parentID eachParentRow ((ds.setTask c.id { c with state := .pending }).setTask t.id u0) =
                  .ok (decide (e.completions + 1 ≥ e.size), ((ds.setTask c.id { c with state := .pending }).setTask t.id u0).setTask t.parentID
                    { p' with each := some { e with completions := e.completions + 1, index := e.index + 1 } }) := by
                unfold updateTask
                rw [hp']
                dsimp only
                unfold eachParentRow
                rw [hpe']
              have hd : decide (e.completions + 1 ≥ e.size) = false := by
                unfold eachFires at hfire
                simp only [Bool.and_eq_true, Bool.not_eq_true'] at hfire
                exact hfire.1.1
              have e3 : ∃ ds', contextTx t (((ds.setTask c.id { c with state := .pending }).setTask t.id u0).setTask t.parentID
                    { p' with each := some { e with completions := e.completions + 1, index := e.index + 1 } }) = .ok ((), ds') := by
                unfold contextTx
                by_cases hv : t.result ≠ "" ∧ t.var ≠ ""
                · rw [if_pos hv]
                  have hjj : (((ds.setTask c.id { c with state := .pending }).setTask t.id u0).setTask t.parentID
                    { p' with each := some { e with completions := e.completions + 1, index := e.index + 1 } }).job? t.jobID = some j := hj
                  unfold updateJob' updateJob
                  rw [hjj]
                  exact ⟨_, rfl⟩
                · rw [if_neg hv]; exact ⟨_, rfl⟩
              obtain ⟨ds', e3⟩ := e3
              have e0 : subTaskTx t eachParentRow (ds.setTask c.id { c with state := .pending }) = .ok (decide (e.completions + 1 ≥ e.size), ds') := by
                unfold subTaskTx
                rw [e1]
                dsimp only
                rw [e2]
                dsimp only
                rw [e3]
              exact ⟨_, ds', e0, hd⟩
          · rw [if_neg hfire] at h; cases h

/-- One more child of `p` than allowed. -/
def X1 (p : Nat) : Nat → Nat := fun q => if q = p then 1 else 0

/-- Completing a child of an each task. -/
theorem good_eachTx {t : Task} {k : Except Err Bool → Prog α} (ht : MsgT M s t) (hc : CompleteOK M s t o)
    (he : ∀ T' o' st e, Le M s st → (M = .calm → Sub o o') → Good M (k (.error e)) T' o' st post)
    (h : ∀ s' b o', Le M s s' → (b = true → o' = o) → Good M (k (.ok b)) T o' s' post) : Good M ((txOp (eachTx t)).bind k) T o s post := by
  refine ⟨fun hm e => he [] [] s e (.refl s) fun hx => absurd hx hm, fun st hd hi hu => ⟨fun hm x hx => ?_, ?_⟩⟩
  · -- half of it
    have hx : x ∈ (eachTx t).partials st.ds := hx
    unfold eachTx at hx
    dsimp only at hx
    cases hn : eachNext t st.ds with
    | error e => rw [hn] at hx; cases hx
    | ok y =>
      cases y with
      | none => rw [hn] at hx; cases hx
      | some next =>
        rw [hn] at hx
        dsimp only at hx
        obtain ⟨c, h1, h2, h3, rfl, _⟩ := eachNext_ok hi.keys (hd.hasJob ht.job) hn
        have hok : RowOK M st.ds c { c with state := .pending } := rowOK_of hi h1 rfl rfl rfl fun _ _ _ hx => hx
        have hr := rows_set hi h1 hok
        have hh : ∀ A, Held M st X0 (A ++ o) → Held M ⟨st.ds.setTask c.id { c with state := .pending }, st.S⟩ X0 ((A ++ o) ++ [.pend c.id]) := fun A hA =>
          held_release hi h1 h3 (fun q _ => Nat.le_refl _) (fun c hc => absurd hm hc.mode) hA
        have hcnt : ∀ (A B : List Tok) (x : Tok), (A ++ ([] ++ B)).count x ≤ ((A ++ o) ++ B).count x := fun A B x => by
          simp only [List.count_append, List.nil_append]; omega
        rcases List.mem_cons.1 hx with rfl | hx
        · refine ⟨st.S, hr.op (List.nil_sublist _) hu (fun A hA => (hh A hA).anti fun x => ?_) (fun m hm => by cases hm)⟩
          rw [toksL_nil]
          simp only [List.count_append, List.nil_append, List.count_nil]; omega
        · rw [List.mem_singleton] at hx
          subst hx
          refine ⟨st.S, hr.op (List.nil_sublist _) hu (fun A hA => (hh A hA).anti fun x => ?_) (fun m hm => ?_)⟩
          · rw [show toksL M [Msg.task QUEUE_PENDING { c with state := .pending }] = [.pend c.id] from by
              unfold toksL; rw [List.map_singleton, toks_pending]; rfl]
            exact hcnt A _ x
          · rw [List.mem_singleton] at hm
            subst hm
            exact ⟨((hi.msg h1).mono hr.le).upd rfl rfl rfl rfl rfl rfl rfl, .pending⟩
  · show ∃ T' o' S', T'.Sublist T ∧ OpOK M T T' o o' st ⟨((eachTx t).run st.ds).2.1, S'⟩ ((eachTx t).run st.ds).2.2 ∧
      Good M (k ((eachTx t).run st.ds).1) T' o' ⟨((eachTx t).run st.ds).2.1, S'⟩ post
    cases hn : eachNext t st.ds with
    | error e =>
      have hrun : (eachTx t).run st.ds = (.error (wrapErr "error updating task in datastore" e), st.ds, []) := by
        unfold eachTx; dsimp only; rw [hn]
      rw [hrun]
      exact ⟨T, o, st.S, List.Sublist.refl _, OpOK.refl hi hu, he T o st _ hd fun _ => Sub.refl _⟩
    | ok y =>
      cases y with
      | none =>
        have hrun : (eachTx t).run st.ds = match subTaskTx t eachParentRow st.ds with
            | .error e => (.error e, st.ds, [])
            | .ok (b, ds') => (.ok b, ds', []) := by
          unfold eachTx; dsimp only; rw [hn]; rfl
        cases hf : subTaskTx t eachParentRow st.ds with
        | error e =>
          rw [hf] at hrun
          rw [hrun]
          exact ⟨T, o, st.S, List.Sublist.refl _, OpOK.refl hi hu, he T o st _ hd fun _ => Sub.refl _⟩
        | ok z =>
          obtain ⟨b, ds'⟩ := z
          rw [hf] at hrun
          rw [hrun]
          have hr := sub_rows (M := M) (st := st) (O := []) (O' := []) (X := X0) parentRow_each hi hc.state hf
          refine ⟨T, o, st.S, List.Sublist.refl _, hr.1.op (List.Sublist.refl _) hu (fun A hA => ?_) (fun m hm => by cases hm),
            h _ _ _ (hd.trans hr.1.le) fun _ => rfl⟩
          rw [toksL_nil, List.append_nil]
          exact (sub_rows (O := A ++ o) (O' := A ++ o) (X := X0) parentRow_each hi hc.state hf).2 (fun x => Nat.le_refl _)
            (skip_free hA fun hm => (hc.noRetry hm).imp (fun h => h.1) (List.mem_append_right _)) (fun r _ _ => ⟨fun q _ => rfl, .inl rfl⟩) hA
      | some next =>
        obtain ⟨c, h1, h2, h3, rfl, r, hr, hfin, b, ds', hf, hb⟩ := eachNext_ok hi.keys (hd.hasJob ht.job) hn
        have hrun : (eachTx t).run st.ds = (.ok b, ds', [.task QUEUE_PENDING { c with state := .pending }]) := by
          unfold eachTx; dsimp only; rw [hn]; dsimp only; rw [hf]
        rw [hrun]
        have hok : RowOK M st.ds c { c with state := .pending } := rowOK_of hi h1 rfl rfl rfl fun _ _ _ hx => hx
        have hr1 := rows_set hi h1 hok
        have hne : t.id ≠ c.id := fun e => by
          rw [e, h1] at hr; cases hr
          unfold TaskState.finishable at hfin; rw [h3] at hfin; rcases hfin with hs | hs | hs <;> cases hs
        have hr' : (st.ds.setTask c.id { c with state := .pending }).task? t.id = some r := by rw [task?_set h1, if_neg hne, hr]
        have hpar : r.parentID = t.parentID := by
          obtain ⟨r0, k1, k2⟩ := (ht.mono hd).row
          rw [hr] at k1; cases k1; exact k2.parent.symm
        have hr2 := sub_rows (M := M) (st := ⟨st.ds.setTask c.id { c with state := .pending }, st.S⟩) (O := []) (O' := []) (X := X0) parentRow_each hr1.inv hc.state hf
        have hrows := hr1.trans hr2.1
        refine ⟨T, [], st.S, List.Sublist.refl _, hrows.op (List.Sublist.refl _) hu (fun A hA => ?_) (fun m hm => ?_),
          h _ _ _ (hd.trans hrows.le) fun hx => ?_⟩
        · rw [show toksL M [Msg.task QUEUE_PENDING { c with state := .pending }] = [.pend c.id] from by
              unfold toksL; rw [List.map_singleton, toks_pending]; rfl]
          have hh1 : Held M ⟨st.ds.setTask c.id { c with state := .pending }, st.S⟩ (X1 t.parentID) ((A ++ o) ++ [.pend c.id]) :=
            held_release hi h1 h3 (fun q _ => Nat.zero_le _) (fun c' _ => by rw [h2]; unfold X1; rw [if_pos rfl]) hA
          refine (sub_rows (O := (A ++ o) ++ [.pend c.id]) (O' := A ++ ([] ++ [.pend c.id])) (X := X1 t.parentID) parentRow_each hr1.inv hc.state hf).2
            (fun x => by simp only [List.count_append, List.nil_append]; omega)
            (skip_free hh1 fun hm => (hc.noRetry hm).imp (fun h => h.1) fun h => List.mem_append_left _ (List.mem_append_right _ h)) (fun r2 hr2 _ => ?_) hh1
          have hr2' : (st.ds.setTask c.id { c with state := .pending }).task? t.id = some r2 := hr2
          rw [hr'] at hr2'
          cases hr2'
          refine ⟨fun q hq => ?_, .inr ⟨?_, fun c' htr => ?_⟩⟩
          · rw [hpar] at hq; unfold X1; rw [if_neg hq]
          · unfold X1; split <;> omega
          · -- the completed child had a place
            rw [hpar] at htr
            have htr1 : Tr M st.ds t.parentID c' := hr1.le.back _ c' (hd.hasTask (ht.parent htr.ne)) htr
            have htr0 := hd.back _ c' (ht.parent htr.ne) htr1
            have key : .own t.id ∈ o ∨ (M = .noRetry ∧ st.S t.id) := by
              cases hM : M with
              | once => exact absurd hM htr.mode
              | noRetry =>
                rcases hc.noRetry hM with ⟨_, k⟩ | k
                · exact .inr ⟨rfl, hd.S _ (k c' htr0)⟩
                · exact .inl k
              | calm => exact .inl (hc.calm hM c' htr0)
            rcases key with key | ⟨hM, hS⟩
            · have hmem : .own t.id ∈ A ++ o := List.mem_append_right _ key
              refine ⟨.inr (.inr (.inl (List.mem_append_left _ hmem))), fun hx => ?_⟩
              have h1o := hA.one t.id
              simp only [List.count_append] at h1o
              have hko := List.count_pos_iff.2 key
              have hpc : ([Tok.pend c.id] : List Tok).count (.pend t.id) = 0 := List.count_eq_zero.2 fun hx => by
                rw [List.mem_singleton] at hx; exact hne (Tok.pend.inj hx)
              have hcnt : ∀ y : Tok, y ∈ A ++ ([] ++ [.pend c.id]) → y ≠ .pend c.id → 0 < A.count y := fun y hy hyc => by
                rcases List.mem_append.1 hy with hy | hy
                · exact List.count_pos_iff.2 hy
                · rw [List.nil_append, List.mem_singleton] at hy; exact absurd hy hyc
              rcases hx with hx | hx | hx
              · have := hcnt _ hx fun e => hne (Tok.pend.inj e)
                omega
              · have := hcnt _ hx fun e => (by cases e)
                omega
              · have := hcnt _ hx fun e => (by cases e)
                omega
            · obtain ⟨a1, a2, r0, a3, a4, a5⟩ := hA.sched _ hS
              rw [hr] at a3; cases a3
              have hwk : r.state.atWork = true := by
                rcases hfin with hs | hs | hs
                · rw [hs]; rfl
                · rw [hs]; rfl
                · exact absurd hs (a5 hM)
              refine ⟨.inl hwk, fun hx => ?_⟩
              have hcnt : ∀ y : Tok, y ∈ A ++ ([] ++ [.pend c.id]) → y ≠ .pend c.id → y ∈ A ++ o := fun y hy hyc => by
                rcases List.mem_append.1 hy with hy | hy
                · exact List.mem_append_left _ hy
                · rw [List.nil_append, List.mem_singleton] at hy; exact absurd hy hyc
              rcases hx with hx | hx | hx
              · exact a1 (hcnt _ hx fun e => hne (Tok.pend.inj e))
              · exact a2 hM (hcnt _ hx fun e => by cases e)
              · have := hA.dead _ r (hcnt _ hx fun e => by cases e) hr
                rw [hwk] at this; cases this
        · rw [List.mem_singleton] at hm
          subst hm
          exact ⟨((hi.msg h1).mono hrows.le).upd rfl rfl rfl rfl rfl rfl rfl, .pending⟩
        · rw [hb] at hx; cases hx

end Tork.Once

import Verif.OnceJobs
/-! The handlers in the logic of rights: completed, started, redelivered tasks; workers. -/

namespace Tork.Once
open Prog Calm

variable {M : Mode} {α γ : Type} {T : List Nat} {o : List Tok} {s : St} {post : Post α}

/-! ## completed.go -/

theorem topLevelTx_steps {t : Task} {ds ds' : DS} {g : Unit} (h : topLevelTx t ds = .ok (g, ds')) :
    ∃ r j u, ds.task? t.id = some r ∧ r.state.finishable ∧ (ds.setTask t.id (finRow t r)).job? t.jobID = some j ∧
      ds' = (ds.setTask t.id (finRow t r)).setJob t.jobID u := by
  unfold topLevelTx at h
  split at h
  · cases h
  · rename_i x1 ds1 h1
    obtain ⟨r, u1, hr, hm1, rfl⟩ := updateTask_ok h1
    obtain ⟨hf, rfl⟩ := completeTaskRow_ok hm1
    split at h
    · cases h
    · rename_i x hx
      cases h
      unfold updateJob' updateJob at hx
      split at hx
      · cases hx
      · rename_i j hj
        cases hx
        exact ⟨r, j, _, hr, hf, hj, rfl⟩

theorem good_topTx {t : Task} {k : Except Err Unit → Prog α} (ht : MsgT M s t) (h0 : t.parentID = 0) (hc : CompleteOK M s t o)
    (he : ∀ T' o' st e, Le M s st → (M = .calm → Sub o o') → Good M (k (.error e)) T' o' st post)
    (h : ∀ s' b, Le M s s' → Good M (k (.ok b)) T o s' post) : Good M ((tx (topLevelTx t)).bind k) T o s post := by
  refine good_tx (fun T' o' st e hd hx => he T' o' st e hd fun hm => (hx hm).2.2) fun st g ds' hd hi hu hf => ?_
  obtain ⟨r, j, u, hr, hfin, hj, rfl⟩ := topLevelTx_steps hf
  have ok1 : RowOK M st.ds r (finRow t r) := finRow_ok hi hr
  have r1 := rows_set hi hr ok1
  have r2 := rows_setJob (u := u) (st := ⟨st.ds.setTask t.id (finRow t r), st.S⟩) r1.inv hj
  refine ⟨T, o, st.S, List.Sublist.refl _, (r1.trans r2).op (List.Sublist.refl _) hu (fun A hA => ?_) (fun m hm => by cases hm),
    h _ _ (hd.trans (r1.trans r2).le)⟩
  rw [toksL_nil, List.append_nil]
  have h1 : Held M ⟨st.ds.setTask t.id (finRow t r), st.S⟩ X0 (A ++ o) := held_complete (X := X0) hi hr ok1 hfin hc.state (fun x => Nat.le_refl _)
    (skip_free hA fun hm => (hc.noRetry hm).imp (fun h => h.1) (List.mem_append_right _)) (fun _ _ => rfl) (.inl rfl) hA
  exact h1.keep r2.le (fun n => rfl) rfl

/-- An error leaves the rights untouched in fault-free systems. -/
def Undone (M : Mode) (o : List Tok) : Post Res := fun _ o' _ r => ∀ e, r = some e → M = .calm → Sub o o'

theorem undone_none : Good M (.ret none) T o' s (Undone M o) := good_ret fun _ _ _ h => by cases h
theorem undone_some {r : Res} (h : M = .calm → Sub o o') : Good M (.ret r) T o' s (Undone M o) := good_ret fun _ _ _ _ => h

theorem good_completeTop (C : Cfg) {t : Task} (ht : MsgT M s t) (h0 : t.parentID = 0) (hc : CompleteOK M s t o) :
    Good M (completeTopLevelTask C t) T o s (Undone M o) := by
  unfold completeTopLevelTask
  refine good_topTx ht h0 hc (fun T' o' st e hd hx => undone_some hx) fun s1 _ h1 => ?_
  dsimp only
  refine good_getJob (fun T' o' st e hd hx => undone_some fun hm => (hx hm).2) fun s2 j h2 hi2 hj => ?_
  dsimp only
  refine good_now fun now => ?_
  split
  · split
    · trivial
    · split
      · trivial
      · rename_i t0 ht0
        have hfr : t0.Fresh := (hi2.defs _ _ hj).1 t0 (List.mem_of_getElem? ht0)
        refine good_uuid fun n hn hnT hnu => good_seed fun sd => ?_
        refine good_top (evalOrFail_top C j.context sd now hfr n j.id j.position) hn hnT (fun T' o' st e hd hx => undone_some fun hm => (hx hm).2) fun s3 h3 hm => ?_
        dsimp only
        exact good_pub ⟨hm, .pending⟩ [] (by rw [toks_pending]; exact Sub.refl _) (fun hM e => undone_some fun hm => absurd hm hM) undone_none
  · have hm : MsgJ s2 { j with state := .completed, completedAt := some now } := (hi2.msgJ hj).upd rfl rfl
    refine Good.seq (good_completeJob C hm fun _ => Sub.refl o) fun T3 o3 s3 x h3 hx => ?_
    obtain ⟨r, j'⟩ := x
    exact undone_some hx.1

/-- The parent has no each section: nothing happens. -/
theorem good_eachTx_none {t : Task} {p : Task} {k : Except Err Bool → Prog α} (hp : s.ds.task? t.parentID = some p) (hn : p.each.isSome = false)
    (he : ∀ T' o' st e, Le M s st → (M = .calm → Sub o o') → Good M (k (.error e)) T' o' st post) : Good M ((txOp (eachTx t)).bind k) T o s post := by
  refine ⟨fun hm e => he [] [] s e (.refl s) fun hx => absurd hx hm, fun st hd hi hu => ?_⟩
  obtain ⟨p', k1, k2⟩ := hd.tasks _ _ hp
  have hx : ∃ e, eachNext t st.ds = .error e := by
    unfold eachNext
    cases st.ds.task? t.id with
    | none => exact ⟨_, rfl⟩
    | some u =>
      dsimp only
      cases completeTaskRow t u with
      | error e => exact ⟨_, rfl⟩
      | ok _ =>
        dsimp only
        rw [k1]
        dsimp only
        cases he : p'.each with
        | none => exact ⟨_, rfl⟩
        | some e =>
          have := k2.ea
          rw [he, hn] at this; cases this
  obtain ⟨e, hx⟩ := hx
  have hrun : (eachTx t).run st.ds = (.error (wrapErr "error updating task in datastore" e), st.ds, []) := by unfold eachTx; dsimp only; rw [hx]
  have hpar : (eachTx t).partials st.ds = [] := by unfold eachTx; dsimp only; rw [hx]
  refine ⟨fun hm x hx => ?_, ?_⟩
  · have hx : x ∈ (eachTx t).partials st.ds := hx
    rw [hpar] at hx; cases hx
  · show ∃ T' o' S', T'.Sublist T ∧ OpOK M T T' o o' st ⟨((eachTx t).run st.ds).2.1, S'⟩ ((eachTx t).run st.ds).2.2 ∧
      Good M (k ((eachTx t).run st.ds).1) T' o' ⟨((eachTx t).run st.ds).2.1, S'⟩ post
    rw [hrun]
    exact ⟨T, o, st.S, List.Sublist.refl _, OpOK.refl hi hu, he T o st _ hd fun _ => Sub.refl _⟩

theorem good_completeTask (C : Cfg) (fuel : Nat) {t : Task} (ht : MsgT M s t) (hc : CompleteOK M s t o) :
    Good M (completeTask C fuel t) T o s (Undone M o) := by
  induction fuel generalizing s t T o with
  | zero => trivial
  | succ fuel ih =>
    unfold completeTask
    by_cases h0 : t.parentID ≠ 0
    · rw [if_pos h0]
      refine good_getTask (fun T' o' st e hd hx => undone_some fun hm => (hx hm).2) fun s1 parent h1 hi1 hp => ?_
      have hc1 : CompleteOK M s1 t o := ⟨hc.state, fun hm => (hc.noRetry hm).imp (fun h => ⟨h.1, fun c hx => h1.S _ (h.2 c (h1.back _ c (ht.parent h0) hx))⟩) fun h => h,
        fun hm c hx => hc.calm hm c (h1.back _ c (ht.parent h0) hx)⟩
      have ht1 := ht.mono h1
      have hnext : parent.single = false → ∀ {T2 o2 s2 b}, Le M s1 s2 → (b = true → o2 = o) → Good M
          (if b = true then (tx (getTask t.parentID)).bind fun x =>
            match x with
            | .error _ => .ret (some "error fetching the parent task")
            | .ok parent => Prog.now.bind fun now => completeTask C fuel { parent with state := .completed, completedAt := some now }
          else .ret none) T2 o2 s2 (Undone M o) := by
        intro hsg T2 o2 s2 b h2 hb
        cases b with
        | false => exact undone_none
        | true =>
          cases hb rfl
          rw [if_pos rfl]
          refine good_getTask (fun T' o' st e hd hx => undone_some fun hm => (hx hm).2) fun s3 p3 h3 hi3 hp3 => ?_
          dsimp only
          refine good_now fun now => ?_
          have hpm : MsgT M s3 p3 := hi3.msg hp3
          have hsg3 : p3.single = false := by
            obtain ⟨p', k1, k2⟩ := (h2.trans h3).tasks _ _ hp
            rw [hp3] at k1; cases k1
            rw [k2.single]; exact hsg
          have hcm : MsgT M s3 { p3 with state := .completed, completedAt := some now } := hpm.upd rfl rfl rfl rfl rfl rfl rfl
          refine ih hcm ⟨.inl rfl, fun _ => .inl ⟨rfl, fun c hx => absurd hx (hpm.free hsg3 c)⟩, fun _ c hx => absurd hx (hpm.free hsg3 c)⟩
      dsimp only
      by_cases hpar : parent.parallel.isSome = true
      · rw [if_pos hpar]
        have hsg : parent.single = false := by
          cases hx : parent.parallel with
          | none => rw [hx] at hpar; cases hpar
          | some x => exact Task.single_par hx
        exact good_parTx hc1 (fun T' o' st e hd hx => undone_some hx) fun s2 b h2 => hnext hsg h2 fun _ => rfl
      · rw [if_neg hpar]
        cases hx : parent.each with
        | none => exact good_eachTx_none hp (by rw [hx]; rfl) fun T' o' st e hd hx => undone_some hx
        | some e =>
          exact good_eachTx ht1 hc1 (fun T' o' st e hd hx => undone_some hx) fun s2 b o2 h2 hb => hnext (Task.single_each hx) h2 hb
    · rw [if_neg h0]
      exact good_completeTop C ht (Classical.byContradiction fun h => h0 h) hc

theorem good_completed (C : Cfg) (fuel : Nat) {t : Task} (ht : MsgT M s t) (hq : MsgQ M s QUEUE_COMPLETED t) :
    Good M (completedHandler C fuel t) T (toks M (.task QUEUE_COMPLETED t)) s (Ends M) := by
  unfold completedHandler
  refine good_now fun now => ?_
  -- the rights of the message
  have hown : M.single (.task QUEUE_COMPLETED t) = true → toks M (.task QUEUE_COMPLETED t) = [.own t.id] := fun h => by
    show (if QUEUE_COMPLETED = QUEUE_PENDING then [Tok.pend t.id] else if M.single (.task QUEUE_COMPLETED t) then [Tok.own t.id] else []) = _
    rw [if_neg (by decide +kernel), if_pos h]
  have hcalm : M = .calm → t.single = true → toks M (.task QUEUE_COMPLETED t) = [.own t.id] := fun hm hs => hown (by
    rw [hm]
    show (decide (QUEUE_COMPLETED = QUEUE_PENDING) || ((isWorkQueue QUEUE_COMPLETED || decide (QUEUE_COMPLETED = QUEUE_COMPLETED) || decide (QUEUE_COMPLETED = QUEUE_ERROR)) && t.single)) = true
    rw [hs]; simp)
  have htick : ∀ {o'}, (M = .calm → Sub (toks M (.task QUEUE_COMPLETED t)) o') → Ticket M t o' := fun ho hm => by
    cases hs : t.single with
    | false => exact .inl rfl
    | true =>
      have := ho hm
      rw [hcalm hm hs] at this
      exact .inr (.inr (.inl (this.mem (List.mem_singleton_self _))))
  by_cases hst : t.state ≠ .completed ∧ t.state ≠ .skipped
  · rw [if_pos hst]
    exact ends_some ht (htick fun _ => Sub.refl _)
  · rw [if_neg hst]
    have hst : t.state = .completed ∨ t.state = .skipped := by
      by_cases h1 : t.state = .completed
      · exact .inl h1
      · exact .inr (Classical.byContradiction fun h2 => hst ⟨h1, h2⟩)
    have ht' : MsgT M s { t with completedAt := some now } := ht.upd rfl rfl rfl rfl rfl rfl rfl
    have hc : CompleteOK M s { t with completedAt := some now } (toks M (.task QUEUE_COMPLETED t)) := by
      refine ⟨hst, fun hm => ?_, fun hm c hx => ?_⟩
      · rcases hst with h | h
        · exact .inl ⟨h, fun c hx => hq.sched hm c hx (.inl ⟨rfl, h⟩)⟩
        · refine .inr ?_
          rw [hown (by
            rw [hm]
            show (decide (QUEUE_COMPLETED = QUEUE_PENDING) || (decide (QUEUE_COMPLETED = QUEUE_COMPLETED) && decide (t.state = .skipped))) = true
            rw [h]; simp)]
          exact List.mem_singleton_self _
      · rw [hcalm hm (ht.plain c hx).1.1]
        exact List.mem_singleton_self _
    refine Good.seq (good_completeTask C fuel ht' hc) fun T2 o2 s2 r h2 hx => ?_
    exact good_ret fun s3 h3 => ⟨(ht'.mono h2).mono h3, fun e he => (htick (hx e he)).upd rfl rfl⟩

/-! ## started.go, progress.go, redelivered.go -/

theorem good_started {t : Task} (ht : MsgT M s t) (hn : M = .calm → (s.ds.node? t.nodeID).isSome) : Good M (startedHandler t) T o s (Ends M) := by
  unfold startedHandler
  refine good_getJob (fun T' o' st e hd hx => ends_some (ht.mono hd) fun hm => absurd ht.job (hx hm).1) fun s1 j h1 hi1 hj => ?_
  have ht1 := ht.mono h1
  dsimp only
  split
  · have ht2 : MsgT M s1 { t with state := .cancelled } := ht1.upd rfl rfl rfl rfl rfl rfl rfl
    refine good_getNode (fun T' o' st e hd hx => ends_some (ht2.mono hd) fun hm => absurd (h1.nodes hm _ (hn hm)) (hx hm).1) fun s2 node h2 hi2 hq => ?_
    dsimp only
    exact good_pub0 ⟨ht2.mono h2, .excl hq⟩ (toks_excl hq) (fun hM e => ends_some (ht2.mono h2) (.faulty hM)) (ends_none (ht2.mono h2))
  · have hjid : j.id = t.jobID := (job?_mem hj).2
    have hrest : ∀ {T2 o2 s2}, Le M s1 s2 → Good M (Prog.now.bind fun now => (tx (updateTask' t.id (startedRow now t.nodeID))).bind fun x =>
        match x with
        | .error e => .ret (some e, t)
        | .ok _ => .ret (none, t)) T2 o2 s2 (Ends M) := fun {T2 o2 s2} h2 => by
      refine good_now fun now => good_lower (fun T' o' st e hd hx => ends_some ((ht1.mono h2).mono hd) fun hm => absurd (ht1.mono h2).hasTask (hx hm).1)
        (fun r => ?_) fun s3 h3 => ends_none ((ht1.mono h2).mono h3)
      unfold startedRow
      dsimp only
      by_cases hs : r.state = .scheduled
      · rw [if_pos hs]
        refine ⟨rfl, rfl, rfl, rfl, ?_⟩
        show Lower r.state .running
        rw [hs]
        exact ⟨fun _ => rfl, fun h => (by cases h), fun h => (by cases h)⟩
      · rw [if_neg hs]
        exact ⟨rfl, rfl, rfl, rfl, .refl _⟩
    by_cases hs : j.state = .scheduled
    · rw [if_pos hs]
      refine good_markRunning (fun T' o' st e hd hx => ?_) fun s2 h2 => hrest h2
      refine ends_some (ht1.mono hd) fun hm => absurd ?_ (hx hm).1
      show HasJob s1.ds j.id
      rw [hjid]; exact ⟨j, hj⟩
    · rw [if_neg hs]
      exact hrest (.refl _)

theorem good_progress {t : Task} (ht : MsgT M s t) : Good M (progressHandler t) T o s (Ends M) := by
  unfold progressHandler
  dsimp only
  have ht' : MsgT M s { t with progress := clampProgress t.progress } := ht.upd rfl rfl rfl rfl rfl rfl rfl
  refine good_lower (fun T' o' st e hd hx => ends_some (ht'.mono hd) fun hm => absurd ht.hasTask (hx hm).1)
    (fun r => ⟨rfl, rfl, rfl, rfl, .refl _⟩) fun s1 h1 => ?_
  dsimp only
  refine good_getJob (fun T' o' st e hd hx => ends_some ((ht'.mono h1).mono hd) fun hm => absurd (ht.mono h1).job (hx hm).1) fun s2 j h2 hi2 hj => ?_
  dsimp only
  have ht2 := (ht'.mono h1).mono h2
  exact good_updJob (fun T' o' st e hd hx => ends_some (ht2.mono hd) fun hm => absurd ht2.job (hx hm).1) fun s3 h3 => ends_none (ht2.mono h3)

/-- A task on its way to a worker may go on to a worker, or to the queue of failed tasks. -/
theorem toks_move {q q' : String} {t u : Task} (h1 : isWorkQueue q = true) (h2 : isWorkQueue q' = true ∨ q' = QUEUE_ERROR) (hi : u.id = t.id)
    (hs : u.single = t.single) : Sub (toks M (.task q' u)) (toks M (.task q t)) := by
  have hp : q ≠ QUEUE_PENDING := fun h => by rw [h, workQueue_pending] at h1; cases h1
  have hp' : q' ≠ QUEUE_PENDING := fun h => by
    rcases h2 with h2 | h2
    · rw [h, workQueue_pending] at h2; cases h2
    · rw [h] at h2; exact absurd h2 (by decide +kernel)
  have hc' : q' ≠ QUEUE_COMPLETED := fun h => by
    rcases h2 with h2 | h2
    · rw [h, workQueue_completed] at h2; cases h2
    · rw [h] at h2; exact absurd h2 (by decide +kernel)
  show Sub (if q' = QUEUE_PENDING then [Tok.pend u.id] else if M.single (.task q' u) then [Tok.own u.id] else [])
    (if q = QUEUE_PENDING then [Tok.pend t.id] else if M.single (.task q t) then [Tok.own t.id] else [])
  rw [if_neg hp, if_neg hp', hi]
  cases hsx : M.single (.task q' u) with
  | false => exact Sub.nil _
  | true =>
    rw [if_pos rfl, if_pos]
    · exact Sub.refl _
    · cases M with
      | once =>
        show (decide (q = QUEUE_PENDING) || isWorkQueue q) = true
        rw [h1]; simp
      | noRetry =>
        have hsx : (decide (q' = QUEUE_PENDING) || (decide (q' = QUEUE_COMPLETED) && decide (u.state = .skipped))) = true := hsx
        rw [decide_eq_false hp', decide_eq_false hc'] at hsx
        cases hsx
      | calm =>
        have hsx : (decide (q' = QUEUE_PENDING) || ((isWorkQueue q' || decide (q' = QUEUE_COMPLETED) || decide (q' = QUEUE_ERROR)) && u.single)) = true := hsx
        rw [decide_eq_false hp', Bool.false_or, Bool.and_eq_true, hs] at hsx
        show (decide (q = QUEUE_PENDING) || ((isWorkQueue q || decide (q = QUEUE_COMPLETED) || decide (q = QUEUE_ERROR)) && t.single)) = true
        rw [h1, hsx.2]; simp

theorem workQueue_redeliveries : isWorkQueue QUEUE_REDELIVERIES = true := by decide +kernel

theorem good_redelivered {t : Task} (ht : MsgT M s t) (hq : MsgQ M s QUEUE_REDELIVERIES t) :
    Good M (redeliveredHandler t) T (toks M (.task QUEUE_REDELIVERIES t)) s Any := by
  unfold redeliveredHandler
  have hw := hq.queue workQueue_redeliveries
  split
  · refine good_now fun now => good_pub ⟨ht.upd rfl rfl rfl rfl rfl rfl rfl, .error⟩ []
      (toks_move workQueue_redeliveries (.inr rfl) rfl rfl) (fun _ e => any_ret) any_ret
  · refine good_pub ⟨ht.upd rfl rfl rfl rfl rfl rfl rfl, fun hm c hc _ => hq.sched hm c hc (.inr workQueue_redeliveries), fun _ => hw⟩ []
      (toks_move workQueue_redeliveries (.inl hw) rfl rfl) (fun _ e => any_ret) any_ret

end Tork.Once

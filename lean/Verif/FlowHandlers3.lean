import Verif.FlowHandlers2
/-! Every handler discharges its obligations: errors, completions, the other coordinator handlers, workers. -/

namespace Tork.Flow
open Prog Calm

variable {C : Cfg} {H : Nat} {α : Type} {T : List Nat} {o : List Ob} {s : DS}

/-! ## error.go -/

/-- What the error handler can take care of. -/
def Owes (C : Cfg) (t : Task) (o : List Ob) : Prop := o = [] ∨ o = [.tok (tgt t)] ∨ ¬ Total C ∧ ∀ b ∈ o, b.job = t.jobID

theorem Owes.jobs {t : Task} (h : Owes C t o) : ∀ b ∈ o, b.job = t.jobID := by
  rcases h with rfl | rfl | h
  · intro b hb; cases hb
  · intro b hb; rw [List.mem_singleton.1 hb]; rfl
  · exact h.2

theorem anc_new {t u : Task} {d : Nat} (h : Anc s d t.id) (ht : MsgTask C H s t) (hp : u.parentID = t.parentID) (hj : u.jobID = t.jobID)
    (hu : ∀ m, Used s m → m < u.id) : NewAnc s d u := by
  obtain ⟨r0, h0, hsame⟩ := ht.row
  cases d with
  | zero =>
    obtain ⟨r, k1, k2⟩ := h
    rw [h0] at k1; cases k1
    exact hp.trans (hsame.parent.trans k2)
  | succ d =>
    obtain ⟨r, p, k1, k2, k3, k4, k5, k6, k7⟩ := h
    rw [h0] at k1; cases k1
    have e : u.parentID = r0.parentID := hp.trans hsame.parent
    rw [← e] at k2 k4 k7
    exact ⟨k2, hu _ (.inl ⟨p, k4⟩), p, k4, by rw [k5, hj]; exact hsame.job.symm, k6, k7⟩

theorem good_errorHandler {t : Task} (ht : MsgTask C H s t) (ho : Owes C t o) : Good C H (errorHandler C t) T o s fin := by
  simp only [errorHandler, bind_eq, pure_eq]
  refine good_getJob ht.hasJob fun s1 j hl hi hj => ?_
  have hjid := (job?_mem hj).2
  dsimp only
  refine good_now fun now => ?_
  have ht1 := ht.mono hl
  refine good_updTask' ht1.hasTask ?_ ?_ ?_ ?_ ?_ (.inr ?_) ?_
  iterate 3 (intro r; unfold failTaskRow; split <;> rfl)
  iterate 2 (intro r hr; unfold failTaskRow; split <;> exact hr)
  · intro r; unfold failTaskRow; split <;> rfl
  intro s2 hl2
  have ht2 := ht1.mono hl2
  dsimp only
  split
  · rename_i hel
    obtain ⟨d, n, ha, hs, hn⟩ := ht2.sound
    have htot : Total C := by
      rcases hs.retry with h | h
      · exact h
      · simp only [retryEligible, Bool.and_eq_true] at hel
        cases hre : t.retry with
        | none => rw [hre] at hel; simp at hel
        | some r0 => rw [hre] at hel; have := hel.2; simp [h r0 hre] at this
    refine good_now fun now2 => ?_
    refine good_uuid fun id hid hnT hu => ?_
    refine good_seed fun sd => ?_
    have hs0 : Sound C n { t with failedAt := some now } := hs.upd hs.queue hs.retry rfl rfl rfl
    have hcl := sound_clone hs0
    have hs1 : Sound C n (retryTask { t with failedAt := some now } id now2) := hcl.upd hcl.queue (.inl htot) rfl rfl rfl
    have hs2 := sound_evaluate hs1 ⟨j.context, none⟩ sd
    have hno := evaluate_total htot ⟨j.context, none⟩ sd (retryTask { t with failedAt := some now } id now2)
    have hf := (evaluateTask_frame (evaluateTemplate C.O ⟨j.context, none⟩ sd) (retryTask { t with failedAt := some now } id now2)).1
    have hjob : (retryTask { t with failedAt := some now } id now2).jobID = t.jobID := by
      show (Task.clone _).jobID = _
      rw [(clone_frame _).jobID]
    have hpar : (retryTask { t with failedAt := some now } id now2).parentID = t.parentID := by
      show (Task.clone _).parentID = _
      rw [(clone_frame _).parentID]
    rcases hev : evaluateTask (evaluateTemplate C.O ⟨j.context, none⟩ sd) (retryTask { t with failedAt := some now } id now2) with ⟨et, err⟩
    rw [hev] at hs2 hno hf
    cases hno
    dsimp only
    have hid' : et.id = id := hf.id
    have hej : et.jobID = t.jobID := hf.jobID.trans hjob
    have hep : et.parentID = t.parentID := hf.parentID.trans hpar
    refine good_createTask (by rw [hid']; simp) (by rw [hej]; exact ht2.hasJob) (by rw [hf.createdAt]; rfl)
      ⟨d, n, anc_new ha ht2 hep hej (by rw [hid']; exact hu), hs2, hn⟩ (by rw [hej, hid']; exact hu _ (.inr ht2.hasJob))
      (.inl (by rw [hej]; exact ht2.started)) fun s3 hl3 hm3 => ?_
    dsimp only
    refine good_pubT (hm3 s3 (.refl _) (by rw [hej]; exact hl3.started ht2.started)) [] ?_ fun _ _ => rfl
    rw [toks_pending]
    have htg : tgt et = tgt t := by unfold tgt; rw [hej, hep]
    rcases ho with rfl | rfl | ⟨h, _⟩
    · exact .keep _ _
    · exact .tok htg
    · exact absurd htot h
  · refine good_failJob (j := { j with state := .failed, failedAt := some now, error := t.error }) ?_ (.inr ⟨?_, ?_⟩)
    · obtain ⟨r, k1, k2, _⟩ := hl2.jobs _ _ hj
      exact ⟨r, by show s2.job? j.id = _; rw [hjid]; exact k1, k2⟩
    · show Started s2 j.id; rw [hjid]; exact ht2.started
    · intro b hb; exact (ho.jobs b hb).trans hjid.symm

/-- A task handler either succeeds with everything discharged or hands its task, with the remaining obligations, to
the error handler. -/
abbrev half (C : Cfg) (H : Nat) : List Nat → List Ob → DS → Res × Task → Prop := fun _ o s x =>
  (x.1 = none → o = []) ∧ (x.1 ≠ none → Owes C x.2 o ∧ MsgTask C H s x.2)

theorem good_wrapTask {h : Task → Prog (Res × Task)} {t : Task} (hh : Good C H (h t) T o s (half C H)) :
    Good C H (wrapTask C h t) T o s fin := by
  simp only [wrapTask, bind_eq, pure_eq]
  refine Good.seq hh ?_
  rintro T' o' s' ⟨r, t'⟩ hl ⟨h1, h2⟩
  cases r with
  | none => exact fun _ _ => h1 rfl
  | some e =>
    obtain ⟨h2, h3⟩ := h2 (by simp)
    refine good_now fun now => ?_
    have h3 : MsgTask C H s' t' := h3
    exact good_errorHandler (t := { t' with failedAt := some now, state := .failed, error := e })
      (h3.upd rfl rfl rfl rfl rfl rfl rfl rfl) h2

/-! ## completed.go -/

/-- The completion leaves nothing behind unless it fails, and then the token is still there. -/
abbrev goes (x : Place) : List Nat → List Ob → DS → Res → Prop := fun _ o _ r => (r = none → o = []) ∧ (o = [] ∨ o = [.tok x])

theorem good_completeTopLevel {t : Task} {x : Place} (ht : MsgTask C H s t) (hx : Up s x (t.jobID, 0)) :
    Good C H (completeTopLevelTask C t) T [.tok x] s (goes x) := by
  simp only [completeTopLevelTask, bind_eq, pure_eq]
  refine good_topLevelTx ht hx (fun e s' _ => fun _ _ => ⟨by simp, .inr rfl⟩) fun s1 hl => ?_
  dsimp only
  have ht1 := ht.mono hl
  refine good_getJob ht1.hasJob fun s2 j hl2 hi hj => ?_
  have hjid := (job?_mem hj).2
  have hg := hi.jobs _ _ hj
  have hst := hl2.started ht1.started
  have hpos : 1 ≤ j.position := by
    obtain ⟨r, hr, hne⟩ := hst
    rw [hj] at hr; cases hr
    exact hg.pos hne
  rw [← hjid] at hst
  dsimp only
  refine good_now fun now => ?_
  split
  · rename_i hle
    rw [if_neg (by omega)]
    have hlt : j.position - 1 < j.tasks.length := by omega
    rw [List.getElem?_eq_getElem hlt]
    dsimp only
    refine good_uuid fun id hid hnT hu => ?_
    refine good_seed fun sd => ?_
    obtain ⟨hv, hsd⟩ := hg.reg.tasks _ (List.getElem_mem hlt)
    refine good_newTask hsd hv (by simp) (started_job hst) hu fun s3 hl3 u hu htg htj hm => ?_
    rw [← hu]
    dsimp only
    refine good_pubT (hm s3 (.refl _) (hl3.started hst)) [] ?_ fun _ _ => ⟨fun _ => rfl, .inl rfl⟩
    rw [toks_pending, htg, hjid]
    exact .all fun _ => Nat.le_refl _
  · refine Good.seq (good_completeJob (j := { j with state := .completed, completedAt := some now })
      ⟨j, by show s2.job? j.id = _; rw [hjid]; exact hj, rfl⟩
      (.inr ⟨hst, fun b hb => by rw [List.mem_singleton.1 hb]; exact hjid.symm⟩)) ?_
    rintro T' o' s3 ⟨r, _⟩ hl3 rfl
    exact fun _ _ => ⟨fun _ => rfl, .inl rfl⟩

theorem good_completeTask {d fuel : Nat} {t : Task} {x : Place} (hd : d < fuel) (ha : Anc s d t.id) (ht : MsgTask C H s t)
    (hx : Up s x (tgt t)) : Good C H (completeTask C fuel t) T [.tok x] s (goes x) := by
  induction d generalizing fuel t s T with
  | zero =>
    cases fuel with
    | zero => omega
    | succ fuel =>
      obtain ⟨r, h0, hsame⟩ := ht.row
      obtain ⟨r', k1, k2⟩ := ha
      rw [h0] at k1; cases k1
      have hp : t.parentID = 0 := hsame.parent.trans k2
      unfold completeTask
      rw [if_neg (Classical.not_not.2 hp)]
      have : tgt t = (t.jobID, 0) := by unfold tgt; rw [hp]
      rw [this] at hx
      exact good_completeTopLevel ht hx
  | succ d ih =>
    cases fuel with
    | zero => omega
    | succ fuel =>
      obtain ⟨r, h0, hsame⟩ := ht.row
      obtain ⟨r', p, k1, k2, k3, k4, k5, k6, k7⟩ := ha
      rw [h0] at k1; cases k1
      rw [← hsame.parent] at k2 k4 k7
      rw [← hsame.job] at k5
      unfold completeTask
      rw [if_pos k2]
      simp only [bind_eq, pure_eq]
      refine good_getTask ⟨p, k4⟩ fun s1 p1 hl hi hp1 => ?_
      dsimp only
      obtain ⟨p', k8, k9⟩ := hl.tasks _ _ k4
      rw [hp1] at k8; cases k8
      have ht1 := ht.mono hl
      have hlast : ∀ s2, Le s1 s2 → Good C H ((tx (getTask t.parentID)).bind fun r =>
          match r with
          | .error _ => .ret (some "error fetching the parent task")
          | .ok parent => Prog.now.bind fun now => completeTask C fuel { parent with state := .completed, completedAt := some now })
          T [.tok x] s2 (goes x) := by
        intro s2 hl2
        refine good_getTask ⟨_, (hl2.tasks _ _ hp1).choose_spec.1⟩ fun s3 p2 hl3 hi3 hp2 => ?_
        dsimp only
        refine good_now fun now => ?_
        have hle := (hl.trans hl2).trans hl3
        obtain ⟨p3, k10, k11⟩ := hle.tasks _ _ k4
        rw [hp2] at k10; cases k10
        have hj2 : p2.jobID = t.jobID := k11.job.trans k5
        have hid2 := (task?_mem hp2).2
        have hst : Started s3 p2.jobID := by rw [hj2]; exact (ht.mono hle).started
        have hm := hi3.msg hp2 hst
        refine ih (t := { p2 with state := .completed, completedAt := some now }) (by omega) (by show Anc s3 d p2.id; rw [hid2]; exact k7.mono hle)
          (hm.upd rfl rfl rfl rfl rfl rfl rfl rfl) ?_
        exact (hx.mono hle).trans (.step k2 hp2 hj2 (.refl _))
      by_cases hc : p1.parallel.isSome
      · rw [if_pos hc]
        refine good_parTx ht1 (hx.mono hl) k2 (fun e s2 _ => fun _ _ => ⟨by simp, .inr rfl⟩) (fun s2 hl2 => ?_) fun s2 hl2 => ?_
        · exact hlast s2 hl2
        · exact fun _ _ => ⟨fun _ => rfl, .inl rfl⟩
      · rw [if_neg hc]
        refine good_eachTx ht1 (hx.mono hl) k2 (fun q hq => ?_) ⟨p1, hp1⟩ (fun e s2 _ => fun _ _ => ⟨by simp, .inr rfl⟩) (fun s2 hl2 => ?_)
          fun s2 hl2 => ?_
        · rw [hp1] at hq; cases hq
          refine ⟨?_, k9.job.trans k5⟩
          unfold width
          cases hpp : p1.parallel with
          | none => rfl
          | some z => rw [hpp] at hc; exact absurd rfl hc
        · exact hlast s2 hl2
        · exact fun _ _ => ⟨fun _ => rfl, .inl rfl⟩

theorem good_completedHandler {fuel : Nat} (hf : H ≤ fuel) {t : Task} (ht : MsgTask C H s t) :
    Good C H (completedHandler C fuel t) T [.tok (tgt t)] s (half C H) := by
  simp only [completedHandler, bind_eq, pure_eq]
  refine good_now fun now => ?_
  split
  · exact fun s' hl => ⟨by simp, fun _ => ⟨.inr (.inl rfl), ht.mono hl⟩⟩
  · have ht1 : MsgTask C H s { t with completedAt := some now } := ht.upd rfl rfl rfl rfl rfl rfl rfl rfl
    obtain ⟨d, n, ha, hs, hn⟩ := ht1.sound
    have := hs.pos
    refine Good.seq (good_completeTask (t := { t with completedAt := some now }) (x := tgt t) (by omega) ha ht1 (.refl _)) ?_
    rintro T' o' s' r hl ⟨h1, h2⟩
    exact fun s'' hl' => ⟨h1, fun _ => ⟨h2.imp (fun h => h) .inl, ht1.mono (hl.trans hl')⟩⟩

/-! ## started.go, progress.go, redelivered.go -/

theorem half_nil {T' : List Nat} {s' : DS} (r : Res) (u : Task) (hu : MsgTask C H s' u) : Good C H (Prog.ret (r, u)) T' [] s' (half C H) :=
  fun _ hl => ⟨fun _ => rfl, fun _ => ⟨.inl rfl, hu.mono hl⟩⟩

theorem good_startedHandler {t : Task} (ht : MsgTask C H s t) : Good C H (startedHandler t) T [] s (half C H) := by
  simp only [startedHandler, bind_eq, pure_eq]
  refine good_getJob ht.hasJob fun s1 j hl hi hj => ?_
  have hjid := (job?_mem hj).2
  have ht1 := ht.mono hl
  dsimp only
  split
  · refine good_getNode fun s2 r hl2 => ?_
    have ht2 : MsgTask C H s2 { t with state := .cancelled } := (ht1.mono hl2).upd rfl rfl rfl rfl rfl rfl rfl rfl
    cases r with
    | error e => exact half_nil _ _ ht2
    | ok node => exact good_pubT ht2 [] (.keep _ _) (half_nil _ _ ht2)
  · have hrest : ∀ (s2 : DS) (T' : List Nat) (r : Res), Le s1 s2 → Good C H
        (match r with
        | some e => .ret (some e, t)
        | none => Prog.now.bind fun now =>
          (tx (updateTask' t.id (startedRow now t.nodeID))).bind fun x =>
            match x with
            | .error e => .ret (some e, t)
            | .ok _ => .ret (none, t)) T' [] s2 (half C H) := by
      intro s2 T' r hl2
      have ht2 := ht1.mono hl2
      cases r with
      | some e => exact half_nil _ _ ht2
      | none =>
        refine good_now fun now => ?_
        refine good_updTask' ht2.hasTask ?_ ?_ ?_ ?_ ?_ (.inl ht2.owner) fun s3 hl3 => half_nil _ _ (ht2.mono hl3)
        iterate 3 (intro r; unfold startedRow; dsimp only; split <;> rfl)
        iterate 2 (intro r hr; unfold startedRow; dsimp only; split <;> exact hr)
    split
    · simp only [markJobAsRunning, bind_eq, pure_eq]
      refine good_updJob (started_job (by show Started s1 j.id; rw [hjid]; exact ht1.started)) (fun ds r hl2 hi2 hr => ?_) ?_
      · have hg := hi2.jobs _ _ hr
        unfold markRunningRow
        split
        · exact ⟨⟨hg.pos, hg.pos0, hg.state⟩, fun h => h, Iff.rfl⟩
        · rename_i h
          have h := Classical.not_not.1 h
          exact ⟨⟨fun _ => hg.pos (by rw [h]; simp), fun h' => (by cases h'), trivial⟩, fun _ => by simp, by simp [h]⟩
      · intro s2 hl2
        exact hrest s2 _ none hl2
    · exact hrest s1 _ none (Le.refl _)

theorem good_progressHandler {t : Task} (ht : MsgTask C H s t) : Good C H (progressHandler t) T [] s (half C H) := by
  simp only [progressHandler, bind_eq, pure_eq]
  refine good_updTask' ht.hasTask (fun _ => rfl) (fun _ => rfl) (fun _ => rfl) (fun _ h => h) (fun _ h => h) (.inr fun _ => rfl) ?_
  intro s1 hl
  dsimp only
  have ht1 := ht.mono hl
  refine good_getJob ht1.hasJob fun s2 j hl2 hi hj => ?_
  dsimp only
  have ht2 : MsgTask C H s2 { t with progress := clampProgress t.progress } := (ht1.mono hl2).upd rfl rfl rfl rfl rfl rfl rfl rfl
  refine good_updJob (ht1.mono hl2).hasJob (fun ds r hl3 hi3 hr => ?_) fun s3 hl3 => half_nil _ _ (ht2.mono hl3)
  have hg := hi3.jobs _ _ hr
  exact ⟨⟨hg.pos, hg.pos0, hg.state⟩, fun h => h, Iff.rfl⟩

theorem good_redeliveredHandler {t : Task} (ht : MsgTask C H s t) : Good C H (redeliveredHandler t) T [] s fin := by
  simp only [redeliveredHandler, bind_eq, pure_eq]
  split
  · refine good_now fun now => ?_
    exact good_pubT (ht.upd rfl rfl rfl rfl rfl rfl rfl rfl) [] (.keep _ _) fun _ _ => rfl
  · exact good_pubT (ht.upd rfl rfl rfl rfl rfl rfl rfl rfl) [] (.keep _ _) fun _ _ => rfl

/-! ## coordinator.go -/

theorem toks_none {q : String} (h : ¬ Carries q) (t : Task) : toks C (.task q t) = [] := by
  classical
  show (if q = QUEUE_ERROR then [errOb C t] else if Carries q then [.tok (tgt t)] else []) = _
  rw [if_neg fun hq => h (.inr (.inr (.inl hq))), if_neg h]

theorem owes_err (t : Task) : Owes C t [errOb C t] := by
  classical
  unfold errOb
  by_cases ht : Total C
  · rw [if_pos ht]; exact .inr (.inl rfl)
  · rw [if_neg ht]
    exact .inr (.inr ⟨ht, fun b hb => by rw [List.mem_singleton.1 hb]; rfl⟩)

theorem good_coordinator {fuel : Nat} (hf : H ≤ fuel) {m : Msg} {p : Prog Res} (hm : MsgOK C H s m)
    (hp : coordinatorHandler C fuel m = some p) : Good C H p T (toks C m) s fin := by
  have key : ∀ {h : Task → Prog (Res × Task)} {t : Task} {o : List Ob}, Good C H (h t) T o s done →
      Good C H (wrapTask C h t) T o s fin := fun hg =>
    good_wrapTask (hg.mono fun _ _ _ x _ hx => ⟨fun _ => hx.2, fun h => absurd hx.1 h⟩)
  unfold coordinatorHandler at hp
  split at hp
  · rename_i q t
    have ht : MsgTask C H s t := hm
    split at hp
    · cases hp
      rename_i hq
      rw [toks_none (by rw [hq]; unfold Carries WorkQueue; decide +kernel)]
      exact good_redeliveredHandler ht
    · split at hp
      · cases hp
        rename_i hq
        rw [hq, toks_pending]
        exact key (good_pendingHandler ht)
      · split at hp
        · cases hp
          rename_i hq
          rw [hq, toks_completed]
          exact good_wrapTask (good_completedHandler hf ht)
        · split at hp
          · cases hp
            rename_i hq
            rw [toks_none (by rw [hq]; unfold Carries WorkQueue; decide +kernel)]
            exact good_wrapTask (good_startedHandler ht)
          · split at hp
            · cases hp
              rename_i hq
              rw [hq, toks_error]
              refine good_wrapTask ?_
              refine Good.seq (good_errorHandler ht (owes_err t)) ?_
              rintro T' o' s' r hl rfl
              exact fun s'' hl' => ⟨fun _ => rfl, fun _ => ⟨.inl rfl, ht.mono (hl.trans hl')⟩⟩
            · exact absurd hp (by simp)
  · cases hp
    exact good_wrapJob hm
  · cases hp
    exact good_wrapTask (good_progressHandler hm)
  · exact absurd hp (by simp)

end Tork.Flow

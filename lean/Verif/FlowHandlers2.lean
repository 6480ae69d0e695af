import Verif.FlowHandlers
/-! Every handler discharges its obligations: each tasks, sub-jobs, starting and restarting jobs. -/

namespace Tork.Flow
open Prog Calm

variable {C : Cfg} {H : Nat} {α : Type} {T : List Nat} {o : List Ob} {s : DS}

/-! ### Each tasks -/

/-- How many of the next `n` children are published at once, the first one having index `ix`. -/
def fires (c ix : Nat) : Nat → Nat
  | 0 => 0
  | n + 1 => (if fireNow c ix then 1 else 0) + fires c (ix + 1) n

theorem fires_eq (c ix n : Nat) : fires c ix n = if c = 0 then n else min n (c - ix) := by
  induction n generalizing ix with
  | zero => rw [fires]; split <;> simp
  | succ n ih =>
    rw [fires, ih]
    by_cases hc : c = 0
    · simp [hc, fireNow]; omega
    · by_cases hx : ix < c
      · simp [hc, fireNow, hx]; omega
      · simp [hc, fireNow, hx]; omega

/-- The task value after a child has been evaluated. -/
theorem msg_after {t : Task} {e : EachTask Task} (tm : String → Except Err String) (ht : MsgTask C H s t) (he : t.each = some e) :
    MsgTask C H s { t with each := some (afterChild tm e) } := by
  obtain ⟨r, h1, h2⟩ := ht.row
  obtain ⟨d, n, h3, h4, h5⟩ := ht.sound
  refine ⟨⟨r, h1, h2.trans ⟨rfl, rfl, rfl, rfl, ?_⟩⟩, ⟨d, n, h3, ?_, h5⟩, ht.started⟩
  · unfold conc; rw [he]; rfl
  · cases n with
    | zero => exact h4.elim
    | succ n =>
      obtain ⟨k1, k2, k3, k4, k5⟩ := h4
      refine ⟨k1, k2, k3, fun e' he' => ?_, k5⟩
      cases he'
      exact ⟨(k4 e he).1, sound_mapCmds _ (k4 e he).2⟩

theorem good_eachLoop {j : Job} {now d k : Nat} (items : List String) {t : Task} {e : EachTask Task} {ix : Nat} (ht : MsgTask C H s t)
    (he : t.each = some e) (hj : j.id = t.jobID) (ha : Anc s d t.id) (h0 : t.id ≠ 0) (hk : d + 1 + k ≤ H) (hs : Sound C k e.task) :
    Good C H (eachLoop C j now t e ix items) T (List.replicate (fires e.concurrency ix items.length) (.tok (t.jobID, t.id))) s done := by
  induction items generalizing s T t e ix with
  | nil => rw [eachLoop]; exact fun _ _ => ⟨rfl, rfl⟩
  | cons item items ih =>
    rw [eachLoop]
    simp only [bind_eq, pure_eq]
    refine good_uuid fun id hid hnT hu => ?_
    refine good_seed fun sd => ?_
    generalize hc : (⟨j.context, some (eachVarName e, ix, item)⟩ : Ctx) = ctx
    have hs0 := sound_clone hs
    have hs1 : Sound C k (eachChild t e j.id id now ix) := hs0.upd hs0.queue hs0.retry rfl rfl rfl
    have hs2 := sound_evaluate hs1 ctx sd
    have hf := (evaluateTask_frame (evaluateTemplate C.O ctx sd) (eachChild t e j.id id now ix)).1
    have htot := fun h : Total C => evaluate_total h ctx sd (eachChild t e j.id id now ix)
    rcases hev : evaluateTask (evaluateTemplate C.O ctx sd) (eachChild t e j.id id now ix) with ⟨c, err⟩
    rw [hev] at hs2 hf htot
    have hcid : c.id = id := hf.id
    have hcj : c.jobID = t.jobID := hf.jobID.trans hj
    have hcp : c.parentID = t.id := hf.parentID
    cases err with
    | some e => exact good_failToErrorQueue ht (.inr ⟨fun h => (by cases htot h), replicate_job⟩)
    | none =>
      dsimp only
      have hanc := child_anc ht ha (by rw [hcid]; exact hu) h0 hcp hcj (.inr (by unfold conc; rw [he]; rfl))
      refine good_createTask (by rw [hcid]; simp) (by rw [hcj]; exact ht.hasJob) (by rw [hf.createdAt]; rfl)
        ⟨d + 1, k, hanc, hs2, hk⟩ (by rw [hcj, hcid]; exact hu _ (.inr ht.hasJob)) (.inl (by rw [hcj]; exact ht.started)) ?_
      intro s1 hl hmsg
      dsimp only
      have ht1 := ht.mono hl
      have hm1 := msg_after (evaluateTemplate C.O ctx sd) ht1 he
      have hrest : ∀ T', Good C H (eachLoop C j now { t with each := some (afterChild (evaluateTemplate C.O ctx sd) e) }
          (afterChild (evaluateTemplate C.O ctx sd) e) (ix + 1) items) T'
          (List.replicate (fires e.concurrency (ix + 1) items.length) (.tok (t.jobID, t.id))) s1 done :=
        fun T' => ih hm1 rfl hj (ha.mono hl) h0 (sound_mapCmds _ hs)
      rw [List.length_cons, fires]
      by_cases hfire : fireNow e.concurrency ix
      · rw [if_pos hfire, if_pos (show fireNow (afterChild (evaluateTemplate C.O ctx sd) e).concurrency ix = true from hfire), Nat.add_comm 1]
        refine good_pubT (hmsg s1 (.refl _) (by rw [hcj]; exact ht1.started))
          (List.replicate (fires e.concurrency (ix + 1) items.length) (.tok (t.jobID, t.id))) ?_ (hrest _)
        rw [toks_pending]
        exact pub_child (by unfold tgt; rw [hcj, hcp])
      · rw [if_neg hfire, if_neg (show ¬ fireNow (afterChild (evaluateTemplate C.O ctx sd) e).concurrency ix = true from hfire), Nat.zero_add]
        exact hrest _

theorem good_scheduleEach {t : Task} {e : EachTask Task} (ht : MsgTask C H s t) (hp : t.parallel = none) (he : t.each = some e) :
    Good C H (scheduleEachTask C t e) T [.tok (tgt t)] s done := by
  simp only [scheduleEachTask, bind_eq, pure_eq]
  refine good_now fun now => ?_
  refine good_getJob ht.hasJob fun s1 j hl hi hj => ?_
  dsimp only
  refine good_seed fun sd => ?_
  have ht1 := ht.mono hl
  have hjid := (job?_mem hj).2
  obtain ⟨d, n, ha, hs, hn⟩ := ht1.sound
  cases n with
  | zero => exact hs.elim
  | succ n =>
    obtain ⟨_, _, _, hs4, _⟩ := hs
    obtain ⟨hne, hsub⟩ := hs4 e he
    cases hv : evaluateExpr C.O ⟨j.context, none⟩ sd e.list with
    | error err => exact good_failToErrorQueue ht1 (.inl rfl)
    | ok v =>
      dsimp only
      cases hx : v.items with
      | none => exact good_failToErrorQueue ht1 (.inl rfl)
      | some xs =>
        dsimp only
        have hlen := List.length_pos_iff.2 (hne _ _ _ _ hv hx)
        refine good_open (n := fires e.concurrency 0 xs.length) ht1 (fun ds r hl2 hi2 hr hsame hst => ?_) ?_
        · have hrp : r.parallel = none := by
            have hw : width t = width r := hsame.width
            unfold width at hw; rw [hp] at hw
            cases hq : r.parallel with
            | none => rfl
            | some q => rw [hq] at hw; cases hw
          have hrc : ∃ e0, r.each = some e0 ∧ e0.concurrency = e.concurrency := by
            have hw : conc t = conc r := hsame.conc
            unfold conc at hw; rw [he] at hw
            cases hq : r.each with
            | none => rw [hq] at hw; cases hw
            | some q => rw [hq] at hw; exact ⟨q, rfl, (Option.some.inj hw).symm⟩
          obtain ⟨e0, hre, hcc⟩ := hrc
          have heach : (persistTask r (eachRow now xs.length r)).each = some { e0 with size := xs.length, index := e0.concurrency } := by
            unfold persistTask eachRow; dsimp only; rw [hre]; rfl
          have hpar : (persistTask r (eachRow now xs.length r)).parallel = none := by
            unfold persistTask eachRow; dsimp only; rw [hrp]
          refine ⟨⟨⟨rfl, rfl, rfl, ?_, ?_⟩, fun k hk => hk.upd' hk.queue hk.retry ?_ ?_ ?_, .inl hst⟩, ?_⟩
          · unfold width; rw [hpar, hrp]
          · unfold conc; rw [heach, hre]; rfl
          · intro p hp'; rw [hpar] at hp'; cases hp'
          · intro e' he'; rw [heach] at he'; cases he'; exact ⟨e0, hre, rfl, rfl⟩
          · intro s' hs'; exact ⟨s', hs', rfl⟩
          · unfold absorbRow
            rw [hpar, heach, fires_eq]
            dsimp only
            rw [hcc]
            split <;> omega
        · intro s2 hl2
          dsimp only
          have ht2 := ht1.mono hl2
          exact good_eachLoop xs ht2 he hjid (ha.mono hl2) (ht1.id_ne hi) (by omega) hsub

/-! ### Sub-jobs -/

theorem sub_upd {ds : DS} {r : Task} {now id : Nat} (hst : Started ds r.jobID) :
    TaskUpd C ds r (persistTask r (subJobRow now id r)) ∧ absorbRow (persistTask r (subJobRow now id r)) ≤ absorbRow r := by
  refine ⟨⟨⟨rfl, rfl, rfl, rfl, rfl⟩, fun k hk => hk.upd' hk.queue hk.retry ?_ ?_ ?_, .inl hst⟩, Nat.le_refl _⟩
  · intro p hp; exact ⟨p, hp, rfl⟩
  · intro p hp; exact ⟨p, hp, rfl, rfl⟩
  · intro s hs
    have hs : r.subJob.map (fun s => { s with id := id }) = some s := hs
    cases hr : r.subJob with
    | none => rw [hr] at hs; cases hs
    | some s0 => rw [hr] at hs; cases hs; exact ⟨s0, rfl, rfl⟩

theorem good_updSub {t : Task} {now id : Nat} {k : Except Err Unit → Prog α} {post : List Nat → List Ob → DS → α → Prop}
    (ht : MsgTask C H s t) (h : ∀ s', Le s s' → Good C H (k (.ok ())) T o s' post) :
    Good C H ((tx (updateTask' t.id (subJobRow now id))).bind k) T o s post := by
  refine good_updTask ht.hasTask (fun ds r hl hi hr => sub_upd ?_) h
  obtain ⟨r', h1, h2⟩ := (ht.mono hl).row
  rw [hr] at h1; cases h1
  rw [← h2.job]; exact (ht.mono hl).started

theorem sub_sound {t : Task} {sj : SubJobTask Task} (ht : MsgTask C H s t) (hs : t.subJob = some sj) {j : Job} (hj : j.tasks = sj.tasks)
    (hd : j.defaults = none) : SoundJob C H j := by
  obtain ⟨d, n, _, h, hn⟩ := ht.sound
  cases n with
  | zero => exact h.elim
  | succ n =>
    obtain ⟨_, _, _, _, h5⟩ := h
    obtain ⟨k1, k2⟩ := h5 sj hs
    refine ⟨by rw [hj]; exact k1, by rw [hj]; exact fun x hx => ⟨(k2 x hx).1, (k2 x hx).2.mono (by omega)⟩, ?_, ?_⟩ <;>
      (intro d hd'; rw [hd] at hd'; cases hd')

theorem toks_job {j : Job} (h : j.state = .pending) : toks C (.job j) = [.tok (j.id, 0)] := by
  show (if j.state = .pending then [Ob.tok (j.id, 0)] else if j.state = .cancelled ∧ j.position ≠ 0 then [Ob.doom j.id] else []) = _
  rw [if_pos h]

theorem msg_new {j : Job} (hr : SoundJob C H j) (hrow : ∃ r, s.job? j.id = some r ∧ r.parentID = j.parentID) (hp : j.state = .pending)
    (h0 : j.position = 0) : MsgJob C H s j :=
  ⟨hr, hrow, .inl hp, fun h => absurd h0 h, fun h => by rw [hp] at h; cases h⟩

theorem good_attached {t : Task} {sj : SubJobTask Task} (ht : MsgTask C H s t) (hs : t.subJob = some sj) :
    Good C H (scheduleAttachedSubJob t sj) T [.tok (tgt t)] s fun _ o _ r => r = none ∧ o = [] := by
  simp only [scheduleAttachedSubJob, bind_eq, pure_eq]
  refine good_getJob ht.hasJob fun s1 j hl hi hj => ?_
  dsimp only
  refine good_now fun now => ?_
  refine good_uuid fun id hid hnT hu => ?_
  have ht1 := ht.mono hl
  have h0 := ht1.id_ne hi
  have hlt : t.id < id := hu _ (.inl ht1.hasTask)
  refine good_updSub ht1 fun s2 hl2 => ?_
  have ht2 := ht1.mono hl2
  have hsd : SoundJob C H (attachedSubJob id now j t sj) := sub_sound ht2 hs rfl rfl
  dsimp only
  refine good_createSub (t := t) (by simp [attachedSubJob]) hid hsd rfl rfl rfl h0 ht2 hlt fun s3 hl3 hrow => ?_
  dsimp only
  exact good_pub (m := .job _) (msg_new hsd hrow rfl rfl) [] (by rw [toks_job rfl]; exact .all fun _ => Nat.le_refl _) fun _ _ => ⟨rfl, rfl⟩

theorem good_detached {t : Task} {sj : SubJobTask Task} (ht : MsgTask C H s t) (hs : t.subJob = some sj) :
    Good C H (scheduleDetachedSubJob t sj) T [.tok (tgt t)] s done := by
  simp only [scheduleDetachedSubJob, bind_eq, pure_eq]
  refine good_getJob ht.hasJob fun s1 j hl hi hj => ?_
  dsimp only
  refine good_now fun now => ?_
  refine good_uuid fun id hid hnT hu => ?_
  have ht1 := ht.mono hl
  have hsd : SoundJob C H (detachedSubJob id now j sj) := sub_sound ht1 hs rfl rfl
  refine good_createJob (by simp [detachedSubJob]) hid hsd rfl rfl rfl fun s2 hl2 hrow => ?_
  dsimp only
  have ht2 := ht1.mono hl2
  refine good_pub (m := .job _) (msg_new hsd hrow rfl rfl) [.tok (tgt t)] ?_ ?_
  · rw [toks_job rfl]
    refine .counts fun x => ?_
    rw [List.count_append, ← List.count_append]
    exact Nat.le_of_eq (List.perm_append_comm (l₁ := [Ob.tok ((detachedSubJob id now j sj).id, 0)]) (l₂ := [Ob.tok (tgt t)]).count_eq x)
  · refine good_updSub ht2 fun s3 hl3 => ?_
    dsimp only
    exact good_pubT ((ht2.mono hl3).upd rfl rfl rfl rfl rfl rfl rfl rfl) [] (by rw [toks_completed]; exact .tok rfl) fun _ _ => ⟨rfl, rfl⟩

theorem good_scheduleTask {t : Task} (ht : MsgTask C H s t) : Good C H (scheduleTask C t) T [.tok (tgt t)] s done := by
  unfold scheduleTask
  cases hp : t.parallel with
  | some p => exact good_schedulePar ht hp
  | none =>
    dsimp only
    cases he : t.each with
    | some e => exact good_scheduleEach ht hp he
    | none =>
      dsimp only
      cases hs : t.subJob with
      | none => exact good_scheduleRegular ht
      | some sj =>
        dsimp only
        by_cases hd : sj.detached
        · rw [if_pos hd]; exact good_detached ht hs
        · rw [if_neg hd]
          exact Good.seq (good_attached ht hs) fun T' o' s' r hl h => fun _ _ => h

theorem good_pendingHandler {t : Task} (ht : MsgTask C H s t) : Good C H (pendingHandler C t) T [.tok (tgt t)] s done := by
  unfold pendingHandler
  split
  · exact good_skipTask ht
  · exact good_scheduleTask ht

/-! ## job.go: startJob, restartJob -/

/-- The next top-level task of a job. -/
theorem good_newTask {t0 : Task} {j : Job} {sd now id pos : Nat} {k : Except Err Unit → Prog α}
    {post : List Nat → List Ob → DS → α → Prop} (hs : Sound C H t0) (hv : Virgin t0) (hid : id ∈ T)
    (hj : HasJob s j.id) (hu : ∀ m, Used s m → m < id)
    (h : ∀ s', Le s s' → ∀ t, t = evalOrFail C j.context sd now (prepTask t0 id j.id pos now) → tgt t = (j.id, 0) → t.jobID = j.id →
      (∀ s'', Le s' s'' → Started s'' j.id → MsgTask C H s'' t) → Good C H (k (.ok ())) (T.filter (· ≠ t.id)) o s' post) :
    Good C H ((tx (createTask (evalOrFail C j.context sd now (prepTask t0 id j.id pos now)))).bind k) T o s post := by
  obtain ⟨h1, h2, h3, h4, h5⟩ := sound_new hs hv j.context sd now id j.id pos
  generalize ht : evalOrFail C j.context sd now (prepTask t0 id j.id pos now) = t at *
  refine good_createTask (by rw [h3]; exact hid) (by rw [h4]; exact hj) h5 ⟨0, H, h2.parent, h1, by omega⟩
    (by rw [h4, h3]; exact hu _ (.inr hj)) (.inr ⟨h2.node, h2.sub⟩) fun s' hl hm => ?_
  refine h s' hl t rfl (by unfold tgt; rw [h4, h2.parent]) h4 fun s'' hl'' hst => hm s'' hl'' (by rw [h4]; exact hst)

theorem good_startJob {j : Job} (hj : MsgJob C H s j) : Good C H (startJob C j) T [.tok (j.id, 0)] s
    fun _ o _ x => o = [] ∧ x.2.id = j.id ∧ x.2.parentID = j.parentID := by
  simp only [startJob, bind_eq, pure_eq]
  refine good_now fun now => ?_
  cases hts : j.tasks with
  | nil => exact absurd hts hj.reg.nonempty
  | cons t0 rest =>
    dsimp only
    refine good_uuid fun id hid hnT hu => ?_
    refine good_seed fun sd => ?_
    obtain ⟨hv, hs⟩ := hj.reg.tasks t0 (by simp [hts])
    refine good_newTask hs hv (by simp) hj.hasJob hu fun s1 hl t ht htg htj hm => ?_
    rw [← ht]
    dsimp only
    refine good_now fun n => ?_
    refine good_wakeJob (m := fun r => .ok ((), startJobRow n r)) (hl.hasJob hj.hasJob) (.inr rfl)
      fun ds r hl1 hi hr => ⟨fun e he => (by cases he), fun g u hu => ?_⟩
    cases hu
    refine ⟨Nat.le_refl 1, .inl rfl, fun s2 hl2 hst => ?_⟩
    have hl02 := (hl.trans hl1).trans hl2
    dsimp only
    split
    · refine good_now fun n => ?_
      refine Good.seq (good_failJob (j := { j with failedAt := some n, state := .failed, error := t.error })
        (hj.mono hl02).row (.inr ⟨hst, fun x hx => by rw [List.mem_singleton.1 hx]; rfl⟩)) ?_
      rintro T' o' s3 r' hl3 rfl
      exact fun s4 hl4 => ⟨rfl, rfl, rfl⟩
    · rw [← htg]
      refine Good.seq (good_pendingHandler (hm s2 (hl1.trans hl2) hst)) ?_
      rintro T' o' s3 x hl3 ⟨_, rfl⟩
      exact fun s4 hl4 => ⟨rfl, rfl, rfl⟩

theorem good_restartJob {j : Job} (hj : MsgJob C H s j) (hs : j.state = .restart) : Good C H (restartJob C j) T [] s fin := by
  simp only [restartJob, bind_eq, pure_eq]
  obtain ⟨hp1, hp2⟩ := hj.restart hs
  refine good_wakeJob hj.hasJob (.inl rfl) fun ds r hl hi hr => ⟨fun e he => fun _ _ => rfl, fun g u hu => ?_⟩
  have hg := hi.jobs _ _ hr
  unfold restartJobRow at hu
  split at hu
  · simp at hu
  · rename_i hst
    cases hu
    have hne : r.state ≠ .pending := by
      intro h; rw [h] at hst; simp at hst
    refine ⟨hg.pos hne, .inr rfl, fun s2 hl2 hst2 => ?_⟩
    dsimp only
    refine good_now fun now => ?_
    rw [if_neg (by omega)]
    have hlt : j.position - 1 < j.tasks.length := by omega
    rw [List.getElem?_eq_getElem hlt]
    dsimp only
    refine good_uuid fun id hid hnT hu => ?_
    refine good_seed fun sd => ?_
    obtain ⟨hv, hsd⟩ := hj.reg.tasks _ (List.getElem_mem hlt)
    refine good_newTask hsd hv (by simp) (started_job hst2) hu fun s3 hl3 t ht htg htj hm => ?_
    rw [← ht]
    dsimp only
    refine good_pubT (hm s3 (.refl _) (hl3.started hst2)) [] ?_ fun _ _ => rfl
    rw [toks_pending, htg]
    exact .all fun _ => Nat.le_refl _

theorem good_wrapJob {j : Job} (hj : MsgJob C H s j) : Good C H (wrapJob C j) T (toks C (.job j)) s fin := by
  simp only [wrapJob, bind_eq, pure_eq]
  have hend : ∀ (T' : List Nat) (s' : DS) (j' : Job) (r : Res), Le s s' → j'.id = j.id → j'.parentID = j.parentID →
      Good C H (match r with
        | none => Prog.ret none
        | some _ => Prog.now.bind fun now => failJob { j' with failedAt := some now, state := .failed }) T' [] s' fin := by
    intro T' s' j' r h1 h2 h3
    cases r with
    | none => exact fun _ _ => rfl
    | some e =>
      refine good_now fun now => ?_
      obtain ⟨r, k1, k2⟩ := (hj.mono h1).row
      exact good_failJob ⟨r, by show s'.job? j'.id = _; rw [h2]; exact k1, by show r.parentID = j'.parentID; rw [h3]; exact k2⟩ (.inl rfl)
  rcases hj.state with h | h | h
  · rw [toks_job h]
    unfold jobHandler
    rw [h]
    refine Good.seq (good_startJob hj) ?_
    rintro T' o' s' ⟨r, j'⟩ hl ⟨rfl, h1, h2⟩
    exact hend T' s' j' r hl h1 h2
  · have ho : toks C (.job j) = [] ∨ Started s j.id ∧ ∀ x ∈ toks C (.job j), x.job = j.id := by
      have : toks C (.job j) = if j.position ≠ 0 then [Ob.doom j.id] else [] := by
        show (if j.state = .pending then [Ob.tok (j.id, 0)] else if j.state = .cancelled ∧ j.position ≠ 0 then [Ob.doom j.id] else []) = _
        rw [if_neg (by rw [h]; simp)]; simp [h]
      rw [this]
      by_cases hp : j.position = 0
      · left; simp [hp]
      · right
        refine ⟨hj.started hp, fun x hx => ?_⟩
        rw [if_pos hp] at hx
        rw [List.mem_singleton.1 hx]; rfl
    unfold jobHandler
    rw [h]
    refine Good.seq (Good.seq (good_cancelHandler hj ho) ?_ (post := fun _ o s x => o = [] ∧ x.2 = j)) ?_
    · rintro T' o' s' r hl rfl
      exact fun _ _ => ⟨rfl, rfl⟩
    · rintro T' o' s' ⟨r, j'⟩ hl ⟨rfl, h1⟩
      have h1 : j' = j := h1
      exact hend T' s' j' r hl (by rw [h1]) (by rw [h1])
  · have : toks C (.job j) = [] := by
      show (if j.state = .pending then [Ob.tok (j.id, 0)] else if j.state = .cancelled ∧ j.position ≠ 0 then [Ob.doom j.id] else []) = _
      rw [if_neg (by rw [h]; simp), if_neg (by rw [h]; simp)]
    rw [this]
    unfold jobHandler
    rw [h]
    refine Good.seq (Good.seq (good_restartJob hj h) ?_ (post := fun _ o s x => o = [] ∧ x.2 = j)) ?_
    · rintro T' o' s' r hl rfl
      exact fun _ _ => ⟨rfl, rfl⟩
    · rintro T' o' s' ⟨r, j'⟩ hl ⟨rfl, h1⟩
      have h1 : j' = j := h1
      exact hend T' s' j' r hl (by rw [h1]) (by rw [h1])

end Tork.Flow

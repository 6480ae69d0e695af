import Verif.OnceEach
/-! The handlers in the logic of rights: failing, cancelling and completing jobs. -/

namespace Tork.Once
open Prog Calm

variable {M : Mode} {α γ : Type} {T : List Nat} {o : List Tok} {s : St} {post : Post α}

/-- In fault-free systems the rights are kept. -/
def Kept (M : Mode) (o : List Tok) : Post α := fun _ o' _ _ => M = .calm → Sub o o'

theorem good_pub0 {m : Msg} {k : Except Err Unit → Prog α} (hm : MsgOK M s m) (h0 : toks M m = [])
    (he : M ≠ .calm → ∀ e, Good M (k (.error e)) [] [] s post) (h : Good M (k (.ok ())) T o s post) :
    Good M ((publish m).bind k) T o s post :=
  good_pub hm o (by rw [h0, List.append_nil]; exact Sub.refl _) he h

theorem kept_ret {a : α} (ho : M = .calm → Sub o o') : Good M (.ret a) T o' s (Kept M o) := good_ret fun _ _ hm => ho hm

theorem MsgJ.upd {j u : Job} (h : MsgJ s j) (h1 : u.tasks = j.tasks) (h2 : u.parentID = j.parentID) : MsgJ s u :=
  ⟨by rw [h1]; exact h.tasks, by rw [h2]; exact h.parent⟩

/-! ## Queues -/

theorem excl_ne {q q' : String} (h : isExclusiveQueue q = true) (h' : isExclusiveQueue q' = false) : q ≠ q' := fun e => by
  rw [e, h'] at h; cases h

theorem excl_work {q : String} (h : isExclusiveQueue q = true) : isWorkQueue q = false := by
  unfold isWorkQueue isTaskQueue
  rw [h]
  simp [excl_ne h (show isExclusiveQueue QUEUE_REDELIVERIES = false by decide +kernel)]

theorem single_of {q : String} {t : Task} (h1 : q ≠ QUEUE_PENDING) (h2 : isWorkQueue q = false)
    (h3 : q = QUEUE_COMPLETED → t.state ≠ .skipped) (h4 : q = QUEUE_COMPLETED ∨ q = QUEUE_ERROR → t.single = false) :
    M.single (.task q t) = false := by
  have hb : ∀ {x y : String}, x ≠ y → decide (x = y) = false := fun h => decide_eq_false h
  cases M with
  | once =>
    show (decide (q = QUEUE_PENDING) || isWorkQueue q) = false
    rw [hb h1, h2]; rfl
  | noRetry =>
    show (decide (q = QUEUE_PENDING) || (decide (q = QUEUE_COMPLETED) && decide (t.state = .skipped))) = false
    rw [hb h1]
    by_cases hq : q = QUEUE_COMPLETED
    · rw [decide_eq_false (h3 hq)]; simp
    · rw [hb hq]; rfl
  | calm =>
    show (decide (q = QUEUE_PENDING) || ((isWorkQueue q || decide (q = QUEUE_COMPLETED) || decide (q = QUEUE_ERROR)) && t.single)) = false
    rw [hb h1, h2]
    by_cases hq : q = QUEUE_COMPLETED ∨ q = QUEUE_ERROR
    · rw [h4 hq]; simp
    · rw [hb fun h => hq (.inl h), hb fun h => hq (.inr h)]; rfl

theorem workQueue_completed : isWorkQueue QUEUE_COMPLETED = false := by decide +kernel
theorem workQueue_error : isWorkQueue QUEUE_ERROR = false := by decide +kernel
theorem workQueue_started : isWorkQueue QUEUE_STARTED = false := by decide +kernel

theorem toks_excl {q : String} {t : Task} (h : isExclusiveQueue q = true) : toks M (.task q t) = [] :=
  toks_free (single_of (excl_ne h (by decide +kernel)) (excl_work h) (fun e => absurd e (excl_ne h (by decide +kernel)))
    fun e => e.elim (fun e => absurd e (excl_ne h (by decide +kernel))) fun e => absurd e (excl_ne h (by decide +kernel)))

theorem MsgQ.excl {st : St} {q : String} {t : Task} (h : isExclusiveQueue q = true) : MsgQ M st q t := by
  refine ⟨fun _ c _ hx => ?_, fun hx => ?_⟩
  · rcases hx with ⟨hx, _⟩ | hx
    · exact absurd hx (excl_ne h (by decide +kernel))
    · rw [excl_work h] at hx; cases hx
  · rw [excl_work h] at hx; cases hx

theorem toks_error {t : Task} (h : t.single = false) : toks M (.task QUEUE_ERROR t) = [] :=
  toks_free (single_of (by decide +kernel) workQueue_error (fun e => absurd e (by decide +kernel)) fun _ => h)

theorem MsgQ.error {st : St} {t : Task} : MsgQ M st QUEUE_ERROR t := by
  refine ⟨fun _ c _ hx => ?_, fun hx => ?_⟩
  · rcases hx with ⟨hx, _⟩ | hx
    · exact absurd hx (by decide +kernel)
    · rw [workQueue_error] at hx; cases hx
  · rw [workQueue_error] at hx; cases hx

theorem toks_completed {t : Task} (h : t.single = false) (h' : t.state ≠ .skipped) : toks M (.task QUEUE_COMPLETED t) = [] :=
  toks_free (single_of (by decide +kernel) workQueue_completed (fun _ => h') fun _ => h)

theorem MsgQ.completed {st : St} {t : Task} (h : M = .noRetry → ∀ c, Tr M st.ds t.parentID c → t.state = .completed → st.S t.id) :
    MsgQ M st QUEUE_COMPLETED t := by
  refine ⟨fun hm c hc hx => ?_, fun hx => ?_⟩
  · rcases hx with ⟨_, hx⟩ | hx
    · exact h hm c hc hx
    · rw [workQueue_completed] at hx; cases hx
  · rw [workQueue_completed] at hx; cases hx

theorem toks_started {t : Task} : toks M (.task QUEUE_STARTED t) = [] :=
  toks_free (single_of (by decide +kernel) workQueue_started (fun e => absurd e (by decide +kernel))
    fun e => e.elim (fun e => absurd e (by decide +kernel)) fun e => absurd e (by decide +kernel))

theorem MsgQ.started {st : St} {t : Task} : MsgQ M st QUEUE_STARTED t := by
  refine ⟨fun _ c _ hx => ?_, fun hx => ?_⟩
  · rcases hx with ⟨hx, _⟩ | hx
    · exact absurd hx (by decide +kernel)
    · rw [workQueue_started] at hx; cases hx
  · rw [workQueue_started] at hx; cases hx

/-! ## cancel.go -/

theorem lower_cancelled (a : TaskState) : Lower a .cancelled := ⟨fun h => (by cases h), fun h => (by cases h), fun h => (by cases h)⟩
theorem lower_failed (a : TaskState) : Lower a .failed := ⟨fun h => (by cases h), fun h => (by cases h), fun h => (by cases h)⟩

theorem good_cancelLoop (ts : List Task) (hts : ∀ t ∈ ts, MsgT M s t) (ho : M = .calm → Sub o o') :
    Good M (cancelLoop ts) T o' s (Kept M o) := by
  induction ts generalizing T s with
  | nil => exact kept_ret ho
  | cons t ts ih =>
    unfold cancelLoop
    have ht := hts t (List.mem_cons_self ..)
    refine good_lower (fun T' o1 st e hd hx => kept_ret fun hm => (ho hm).trans (hx hm).2)
      (fun r => ⟨rfl, rfl, rfl, rfl, lower_cancelled _⟩) fun s1 h1 => ?_
    have hrec : ∀ {T} {s2}, Le M s1 s2 → Good M (cancelLoop ts) T o' s2 (Kept M o) := fun h2 =>
      ih fun t' ht' => (hts t' (List.mem_cons_of_mem _ ht')).mono (h1.trans h2)
    dsimp only
    by_cases hsj : subJobRef t ≠ 0
    · rw [if_pos hsj]
      refine good_getJob (fun T' o1 st e hd hx => kept_ret fun hm => (ho hm).trans (hx hm).2) fun s2 sj h2 hi hsjr => ?_
      dsimp only
      refine good_pub0 ((hi.msgJ hsjr).upd rfl rfl) rfl (fun hm e => kept_ret fun hx => absurd hx hm) (hrec h2)
    · rw [if_neg hsj]
      by_cases hn : t.nodeID ≠ 0
      · rw [if_pos hn]
        refine good_getNode (fun T' o1 st e hd hx => kept_ret fun hm => (ho hm).trans (hx hm).2) fun s2 node h2 hi hq => ?_
        dsimp only
        exact good_pub0 ⟨(ht.mono (h1.trans h2)).upd rfl rfl rfl rfl rfl rfl rfl, .excl hq⟩ (toks_excl hq)
          (fun hm e => kept_ret fun hx => absurd hx hm) (hrec h2)
      · rw [if_neg hn]; exact hrec (.refl _)

theorem good_cancelActive (id : Nat) (ho : M = .calm → Sub o o') : Good M (cancelActiveTasks id) T o' s (Kept M o) := by
  unfold cancelActiveTasks
  refine good_read (fun ds g ds' hg => ?_) (fun T' o1 st e hd hx => kept_ret fun hm => (ho hm).trans (hx hm).2.2) fun st ts hd hi hg => ?_
  · unfold getActiveTasks at hg; cases hg; rfl
  · unfold getActiveTasks at hg
    simp only [Except.ok.injEq, Prod.mk.injEq] at hg
    refine good_cancelLoop ts (fun t ht => ?_) ho
    rw [← hg.1] at ht
    exact hi.msg (task?_of_mem hi.keys (List.mem_filter.1 ht).1)

theorem good_cancel {j : Job} (hj : MsgJ s j) : Good M (cancelHandler j) T o s (Kept M o) := by
  unfold cancelHandler
  refine good_updJob (fun T' o1 st e hd hx => kept_ret fun hm => (hx hm).2) fun s1 h1 => ?_
  dsimp only
  by_cases hp : j.parentID ≠ 0
  · rw [if_pos hp]
    refine good_getTask (fun T' o1 st e hd hx => trivial) fun s2 pt h2 hi hpt => ?_
    dsimp only
    refine good_getJob (fun T' o1 st e hd hx => trivial) fun s3 pj h3 hi3 hpj => ?_
    dsimp only
    exact good_pub0 ((hi3.msgJ hpj).upd rfl rfl) rfl (fun hm e => good_cancelActive _ fun hx => absurd hx hm) (good_cancelActive _ fun _ => Sub.refl _)
  · rw [if_neg hp]; exact good_cancelActive _ fun _ => Sub.refl _

/-! ## job.go -/

theorem Task.single_sub {t : Task} (h : t.subJob.isSome = true) : t.single = false := by
  unfold Task.single
  cases hs : t.subJob with
  | none => rw [hs] at h; cases h
  | some s => simp

theorem good_failJob {j : Job} (hj : MsgJ s j) (ho : M = .calm → Sub o o') : Good M (failJob j) T o' s (Kept M o) := by
  unfold failJob
  refine good_updJob (fun T' o1 st e hd hx => kept_ret fun hm => (ho hm).trans (hx hm).2) fun s1 h1 => ?_
  dsimp only
  by_cases hp : j.parentID ≠ 0
  · rw [if_pos hp]
    refine good_getTask (fun T' o1 st e hd hx => kept_ret fun hm => (ho hm).trans (hx hm).2) fun s2 parent h2 hi hpt => ?_
    dsimp only
    obtain ⟨r, hr, hrs⟩ := (hj.mono (h1.trans h2)).parent hp
    rw [hpt] at hr; cases hr
    exact good_pub0 ⟨(hi.msg hpt).upd rfl rfl rfl rfl rfl rfl rfl, .error⟩ (toks_error (Task.single_sub hrs))
      (fun hm e => kept_ret fun hx => absurd hx hm) (kept_ret ho)
  · rw [if_neg hp]
    refine Good.seq (good_cancelActive _ ho) fun T2 o2 s2 r h2 hk => ?_
    cases r with
    | some e => exact kept_ret hk
    | none =>
      dsimp only
      refine good_getJob (fun T' o1 st e hd hx => kept_ret fun hm => Sub.trans (hk hm) (hx hm).2) fun s3 j' h3 hi hj' => ?_
      dsimp only
      by_cases hf : j'.state = .failed
      · rw [if_pos hf]
        exact good_pub0 trivial rfl (fun hm e => kept_ret fun hx => absurd hx hm) (kept_ret hk)
      · rw [if_neg hf]; exact kept_ret hk

/-- The result of completing a job. -/
def KeptJ (M : Mode) (o : List Tok) : Post (Res × Job) := fun _ o' s' x => (M = .calm → Sub o o') ∧ MsgJ s' x.2

theorem completeJobRow_job {C : Cfg} {j u j' u' : Job} {sd now now2 : Nat} (h : completeJobRow C j sd now now2 u = .ok (j', u')) :
    j'.tasks = j.tasks ∧ j'.parentID = j.parentID := by
  unfold completeJobRow at h
  split at h
  · cases h
  · split at h
    · cases h; exact ⟨rfl, rfl⟩
    · dsimp only at h
      split at h
      · cases h; exact ⟨rfl, rfl⟩
      · cases h; exact ⟨rfl, rfl⟩

theorem good_completeJob (C : Cfg) {j : Job} (hj : MsgJ s j) (ho : M = .calm → Sub o o') : Good M (completeJob C j) T o' s (KeptJ M o) := by
  unfold completeJob
  refine good_now fun now => good_seed fun sd => good_now fun now2 => ?_
  refine good_setJob (fun T' o1 st e hd hx => good_ret fun s' h' => ⟨fun hm => (ho hm).trans (hx hm).2, (hj.mono hd).mono h'⟩)
    fun s0 j0 j1 u h0 hi0 hj0 hm1 h1 => ?_
  obtain ⟨e1, e2⟩ := completeJobRow_job hm1
  have hj1 : MsgJ ⟨s0.ds.setJob j.id u, s0.S⟩ j1 := (hj.mono h1).upd e1 e2
  dsimp only
  by_cases hp : j1.parentID ≠ 0
  · rw [if_pos hp]
    refine good_getTask (fun T' o1 st e hd hx => good_ret fun s' h' => ⟨fun hm => (ho hm).trans (hx hm).2, (hj1.mono hd).mono h'⟩)
      fun s2 parent h2 hi hpt => ?_
    dsimp only
    refine good_now fun now3 => ?_
    obtain ⟨r, hr, hrs⟩ := (hj1.mono h2).parent hp
    rw [hpt] at hr; cases hr
    have hsg := Task.single_sub hrs
    have hmt := hi.msg hpt
    have hret : ∀ {r} {o1} {T1}, (M = .calm → Sub o o1) → Good M (.ret (r, j1)) T1 o1 s2 (KeptJ M o) := fun hx =>
      good_ret fun s' h' => ⟨hx, (hj1.mono h2).mono h'⟩
    by_cases hst : j1.state = .failed
    · rw [if_pos hst]
      exact good_pub0 ⟨hmt.upd rfl rfl rfl rfl rfl rfl rfl, .completed fun _ _ _ h => by cases h⟩ (toks_completed hsg (fun h => by cases h))
        (fun hm e => hret fun hx => absurd hx hm) (hret ho)
    · rw [if_neg hst]
      exact good_pub0 ⟨hmt.upd rfl rfl rfl rfl rfl rfl rfl, .completed fun _ c hc _ => absurd hc (hmt.free hsg c)⟩ (toks_completed hsg (fun h => by cases h))
        (fun hm e => hret fun hx => absurd hx hm) (hret ho)
  · rw [if_neg hp]
    have hret : ∀ {r} {o1} {T1}, (M = .calm → Sub o o1) → Good M (.ret (r, j1)) T1 o1 ⟨s0.ds.setJob j.id u, s0.S⟩ (KeptJ M o) := fun hx =>
      good_ret fun s' h' => ⟨hx, hj1.mono h'⟩
    exact good_pub0 trivial rfl (fun hm e => hret fun hx => absurd hx hm) (hret ho)

theorem good_markRunning {j : Job} {k : Res → Prog α}
    (he : ∀ T' o' st e, Le M s st → (M = .calm → ¬ HasJob s.ds j.id ∧ Sub o o') → Good M (k (some e)) T' o' st post)
    (h : ∀ s', Le M s s' → Good M (k none) T o s' post) : Good M ((markJobAsRunning j).bind k) T o s post := by
  unfold markJobAsRunning
  rw [bind_eq, bind_assoc]
  exact good_updJob (fun T' o1 st e hd hx => he T' o1 st e hd hx) fun s1 h1 => h s1 h1

end Tork.Once

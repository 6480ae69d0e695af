import Verif.OnceComplete
import Verif.SafeEnv
/-! The handlers in the logic of rights: workers; the handlers of the coordinator together. -/

namespace Tork.Once
open Prog Calm

variable {M : Mode} {α γ : Type} {T : List Nat} {o : List Tok} {s : St} {post : Post α}

theorem plain_clone (t : Task) : Plain M t.clone ↔ Plain M t := by
  have hc := clone_frame t
  have h1 : t.clone.single = t.single := by
    unfold Task.single
    simp only [← Option.not_isSome]
    rw [hc.par, hc.each, hc.sub.1]
    cases t.parallel <;> cases t.each <;> rfl
  unfold Plain
  rw [h1, hc.retry]

theorem MsgT.clone {t : Task} (h : MsgT M s t) : MsgT M s t.clone := by
  obtain ⟨r, k1, k2⟩ := h.row
  have hc := clone_frame t
  refine ⟨⟨r, by rw [hc.id]; exact k1, k2.trans ⟨hc.parentID, hc.jobID, ?_, ?_, hc.sub.1, fun c => ?_⟩⟩, nested_clone h.nested, by rw [hc.jobID]; exact h.job,
    fun c hx => ?_, by rw [hc.parentID]; exact h.parent⟩
  · rw [hc.par]; cases t.parallel <;> rfl
  · rw [hc.each]; cases t.each <;> rfl
  · unfold EachT
    rw [hc.each]
    cases t.each with
    | none => exact ⟨(fun ⟨e, he, _⟩ => by cases he), (fun ⟨e, he, _⟩ => by cases he)⟩
    | some e =>
      constructor
      · rintro ⟨x, hx, h3, h4⟩; cases hx; exact ⟨e, rfl, h3, (plain_clone _).1 h4⟩
      · rintro ⟨x, hx, h3, h4⟩; cases hx; exact ⟨_, rfl, h3, (plain_clone _).2 h4⟩
  · rw [hc.parentID] at hx
    rw [hc.jobID]
    exact ⟨(plain_clone t).2 (h.plain c hx).1, (h.plain c hx).2⟩

theorem good_publishProgress {t : Task} (ps : List Rat) (ht : MsgT M s t) : Good M (publishProgress t ps) T o s (Kept M o) := by
  induction ps generalizing T with
  | nil => exact kept_ret fun _ => Sub.refl _
  | cons p ps ih =>
    rw [publishProgress]
    have hm : MsgT M s { t with progress := p } := ht.upd rfl rfl rfl rfl rfl rfl rfl
    have hlost : M ≠ .calm → ∀ {T}, Good M (publishProgress t ps) T [] s (Kept M o) := fun hM {T} => by
      clear ih
      induction ps generalizing T with
      | nil => exact kept_ret fun hm => absurd hm hM
      | cons p ps ih =>
        rw [publishProgress]
        exact good_pub0 (m := .progress _) (ht.upd rfl rfl rfl rfl rfl rfl rfl : MsgT M s { t with progress := p }) rfl (fun _ e => ih) ih
    exact good_pub0 (m := .progress _) hm rfl (fun hM e => hlost hM) ih

theorem good_workerMw (C : Cfg) {w : WorkerRun} {t : Task} (ht : MsgT M s (w.pre t)) : Good M (workerMw C w t) T o s (Kept M o) := by
  unfold workerMw
  dsimp only
  split
  · exact kept_ret fun _ => Sub.refl _
  · refine Good.seq (mid := Kept M o) ?_ fun T2 o2 s2 x h2 hx => ?_
    · unfold runTask
      refine good_pub0 ⟨ht, .started⟩ toks_started (fun hM e => kept_ret fun hm => absurd hm hM) ?_
      dsimp only
      unfold doRunTask
      split
      · exact kept_ret fun _ => Sub.refl _
      · refine Good.seq (good_publishProgress _ ht) fun T2 o2 s2 x h2 hx => ?_
        refine good_now fun now => ?_
        split
        · exact kept_ret hx
        · exact kept_ret hx
    · obtain ⟨r, rt⟩ := x
      exact kept_ret hx

/-- What a worker may report. -/
theorem toks_report {q : String} {u : Task} {n : Nat} (hq : q = QUEUE_COMPLETED ∨ q = QUEUE_ERROR) (hs : u.state ≠ .skipped) (hid : u.id = n)
    (ho : M = .calm → u.single = true → .own n ∈ o) : Sub (toks M (.task q u)) o := by
  have hp : q ≠ QUEUE_PENDING := fun h => by
    rw [h] at hq; exact hq.elim (fun h => absurd h (by decide +kernel)) fun h => absurd h (by decide +kernel)
  have hw : isWorkQueue q = false := by rcases hq with h | h <;> rw [h] <;> decide +kernel
  by_cases hc : M = .calm ∧ u.single = true
  · intro y
    have h0 := ho hc.1 hc.2
    show (if q = QUEUE_PENDING then [Tok.pend u.id] else if M.single (.task q u) then [Tok.own u.id] else []).count y ≤ _
    rw [if_neg hp, hid]
    split
    · by_cases hy : y = .own n
      · rw [hy, List.count_singleton_self]; exact List.count_pos_iff.2 h0
      · rw [List.count_eq_zero.2 fun h => hy (List.mem_singleton.1 h)]; omega
    · simp
  · rw [toks_free]
    · exact Sub.nil _
    · cases M with
      | once =>
        show (decide (q = QUEUE_PENDING) || isWorkQueue q) = false
        rw [decide_eq_false hp, hw]; rfl
      | noRetry =>
        show (decide (q = QUEUE_PENDING) || (decide (q = QUEUE_COMPLETED) && decide (u.state = .skipped))) = false
        rw [decide_eq_false hp, decide_eq_false hs]; simp
      | calm =>
        have hs : u.single = false := by
          cases h : u.single with
          | false => rfl
          | true => exact absurd ⟨rfl, h⟩ hc
        show (decide (q = QUEUE_PENDING) || ((isWorkQueue q || decide (q = QUEUE_COMPLETED) || decide (q = QUEUE_ERROR)) && u.single)) = false
        rw [decide_eq_false hp, hs]; simp

theorem workerPrep_job (w : WorkerRun) (now : Nat) (t : Task) : (workerPrep w now t).jobID = t.jobID :=
  congrArg Static.jobID (workerPrep_frame w now t).2.1

theorem good_doHandleTask (C : Cfg) {w : WorkerRun} {t : Task} (hw : w.KeepsIdentity) (ht : MsgT M s t)
    (hS : M = .noRetry → ∀ c, Tr M s.ds t.parentID c → s.S t.id) (ho : M = .calm → t.single = true → .own t.id ∈ o) :
    Good M (doHandleTask C w t) T o s Any := by
  unfold doHandleTask
  refine good_now fun now => ?_
  obtain ⟨h1, h2, h3, h4, h5, h6⟩ := workerPrep_frame w now t
  have h7 : (workerPrep w now t).parentID = t.parentID := static_parent h2
  have ht1 : MsgT M s (workerPrep w now t) := ht.upd h1 (workerPrep_job w now t) h4 h5 h6 h7 h3
  have hsg : (workerPrep w now t).single = t.single := by unfold Task.single; rw [h4, h5, h6]
  obtain ⟨k1, k2, k3, k4, k5, k6, k7, k8, _⟩ := hw (workerPrep w now t).clone
  have ht3 : MsgT M s (w.pre (workerPrep w now t).clone) := ht1.clone.upd k1 k2 k6 k7 k8 k3 k5
  dsimp only
  generalize workerPrep w now t = u at *
  refine Good.seq (good_workerMw C ht3) fun T2 o2 s2 x h8 hx => ?_
  obtain ⟨r, rt⟩ := x
  have ht2 := ht1.mono h8
  have hS2 : M = .noRetry → ∀ c, Tr M s2.ds u.parentID c → s2.S u.id := fun hm c hc => by
    rw [h1]; exact h8.S _ (hS hm c (by rw [← h7]; exact h8.back _ c (ht1.parent hc.ne) hc))
  have ho2 : M = .calm → u.single = true → .own u.id ∈ o2 := fun hm hs => by
    have hx : M = .calm → Sub o o2 := hx
    rw [h1]; exact (hx hm).mem (ho hm (by rw [← hsg]; exact hs))
  cases r with
  | some e =>
    dsimp only
    exact good_now fun n => good_pub ⟨ht2.upd rfl rfl rfl rfl rfl rfl rfl, .error⟩ [] (toks_report (.inr rfl) (fun h => by cases h) rfl ho2) (fun _ e => any_ret) any_ret
  | none =>
    dsimp only
    split
    · exact good_pub ⟨ht2.upd rfl rfl rfl rfl rfl rfl rfl, .completed fun hm c hc _ => hS2 hm c hc⟩ [] (toks_report (.inl rfl) (fun h => by cases h) rfl ho2)
        (fun _ e => any_ret) any_ret
    · exact good_pub ⟨ht2.upd rfl rfl rfl rfl rfl rfl rfl, .error⟩ [] (toks_report (.inr rfl) (fun h => by cases h) rfl ho2) (fun _ e => any_ret) any_ret
    · exact any_ret

/-! ## All handlers of the coordinator -/

/-- In fault-free systems, the start of a task is reported by a node that is known. -/
def KnownNode (M : Mode) (s : St) : Msg → Prop
  | .task q t => M = .calm → q = QUEUE_STARTED → (s.ds.node? t.nodeID).isSome
  | _ => True

theorem good_coord (C : Cfg) (fuel : Nat) {m : Msg} {p : Prog Res} (hp : coordinatorHandler C fuel m = some p) (hm : MsgOK M s m)
    (hn : KnownNode M s m) : Good M p T (toks M m) s Any := by
  cases m with
  | task q t =>
    obtain ⟨ht, hq⟩ : MsgT M s t ∧ MsgQ M s q t := hm
    unfold coordinatorHandler at hp
    dsimp only at hp
    by_cases h1 : q = QUEUE_REDELIVERIES
    · rw [if_pos h1] at hp; cases hp; rw [h1] at hq ⊢
      exact good_redelivered ht hq
    rw [if_neg h1] at hp
    by_cases h2 : q = QUEUE_PENDING
    · rw [if_pos h2] at hp; cases hp; rw [h2, toks_pending]
      exact good_wrapTask C (good_pending C ht)
    rw [if_neg h2] at hp
    by_cases h3 : q = QUEUE_COMPLETED
    · rw [if_pos h3] at hp; cases hp; rw [h3] at hq ⊢
      exact good_wrapTask C (good_completed C fuel ht hq)
    rw [if_neg h3] at hp
    by_cases h4 : q = QUEUE_STARTED
    · rw [if_pos h4] at hp; cases hp
      exact good_wrapTask C (good_started ht fun hM => hn hM h4)
    rw [if_neg h4] at hp
    by_cases h5 : q = QUEUE_ERROR
    · rw [if_pos h5] at hp; cases hp
      refine good_wrapTask C (good_errorT C ht fun hM => ?_)
      cases hs : t.single with
      | false => exact .inl rfl
      | true =>
        refine .inr (.inr (.inl ?_))
        show Tok.own t.id ∈ (if q = QUEUE_PENDING then [Tok.pend t.id] else if M.single (.task q t) then [Tok.own t.id] else [])
        rw [if_neg h2, if_pos]
        · exact List.mem_singleton_self _
        · rw [hM, h5]
          show (decide (QUEUE_ERROR = QUEUE_PENDING) || ((isWorkQueue QUEUE_ERROR || decide (QUEUE_ERROR = QUEUE_COMPLETED) || decide (QUEUE_ERROR = QUEUE_ERROR)) && t.single)) = true
          rw [hs]; simp
    rw [if_neg h5] at hp; cases hp
  | job j => cases hp; exact good_wrapJob C hm
  | progress t => cases hp; exact good_wrapTask C (good_progress hm)
  | _ => cases hp

theorem good_spawn {E : Env} (hE : E.WellFormed) {p : Prog Unit} (h : Spawn E p) : Good M p T [] s Any := by
  cases h with
  | submit u j hj => exact good_discard (good_submit (hE.submit j hj).2 (hE.submit j hj).1)
  | cancel id => exact good_discard good_apiCancel
  | restart id _ => exact good_discard good_apiRestart
  | fire sj hj => exact good_fire (hE.fire sj hj)

end Tork.Once

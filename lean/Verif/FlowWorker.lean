import Verif.FlowHandlers3
/-! Every handler discharges its obligations: workers and the API. -/

namespace Tork.Flow
open Prog Calm

variable {C : Cfg} {H : Nat} {α : Type} {T : List Nat} {o : List Ob} {s : DS}

/-! ## Workers -/

theorem good_publishProgress {t : Task} (ps : List Rat) (ht : MsgTask C H s t) :
    Good C H (publishProgress t ps) T o s fun _ o' _ _ => o' = o := by
  induction ps with
  | nil => exact fun _ _ => rfl
  | cons p ps ih =>
    rw [publishProgress]
    simp only [bind_eq]
    exact good_pubP (ht.upd rfl rfl rfl rfl rfl rfl rfl rfl) ih

theorem good_workerMw {w : WorkerRun} {t : Task} (hw : Tame w) (ht : MsgTask C H s (w.pre t)) :
    Good C H (workerMw C w t) T o s fun _ o' _ x => o' = o ∧ (x.1 = none → x.2.state = .completed ∨ x.2.state = .failed) := by
  simp only [workerMw, bind_eq, pure_eq]
  split
  · rename_i r hr
    refine fun _ _ => ⟨rfl, fun h => ?_⟩
    have h : r = none := h
    rw [h] at hr; exact absurd hr hw.stop
  · simp only [runTask, bind_eq, pure_eq, Prog.bind_assoc]
    refine good_pubT ht o (.keep _ _) ?_
    have hrun : Good C H (doRunTask C w (w.pre t)) T o s fun _ o' _ x =>
        o' = o ∧ (x.1 = none → x.2.state = .completed ∨ x.2.state = .failed) := by
      simp only [doRunTask, bind_eq, pure_eq]
      split
      · exact fun _ _ => ⟨rfl, by simp⟩
      · refine Good.seq (good_publishProgress _ ht) ?_
        rintro T' o' s' _ hl rfl
        refine good_now fun now => ?_
        split
        · exact fun _ _ => ⟨rfl, fun _ => .inr rfl⟩
        · exact fun _ _ => ⟨rfl, fun _ => .inl rfl⟩
    refine Good.seq hrun ?_
    rintro T' o' s' ⟨r, rt⟩ hl ⟨rfl, h⟩
    refine fun _ _ => ⟨rfl, fun hn => ?_⟩
    obtain ⟨h1, h2⟩ := hw.post r rt hn
    rcases h h1 with h | h
    · exact .inl (h2.trans h)
    · exact .inr (h2.trans h)

theorem MsgTask.clone {t : Task} (h : MsgTask C H s t) : MsgTask C H s t.clone := by
  obtain ⟨r, k1, k2⟩ := h.row
  obtain ⟨d, n, k3, k4, k5⟩ := h.sound
  have hf := clone_frame t
  exact ⟨⟨r, by rw [hf.id]; exact k1, k2.trans ⟨hf.id, hf.jobID, hf.parentID, width_clone t, conc_clone t⟩⟩,
    ⟨d, n, by rw [hf.id]; exact k3, sound_clone k4, k5⟩, by rw [hf.jobID]; exact h.started⟩

theorem good_doHandleTask {w : WorkerRun} {t : Task} (hw : Tame w) (ht : MsgTask C H s t) :
    Good C H (doHandleTask C w t) T [.tok (tgt t)] s fin := by
  simp only [doHandleTask, bind_eq, pure_eq]
  refine good_now fun now => ?_
  obtain ⟨h1, _, h3, h4, h5, h6⟩ := workerPrep_frame w now t
  obtain ⟨h7, h8, h9⟩ := workerPrep_queue w now t
  have ht1 : MsgTask C H s (workerPrep w now t) := ht.upd h1 h8 h4 h5 h6 h9 h7 h3
  obtain ⟨k1, k2, k3, k4, k5, k6, k7, k8, _⟩ := hw.keeps (workerPrep w now t).clone
  have ht3 : MsgTask C H s (w.pre (workerPrep w now t).clone) := ht1.clone.upd k1 k2 k6 k7 k8 k3 (hw.queue _) k5
  have htg : tgt (workerPrep w now t) = tgt t := by unfold tgt; rw [h8, h9]
  refine Good.seq (good_workerMw hw ht3) ?_
  rintro T' o' s' ⟨r, rt⟩ hl ⟨rfl, hst⟩
  have ht1 := ht1.mono hl
  rw [← htg]
  cases r with
  | some e =>
    refine good_now fun n => ?_
    exact good_pubT (ht1.upd rfl rfl rfl rfl rfl rfl rfl rfl) [] (.err rfl) fun _ _ => rfl
  | none =>
    dsimp only
    rcases hst rfl with h | h
    · have h : rt.state = .completed := h
      rw [h]
      exact good_pubT (ht1.upd rfl rfl rfl rfl rfl rfl rfl rfl) [] (by rw [toks_completed]; exact .tok rfl) fun _ _ => rfl
    · have h : rt.state = .failed := h
      rw [h]
      exact good_pubT (ht1.upd rfl rfl rfl rfl rfl rfl rfl rfl) [] (.err rfl) fun _ _ => rfl

/-! ## API -/

theorem good_apiSubmit {u : Option User} {j : Job} (hj : SoundJob C H j) (hp : j.parentID = 0) :
    Good C H (apiSubmit u j) T [] s fin := by
  simp only [apiSubmit, bind_eq, pure_eq]
  refine good_uuid fun id hid hnT hu => ?_
  refine good_now fun now => ?_
  have hreg : SoundJob C H (submitRow id now u j) := ⟨hj.nonempty, hj.tasks, hj.queue, hj.retry⟩
  refine good_createJob (j := submitRow id now u j) (by simp [submitRow]) hid hreg rfl rfl hp fun s1 hl hrow => ?_
  dsimp only
  refine good_pub (m := .job _) (msg_new hreg hrow rfl rfl) [] ?_ fun _ _ => rfl
  rw [toks_job rfl]; exact .all fun _ => Nat.le_refl _

theorem good_fire {sj : ScheduledJob} (hj : SoundJob C H (scheduledInstance 0 0 sj)) : Good C H (fireScheduled sj) T [] s fin := by
  simp only [fireScheduled, bind_eq, pure_eq]
  refine good_now fun now => ?_
  refine good_uuid fun id hid hnT hu => ?_
  have hreg : SoundJob C H (scheduledInstance id now sj) := ⟨hj.nonempty, hj.tasks, hj.queue, hj.retry⟩
  refine good_createJob (j := scheduledInstance id now sj) (by simp [scheduledInstance]) hid hreg rfl rfl rfl fun s1 hl hrow => ?_
  refine good_pub (m := .job _) (msg_new hreg hrow rfl rfl) [] ?_ fun _ _ => rfl
  rw [toks_job rfl]; exact .all fun _ => Nat.le_refl _

theorem good_apiCancel {id : Nat} : Good C H (apiCancel id) T [] s fin := by
  simp only [apiCancel, bind_eq, pure_eq]
  refine good_getJob? (fun ds e _ => fun _ _ => rfl) fun ds j hl hi hj => ?_
  dsimp only
  split
  · exact fun _ _ => rfl
  · exact good_pub (m := .job _) (msgJob_of_row hi hj (.inl rfl)) [] (.keep _ _) fun _ _ => rfl

theorem good_apiRestart {id : Nat} : Good C H (apiRestart id) T [] s fin := by
  simp only [apiRestart, bind_eq, pure_eq]
  refine good_getJob? (fun ds e _ => fun _ _ => rfl) fun ds j hl hi hj => ?_
  dsimp only
  split
  · exact fun _ _ => rfl
  · rename_i hst
    split
    · exact fun _ _ => rfl
    · rename_i hpos
      have hne : j.state ≠ .pending := fun h => hst (by rw [h]; simp)
      exact good_pub (m := .job _) (msgJob_of_row hi hj (.inr ⟨rfl, hne, Nat.not_lt.1 hpos⟩)) [] (.keep _ _) fun _ _ => rfl

end Tork.Flow

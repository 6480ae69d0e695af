import Verif.OnceSchedule2
/-! The handlers in the logic of rights: jobs, requests of users, failed tasks. -/

namespace Tork.Once
open Prog Calm

variable {M : Mode} {α γ : Type} {T : List Nat} {o : List Tok} {s : St} {post : Post α}

def Any : Post α := fun _ _ _ _ => True
theorem any_ret {a : α} : Good M (.ret a) T o s Any := good_ret fun _ _ => trivial
theorem Good.any {p : Prog α} (h : Good M p T o s post) : Good M p T o s Any := h.mono fun _ _ _ _ _ _ => trivial

/-! ## job.go -/

theorem good_top {n job : Nat} {x : Task} {k : Except Err Unit → Prog α} (hx : TopFacts n job x) (hn : n ≠ 0) (hnT : n ∉ T)
    (he : ∀ T' o' st e, Le M s st → (M = .calm → (¬ HasJob s.ds x.jobID ∨ x.createdAt = none) ∧ Sub o o') → Good M (k (.error e)) T' o' st post)
    (h : ∀ s', Le M s s' → MsgT M s' x → Good M (k (.ok ())) T [.pend x.id] s' post) :
    Good M ((tx (createTask x)).bind k) (n :: T) o s post := by
  have hnew : NewTask M s x := hx.new hn
  refine good_new hx.id hnT hnew he (fun st hd hi => trade_free (fun c hc => hc.ne hx.parent) hx.state) fun s1 h1 hrow hjob => ?_
  exact h s1 h1 ((hnew.mono h1).msg (by rw [hx.id]; exact hrow) hjob)

theorem good_startJob (C : Cfg) {j : Job} (hj : MsgJ s j) : Good M (startJob C j) T o s fun _ _ s' x => MsgJ s' x.2 := by
  unfold startJob
  refine good_now fun now => ?_
  split
  · trivial
  · rename_i t0 ts hts
    have hfr : t0.Fresh := hj.tasks t0 (by rw [hts]; exact List.mem_cons_self ..)
    refine good_uuid fun n hn hnT hnu => good_seed fun sd => ?_
    have htop := evalOrFail_top C j.context sd now hfr n j.id 1
    dsimp only
    generalize evalOrFail C j.context sd now (prepTask t0 n j.id 1 now) = x at htop ⊢
    have hret : ∀ {s'} {r} {T1} {o1}, Le M s s' → Good M (.ret (r, j)) T1 o1 s' (fun _ _ s' (x : Res × Job) => MsgJ s' x.2) :=
      fun h1 => good_ret fun s'' h' => (hj.mono h1).mono h'
    refine good_top htop hn hnT (fun T' o' st e hd _ => hret hd) fun s1 h1 hm => ?_
    dsimp only
    refine good_now fun n2 => good_updJob (fun T' o' st e hd _ => hret (h1.trans hd)) fun s2 h12 => ?_
    have h2 := h1.trans h12
    dsimp only
    by_cases hf : x.state = .failed
    · rw [if_pos hf]
      refine good_now fun n3 => ?_
      have hj' : MsgJ s2 { j with failedAt := some n3, state := .failed, error := x.error } :=
        (hj.mono h2).upd rfl rfl
      exact Good.seq (good_failJob hj' fun _ => Sub.refl _) fun T2 o2 s3 r h3 _ => good_ret fun s'' h' => (hj'.mono h3).mono h'
    · rw [if_neg hf]
      exact Good.seq (good_pending C (hm.mono h12)) fun T2 o2 s3 r h3 _ => hret (h2.trans h3)

theorem good_restartJob (C : Cfg) {j : Job} (hj : MsgJ s j) : Good M (restartJob C j) T o s Any := by
  unfold restartJob
  refine good_setJob (fun T' o1 st e hd hx => any_ret) fun s0 j0 g u h0 hi0 hj0 hm1 h1 => ?_
  refine good_now fun now => ?_
  split
  · trivial
  · split
    · trivial
    · rename_i t0 ht0
      have hfr : t0.Fresh := hj.tasks t0 (List.mem_of_getElem? ht0)
      refine good_uuid fun n hn hnT hnu => good_seed fun sd => ?_
      refine good_top (evalOrFail_top C j.context sd now hfr n j.id j.position) hn hnT (fun T' o' st e hd _ => any_ret) fun s1 h1 hm => ?_
      dsimp only
      exact good_pub ⟨hm, .pending⟩ [] (by rw [toks_pending]; exact Sub.refl _) (fun _ e => any_ret) any_ret

theorem good_jobHandler (C : Cfg) {j : Job} (hj : MsgJ s j) : Good M (jobHandler C j) T o s fun _ _ s' x => MsgJ s' x.2 := by
  have hret : ∀ {p : Prog Res}, Good M p T o s Any → Good M (p.bind fun r => .ret (r, j)) T o s fun _ _ s' (x : Res × Job) => MsgJ s' x.2 :=
    fun hp => Good.seq hp fun T2 o2 s3 r h3 _ => good_ret fun s'' h' => (hj.mono h3).mono h'
  unfold jobHandler
  split
  · exact good_startJob C hj
  · exact hret (good_cancel hj).any
  · exact hret (good_restartJob C hj)
  · exact (good_completeJob C hj fun _ => Sub.refl _).mono fun _ _ _ _ _ h => h.2
  · exact hret (good_failJob hj fun _ => Sub.refl _).any
  · exact hret (good_updJob (fun T' o' st e hd _ => any_ret) fun s' h => any_ret)
  · exact good_ret fun s' h => hj.mono h

theorem good_wrapJob (C : Cfg) {j : Job} (hj : MsgJ s j) : Good M (wrapJob C j) T o s Any := by
  unfold wrapJob
  refine Good.seq (good_jobHandler C hj) fun T2 o2 s2 x h2 hx => ?_
  obtain ⟨r, j'⟩ := x
  cases r with
  | none => exact any_ret
  | some e =>
    dsimp only
    have hj' : MsgJ s2 j' := hx
    exact good_now fun now => Good.any (post := Kept M o2) (good_failJob (hj'.upd rfl rfl) fun _ => Sub.refl _)

/-! ## Requests of users -/

theorem good_submit {u : Option User} {j : Job} (hj : ∀ t ∈ j.tasks, t.Fresh) (hp : j.parentID = 0) : Good M (apiSubmit u j) T o s Any := by
  unfold apiSubmit
  refine good_uuid fun n hn hnT hnu => good_now fun now => ?_
  have hm : MsgJ s (submitRow n now u j) := ⟨hj, fun h => absurd hp h⟩
  refine good_newJob rfl hnT hm (fun T' o' st e hd _ => any_ret) fun s1 h1 _ => ?_
  dsimp only
  exact good_pub0 (hm.mono h1) rfl (fun _ e => any_ret) any_ret

theorem good_apiCancel {id : Nat} : Good M (apiCancel id) T o s Any := by
  unfold apiCancel
  refine good_getJob (fun T' o' st e hd _ => any_ret) fun s1 j h1 hi hj => ?_
  dsimp only
  split
  · exact any_ret
  · exact good_pub0 (m := .job _) ((hi.msgJ hj).upd rfl rfl) rfl (fun _ e => any_ret) any_ret

theorem good_apiRestart {id : Nat} : Good M (apiRestart id) T o s Any := by
  unfold apiRestart
  refine good_getJob (fun T' o' st e hd _ => any_ret) fun s1 j h1 hi hj => ?_
  dsimp only
  split
  · exact any_ret
  · split
    · exact any_ret
    · exact good_pub0 (m := .job _) ((hi.msgJ hj).upd rfl rfl) rfl (fun _ e => any_ret) any_ret

theorem good_fire {sj : ScheduledJob} (hj : ∀ t ∈ sj.tasks, t.Fresh) : Good M (fireScheduled sj) T o s Any := by
  unfold fireScheduled
  refine good_now fun now => good_uuid fun n hn hnT hnu => ?_
  have hm : MsgJ s (scheduledInstance n now sj) := ⟨hj, fun h => absurd rfl h⟩
  exact good_newJob rfl hnT hm (fun T' o' st e hd _ => good_pub0 (hm.mono hd) rfl (fun _ e => any_ret) any_ret) fun s1 h1 _ =>
    good_pub0 (hm.mono h1) rfl (fun _ e => any_ret) any_ret

theorem good_discard {p : Prog α} (h : Good M p T o s Any) : Good M p.discard T o s Any :=
  Good.seq h fun _ _ _ _ _ _ => any_ret

/-! ## error.go -/

theorem isActive_of {a : TaskState} (h : a.isActive = false) : a.atWork = false := by cases a <;> first | rfl | cases h

theorem failTaskRow_frame (f : Option Nat) (e : Err) (r : Task) : (failTaskRow f e r).parallel = r.parallel ∧ (failTaskRow f e r).each = r.each ∧
    (failTaskRow f e r).subJob = r.subJob ∧ (failTaskRow f e r).retry = r.retry ∧ Lower r.state (failTaskRow f e r).state ∧
    (failTaskRow f e r).state.atWork = false := by
  unfold failTaskRow
  cases h : r.state.isActive with
  | true => exact ⟨rfl, rfl, rfl, rfl, lower_failed _, rfl⟩
  | false => exact ⟨rfl, rfl, rfl, rfl, .refl _, isActive_of h⟩

theorem hasTok_sub {n : Nat} (h : HasTok o n) : ∃ x : Tok, x.id = n ∧ x.main = true ∧ Sub [x] o := by
  have hs : ∀ x : Tok, x ∈ o → Sub [x] o := fun x hx y => by
    by_cases hy : y = x
    · rw [hy, List.count_singleton_self]; exact List.count_pos_iff.2 hx
    · rw [List.count_eq_zero.2 fun h => hy (List.mem_singleton.1 h)]; omega
  rcases h with h | h | h
  · exact ⟨.pend n, rfl, rfl, hs _ h⟩
  · exact ⟨.own n, rfl, rfl, hs _ h⟩
  · exact ⟨.dead n, rfl, rfl, hs _ h⟩

/-- What the error handler leaves behind when it fails itself. -/
def Again (M : Mode) (t : Task) : Post Res := fun _ o' _ r => ∀ e, r = some e → Ticket M t o'

theorem again_none {t : Task} : Good M (.ret none) T o s (Again M t) := good_ret fun _ _ _ h => by cases h
theorem again_some {t : Task} {r : Res} (h : Ticket M t o) : Good M (.ret r) T o s (Again M t) := good_ret fun _ _ _ _ => h

theorem NewTask.retry {t x : Task} (ht : MsgT M s t) (hi : x.id ≠ 0) (hp : x.parentID = t.parentID) (hself : t.parentID ≠ x.id) (hn : x.Nested)
    (hj : x.jobID = t.jobID) (hpl : ∀ c, Tr M s.ds t.parentID c → Plain M x) : NewTask M s x :=
  ⟨hi, by rw [hp]; exact hself, hn, by rw [hp]; exact ht.parent, fun c hc => by
    rw [hp] at hc; exact ⟨hpl c hc, by rw [hj]; exact (ht.plain c hc).2⟩⟩

theorem retry_frame (C : Cfg) (ctx : JobContext) (sd : Nat) {t : Task} (h : t.Nested) (n now : Nat) {x : Task} {e : Option Err}
    (hx : evaluateTask (evaluateTemplate C.O ⟨ctx, none⟩ sd) (retryTask t n now) = (x, e)) :
    x.id = n ∧ x.jobID = t.jobID ∧ x.parentID = t.parentID ∧ x.state = .pending ∧ x.createdAt = some now ∧ x.Nested ∧ x.single = t.single ∧
      x.retry = t.retry.map fun r => { r with attempts := r.attempts + 1 } := by
  have hf := (evaluateTask_frame (evaluateTemplate C.O ⟨ctx, none⟩ sd) (retryTask t n now)).1
  have hc := clone_frame t
  have hn := nested_clone h
  have hne := nested_evaluate (tm := evaluateTemplate C.O ⟨ctx, none⟩ sd) (t := retryTask t n now) ⟨hn.par, hn.ea, hn.sub⟩
  rw [hx] at hf hne
  refine ⟨hf.id, hf.jobID.trans hc.jobID, hf.parentID.trans hc.parentID, hf.state, hf.createdAt, hne, ?_, hf.retry⟩
  have h1 : x.parallel.isSome = t.parallel.isSome := hf.par.trans (by show t.clone.parallel.isSome = _; rw [hc.par]; cases t.parallel <;> rfl)
  have h2 : x.each.isSome = t.each.isSome := by
    have : x.each = t.clone.each := hf.each
    rw [this, hc.each]; cases t.each <;> rfl
  have h3 : x.subJob.isSome = t.subJob.isSome := hf.sub.trans hc.sub.1
  unfold Task.single
  simp only [← Option.not_isSome]
  rw [h1, h2, h3]

theorem Ticket.upd {t u : Task} (h : Ticket M t o) (h1 : u.id = t.id) (h2 : u.single = t.single) : Ticket M u o := fun hm => by
  rw [h1, h2]; exact h hm

/-- The part of the error handler after the row has been marked. -/
theorem good_errorTail (C : Cfg) {t : Task} {j : Job} (ht : MsgT M s t) (hj : MsgJ s j)
    (hk : M = .calm → t.single = false ∨ o = [.dead t.id]) :
    Good M (if retryEligible j.state t then Prog.now.bind fun now => newUUID.bind fun id => seed.bind fun sd =>
        match evaluateTask (evaluateTemplate C.O ⟨j.context, none⟩ sd) (retryTask t id now) with
        | (_, some e) => .ret (some (wrapErr "error evaluating task" e))
        | (rt, none) => (tx (createTask rt)).bind fun x =>
          match x with
          | .error e => .ret (some (wrapErr "error creating a retry task" e))
          | .ok _ => (publish (.task QUEUE_PENDING rt)).bind fun _ => .ret none
      else failJob { j with state := .failed, failedAt := t.failedAt, error := t.error }) T o s (Again M t) := by
  have htick : ∀ {o'}, (M = .calm → Sub o o') → Ticket M t o' := fun ho hm => (hk hm).imp (fun x => x) fun e => by
    have := ho hm
    rw [e] at this
    exact .inr (.inr (this.mem (List.mem_singleton_self _)))
  by_cases hel : retryEligible j.state t = true
  · rw [if_pos hel]
    refine good_now fun now => good_uuid fun n hn hnT hnu => good_seed fun sd => ?_
    cases hev : evaluateTask (evaluateTemplate C.O ⟨j.context, none⟩ sd) (retryTask t n now) with
    | mk x er =>
      obtain ⟨e1, e2, e3, e4, e5, e6, e7, e8⟩ := retry_frame C j.context sd ht.nested n now hev
      cases er with
      | some er => exact again_some (htick fun _ => Sub.refl _)
      | none =>
        dsimp only
        -- a tracked task is not eligible without retries
        have hno : M = .noRetry → ∀ c, ¬ Tr M s.ds t.parentID c := fun hm c hc => by
          have h1 := (ht.plain c hc).1.2 hm
          unfold retryEligible at hel
          cases hr : t.retry with
          | none => rw [hr] at hel; simp at hel
          | some r =>
            have := h1 r hr
            rw [hr] at hel
            simp only [this, Bool.and_eq_true, decide_eq_true_eq] at hel
            exact absurd hel.2 (Nat.not_lt_zero _)
        have hpn : t.parentID ≠ x.id := fun h => by
          by_cases h0 : t.parentID = 0
          · rw [h0, e1] at h; exact hn h.symm
          · obtain ⟨r, hr⟩ := ht.parent h0
            rw [h, e1] at hr; exact hnu r hr
        have hnew : NewTask M s x := .retry ht (by rw [e1]; exact hn) e3 hpn e6 e2 fun c hc =>
          ⟨by rw [e7]; exact (ht.plain c hc).1.1, fun hm => absurd hc (hno hm c)⟩
        refine good_new (o' := [.pend n]) e1 hnT hnew (fun T' o' st e hd hx => again_some (htick fun hm => (hx hm).2)) (fun st hd hi => ?_) fun s1 h1 hrow hjob => ?_
        · refine ⟨by rw [e1]; simp, fun h => ?_, fun h => ?_, fun y hy => ?_, fun _ => by rw [e4]; exact fun h => (by cases h), fun c hc => .inr ?_, fun c hc _ => .inr ?_⟩
          · rw [List.mem_singleton] at h; cases h
          · rw [List.mem_singleton] at h; cases h
          · rw [e1] at hy
            rw [List.count_eq_zero.2 fun h => hy (List.mem_singleton.1 h)]; omega
          · rw [e3] at hc ⊢
            obtain ⟨r, k1, k2⟩ := (ht.mono hd).row
            refine ⟨t.id, r, k1, k2.parent.symm, fun h => ?_⟩
            obtain ⟨r0, k0, _⟩ := ht.row
            rw [h, e1] at k0; exact hnu r0 k0
          · rw [e3] at hc ⊢
            obtain ⟨r, k1, k2⟩ := (ht.mono hd).row
            have hcs := hd.back _ c (ht.parent hc.ne) hc
            have hcalm : M = .calm := by
              have := hc.mode
              cases hM : M with
              | once => exact absurd hM this
              | noRetry => exact absurd hcs (hno hM c)
              | calm => rfl
            have hdead := (hk hcalm).resolve_left fun h => by
              have := (ht.plain c hcs).1.1
              rw [h] at this; cases this
            refine ⟨t.id, r, k1, k2.parent.symm, fun h => ?_, by rw [hdead]; exact List.mem_singleton_self _, fun h => ?_⟩
            · obtain ⟨r0, k0, _⟩ := ht.row
              rw [h, e1] at k0; exact hnu r0 k0
            · rw [List.mem_singleton] at h; cases h
        · dsimp only
          refine good_pub ⟨(hnew.mono h1).msg (by rw [e1]; exact hrow) hjob, .pending⟩ [] (by rw [toks_pending, e1]; exact Sub.refl _)
            (fun _ e => again_none) again_none
  · rw [if_neg hel]
    exact Good.mono (post := Kept M o) (good_failJob (hj.upd rfl rfl) fun _ => Sub.refl _) fun _ _ _ _ _ hx e he => htick hx

theorem good_error (C : Cfg) {t : Task} (ht : MsgT M s t) (hk : Ticket M t o) : Good M (errorHandler C t) T o s (Again M t) := by
  unfold errorHandler
  refine good_getJob (fun T' o' st e hd hx => again_some (hk.mono fun hm => (hx hm).2)) fun s1 j h1 hi1 hj => ?_
  refine good_now fun now => ?_
  have ht' : MsgT M s1 { t with failedAt := some now } := (ht.mono h1).upd rfl rfl rfl rfl rfl rfl rfl
  have htail : ∀ {T2 o2 s2}, Le M s1 s2 → (M = .calm → t.single = false ∨ o2 = [.dead t.id]) → Good M _ T2 o2 s2 (Again M t) :=
    fun {T2 o2 s2} h2 hk2 => (good_errorTail C (T := T2) (o := o2) (ht'.mono h2) ((hi1.msgJ hj).mono h2) hk2).mono fun _ _ _ _ _ h => h
  by_cases hc : M = .calm ∧ t.single = true
  · have htok : HasTok o t.id := (hk hc.1).resolve_left fun h => by rw [hc.2] at h; cases h
    obtain ⟨x, hx1, hx2, hx3⟩ := hasTok_sub htok
    refine Good.weak (o := [x]) ?_ (List.Sublist.refl _) hx3
    refine good_set (fun T' o' st e hd hx => again_some fun hm => .inr ?_) fun s2 r h2 hi2 hr => ?_
    · have := hasTok_of ((hx hm).2.mem (List.mem_singleton_self x)) hx2
      rw [hx1] at this; exact this
    · obtain ⟨f1, f2, f3, f4, f5, f6⟩ := failTaskRow_frame (some now) t.error r
      have hok : RowOK M s2.ds r (failTaskRow (some now) t.error r) := rowOK_of hi2 hr f1 f2 f3 fun _ _ _ h => by rw [f4]; exact h
      have hcre : ∀ A, Held M s2 X0 (A ++ [x]) → (failTaskRow (some now) t.error r).state ≠ .created := fun A hA h => by
        obtain ⟨r0, k1, k2⟩ := hA.rows t.id (by rw [← hx1]; exact hasTok_of (List.mem_append_right _ (List.mem_singleton_self _)) hx2)
        rw [hr] at k1; cases k1
        exact k2 (f5.created h)
      refine ⟨hok, [.dead t.id], s2.S, fun _ h => h, fun A hA => ?_, fun hl => ?_⟩
      · refine held_swap hi2 hr hok (fun n h => h) hx1 hx2 (.single rfl) (by simp) (hcre A hA) (fun _ => f6)
          (fun h => by rw [List.mem_singleton] at h; cases h) (fun m _ h => h) (fun hS => ⟨fun h => ?_, fun hm => ?_, fun hm => ?_⟩)
          (.inl fun h => by rw [List.mem_singleton] at h; cases h) hA
        · rw [List.mem_singleton] at h; cases h
        · rw [hc.1] at hm; cases hm
        · rw [hc.1] at hm; cases hm
      · exact htail hl fun _ => .inr rfl
  · refine good_lower (fun T' o' st e hd hx => again_some (hk.mono fun hm => (hx hm).2)) (fun r => ?_) fun s2 h2 => ?_
    · obtain ⟨f1, f2, f3, f4, f5, f6⟩ := failTaskRow_frame (some now) t.error r
      exact ⟨f1, f2, f3, f4, f5⟩
    · refine htail h2 fun hm => .inl ?_
      cases hs : t.single with
      | false => rfl
      | true => exact absurd ⟨hm, hs⟩ hc

theorem good_wrapTask (C : Cfg) {h : Task → Prog (Res × Task)} {t : Task} (hh : Good M (h t) T o s (Ends M)) : Good M (wrapTask C h t) T o s Any := by
  unfold wrapTask
  refine Good.seq hh fun T2 o2 s2 x h2 hx => ?_
  obtain ⟨r, t'⟩ := x
  obtain ⟨hm, hk⟩ : MsgT M s2 t' ∧ ∀ e, r = some e → Ticket M t' o2 := hx
  cases r with
  | none => exact any_ret
  | some e =>
    dsimp only
    refine good_now fun now => Good.any (good_error C (hm.upd rfl rfl rfl rfl rfl rfl rfl) ?_)
    exact (hk e rfl).upd rfl rfl

theorem good_errorT (C : Cfg) {t : Task} (ht : MsgT M s t) (hk : Ticket M t o) : Good M (errorHandlerT C t) T o s (Ends M) := by
  unfold errorHandlerT
  exact Good.seq (good_error C ht hk) fun T2 o2 s2 r h2 hx => good_ret fun s3 h3 => ⟨(ht.mono h2).mono h3, hx⟩

end Tork.Once

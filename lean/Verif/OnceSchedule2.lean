import Verif.OnceSchedule
/-! The handlers in the logic of rights: each tasks; scheduling in general. -/

namespace Tork.Once
open Prog Calm

variable {M : Mode} {α γ : Type} {T : List Nat} {o : List Tok} {s : St} {post : Post α}

theorem plain_mapCmds (g : String → String) (t : Task) : Plain M (t.mapCmds g) ↔ Plain M t := by
  rw [Task.mapCmds_eq]
  have hs : ({ t with cmd := t.cmd.map g, pre := mapCmdsL g t.pre, post := mapCmdsL g t.post, parallel := mapCmdsP g t.parallel } : Task).single = t.single := by
    show ((mapCmdsP g t.parallel).isNone && t.each.isNone && t.subJob.isNone) = (t.parallel.isNone && t.each.isNone && t.subJob.isNone)
    cases t.parallel with
    | none => rfl
    | some p => rw [mapCmdsP_some]; rfl
  unfold Plain
  rw [hs]

theorem MsgT.after {t : Task} {e : EachTask Task} (h : MsgT M s t) (he : t.each = some e) (tm : String → Except Err String) :
    MsgT M s { t with each := some (afterChild tm e) } := by
  obtain ⟨r, k1, k2⟩ := h.row
  have hsg := Task.single_each he
  refine ⟨⟨r, k1, k2.trans ⟨rfl, rfl, rfl, ?_, rfl, fun c => ?_⟩⟩, ⟨h.nested.par, fun x hx => ?_, h.nested.sub⟩, h.job, fun c hc => ?_, h.parent⟩
  · rw [he]; rfl
  · unfold EachT
    rw [he]
    constructor
    · rintro ⟨x, hx, h3, h4⟩; cases hx; exact ⟨e, rfl, h3, (plain_mapCmds _ _).1 h4⟩
    · rintro ⟨x, hx, h3, h4⟩; cases hx; exact ⟨_, rfl, h3, (plain_mapCmds _ _).2 h4⟩
  · cases hx
    exact fresh_mapCmds _ (h.nested.ea e he)
  · exact absurd hc (h.free hsg c)

/-- What the each section of a message says about the tracked task. -/
theorem MsgT.each_eq {t : Task} {e : EachTask Task} (h : MsgT M s t) (he : t.each = some e) {c : Nat} (hc : Tr M s.ds t.id c) :
    e.concurrency = c ∧ Plain M e.task ∧ (M = .noRetry → ∃ j, s.ds.job? t.jobID = some j ∧ NoRetryD j.defaults) := by
  obtain ⟨r, k1, k2⟩ := h.row
  obtain ⟨_, _, _, r', j, k3, k4, k5, k6, k7⟩ := hc
  rw [k1] at k3; cases k3
  obtain ⟨x, hx, h3, h4⟩ := (k2.each c).2 k5
  rw [he] at hx; cases hx
  exact ⟨h3, h4, fun hm => ⟨j, by rw [k2.job]; exact k6, k7 hm⟩⟩

theorem eachChild_plain {t : Task} {e : EachTask Task} (tm : String → Except Err String) (job n now ix : Nat) (h : Plain M e.task) :
    Plain M (evaluateTask tm (eachChild t e job n now ix)).1 := by
  have hf := (evaluateTask_frame tm (eachChild t e job n now ix)).1
  have hc := clone_frame e.task
  refine ⟨?_, fun hm => ?_⟩
  · have h1 : (evaluateTask tm (eachChild t e job n now ix)).1.parallel.isSome = e.task.parallel.isSome :=
      hf.par.trans (by show e.task.clone.parallel.isSome = _; rw [hc.par]; cases e.task.parallel <;> rfl)
    have h2 : (evaluateTask tm (eachChild t e job n now ix)).1.each.isSome = e.task.each.isSome := by
      rw [hf.each]; show e.task.clone.each.isSome = _; rw [hc.each]; cases e.task.each <;> rfl
    have h3 : (evaluateTask tm (eachChild t e job n now ix)).1.subJob.isSome = e.task.subJob.isSome := hf.sub.trans hc.sub.1
    have h0 := h.1
    unfold Task.single at h0 ⊢
    simp only [← Option.not_isSome] at h0 ⊢
    rw [h1, h2, h3]; exact h0
  · rw [hf.retry]; show NoRetry e.task.clone.retry; rw [hc.retry]; exact h.2 hm

theorem good_eachLoop (C : Cfg) (j : Job) (now : Nat) (items : List String) (t : Task) (e : EachTask Task) (ix : Nat) (ht : MsgT M s t)
    (he : t.each = some e) (hj : j.id = t.jobID) (hS : s.S t.id) :
    Good M (eachLoop C j now t e ix items) T (List.replicate (e.concurrency - ix) (.fire t.id)) s (Ends M) := by
  induction items generalizing s T t e ix with
  | nil => rw [eachLoop]; exact ends_none ht
  | cons item items ih =>
    rw [eachLoop]
    refine good_uuid fun n hn hnT hnu => good_seed fun sd => ?_
    generalize htm : evaluateTemplate C.O ⟨j.context, some (eachVarName e, ix, item)⟩ sd = tm
    have hsg := Task.single_each he
    have hf := (evaluateTask_frame tm (eachChild t e j.id n now ix)).1
    have hpl : Plain M e.task → Plain M (evaluateTask tm (eachChild t e j.id n now ix)).1 := eachChild_plain tm j.id n now ix
    have hfr := nested_clone (ht.nested.ea e he).nested
    have hne := nested_evaluate (tm := tm) (t := eachChild t e j.id n now ix) ⟨hfr.par, hfr.ea, hfr.sub⟩
    show Good M (match evaluateTask tm (eachChild t e j.id n now ix) with
      | (_, some err) => failToErrorQueue t err
      | (et, none) => (tx (createTask et)).bind fun x =>
        match x with
        | .error err => .ret (some err, { t with each := some (afterChild tm e) })
        | .ok _ =>
          if fireNow (afterChild tm e).concurrency ix then
            (publish (.task QUEUE_PENDING et)).bind fun y =>
              match y with
              | .error err => .ret (some err, { t with each := some (afterChild tm e) })
              | .ok _ => eachLoop C j now { t with each := some (afterChild tm e) } (afterChild tm e) (ix + 1) items
          else eachLoop C j now { t with each := some (afterChild tm e) } (afterChild tm e) (ix + 1) items) _ _ _ _
    cases hev : evaluateTask tm (eachChild t e j.id n now ix) with
    | mk y er =>
      rw [hev] at hf hne hpl
      cases er with
      | some er => exact good_failTo ht hsg
      | none =>
        dsimp only
        have ht' := ht.after he tm
        have hsg' : ({ t with each := some (afterChild tm e) } : Task).single = false := Task.single_each rfl
        have hbad : ∀ {s' : St} {T1 : List Nat} {o1 : List Tok}, Le M s s' → ∀ r, Good M (.ret (r, { t with each := some (afterChild tm e) })) T1 o1 s' (Ends M) := fun hl r =>
          good_ret fun s'' h' => ⟨(ht'.mono hl).mono h', fun _ _ => .free hsg'⟩
        have e1 : y.id = n := hf.id
        have e2 : y.parentID = t.id := hf.parentID
        have e3 : y.state = if fireNow e.concurrency ix then .pending else .created := hf.state
        have e4 : y.jobID = j.id := hf.jobID
        have hnt : t.id ≠ n := fun h => by
          obtain ⟨r, hr⟩ := ht.hasTask
          rw [h] at hr; exact hnu r hr
        have hnew : NewTask M s y := by
          refine ⟨by rw [e1]; exact hn, by rw [e2, e1]; exact hnt, hne, fun _ => by rw [e2]; exact ht.hasTask, fun c hc => ?_⟩
          rw [e2] at hc
          obtain ⟨_, h1, h2⟩ := ht.each_eq he hc
          exact ⟨hpl h1, fun hm => by rw [e4, hj]; exact h2 hm⟩
        have hrow : ∀ {s1 : St}, Le M s s1 → s1.ds.task? n = some (taskRow y) → HasJob s1.ds y.jobID → MsgT M s1 y := fun h1 hrow hjob =>
          (hnew.mono h1).msg (by rw [e1]; exact hrow) hjob
        have hnext : ∀ {s1 : St} {T1 : List Nat}, Le M s s1 →
            Good M (eachLoop C j now { t with each := some (afterChild tm e) } (afterChild tm e) (ix + 1) items) T1
              (List.replicate (e.concurrency - (ix + 1)) (.fire t.id)) s1 (Ends M) := fun h1 =>
          ih { t with each := some (afterChild tm e) } (afterChild tm e) (ix + 1) (ht'.mono h1) rfl hj (h1.S _ hS)
        by_cases hfire : fireNow e.concurrency ix = true
        · rw [if_pos hfire] at e3
          refine good_new (o' := List.replicate (e.concurrency - (ix + 1)) (.fire t.id) ++ [.pend n]) e1 hnT hnew (fun T' o1 st e hd _ => hbad hd _)
            (fun st hd hi => ?_) fun s1 h1 hrw hjob => ?_
          · refine ⟨?_, fun h => ?_, fun h => ?_, fun y' hy' => ?_, fun _ => by rw [e3]; exact fun h => (by cases h), fun c hc => .inl ?_, fun c hc _ => .inl ?_⟩
            · rw [e1, List.count_append, List.count_eq_zero.2 fun h => (by have := (List.mem_replicate.1 h).2; cases this)]
              simp
            · rw [e1, List.mem_append, List.mem_singleton] at h
              exact h.elim (fun h => by have := (List.mem_replicate.1 h).2; cases this) (fun h => by cases h)
            · rw [e1, List.mem_append, List.mem_singleton] at h
              exact h.elim (fun h => by have := (List.mem_replicate.1 h).2; cases this) (fun h => by cases h)
            · rw [e1] at hy'
              rw [List.count_append, List.count_eq_zero.2 (fun h => hy' (List.mem_singleton.1 h) : y' ∉ [Tok.pend n]), List.count_replicate, List.count_replicate]
              split <;> omega
            · rw [e2]; exact hd.S _ hS
            · rw [e2] at hc ⊢
              obtain ⟨h1, _⟩ := (ht.mono hd).each_eq he hc
              have hpos := hc.pos
              have hlt : ix < e.concurrency := by
                unfold fireNow at hfire
                simp only [Bool.or_eq_true, decide_eq_true_eq] at hfire
                omega
              have hz : [Tok.pend n].count (Tok.fire t.id) = 0 := List.count_eq_zero.2 fun h => by rw [List.mem_singleton] at h; cases h
              rw [List.count_append, hz, List.count_replicate, List.count_replicate]
              simp only [beq_self_eq_true, if_true]
              omega
          · dsimp only
            have hfire' : fireNow (afterChild tm e).concurrency ix = true := hfire
            rw [if_pos hfire']
            refine good_pub ⟨hrow h1 hrw hjob, .pending⟩ (List.replicate (e.concurrency - (ix + 1)) (.fire t.id)) (by rw [toks_pending, e1]; exact Sub.refl _)
              (fun _ e => hbad h1 _) (hnext h1)
        · rw [if_neg hfire] at e3
          refine good_new (o' := List.replicate (e.concurrency - (ix + 1)) (.fire t.id)) e1 hnT hnew (fun T' o1 st e hd _ => hbad hd _)
            (fun st hd hi => ?_) fun s1 h1 hrw hjob => ?_
          · have hnp : ∀ y' : Tok, y' ∈ List.replicate (e.concurrency - (ix + 1)) (Tok.fire t.id) → y' = .fire t.id := fun y' h => (List.mem_replicate.1 h).2
            refine ⟨?_, fun h => (by cases hnp _ h), fun h => (by cases hnp _ h), fun y' hy' => ?_, fun h => (by cases hnp _ h), fun c hc => .inl ?_, fun c hc h => ?_⟩
            · rw [List.count_eq_zero.2 fun h => (by cases hnp _ h)]; omega
            · rw [List.count_replicate, List.count_replicate]
              split <;> omega
            · rw [e2]; exact hd.S _ hS
            · rw [e3] at h
              exact h.elim (fun h => by cases h) (fun h => by cases hnp _ h)
          · dsimp only
            have hfire' : ¬ fireNow (afterChild tm e).concurrency ix = true := hfire
            rw [if_neg hfire']
            exact hnext h1

theorem eachRow_ok {ds : DS} (hi : Inv M ds) {n now size : Nat} {r : Task} (hr : ds.task? n = some r) : RowOK M ds r (eachRow now size r) := by
  have hn := hi.nested n r hr
  cases he : r.each with
  | none =>
    refine rowOK_of hi hr rfl ?_ rfl fun _ _ _ h => h
    show r.each.map _ = r.each
    rw [he]; rfl
  | some e =>
    have hx : (eachRow now size r).each = some { e with size := size, index := e.concurrency } := by
      show r.each.map _ = _
      rw [he]; rfl
    refine ⟨⟨rfl, rfl, rfl, ?_, rfl, fun c => eachT_of (e' := { e with size := size, index := e.concurrency }) he hx rfl rfl c⟩,
      ⟨hn.par, fun x hx' => ?_, hn.sub⟩, fun hm c hc => (hi.kids n r c hr hc).1.2 hm⟩
    · show (eachRow now size r).each.isSome = _
      rw [hx, he]; rfl
    · have hx' : (eachRow now size r).each = some x := hx'
      rw [hx] at hx'; cases hx'; exact hn.ea e he

theorem good_each (C : Cfg) {t : Task} {e : EachTask Task} (ht : MsgT M s t) (he : t.each = some e) :
    Good M (scheduleEachTask C t e) T [.pend t.id] s (Ends M) := by
  unfold scheduleEachTask
  have hsg := Task.single_each he
  have hbad : ∀ {s' : St} {T1 : List Nat} {o1 : List Tok}, Le M s s' → ∀ r, Good M (.ret (r, t)) T1 o1 s' (Ends M) := fun hl r =>
    good_ret fun s'' h' => ⟨(ht.mono hl).mono h', fun _ _ => .free hsg⟩
  refine good_now fun now => good_getJob (fun T' o1 st e hd _ => hbad hd _) fun s1 j h1 hi1 hjob => good_seed fun sd => ?_
  have ht1 := ht.mono h1
  cases evaluateExpr C.O ⟨j.context, none⟩ sd e.list with
  | error er => exact good_failTo ht1 hsg
  | ok v =>
    dsimp only
    cases v.items with
    | none => exact good_failTo ht1 hsg
    | some list =>
      dsimp only
      refine good_set (fun T' o1 st e hd _ => hbad (h1.trans hd) _) fun s2 r h2 hi2 hr => ?_
      have hok : RowOK M s2.ds r (eachRow now list.length r) := eachRow_ok hi2 hr
      refine ⟨hok, List.replicate e.concurrency (.fire t.id), fun n => s2.S n ∨ n = t.id, fun _ h => .inl h, fun A hA => ?_, fun hl => ?_⟩
      · have hnp : ∀ y' : Tok, y' ∈ List.replicate e.concurrency (Tok.fire t.id) → y' = .fire t.id := fun y' h => (List.mem_replicate.1 h).2
        refine held_swap hi2 hr hok (fun n h => .inl h) rfl rfl .fires ?_ (fun h => by cases h) (fun h => by cases hnp _ h) (fun h => by cases hnp _ h)
          (fun m hm h => h.resolve_right hm) (fun _ => ⟨fun h => (by cases hnp _ h), fun _ h => (by cases hnp _ h), fun _ h => by cases h⟩)
          (.inr ⟨rfl, fun h => (by cases hnp _ h), fun c hc => ?_⟩) hA
        · rw [List.count_eq_zero.2 fun h => (by cases hnp _ h), List.count_eq_zero.2 fun h => (by cases hnp _ h), List.count_eq_zero.2 fun h => (by cases hnp _ h)]
          omega
        · rw [List.count_replicate_self]
          exact Nat.le_of_eq ((ht1.mono h2).each_eq he hc).1
      · dsimp only
        have := good_eachLoop C j now list t e 0 (T := T) (ht1.mono hl) he (job?_mem hjob).2 (.inr rfl)
        rwa [Nat.sub_zero] at this

/-- `scheduler.go scheduleTask` -/
theorem good_schedule (C : Cfg) {t : Task} (ht : MsgT M s t) : Good M (scheduleTask C t) T [.pend t.id] s (Ends M) := by
  unfold scheduleTask
  cases hp : t.parallel with
  | some p => exact good_parallel C ht hp
  | none =>
    dsimp only
    cases he : t.each with
    | some e => exact good_each C ht he
    | none =>
      dsimp only
      cases hs : t.subJob with
      | some x =>
        dsimp only
        by_cases hd : x.detached = true
        · rw [if_pos hd]; exact good_detached ht hs
        · rw [if_neg hd]; exact good_attached ht hs
      | none => exact good_regular ht

theorem good_pending (C : Cfg) {t : Task} (ht : MsgT M s t) : Good M (pendingHandler C t) T [.pend t.id] s (Ends M) := by
  unfold pendingHandler
  split
  · exact good_skip ht
  · exact good_schedule C ht

end Tork.Once

import Verif.FlowOps
/-! Transactions of the obligation logic: creating rows, opening composites, completions. -/

namespace Tork.Flow
open Prog Calm

variable {C : Cfg} {H : Nat}

theorem Inv.parent_lt {ds : DS} (hi : Inv C H ds) {n : Nat} {r : Task} (hr : ds.task? n = some r) : r.parentID < r.id := by
  have hg := hi.tasks n r hr
  have hid := (task?_mem hr).2
  obtain ⟨d, _, h, _⟩ := hg.sound
  cases d with
  | zero =>
    obtain ⟨r', h1, h2⟩ := h
    rw [hid, hr] at h1; cases h1
    have := hg.job
    omega
  | succ d =>
    obtain ⟨r', _, h1, _, h3, _⟩ := h
    rw [hid, hr] at h1; cases h1
    exact h3

/-- No edge leaves a place that does not exist. -/
theorem out_zero {ds : DS} {E : List Edge} (he : InvE ds E) {x : Place} (h0 : x.2 ≠ 0)
    (h : ∀ r, ds.task? x.2 = some r → r.jobID ≠ x.1) : out E x = 0 := by
  unfold out
  rw [List.countP_eq_zero]
  intro e hx hd
  have hd := of_decide_eq_true hd
  obtain ⟨r, h1, h2, _⟩ := he.task e hx (by rw [hd]; exact h0)
  rw [hd] at h1 h2
  exact h r h1 h2

theorem out_zero_job {ds : DS} {E : List Edge} (he : InvE ds E) {J : Nat} (h : ds.job? J = none) (P : Nat) : out E (J, P) = 0 := by
  unfold out
  rw [List.countP_eq_zero]
  intro e hx hd
  have hd := of_decide_eq_true hd
  obtain ⟨j, hj, _⟩ := he.live e hx
  rw [hd] at hj
  rw [h] at hj; cases hj

variable {α γ : Type} {T : List Nat} {o : List Ob} {s : DS} {post : List Nat → List Ob → DS → α → Prop}

/-! ## Creating tasks -/

/-- The ancestors of a task about to be created. -/
def NewAnc (s : DS) : Nat → Task → Prop
  | 0, t => t.parentID = 0
  | d + 1, t => t.parentID ≠ 0 ∧ t.parentID < t.id ∧ ∃ p, s.task? t.parentID = some p ∧ p.jobID = t.jobID ∧
      ((width p).isSome ∨ (conc p).isSome) ∧ Anc s d t.parentID

theorem NewAnc.anc {s s' : DS} {d : Nat} {t r : Task} (h : NewAnc s d t) (hl : Le s s') (hr : s'.task? t.id = some r)
    (h1 : r.parentID = t.parentID) (h2 : r.jobID = t.jobID) : Anc s' d t.id := by
  cases d with
  | zero => exact ⟨r, hr, h1.trans h⟩
  | succ d =>
    obtain ⟨k1, k2, p, k3, k4, k5, k6⟩ := h
    obtain ⟨p', k7, k8⟩ := hl.tasks _ _ k3
    exact ⟨r, p', hr, by rw [h1]; exact k1, by rw [h1]; exact k2, by rw [h1]; exact k7,
      by rw [k8.job, h2]; exact k4, by rw [k8.width, k8.conc]; exact k5, by rw [h1]; exact k6.mono hl⟩

theorem good_createTask {t : Task} {k : Except Err Unit → Prog α} (hid : t.id ∈ T) (hj : HasJob s t.jobID)
    (hc : t.createdAt.isSome) (hs : ∃ d n, NewAnc s d t ∧ Sound C n t ∧ d + n ≤ H) (hjid : t.jobID < t.id)
    (hidle : Started s t.jobID ∨ t.nodeID = 0 ∧ subJobRef t = 0)
    (h : ∀ s', Le s s' → (∀ s'', Le s' s'' → Started s'' t.jobID → MsgTask C H s'' t) →
      Good C H (k (.ok ())) (T.filter (· ≠ t.id)) o s' post) :
    Good C H ((tx (createTask t)).bind k) T o s post := by
  refine good_tx fun ds E hd hi he hu => .inr ?_
  have hun := hu _ hid
  obtain ⟨j, hj⟩ := hd.hasJob hj
  obtain ⟨d, nn, hs1, hs2, hs3⟩ := hs
  have hrow : DS.task? { ds with tasks := ds.tasks ++ [taskRow t] } t.id = some (taskRow t) := by
    rw [task?_append, hun.task]
    show (if t.id = t.id then _ else _) = _
    rw [if_pos rfl]
  have hold : ∀ n, n ≠ t.id → DS.task? { ds with tasks := ds.tasks ++ [taskRow t] } n = ds.task? n := by
    intro n hn
    rw [task?_append]
    rw [if_neg (show ¬ (taskRow t).id = n from fun h => hn h.symm)]
    cases ds.task? n <;> rfl
  have hle : Le ds { ds with tasks := ds.tasks ++ [taskRow t] } := by
    refine ⟨fun n r hr => ⟨r, ?_, .refl r⟩, fun n j h => ⟨j, h, rfl, fun h => h⟩⟩
    rw [hold n fun hn => by rw [hn, hun.task] at hr; cases hr]
    exact hr
  have hsame : Same (taskRow t) t := ⟨rfl, rfl, rfl, rfl, rfl⟩
  refine ⟨(), { ds with tasks := ds.tasks ++ [taskRow t] }, T.filter (· ≠ t.id), o, E, ?_, List.filter_sublist, ?_,
    h _ (hd.trans hle) fun s'' hl'' hst => ?_⟩
  · unfold createTask
    rw [if_neg (by rw [hun.task]; simp), if_neg (by rw [hj]; simp), if_neg (by
      cases hh : t.createdAt with
      | none => rw [hh] at hc; exact absurd hc (by simp)
      | some _ => simp)]
  · refine ⟨hle, ⟨fun n x hx => ?_, fun n x hx => ?_, ?_⟩, he.upd hle (List.Sublist.refl _) (fun e hx => he.live e hx),
      fun n h1 h2 => ?_, fun _ h h' => absurd h h', fun n hn => ?_, fun m hm => (by cases hm),
      fun J hJ => .inl (List.mem_append_left _ hJ), fun x => .inr (.inr ?_)⟩
    · have hg := hi.jobs n x hx
      refine ⟨hg.reg, hg.pos, hg.pos0, hg.state, fun hp => ?_⟩
      obtain ⟨S, k1, k2, k3⟩ := hg.parent hp
      obtain ⟨S', k4, k5⟩ := hle.tasks _ _ k1
      exact ⟨S', k4, by rw [k5.job]; exact k2, k3⟩
    · by_cases hn : n = t.id
      · rw [hn, hrow] at hx; cases hx
        refine ⟨⟨d, nn, hs1.anc (hd.trans hle) hrow rfl rfl, hs2.upd hs2.queue hs2.retry rfl rfl rfl, hs3⟩, hjid,
          hidle.imp (fun h => (hd.trans hle).started h) fun h => h⟩
      · rw [hold n hn] at hx
        have hg := hi.tasks n x hx
        obtain ⟨d', n', k1, k2, k3⟩ := hg.sound
        exact ⟨⟨d', n', k1.mono hle, k2, k3⟩, hg.job, hg.idle⟩
    · rw [List.map_append, List.nodup_append]
      refine ⟨hi.keysT, by simp, fun a ha b hb => ?_⟩
      obtain ⟨x, hx, rfl⟩ := List.mem_map.1 ha
      have hb : b = t.id := by simpa [taskRow] using hb
      intro he
      have := task?_of_mem hi.keysT hx
      rw [he, hb, hun.task] at this
      exact absurd this (by simp)
    · by_cases hn : n = t.id
      · rw [hn]; exact hid
      · rw [hold n hn] at h2; exact absurd h1 h2
    · have hne : n ≠ t.id := by simpa using (List.mem_filter.1 hn).2
      exact ⟨(hu n ((List.mem_filter.1 hn).1)).job, by rw [hold n hne]; exact (hu n ((List.mem_filter.1 hn).1)).task⟩
    · rw [toksL_nil, List.append_nil]
      have : need { ds with tasks := ds.tasks ++ [taskRow t] } E x ≤ need ds E x := by
        unfold need
        by_cases h0 : x.2 = 0
        · rw [if_pos h0, if_pos h0]; exact Nat.le_refl _
        · rw [if_neg h0, if_neg h0]
          by_cases hn : x.2 = t.id
          · have : out E x = 0 := out_zero he h0 fun r hr => by rw [hn, hun.task] at hr; cases hr
            rw [if_pos this]; exact Nat.zero_le _
          · have : absorb { ds with tasks := ds.tasks ++ [taskRow t] } x.2 = absorb ds x.2 := by
              unfold absorb; rw [hold _ hn]
            rw [this]; exact Nat.le_refl _
      omega
  · obtain ⟨r', k1, k2⟩ := hl''.tasks _ _ hrow
    exact ⟨⟨r', k1, k2.symm.trans hsame⟩, ⟨d, nn, hs1.anc ((hd.trans hle).trans hl'') k1 (k2.parent) (k2.job), hs2, hs3⟩, hst⟩

/-! ## Creating jobs -/

theorem opok_createJob {j : Job} {ds : DS} {E : List Edge} {es : List Edge} {o' : List Ob} (hi : Inv C H ds) (he : InvE ds E)
    (hu : ∀ n ∈ T, Calm.Unused ds n) (hid : j.id ∈ T) (hreg : SoundJob C H j) (hp : j.state = .pending) (hpos : j.position = 0)
    (hpar : j.parentID ≠ 0 → ∃ S, ds.task? j.parentID = some S ∧ Started ds S.jobID ∧ j.parentID < j.id)
    (hes : es = [] ∧ o' = .tok (j.id, 0) :: o ∨
      ∃ S, j.parentID ≠ 0 ∧ ds.task? j.parentID = some S ∧ es = [((j.id, 0), tgt S)] ∧ o = [.tok (tgt S)] ∧ o' = [.tok (j.id, 0)]) :
    OpOK C H T (T.filter (· ≠ j.id)) o o' E (es ++ E) ds { ds with jobs := ds.jobs ++ [jobRow ds.guest j] } [] := by
  have hun := hu _ hid
  have hrow : DS.job? { ds with jobs := ds.jobs ++ [jobRow ds.guest j] } j.id = some (jobRow ds.guest j) := by
    rw [job?_append, hun.job]
    show (if j.id = j.id then _ else _) = _
    rw [if_pos rfl]
  have hold : ∀ n, n ≠ j.id → DS.job? { ds with jobs := ds.jobs ++ [jobRow ds.guest j] } n = ds.job? n := by
    intro n hn
    rw [job?_append]
    rw [if_neg (show ¬ (jobRow ds.guest j).id = n from fun h => hn h.symm)]
    cases ds.job? n <;> rfl
  have hle : Le ds { ds with jobs := ds.jobs ++ [jobRow ds.guest j] } := by
    refine ⟨fun n r h => ⟨r, h, .refl r⟩, fun n r hr => ⟨r, ?_, rfl, fun h => h⟩⟩
    rw [hold n fun hn => by rw [hn, hun.job] at hr; cases hr]
    exact hr
  have hlive : ∀ n, n ≠ j.id → (Live { ds with jobs := ds.jobs ++ [jobRow ds.guest j] } n ↔ Live ds n) := by
    intro n hn
    unfold Live; rw [hold n hn]
  have hlj : Live { ds with jobs := ds.jobs ++ [jobRow ds.guest j] } j.id := ⟨_, hrow, .inl hp⟩
  have hlive' : ∀ n, Live ds n → Live { ds with jobs := ds.jobs ++ [jobRow ds.guest j] } n := by
    intro n hn
    by_cases h : n = j.id
    · rw [h]; exact hlj
    · exact (hlive n h).2 hn
  have hE : InvE { ds with jobs := ds.jobs ++ [jobRow ds.guest j] } E :=
    he.upd hle (List.Sublist.refl _) fun e hx => hlive' _ (he.live e hx)
  refine ⟨hle, ⟨fun n x hx => ?_, fun n x hx => ?_, hi.keysT⟩, ?_, fun _ h h' => absurd h h', fun n h1 h2 => ?_, fun n hn => ?_,
    fun m hm => (by cases hm), fun J hJ => .inl ?_, fun x => ?_⟩
  · by_cases hn : n = j.id
    · rw [hn, hrow] at hx; cases hx
      refine ⟨⟨hreg.nonempty, hreg.tasks, hreg.queue, hreg.retry⟩, fun h => absurd hp h, fun _ => hpos, ?_, fun h => ?_⟩
      · show JobState.proper j.state
        rw [hp]; trivial
      · obtain ⟨S, k1, k2, k3⟩ := hpar h
        exact ⟨S, k1, hle.started k2, k3⟩
    · rw [hold n hn] at hx
      have hg := hi.jobs n x hx
      refine ⟨hg.reg, hg.pos, hg.pos0, hg.state, fun h => ?_⟩
      obtain ⟨S, k1, k2, k3⟩ := hg.parent h
      exact ⟨S, k1, hle.started k2, k3⟩
  · have hg := hi.tasks n x hx
    obtain ⟨d, k, k1, k2, k3⟩ := hg.sound
    exact ⟨⟨d, k, k1.mono hle, k2, k3⟩, hg.job, hg.idle.imp hle.started fun h => h⟩
  · rcases hes with ⟨rfl, _⟩ | ⟨S, k1, k2, rfl, _, _⟩
    · exact hE
    · refine ⟨fun e hx hn => ?_, fun e hx hn => ?_, fun e hx => ?_, fun J => ?_⟩
      · rcases List.mem_cons.1 hx with rfl | hx
        · exact absurd rfl hn
        · exact hE.task e hx hn
      · rcases List.mem_cons.1 hx with rfl | hx
        · exact ⟨_, S, hrow, k1, k2, rfl⟩
        · exact hE.job e hx hn
      · rcases List.mem_cons.1 hx with rfl | hx
        · exact hlj
        · exact hE.live e hx
      · show ((((j.id, 0), tgt S) : Edge) :: E).countP (fun e => decide (e.1 = (J, 0))) ≤ 1
        rw [List.countP_cons]
        have h1 := he.once J
        unfold out at h1
        by_cases hJ : j.id = J
        · have : E.countP (fun e => decide (e.1 = (J, 0))) = 0 := by
            have := out_zero_job he (J := J) (by rw [← hJ]; exact hun.job) 0
            exact this
          rw [this]; split <;> omega
        · rw [if_neg (by simp [hJ])]; omega
  · by_cases hn : n = j.id
    · rw [hn]; exact hid
    · rw [hold n hn] at h2; exact absurd h1 h2
  · have hne : n ≠ j.id := by simpa using (List.mem_filter.1 hn).2
    exact ⟨by rw [hold n hne]; exact (hu n ((List.mem_filter.1 hn).1)).job, (hu n ((List.mem_filter.1 hn).1)).task⟩
  · rcases hes with ⟨_, rfl⟩ | ⟨S, _, _, _, rfl, _⟩
    · exact List.mem_append_left _ (List.mem_cons_of_mem _ hJ)
    · simp at hJ
  · rw [toksL_nil, List.append_nil]
    by_cases hx : x = (j.id, 0)
    · right; left
      have h1 : need { ds with jobs := ds.jobs ++ [jobRow ds.guest j] } (es ++ E) x ≤ 1 := by
        rw [hx]; unfold need
        rw [if_pos rfl]
        split <;> omega
      have h2 : 1 ≤ o'.count (.tok x) := by
        rw [hx]
        rcases hes with ⟨_, rfl⟩ | ⟨S, _, _, _, _, rfl⟩
        · rw [List.count_cons_self]; omega
        · simp
      omega
    · right; right
      have hout : out (es ++ E) x = out E x := by
        rcases hes with ⟨rfl, _⟩ | ⟨S, _, _, rfl, _, _⟩
        · rfl
        · unfold out
          show (List.countP _ (_ :: E)) = _
          rw [List.countP_cons, if_neg]; · rfl
          intro h; exact hx (of_decide_eq_true h).symm
      have hneed : need { ds with jobs := ds.jobs ++ [jobRow ds.guest j] } (es ++ E) x ≤ need ds E x := by
        unfold need
        rw [hout]
        by_cases h0 : x.2 = 0
        · rw [if_pos h0, if_pos h0]
          have hx1 : x.1 ≠ j.id := fun h => hx (Prod.ext h h0)
          by_cases hh : Live ds x.1
          · rw [if_pos hh]; split <;> omega
          · rw [if_neg hh, if_neg (fun h => hh ((hlive _ hx1).1 h))]; exact Nat.le_refl _
        · rw [if_neg h0, if_neg h0]; exact Nat.le_refl _
      have hcnt : o.count (.tok x) + inn E x ≤ o'.count (.tok x) + inn (es ++ E) x := by
        rcases hes with ⟨rfl, rfl⟩ | ⟨S, _, _, rfl, rfl, rfl⟩
        · rw [List.count_cons]
          show _ ≤ _ + inn E x
          omega
        · have : inn ([((j.id, 0), tgt S)] ++ E) x = inn E x + if tgt S = x then 1 else 0 := by
            unfold inn
            show (List.countP _ (_ :: E)) = _
            rw [List.countP_cons]
            by_cases h : tgt S = x <;> simp [h]
          rw [this]
          by_cases h : tgt S = x
          · rw [if_pos h, h]; simp; omega
          · have : List.count (Ob.tok x) [Ob.tok (tgt S)] = 0 :=
              List.count_eq_zero.2 fun hm => h (by simpa using (List.mem_singleton.1 hm).symm)
            rw [this]; omega
      omega

/-- A job of its own. -/
theorem good_createJob {j : Job} {k : Except Err Unit → Prog α} (hid : j.id ∈ T) (h0 : j.id ≠ 0)
    (hreg : SoundJob C H j) (hp : j.state = .pending) (hpos : j.position = 0) (hpar : j.parentID = 0)
    (h : ∀ s', Le s s' → (∃ r, s'.job? j.id = some r ∧ r.parentID = j.parentID) →
      Good C H (k (.ok ())) (T.filter (· ≠ j.id)) (.tok (j.id, 0) :: o) s' post) :
    Good C H ((tx (createJob j)).bind k) T o s post := by
  refine good_tx fun ds E hd hi he hu => .inr ?_
  have hun := hu _ hid
  have hok := opok_createJob (o := o) (es := []) (o' := .tok (j.id, 0) :: o) hi he hu hid hreg hp hpos
    (fun h => absurd hpar h) (.inl ⟨rfl, rfl⟩)
  refine ⟨(), { ds with jobs := ds.jobs ++ [jobRow ds.guest j] }, _, _, _, ?_, List.filter_sublist, hok,
    h _ (hd.trans hok.le) ⟨jobRow ds.guest j, ?_, rfl⟩⟩
  · unfold createJob
    rw [if_neg h0, if_neg (by rw [hun.job]; simp)]
  · rw [job?_append, hun.job]
    show (if j.id = j.id then _ else _) = _
    rw [if_pos rfl]

/-- The sub-job of a task. -/
theorem good_createSub {j : Job} {t : Task} {k : Except Err Unit → Prog α} (hid : j.id ∈ T) (h0 : j.id ≠ 0)
    (hreg : SoundJob C H j) (hp : j.state = .pending) (hpos : j.position = 0) (hpar : j.parentID = t.id) (ht0 : t.id ≠ 0)
    (ht : MsgTask C H s t) (hlt : t.id < j.id)
    (h : ∀ s', Le s s' → (∃ r, s'.job? j.id = some r ∧ r.parentID = j.parentID) →
      Good C H (k (.ok ())) (T.filter (· ≠ j.id)) [.tok (j.id, 0)] s' post) :
    Good C H ((tx (createJob j)).bind k) T [.tok (tgt t)] s post := by
  refine good_tx fun ds E hd hi he hu => .inr ?_
  have hun := hu _ hid
  obtain ⟨S, hS, hsame⟩ := (ht.mono hd).row
  have htS : tgt t = tgt S := by unfold tgt; rw [hsame.job, hsame.parent]
  have hok := opok_createJob (o := [.tok (tgt t)]) (es := [((j.id, 0), tgt S)]) (o' := [.tok (j.id, 0)]) hi he hu hid hreg hp hpos
    (fun _ => ⟨S, by rw [hpar]; exact hS, by rw [← hsame.job]; exact (ht.mono hd).started, by rw [hpar]; exact hlt⟩)
    (.inr ⟨S, by rw [hpar]; exact ht0, by rw [hpar]; exact hS, rfl, by rw [htS], rfl⟩)
  refine ⟨(), { ds with jobs := ds.jobs ++ [jobRow ds.guest j] }, _, _, _, ?_, List.filter_sublist, hok,
    h _ (hd.trans hok.le) ⟨jobRow ds.guest j, ?_, rfl⟩⟩
  · unfold createJob
    rw [if_neg h0, if_neg (by rw [hun.job]; simp)]
  · rw [job?_append, hun.job]
    show (if j.id = j.id then _ else _) = _
    rw [if_pos rfl]

/-! ## Opening a composite task -/

theorem good_open {t : Task} {m : Task → Task} {n : Nat} {k : Except Err Unit → Prog α} (ht : MsgTask C H s t)
    (hm : ∀ ds r, Le s ds → Inv C H ds → ds.task? t.id = some r → Same r t → Started ds r.jobID →
      TaskUpd C ds r (persistTask r (m r)) ∧ 1 + absorbRow (persistTask r (m r)) ≤ n)
    (h : ∀ s', Le s s' → Good C H (k (.ok ())) T (List.replicate n (.tok (t.jobID, t.id))) s' post) :
    Good C H ((tx (updateTask' t.id m)).bind k) T [.tok (tgt t)] s post := by
  refine good_tx fun ds E hd hi he hu => .inr ?_
  obtain ⟨r, hr, hsame⟩ := (ht.mono hd).row
  have hst := (ht.mono hd).started
  obtain ⟨h1, h2⟩ := hm ds r hd hi hr hsame (by rw [← hsame.job]; exact hst)
  have hup := upd_setTask hr h1
  have hrun : updateTask' t.id m ds = .ok ((), ds.setTask t.id (m r)) := by
    unfold updateTask' updateTask; rw [hr]
  have hpl := hi.parent_lt hr
  rw [← hsame.parent, ← hsame.id] at hpl
  have hjl := (hi.tasks _ _ hr).job
  rw [← hsame.job, ← hsame.id] at hjl
  have hne : tgt t ≠ (t.jobID, t.id) := fun hx => by
    have : t.parentID = t.id := congrArg Prod.snd hx
    omega
  have habs : ∀ x : Place, x.2 ≠ t.id → absorb (ds.setTask t.id (m r)) x.2 = absorb ds x.2 := fun x hx => by
    rw [absorb_setTask hr, if_neg hx]
  have hout0 : ∀ x : Place, x.2 = t.id → x.1 ≠ t.jobID → out E x = 0 := fun x hx hx1 =>
    out_zero he (by rw [hx]; omega) fun r' hr' => by
      rw [hx, hr] at hr'; cases hr'; rw [← hsame.job]; exact fun h => hx1 h.symm
  by_cases hl : Live ds t.jobID
  · refine ⟨(), ds.setTask t.id (m r), T, List.replicate n (.tok (t.jobID, t.id)), ((t.jobID, t.id), tgt t) :: E, hrun,
      List.Sublist.refl _, ?_, h _ (hd.trans hup.le)⟩
    have hE0 : InvE (ds.setTask t.id (m r)) E := he.upd hup.le (List.Sublist.refl _) he.live
    have hE : InvE (ds.setTask t.id (m r)) (((t.jobID, t.id), tgt t) :: E) := by
      refine ⟨fun e hx hn => ?_, fun e hx hn => ?_, fun e hx => ?_, fun J => ?_⟩
      · rcases List.mem_cons.1 hx with rfl | hx
        · obtain ⟨r', k1, k2⟩ := hup.le.tasks _ _ hr
          exact ⟨r', k1, by rw [k2.job, ← hsame.job], by unfold tgt; rw [k2.job, k2.parent, hsame.job, hsame.parent]⟩
        · exact hE0.task e hx hn
      · rcases List.mem_cons.1 hx with rfl | hx
        · have hn : t.id = 0 := hn
          omega
        · exact hE0.job e hx hn
      · rcases List.mem_cons.1 hx with rfl | hx
        · exact hl
        · exact hE0.live e hx
      · have := he.once J
        unfold out at *
        rw [List.countP_cons, if_neg]
        · exact this
        · intro hx
          have : t.id = 0 := congrArg Prod.snd (of_decide_eq_true hx)
          omega
    refine opok_upd hi hu hup hE (fun m hm => by cases hm) (fun J hJ => by simp at hJ) fun x => .inr (.inr ?_)
    rw [toksL_nil, List.append_nil]
    have hinn : inn (((t.jobID, t.id), tgt t) :: E) x = inn E x + if tgt t = x then 1 else 0 := by
      unfold inn; rw [List.countP_cons]; by_cases h : tgt t = x <;> simp [h]
    have hout : out (((t.jobID, t.id), tgt t) :: E) x = out E x + if (t.jobID, t.id) = x then 1 else 0 := by
      unfold out; rw [List.countP_cons]; by_cases h : (t.jobID, t.id) = x <;> simp [h]
    have hcnt : List.count (Ob.tok x) [Ob.tok (tgt t)] = if tgt t = x then 1 else 0 := by
      rw [List.count_cons, List.count_nil]; by_cases h : tgt t = x <;> simp [h]
    rw [hcnt, hinn]
    by_cases hx : (t.jobID, t.id) = x
    · subst hx
      rw [if_neg hne]
      rw [List.count_replicate_self]
      unfold need
      rw [if_neg (show ¬ t.id = 0 by omega), if_neg (show ¬ t.id = 0 by omega)]
      rw [hout, if_pos rfl, if_neg (by omega)]
      have : absorb (ds.setTask t.id (m r)) t.id = absorbRow (persistTask r (m r)) := by
        rw [absorb_setTask hr, if_pos rfl]
      dsimp only
      rw [this]
      split <;> omega
    · rw [if_neg hx] at hout
      have h0 : List.count (Ob.tok x) (List.replicate n (Ob.tok (t.jobID, t.id))) = 0 :=
        List.count_eq_zero.2 fun hm => hx (by simpa using (List.eq_of_mem_replicate hm).symm)
      rw [h0]
      have : need (ds.setTask t.id (m r)) (((t.jobID, t.id), tgt t) :: E) x ≤ need ds E x := by
        unfold need
        rw [hout]
        by_cases hz : x.2 = 0
        · rw [if_pos hz, if_pos hz]; exact Nat.le_refl _
        · rw [if_neg hz, if_neg hz]
          by_cases hxt : x.2 = t.id
          · have := hout0 x hxt fun h1 => hx (Prod.ext h1.symm hxt.symm)
            rw [this]; simp
          · rw [habs x hxt]; exact Nat.le_refl _
      omega
  · refine ⟨(), ds.setTask t.id (m r), T, List.replicate n (.tok (t.jobID, t.id)), E, hrun,
      List.Sublist.refl _, ?_, h _ (hd.trans hup.le)⟩
    have hE : InvE (ds.setTask t.id (m r)) E := he.upd hup.le (List.Sublist.refl _) he.live
    refine opok_upd hi hu hup hE (fun m hm => by cases hm) (fun J hJ => by simp at hJ) fun x => ?_
    rw [toksL_nil, List.append_nil]
    by_cases hx : x.1 = t.jobID
    · right; left
      rw [need_dead hE (by rw [hx]; exact hl)]; omega
    · right; right
      have h0 : List.count (Ob.tok x) [Ob.tok (tgt t)] = 0 :=
        List.count_eq_zero.2 fun hm => hx (by
          have : x = tgt t := by simpa using List.mem_singleton.1 hm
          rw [this]; rfl)
      have : need (ds.setTask t.id (m r)) E x ≤ need ds E x := by
        unfold need
        by_cases hz : x.2 = 0
        · rw [if_pos hz, if_pos hz]; exact Nat.le_refl _
        · rw [if_neg hz, if_neg hz]
          by_cases hxt : x.2 = t.id
          · rw [hout0 x hxt hx]; simp
          · rw [habs x hxt]; exact Nat.le_refl _
      omega

/-! ## Completions -/

/-- `y` is where the completions of the composites above `x` lead. -/
inductive Up (ds : DS) : Place → Place → Prop
  | refl (x) : Up ds x x
  | step {x y : Place} {r : Task} : x.2 ≠ 0 → ds.task? x.2 = some r → r.jobID = x.1 → Up ds (tgt r) y → Up ds x y

theorem Up.mono {a b : DS} (hl : Le a b) {x y : Place} (h : Up a x y) : Up b x y := by
  induction h with
  | refl x => exact .refl x
  | step h1 h2 h3 _ ih =>
    obtain ⟨r', k1, k2⟩ := hl.tasks _ _ h2
    refine .step h1 k1 (k2.job.trans h3) ?_
    have : tgt r' = _ := show (r'.jobID, r'.parentID) = _ from by rw [k2.job, k2.parent]
    rw [this]; exact ih

theorem Up.trans {ds : DS} {x y z : Place} (h1 : Up ds x y) (h2 : Up ds y z) : Up ds x z := by
  induction h1 with
  | refl x => exact h2
  | step k1 k2 k3 _ ih => exact .step k1 k2 k3 (ih h2)

theorem release {ds : DS} {x y : Place} (h : Up ds x y) {E : List Edge} (he : InvE ds E) : ∃ E', E'.Sublist E ∧
    ∀ z, need ds E' z = 0 ∨ need ds E' z + (if z = x then 1 else 0) + inn E z ≤
      need ds E z + inn E' z + if z = y then 1 else 0 := by
  induction h generalizing E with
  | refl x => exact ⟨E, List.Sublist.refl _, fun z => .inr (by omega)⟩
  | @step x y r h1 h2 h3 _ ih =>
    by_cases h0 : out E x = 0
    · refine ⟨E, List.Sublist.refl _, fun z => ?_⟩
      by_cases hz : z = x
      · left; rw [hz]; unfold need; rw [if_neg h1, if_pos h0]
      · right; rw [if_neg hz]; omega
    · have hpos : 0 < E.countP fun e => decide (e.1 = x) := Nat.pos_of_ne_zero h0
      rw [List.countP_pos_iff] at hpos
      obtain ⟨e, hm, hex⟩ := hpos
      have hex := of_decide_eq_true hex
      obtain ⟨r', k1, k2, k3⟩ := he.task e hm (by rw [hex]; exact h1)
      rw [hex, h2] at k1; cases k1
      have hsub : (E.erase e).Sublist E := List.erase_sublist
      have he1 : InvE ds (E.erase e) := he.upd (.refl ds) hsub fun e hx => he.live e (hsub.subset hx)
      obtain ⟨E', k4, k5⟩ := ih he1
      have hperm := List.perm_cons_erase hm
      have hout : ∀ z, out E z = out (E.erase e) z + if z = x then 1 else 0 := fun z => by
        unfold out
        rw [hperm.countP_eq, List.countP_cons, hex]
        by_cases hz : z = x
        · simp [hz]
        · have h9 : ¬ x = z := fun h => hz h.symm
          simp [hz, h9]
      have hinn : ∀ z, inn E z = inn (E.erase e) z + if z = tgt r then 1 else 0 := fun z => by
        unfold inn
        rw [hperm.countP_eq, List.countP_cons, k3]
        by_cases hz : z = tgt r
        · simp [hz]
        · have h9 : ¬ tgt r = z := fun h => hz h.symm
          simp [hz, h9]
      have hmono : ∀ z, need ds E' z ≤ need ds (E.erase e) z :=
        need_le (fun _ h => h) (fun z => out_le k4 z) fun _ => Nat.le_refl _
      refine ⟨E', k4.trans hsub, fun z => ?_⟩
      have key : need ds (E.erase e) z = 0 ∨ need ds (E.erase e) z + (if z = x then 1 else 0) ≤ need ds E z := by
        by_cases hz : z = x
        · subst hz
          have := hout z
          rw [if_pos rfl] at *
          unfold need
          rw [if_neg h1, if_neg h1, if_neg h0]
          by_cases h5 : out (E.erase e) z = 0
          · left; rw [if_pos h5]
          · right; rw [if_neg h5]; omega
        · right
          rw [if_neg hz]
          have := hout z
          rw [if_neg hz, Nat.add_zero] at this
          unfold need
          rw [this]; exact Nat.le_refl _
      rcases key with key | key
      · left; have := hmono z; omega
      · rcases k5 z with h5 | h5
        · exact .inl h5
        · right
          have := hinn z
          omega

/-- A completion that is not the last one. -/
theorem opok_release {E : List Edge} {a b : DS} {ms : List Msg} {x y : Place} (hi : Inv C H a) (he : InvE a E)
    (hu : ∀ n ∈ T, Calm.Unused a n) (h : Upd C a b) (hl : ∀ n, Live b n ↔ Live a n) (hxy : Up b x y)
    (hms : ∀ m ∈ ms, MsgOK C H b m) (hab : ∀ n, absorb b n ≤ absorb a n) (hy : y.2 ≠ 0)
    (hdrop : absorb b y.2 + 1 ≤ absorb a y.2 + (toksL C ms).count (.tok y)) :
    ∃ E', OpOK C H T T [.tok x] [] E E' a b ms := by
  have heb : InvE b E := he.upd h.le (List.Sublist.refl _) fun e hx => (hl _).2 (he.live e hx)
  obtain ⟨E', h1, h2⟩ := release hxy heb
  have hE' : InvE b E' := he.upd h.le h1 fun e hx => (hl _).2 (he.live e (h1.subset hx))
  refine ⟨E', opok_upd hi hu h hE' hms (fun J hJ => by simp at hJ) fun z => ?_⟩
  rw [List.nil_append]
  have hcnt : List.count (Ob.tok z) [Ob.tok x] = if z = x then 1 else 0 := by
    rw [List.count_cons, List.count_nil]
    by_cases h : z = x
    · simp [h]
    · have h9 : ¬ x = z := fun h' => h h'.symm
      simp [h, h9]
  rcases h2 z with h3 | h3
  · right; left; rw [h3]; omega
  · have hle := need_le (fun n => (hl n).1) (fun z => Nat.le_refl (out E z)) hab z
    rw [hcnt]
    by_cases hz : z = y
    · subst hz
      rw [if_pos rfl] at h3
      by_cases h0 : out E z = 0
      · right; left
        have h4 : need b E z = 0 := by unfold need; rw [if_neg hy, if_pos h0]
        have h5 : need b E' z ≤ need b E z := need_le (fun _ h => h) (fun z => out_le h1 z) (fun _ => Nat.le_refl _) z
        rw [h4] at h5
        exact Nat.le_trans h5 (Nat.zero_le _)
      · right; right
        have h4 : need b E z + 1 ≤ need a E z + (toksL C ms).count (.tok z) := by
          unfold need
          rw [if_neg hy, if_neg hy, if_neg h0, if_neg h0]; omega
        omega
    · right; right
      rw [if_neg hz] at h3
      omega

/-- A completion that leads to another place. -/
theorem opok_climb {E : List Edge} {a b : DS} {x y : Place} (hi : Inv C H a) (he : InvE a E)
    (hu : ∀ n ∈ T, Calm.Unused a n) (h : Upd C a b) (hl : ∀ n, Live b n ↔ Live a n) (hxy : Up b x y)
    (hab : ∀ n, absorb b n ≤ absorb a n) : ∃ E', OpOK C H T T [.tok x] [.tok y] E E' a b [] := by
  have heb : InvE b E := he.upd h.le (List.Sublist.refl _) fun e hx => (hl _).2 (he.live e hx)
  obtain ⟨E', h1, h2⟩ := release hxy heb
  have hE' : InvE b E' := he.upd h.le h1 fun e hx => (hl _).2 (he.live e (h1.subset hx))
  refine ⟨E', opok_upd hi hu h hE' (fun m hm => by cases hm) (fun J hJ => by simp at hJ) fun z => ?_⟩
  rw [toksL_nil, List.append_nil]
  have hcnt : ∀ w : Place, List.count (Ob.tok z) [Ob.tok w] = if z = w then 1 else 0 := fun w => by
    rw [List.count_cons, List.count_nil]
    by_cases h : z = w
    · simp [h]
    · have h9 : ¬ w = z := fun h' => h h'.symm
      simp [h, h9]
  rcases h2 z with h3 | h3
  · right; left; rw [h3]; omega
  · right; right
    have hle := need_le (fun n => (hl n).1) (fun z => Nat.le_refl (out E z)) hab z
    rw [hcnt, hcnt]
    omega

/-! ### The transactions of `completed.go` -/

theorem completeTaskRow_upd {ds : DS} {t r u : Task} {g : Unit} (h : completeTaskRow t r = .ok (g, u)) :
    TaskUpd C ds r (persistTask r u) ∧ absorbRow (persistTask r u) = absorbRow r := by
  unfold completeTaskRow at h
  split at h
  · cases h
  · cases h
    exact ⟨taskUpd_of rfl rfl rfl (fun h => h) (fun h => h) (.inr rfl), absorb_persist rfl rfl⟩

structure SubTx (C : Cfg) (t : Task) {γ : Type} (m : Task → Except Err (γ × Task)) (ds : DS) (g : γ) (ds' : DS) : Prop where
  upd : Upd C ds ds'
  live : ∀ n, Live ds' n ↔ Live ds n
  parent : ∃ p u, ds.task? t.parentID = some p ∧ m p = .ok (g, u) ∧
    ∀ n, absorb ds' n = if n = t.parentID then absorbRow (persistTask p u) else absorb ds n

theorem contextTx_upd {t : Task} {ds ds' : DS} {g : Unit} (h : contextTx t ds = .ok (g, ds')) :
    Upd C ds ds' ∧ (∀ n, Live ds' n ↔ Live ds n) ∧ (∀ n, ds'.task? n = ds.task? n) := by
  unfold contextTx at h
  split at h
  · unfold updateJob' updateJob at h
    cases hj : ds.job? t.jobID with
    | none => rw [hj] at h; cases h
    | some j =>
      rw [hj] at h
      cases h
      refine ⟨upd_setJob hj ⟨rfl, rfl, rfl, rfl, fun h => h, fun h => h⟩, fun n => ?_, fun n => rfl⟩
      rw [live_setJob hj]
      split
      · rename_i hn; subst hn
        constructor
        · intro hs; exact ⟨j, hj, hs⟩
        · rintro ⟨j', hj', hs⟩; rw [hj] at hj'; cases hj'; exact hs
      · exact Iff.rfl
  · cases h; exact ⟨.refl _, fun _ => Iff.rfl, fun _ => rfl⟩

theorem subTaskTx_run {t : Task} {m : Task → Except Err (γ × Task)} {ds ds' : DS} {g : γ} (hne : t.parentID ≠ t.id)
    (hm : ∀ ds p g u, m p = .ok (g, u) → TaskUpd C ds p (persistTask p u)) (h : subTaskTx t m ds = .ok (g, ds')) :
    SubTx C t m ds g ds' := by
  unfold subTaskTx updateTask at h
  cases hr : ds.task? t.id with
  | none => rw [hr] at h; cases h
  | some r =>
    rw [hr] at h
    dsimp only at h
    cases hc : completeTaskRow t r with
    | error e => rw [hc] at h; cases h
    | ok y =>
      obtain ⟨g0, u0⟩ := y
      rw [hc] at h
      dsimp only at h
      obtain ⟨h1, h2⟩ := completeTaskRow_upd (C := C) (ds := ds) hc
      have hup1 := upd_setTask hr h1
      have habs1 : ∀ n, absorb (ds.setTask t.id u0) n = absorb ds n := fun n => by
        rw [absorb_setTask hr]
        split
        · rename_i hn; rw [h2]; unfold absorb; rw [hn, hr]
        · rfl
      have hpr : (ds.setTask t.id u0).task? t.parentID = ds.task? t.parentID := by rw [task?_setTask, if_neg hne]
      rw [hpr] at h
      cases hp : ds.task? t.parentID with
      | none => rw [hp] at h; cases h
      | some p =>
        rw [hp] at h
        dsimp only at h
        cases hmp : m p with
        | error e => rw [hmp] at h; cases h
        | ok y =>
          obtain ⟨g1, u1⟩ := y
          rw [hmp] at h
          dsimp only at h
          rw [hp] at hpr
          have hup2 : Upd C (ds.setTask t.id u0) ((ds.setTask t.id u0).setTask t.parentID u1) := upd_setTask hpr (hm _ p g1 u1 hmp)
          cases hx : contextTx t ((ds.setTask t.id u0).setTask t.parentID u1) with
          | error e => rw [hx] at h; cases h
          | ok y =>
            obtain ⟨g2, ds3⟩ := y
            rw [hx] at h
            cases h
            obtain ⟨k1, k2, k3⟩ := contextTx_upd (C := C) hx
            refine ⟨(hup1.trans hup2 fun n h => h).trans k1 fun n h => h, fun n => (k2 n).trans Iff.rfl, p, u1, hp, hmp, fun n => ?_⟩
            have : absorb ds' n = absorb ((ds.setTask t.id u0).setTask t.parentID u1) n := by unfold absorb; rw [k3]
            rw [this, absorb_setTask hpr]
            split
            · rfl
            · exact habs1 n

theorem parallelRow_upd {ds : DS} {p u : Task} {b : Bool} (h : parallelRow p = .ok (b, u)) :
    TaskUpd C ds p (persistTask p u) ∧ absorbRow (persistTask p u) ≤ absorbRow p ∧
      (b = false → absorbRow (persistTask p u) + 1 ≤ absorbRow p) := by
  unfold parallelRow at h
  cases hp : p.parallel with
  | none => rw [hp] at h; cases h
  | some pp =>
    rw [hp] at h
    cases h
    have ha : absorbRow (persistTask p { p with parallel := some { pp with completions := pp.completions + 1 } }) =
      pp.tasks.length - 1 - (pp.completions + 1) := rfl
    have hb : absorbRow p = pp.tasks.length - 1 - pp.completions := by unfold absorbRow; rw [hp]
    refine ⟨⟨⟨rfl, rfl, rfl, ?_, rfl⟩, fun k hk => hk.upd' hk.queue hk.retry ?_ (fun e he => ⟨e, he, rfl, rfl⟩)
      (fun s hs => ⟨s, hs, rfl⟩), .inr ⟨rfl, rfl⟩⟩, ?_, ?_⟩
    · show some pp.tasks.length = _
      unfold width; rw [hp]; rfl
    · intro q hq; cases hq; exact ⟨pp, hp, rfl⟩
    · rw [ha, hb]; omega
    · intro hbf
      rw [ha, hb]
      have hbf := of_decide_eq_false hbf
      omega

theorem eachParentRow_upd {ds : DS} {p u : Task} {b : Bool} {e : EachTask Task} (hpar : p.parallel = none)
    (he : p.each = some e) (h : eachParentRow p = .ok (b, u)) :
    TaskUpd C ds p (persistTask p u) ∧ absorbRow (persistTask p u) ≤ absorbRow p ∧
      (b = false → absorbRow (persistTask p u) + 1 ≤ absorbRow p + if eachFires e then 1 else 0) := by
  unfold eachParentRow at h
  rw [he] at h
  cases h
  have ha : absorbRow (persistTask p { p with each := some { e with completions := e.completions + 1, index := e.index + 1 } }) =
      (if e.concurrency = 0 then e.size else min e.size (e.index + 1)) - 1 - (e.completions + 1) := by
    unfold absorbRow persistTask; dsimp only; rw [hpar]
  have hb : absorbRow p = (if e.concurrency = 0 then e.size else min e.size e.index) - 1 - e.completions := by
    unfold absorbRow; rw [hpar]; dsimp only; rw [he]
  refine ⟨⟨⟨rfl, rfl, rfl, rfl, ?_⟩, fun k hk => hk.upd' hk.queue hk.retry (fun q hq => ⟨q, hq, rfl⟩) ?_
    (fun s hs => ⟨s, hs, rfl⟩), .inr ⟨rfl, rfl⟩⟩, ?_, ?_⟩
  · show some e.concurrency = _
    unfold conc; rw [he]; rfl
  · intro q hq; cases hq; exact ⟨e, he, rfl, rfl⟩
  · rw [ha, hb]; split <;> omega
  · intro hbf
    rw [ha, hb]
    have hbf := of_decide_eq_false hbf
    unfold eachFires
    rw [decide_eq_false hbf]
    by_cases hc : e.concurrency = 0
    · rw [if_pos hc, if_pos hc]
      split <;> omega
    · rw [if_neg hc, if_neg hc]
      by_cases hi : e.index < e.size
      · rw [decide_eq_true (show e.concurrency > 0 by omega), decide_eq_true hi]
        rw [if_pos (by rfl)]
        omega
      · omega

/-- A branch of a parallel task completes. -/
theorem good_parTx {t : Task} {x : Place} {k : Except Err Bool → Prog α} (ht : MsgTask C H s t) (hxy : Up s x (tgt t))
    (hp0 : t.parentID ≠ 0)
    (he : ∀ e s', Le s s' → Good C H (k (.error e)) T [.tok x] s' post)
    (h1 : ∀ s', Le s s' → Good C H (k (.ok true)) T [.tok x] s' post)
    (h2 : ∀ s', Le s s' → Good C H (k (.ok false)) T [] s' post) :
    Good C H ((tx (subTaskTx t parallelRow)).bind k) T [.tok x] s post := by
  refine good_tx fun ds E hd hi hE hu => ?_
  obtain ⟨r, hr, hsame⟩ := (ht.mono hd).row
  have hpl := hi.parent_lt hr
  rw [← hsame.parent, ← hsame.id] at hpl
  cases hrun : subTaskTx t parallelRow ds with
  | error e => exact .inl ⟨e, rfl, he e ds hd⟩
  | ok y =>
    right
    obtain ⟨b, ds'⟩ := y
    obtain ⟨k1, k2, p, u, k3, k4, k5⟩ := subTaskTx_run (C := C) (by omega) (fun ds p g u hg => (parallelRow_upd hg).1) hrun
    obtain ⟨_, k6, k7⟩ := parallelRow_upd (C := C) (ds := ds) k4
    have hab : ∀ n, absorb ds' n ≤ absorb ds n := fun n => by
      rw [k5]; split
      · rename_i hn; unfold absorb; rw [hn, k3]; exact k6
      · exact Nat.le_refl _
    cases b with
    | true => exact ⟨true, ds', T, _, E, rfl, List.Sublist.refl _, opok_same hi hE hu k1 k2 hab, h1 _ (hd.trans k1.le)⟩
    | false =>
      obtain ⟨E', hok⟩ := opok_release (T := T) (ms := []) hi hE hu k1 k2 (hxy.mono (hd.trans k1.le)) (fun m hm => by cases hm) hab
        hp0 (by
          show absorb ds' t.parentID + 1 ≤ absorb ds t.parentID + 0
          rw [k5, if_pos rfl]
          have := k7 rfl
          unfold absorb; rw [k3]; exact this)
      exact ⟨false, ds', T, _, E', rfl, List.Sublist.refl _, hok, h2 _ (hd.trans k1.le)⟩

theorem mem_find {ds : DS} {f : Task → Bool} {t : Task} (hk : (ds.tasks.map (·.id)).Nodup) (h : ds.tasks.find? f = some t) :
    ds.task? t.id = some t ∧ f t = true :=
  ⟨task?_of_mem hk (List.mem_of_find?_eq_some h), List.find?_some h⟩

theorem toks_task {q : String} (h : Carries q) (hq : q ≠ QUEUE_ERROR) (t : Task) : toks C (.task q t) = [.tok (tgt t)] := by
  classical
  show (if q = QUEUE_ERROR then _ else if Carries q then _ else _) = _
  rw [if_neg hq, if_pos h]

theorem toks_pending (t : Task) : toks C (.task QUEUE_PENDING t) = [.tok (tgt t)] :=
  toks_task (.inl rfl) (by decide +kernel) t
theorem toks_completed (t : Task) : toks C (.task QUEUE_COMPLETED t) = [.tok (tgt t)] :=
  toks_task (.inr (.inl rfl)) (by decide +kernel) t
theorem toks_error (t : Task) : toks C (.task QUEUE_ERROR t) = [errOb C t] := by
  classical
  show (if QUEUE_ERROR = QUEUE_ERROR then [errOb C t] else if Carries QUEUE_ERROR then [.tok (tgt t)] else []) = _
  rw [if_pos rfl]

/-- A child of an each task completes. -/
theorem good_eachTx {t : Task} {x : Place} {k : Except Err Bool → Prog α} (ht : MsgTask C H s t) (hxy : Up s x (tgt t))
    (hp0 : t.parentID ≠ 0)
    (hnp : ∀ p, s.task? t.parentID = some p → width p = none ∧ p.jobID = t.jobID) (hhp : HasTask s t.parentID)
    (he : ∀ e s', Le s s' → Good C H (k (.error e)) T [.tok x] s' post)
    (h1 : ∀ s', Le s s' → Good C H (k (.ok true)) T [.tok x] s' post)
    (h2 : ∀ s', Le s s' → Good C H (k (.ok false)) T [] s' post) :
    Good C H ((txOp (eachTx t)).bind k) T [.tok x] s post := by
  refine good_step fun ds E hd hi hE hu => ?_
  obtain ⟨r, hr, hsame⟩ := (ht.mono hd).row
  have hpl := hi.parent_lt hr
  rw [← hsame.parent, ← hsame.id] at hpl
  obtain ⟨p0, hp00⟩ := hhp
  obtain ⟨hw0, hj0⟩ := hnp p0 hp00
  obtain ⟨p1, hp1, hs01⟩ := hd.tasks _ _ hp00
  have hw1 : p1.parallel = none := by
    have : width p1 = none := hs01.width.trans hw0
    unfold width at this
    cases hpp : p1.parallel with
    | none => rfl
    | some q => rw [hpp] at this; cases this
  have hj1 : p1.jobID = t.jobID := hs01.job.trans hj0
  -- what the closure does, on a database that differs from `ds` only in the state of a child
  have hclosure : ∀ {ds1 ds' : DS} {b : Bool}, (∀ q, ds1.task? t.parentID = some q → q.parallel = none ∧ q.each = p1.each) →
      subTaskTx t eachParentRow ds1 = .ok (b, ds') →
      Upd C ds1 ds' ∧ (∀ n, Live ds' n ↔ Live ds1 n) ∧ (∀ n, absorb ds' n ≤ absorb ds1 n) ∧
      ∃ e, p1.each = some e ∧ (b = false → absorb ds' t.parentID + 1 ≤ absorb ds1 t.parentID + if eachFires e then 1 else 0) := by
    intro ds1 ds' b hq hrun
    have hm : ∀ (dsx : DS) (p : Task) (g : Bool) (u : Task), eachParentRow p = .ok (g, u) → TaskUpd C dsx p (persistTask p u) := by
      intro dsx p g u hg
      unfold eachParentRow at hg
      cases hpe : p.each with
      | none => rw [hpe] at hg; cases hg
      | some e =>
        rw [hpe] at hg
        cases hg
        refine ⟨⟨rfl, rfl, rfl, rfl, ?_⟩, fun k hk => hk.upd' hk.queue hk.retry (fun q hq => ⟨q, hq, rfl⟩) ?_
          (fun s hs => ⟨s, hs, rfl⟩), .inr ⟨rfl, rfl⟩⟩
        · show some e.concurrency = _
          unfold conc; rw [hpe]; rfl
        · intro q hq; cases hq; exact ⟨e, hpe, rfl, rfl⟩
    obtain ⟨k1, k2, p, u, k3, k4, k5⟩ := subTaskTx_run (C := C) (by omega) hm hrun
    obtain ⟨k6, k7⟩ := hq p k3
    cases hpe : p.each with
    | none => unfold eachParentRow at k4; rw [hpe] at k4; cases k4
    | some e =>
      obtain ⟨_, k8, k9⟩ := eachParentRow_upd (C := C) (ds := ds1) k6 hpe k4
      refine ⟨k1, k2, fun n => ?_, e, by rw [← k7, hpe], fun hb => ?_⟩
      · rw [k5]; split
        · rename_i hn; unfold absorb; rw [hn, k3]; exact k8
        · exact Nat.le_refl _
      · rw [k5, if_pos rfl]
        unfold absorb; rw [k3]; exact k9 hb
  have hds : ∀ q, ds.task? t.parentID = some q → q.parallel = none ∧ q.each = p1.each := fun q hq => by
    rw [hp1] at hq; cases hq; exact ⟨hw1, rfl⟩
  cases hn : eachNext t ds with
  | error e =>
    have hrun : (eachTx t).run ds = (.error (wrapErr "error updating task in datastore" e), ds, []) := by
      unfold eachTx; dsimp only; rw [hn]
    exact ⟨_, ds, [], T, _, E, hrun, List.Sublist.refl _, .refl hi hE hu, he _ ds hd⟩
  | ok on =>
    cases on with
    | none =>
      have hrun : (eachTx t).run ds = match subTaskTx t eachParentRow ds with
        | .error e => (.error e, ds, [])
        | .ok (b, ds') => (.ok b, ds', []) := by
        unfold eachTx; dsimp only; rw [hn]; rfl
      cases hsub : subTaskTx t eachParentRow ds with
      | error e =>
        rw [hsub] at hrun
        exact ⟨_, _, _, T, _, E, hrun, List.Sublist.refl _, .refl hi hE hu, he _ ds hd⟩
      | ok y =>
        obtain ⟨b, ds'⟩ := y
        rw [hsub] at hrun
        obtain ⟨k1, k2, k3, e, k4, k5⟩ := hclosure hds hsub
        cases b with
        | true =>
          exact ⟨_, _, _, T, _, E, hrun, List.Sublist.refl _, opok_same hi hE hu k1 k2 k3, h1 _ (hd.trans k1.le)⟩
        | false =>
          have hf : eachFires e = false := by
            unfold eachNext at hn
            rw [hr] at hn; dsimp only at hn
            cases hc : completeTaskRow t r with
            | error e => rw [hc] at hn; cases hn
            | ok z =>
              rw [hc] at hn; dsimp only at hn
              rw [hp1] at hn; dsimp only at hn
              rw [k4] at hn; dsimp only at hn
              cases hff : eachFires e with
              | false => rfl
              | true =>
                rw [hff, if_pos rfl] at hn
                cases hg : getNextTask p1.id ds with
                | error e => rw [hg] at hn; cases hn
                | ok z => rw [hg] at hn; cases hn
          rw [hf] at k5
          obtain ⟨E', hok⟩ := opok_release (T := T) (ms := []) hi hE hu k1 k2 (hxy.mono (hd.trans k1.le))
            (fun m hm => by cases hm) k3 hp0 (by
              show absorb ds' t.parentID + 1 ≤ absorb ds t.parentID + 0
              exact k5 rfl)
          exact ⟨_, _, _, T, _, E', hrun, List.Sublist.refl _, hok, h2 _ (hd.trans k1.le)⟩
    | some next =>
      -- the released child
      have hnext : ∃ c, ds.task? c.id = some c ∧ c.parentID = t.parentID ∧ next = { c with state := .pending } := by
        unfold eachNext at hn
        rw [hr] at hn; dsimp only at hn
        cases hc : completeTaskRow t r with
        | error e => rw [hc] at hn; cases hn
        | ok z =>
          rw [hc] at hn; dsimp only at hn
          rw [hp1] at hn; dsimp only at hn
          cases hpe : p1.each with
          | none => rw [hpe] at hn; cases hn
          | some e =>
            rw [hpe] at hn; dsimp only at hn
            split at hn
            · unfold getNextTask at hn
              cases hf : ds.tasks.find? (fun c => decide (c.parentID = p1.id) && decide (c.state = .created)) with
              | none => rw [hf] at hn; cases hn
              | some c =>
                rw [hf] at hn; cases hn
                obtain ⟨k1, k2⟩ := mem_find hi.keysT hf
                simp only [Bool.and_eq_true, decide_eq_true_eq] at k2
                exact ⟨c, k1, k2.1.trans (task?_mem hp1).2, rfl⟩
            · cases hn
      obtain ⟨c, hc, hcp, rfl⟩ := hnext
      have hup0 : Upd C ds (ds.setTask c.id { c with state := .pending }) :=
        upd_setTask hc (taskUpd_of rfl rfl rfl (fun h => h) (fun h => h) (.inr rfl))
      have habs0 : ∀ n, absorb (ds.setTask c.id { c with state := .pending }) n = absorb ds n := fun n => by
        rw [absorb_setTask hc]
        split
        · rename_i hn; rw [absorb_persist (r := c) (u := { c with state := .pending }) rfl rfl]; unfold absorb; rw [hn, hc]
        · rfl
      have hds1 : ∀ q, (ds.setTask c.id { c with state := .pending }).task? t.parentID = some q →
          q.parallel = none ∧ q.each = p1.each := fun q hq => by
        rw [task?_setTask] at hq
        split at hq
        · rename_i heq
          rw [heq, hc] at hp1; cases hp1
          rw [heq, hc] at hq; cases hq
          exact ⟨hw1, rfl⟩
        · exact hds q hq
      have hcj : c.jobID = t.jobID := by
        obtain ⟨d, n, k1, _⟩ := (hi.tasks _ _ hc).sound
        cases d with
        | zero =>
          obtain ⟨c', k2, k3⟩ := k1
          rw [hc] at k2; cases k2
          exact absurd (hcp.symm.trans k3) hp0
        | succ d =>
          obtain ⟨c', p', k2, _, _, k3, k4, _⟩ := k1
          rw [hc] at k2; cases k2
          rw [hcp, hp1] at k3; cases k3
          rw [← k4, hj1]
      have htgt : tgt ({ c with state := .pending } : Task) = tgt t := Prod.ext hcj hcp
      have hmsg : ∀ b : DS, Le ds b → ∀ m ∈ [Msg.task QUEUE_PENDING { c with state := .pending }], MsgOK C H b m := by
        intro b hl m hm
        rw [List.mem_singleton.1 hm]
        have hst : Started ds c.jobID := by rw [hcj]; exact (ht.mono hd).started
        have : MsgTask C H ds { c with state := .pending } := (hi.msg hc hst).upd rfl rfl rfl rfl rfl rfl rfl rfl
        exact this.mono hl
      have htk : toksL C [Msg.task QUEUE_PENDING { c with state := .pending }] = [.tok (tgt t)] := by
        unfold toksL
        rw [List.map_singleton, toks_pending, htgt]; rfl
      have hrun : (eachTx t).run ds = match subTaskTx t eachParentRow (ds.setTask c.id { c with state := .pending }) with
        | .error e => (.error e, ds.setTask c.id { c with state := .pending }, [.task QUEUE_PENDING { c with state := .pending }])
        | .ok (b, ds') => (.ok b, ds', [.task QUEUE_PENDING { c with state := .pending }]) := by
        unfold eachTx; dsimp only; rw [hn]; rfl
      have hmore : ∀ b : DS, Upd C ds b → (∀ n, Live b n ↔ Live ds n) → (∀ n, absorb b n ≤ absorb ds n) →
          OpOK C H T T [.tok x] [.tok x] E E ds b [.task QUEUE_PENDING { c with state := .pending }] := by
        intro b hup hl hab
        refine opok_upd hi hu hup (hE.upd hup.le (List.Sublist.refl _) fun e hx => (hl _).2 (hE.live e hx))
          (hmsg b hup.le) (fun J hJ => by simp at hJ) fun z => .inr (.inr ?_)
        have := need_le (fun n => (hl n).1) (fun x => Nat.le_refl (out E x)) hab z
        rw [List.count_append]
        omega
      cases hsub : subTaskTx t eachParentRow (ds.setTask c.id { c with state := .pending }) with
      | error e =>
        rw [hsub] at hrun
        exact ⟨_, _, _, T, _, E, hrun, List.Sublist.refl _, hmore _ hup0 (fun _ => Iff.rfl) (fun n => Nat.le_of_eq (habs0 n)),
          he _ _ (hd.trans hup0.le)⟩
      | ok y =>
        obtain ⟨b, ds'⟩ := y
        rw [hsub] at hrun
        obtain ⟨k1, k2, k3, e, k4, k5⟩ := hclosure hds1 hsub
        have hup := hup0.trans k1 fun n h => h
        have hab : ∀ n, absorb ds' n ≤ absorb ds n := fun n => by rw [← habs0 n]; exact k3 n
        cases b with
        | true =>
          exact ⟨_, _, _, T, _, E, hrun, List.Sublist.refl _, hmore _ hup (fun n => (k2 n).trans Iff.rfl) hab, h1 _ (hd.trans hup.le)⟩
        | false =>
          obtain ⟨E', hok⟩ := opok_release (T := T) (ms := [.task QUEUE_PENDING { c with state := .pending }]) hi hE hu hup
            (fun n => (k2 n).trans Iff.rfl) (hxy.mono (hd.trans hup.le)) (hmsg _ hup.le) hab hp0 (by
              rw [htk]
              have := k5 rfl
              rw [habs0] at this
              have h1 : List.count (Ob.tok (tgt t)) [Ob.tok (tgt t)] = 1 := by simp
              rw [h1]
              show absorb ds' t.parentID + 1 ≤ absorb ds t.parentID + 1
              have : (if eachFires e = true then 1 else 0) ≤ 1 := by split <;> omega
              omega)
          exact ⟨_, _, _, T, _, E', hrun, List.Sublist.refl _, hok, h2 _ (hd.trans hup.le)⟩

/-- A top-level task completes. -/
theorem good_topLevelTx {t : Task} {x : Place} {k : Except Err Unit → Prog α} (ht : MsgTask C H s t)
    (hxy : Up s x (t.jobID, 0))
    (he : ∀ e s', Le s s' → Good C H (k (.error e)) T [.tok x] s' post)
    (h : ∀ s', Le s s' → Good C H (k (.ok ())) T [.tok (t.jobID, 0)] s' post) :
    Good C H ((tx (topLevelTx t)).bind k) T [.tok x] s post := by
  refine good_tx fun ds E hd hi hE hu => ?_
  obtain ⟨r, hr, hsame⟩ := (ht.mono hd).row
  obtain ⟨j, hj, hne⟩ := (ht.mono hd).started
  cases hc : completeTaskRow t r with
  | error e =>
    left
    refine ⟨wrapErr "error updating task in datastore" e, ?_, he _ ds hd⟩
    unfold topLevelTx updateTask
    rw [hr]; dsimp only
    rw [hc]
  | ok y =>
    obtain ⟨g, u⟩ := y
    right
    obtain ⟨h1, h2⟩ := completeTaskRow_upd (C := C) (ds := ds) hc
    have hup1 := upd_setTask hr h1
    have hj1 : (ds.setTask t.id u).job? t.jobID = some j := hj
    have hst : (topLevelJobRow t j).state = j.state := by
      unfold topLevelJobRow; dsimp only; split <;> rfl
    have hps : (topLevelJobRow t j).position = j.position + 1 := by
      unfold topLevelJobRow; dsimp only; split <;> rfl
    have hup2 : Upd C (ds.setTask t.id u) ((ds.setTask t.id u).setJob t.jobID (topLevelJobRow t j)) := by
      refine upd_setJob hj1 ⟨rfl, rfl, rfl, rfl, fun _ => ?_, fun hok => ⟨fun _ => ?_, fun hp => ?_, ?_⟩⟩
      · show (topLevelJobRow t j).state ≠ _
        rw [hst]; exact hne
      · show 1 ≤ (topLevelJobRow t j).position
        rw [hps]; omega
      · have hp : (topLevelJobRow t j).state = .pending := hp
        rw [hst] at hp; exact absurd hp hne
      · show JobState.proper (topLevelJobRow t j).state
        rw [hst]; exact hok.2.2
    have hup := hup1.trans hup2 fun n h => h
    have hl : ∀ n, Live ((ds.setTask t.id u).setJob t.jobID (topLevelJobRow t j)) n ↔ Live ds n := fun n => by
      rw [live_setJob hj1]
      split
      · rename_i hn; subst hn
        rw [hst]
        constructor
        · intro hs; exact ⟨j, hj, hs⟩
        · rintro ⟨j', hj', hs⟩; rw [hj] at hj'; cases hj'; exact hs
      · exact Iff.rfl
    have hab : ∀ n, absorb ((ds.setTask t.id u).setJob t.jobID (topLevelJobRow t j)) n ≤ absorb ds n := fun n => by
      show absorb (ds.setTask t.id u) n ≤ _
      rw [absorb_setTask hr]
      split
      · rename_i hn; rw [h2]; unfold absorb; rw [hn, hr]; exact Nat.le_refl _
      · exact Nat.le_refl _
    obtain ⟨E', hok⟩ := opok_climb (T := T) hi hE hu hup hl (hxy.mono (hd.trans hup.le)) hab
    refine ⟨(), _, T, _, E', ?_, List.Sublist.refl _, hok, h _ (hd.trans hup.le)⟩
    unfold topLevelTx updateTask
    rw [hr]; dsimp only
    rw [hc]; dsimp only
    unfold updateJob' updateJob
    rw [hj1]

end Tork.Flow

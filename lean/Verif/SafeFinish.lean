import Verif.SafeOps
/-! Proof rules for the three completion transactions. -/

namespace Tork
open Prog

variable {rok : Nat → Prop} {α γ : Type}

/-- The row written by `completeTaskRow`. -/
def finRow (t r : Task) : Task := { r with state := t.state, completedAt := t.completedAt, result := t.result }

def TaskState.finishable (s : TaskState) : Prop := s = .running ∨ s = .scheduled ∨ s = .skipped

theorem completeTaskRow_ok {t r : Task} {g : Unit} {u : Task} (h : completeTaskRow t r = .ok (g, u)) :
    r.state.finishable ∧ u = finRow t r := by
  unfold completeTaskRow at h
  split at h
  · simp at h
  · rename_i hc
    simp at h
    refine ⟨?_, h.symm⟩
    unfold TaskState.finishable
    cases hs : r.state <;> simp_all

theorem updateTask_ok {id : Nat} {m : Task → Except Err (γ × Task)} {ds ds' : DS} {g : γ}
    (h : updateTask id m ds = .ok (g, ds')) :
    ∃ r u, ds.task? id = some r ∧ m r = .ok (g, u) ∧ ds' = ds.setTask id u := by
  unfold updateTask at h
  split at h
  · simp at h
  · rename_i r hr
    split at h
    · simp at h
    · rename_i g' u hm
      simp at h
      obtain ⟨rfl, rfl⟩ := h
      exact ⟨r, u, hr, hm, rfl⟩

theorem updateJob'_ok {id : Nat} {m : Job → Job} {ds ds' : DS} {g : Unit}
    (h : updateJob' id m ds = .ok (g, ds')) :
    ∃ r, ds.job? id = some r ∧ ds' = ds.setJob id (m r) := by
  unfold updateJob' updateJob at h
  split at h
  · simp at h
  · rename_i r hr
    simp at h
    exact ⟨r, hr, h.symm⟩

theorem task?_set_eq {ds : DS} {id : Nat} {r u : Task} (hr : ds.task? id = some r) (k : Nat) :
    (ds.setTask id u).task? k = if k = id then some (persistTask r u) else ds.task? k := by
  rw [task?_setTask]
  by_cases h : k = id
  · subst h; simp [hr]
  · simp [h]

theorem job?_set_eq {ds : DS} {id : Nat} {r u : Job} (hr : ds.job? id = some r) (k : Nat) :
    (ds.setJob id u).job? k = if k = id then some (persistJob r u) else ds.job? k := by
  rw [job?_setJob]
  by_cases h : k = id
  · subst h; simp [hr]
  · simp [h]

/-- What `contextTx` does to a job row. -/
def ctxRow (t : Task) (k : Nat) (j : Job) : Job :=
  if (t.result ≠ "" ∧ t.var ≠ "") ∧ k = t.jobID then persistJob j (setVar t j) else j

theorem contextTx_ok {t : Task} {ds ds' : DS} {g : Unit} (h : contextTx t ds = .ok (g, ds')) :
    (∀ k, ds'.task? k = ds.task? k) ∧ (∀ k, ds'.job? k = (ds.job? k).map (ctxRow t k)) ∧
    ds'.tasks.map (·.id) = ds.tasks.map (·.id) ∧ ds'.jobs.map (·.id) = ds.jobs.map (·.id) := by
  unfold contextTx at h
  by_cases hc : t.result ≠ "" ∧ t.var ≠ ""
  · rw [if_pos hc] at h
    split at h
    · rename_i r hr
      simp at h
      subst h
      obtain ⟨j, hj, rfl⟩ := updateJob'_ok hr
      refine ⟨fun k => rfl, fun k => ?_, rfl, keys_setJob _ _ _⟩
      rw [job?_set_eq hj]
      by_cases hk : k = t.jobID
      · subst hk; simp [hj, ctxRow, hc]
      · have : ctxRow t k = id := funext fun j => if_neg (fun h => hk h.2)
        rw [if_neg hk, this, Option.map_id]; rfl
    · simp at h
  · rw [if_neg hc] at h
    simp at h
    subst h
    refine ⟨fun k => rfl, fun k => ?_, rfl, rfl⟩
    have : ctxRow t k = id := funext fun j => if_neg (fun h => hc h.1)
    rw [this, Option.map_id]; rfl

theorem subTaskTx_ok {t : Task} {m : Task → Except Err (γ × Task)} {ds ds' : DS} {g : γ}
    (h : subTaskTx t m ds = .ok (g, ds')) (hne : t.parentID ≠ t.id) :
    ∃ r p u, ds.task? t.id = some r ∧ r.state.finishable ∧ ds.task? t.parentID = some p ∧
      m p = .ok (g, u) ∧
      (∀ k, ds'.task? k = if k = t.parentID then some (persistTask p u) else
        if k = t.id then some (persistTask r (finRow t r)) else ds.task? k) ∧
      (∀ k, ds'.job? k = (ds.job? k).map (ctxRow t k)) ∧
      ds'.tasks.map (·.id) = ds.tasks.map (·.id) ∧ ds'.jobs.map (·.id) = ds.jobs.map (·.id) := by
  unfold subTaskTx at h
  split at h
  · simp at h
  · rename_i x1 ds1 h1
    split at h
    · simp at h
    · rename_i x2 ds2 h2
      split at h
      · simp at h
      · rename_i x3 ds3 h3
        simp at h
        obtain ⟨rfl, rfl⟩ := h
        obtain ⟨r, u1, hr, hm1, rfl⟩ := updateTask_ok h1
        obtain ⟨p, u2, hp, hm2, rfl⟩ := updateTask_ok h2
        obtain ⟨hf, rfl⟩ := completeTaskRow_ok hm1
        obtain ⟨c1, c2, c3, c4⟩ := contextTx_ok h3
        have hp' := hp
        rw [task?_set_eq hr, if_neg hne] at hp'
        refine ⟨r, p, u2, hr, hf, hp', hm2, ?_, ?_, ?_, ?_⟩
        · intro k
          rw [c1, task?_set_eq hp, task?_set_eq hr]
        · intro k; rw [c2]; rfl
        · rw [c3, keys_setTask, keys_setTask]
        · rw [c4]; rfl

theorem topLevelTx_ok {t : Task} {ds ds' : DS} {g : Unit} (h : topLevelTx t ds = .ok (g, ds')) :
    ∃ r j, ds.task? t.id = some r ∧ r.state.finishable ∧ ds.job? t.jobID = some j ∧
      (∀ k, ds'.task? k = if k = t.id then some (persistTask r (finRow t r)) else ds.task? k) ∧
      (∀ k, ds'.job? k = if k = t.jobID then some (persistJob j (topLevelJobRow t j)) else ds.job? k) ∧
      ds'.tasks.map (·.id) = ds.tasks.map (·.id) ∧ ds'.jobs.map (·.id) = ds.jobs.map (·.id) := by
  unfold topLevelTx at h
  split at h
  · simp at h
  · rename_i x1 ds1 h1
    split at h
    · simp at h
    · rename_i x2 h2
      simp at h
      subst h
      obtain ⟨r, u1, hr, hm1, rfl⟩ := updateTask_ok h1
      obtain ⟨hf, rfl⟩ := completeTaskRow_ok hm1
      obtain ⟨j, hj, rfl⟩ := updateJob'_ok h2
      refine ⟨r, j, hr, hf, hj, ?_, ?_, ?_, ?_⟩
      · intro k; rw [task?_setJob, task?_set_eq hr]
      · intro k; rw [job?_set_eq hj]; rfl
      · exact keys_setTask _ _ _
      · exact keys_setJob _ _ _

theorem contextTx_keepsNodes {t : Task} {ds ds' : DS} {g : Unit} (h : contextTx t ds = .ok (g, ds')) :
    ds'.nodes = ds.nodes := by
  unfold contextTx at h
  split at h
  · split at h
    · rename_i r hr
      simp at h
      subst h
      obtain ⟨j, _, rfl⟩ := updateJob'_ok hr
      rfl
    · simp at h
  · simp at h
    subst h
    rfl

theorem subTaskTx_keepsNodes {t : Task} {m : Task → Except Err (γ × Task)} {ds ds' : DS} {g : γ}
    (h : subTaskTx t m ds = .ok (g, ds')) : ds'.nodes = ds.nodes := by
  unfold subTaskTx at h
  split at h
  · simp at h
  · rename_i x1 ds1 h1
    split at h
    · simp at h
    · rename_i x2 ds2 h2
      split at h
      · simp at h
      · rename_i x3 ds3 h3
        simp at h
        obtain ⟨rfl, rfl⟩ := h
        obtain ⟨r, u1, _, _, rfl⟩ := updateTask_ok h1
        obtain ⟨p, u2, _, _, rfl⟩ := updateTask_ok h2
        rw [contextTx_keepsNodes h3]
        rfl

theorem topLevelTx_keepsNodes {t : Task} {ds ds' : DS} {g : Unit} (h : topLevelTx t ds = .ok (g, ds')) :
    ds'.nodes = ds.nodes := by
  unfold topLevelTx at h
  split at h
  · simp at h
  · rename_i x1 ds1 h1
    split at h
    · simp at h
    · rename_i x2 h2
      simp at h
      subst h
      obtain ⟨r, u1, _, _, rfl⟩ := updateTask_ok h1
      obtain ⟨j, _, rfl⟩ := updateJob'_ok h2
      rfl

/-! ## Row facts -/

theorem inv_finRow {G : Ghost} {t r : Task} (hi : TaskInv G r) (hs : t.state = .completed ∨ t.state = .skipped) :
    TaskInv G (persistTask r (finRow t r)) :=
  ⟨hi.st, hi.retry, ⟨hi.nested.par, hi.nested.ea, hi.nested.sub⟩, hi.progress, hi.node, fun h => by
    have h : t.state = .created := h
    rcases hs with hs | hs <;> rw [hs] at h <;> simp at h⟩

/-- The parent of a known task has been handed out. -/
theorem parent_handed_out {G : Ghost} {ds : DS} {t p : Task} (hi : Inv G ds) (ht : G.st t.id = some t.static)
    (hpar : t.parentID ≠ 0) (hp : ds.task? t.parentID = some p) : p.state ≠ .created := by
  obtain ⟨_, _, _, hr⟩ := (hi.ghost _ _ ht).parent hpar
  obtain ⟨p', h1, h2⟩ := hi.rel _ hr
  have h1 : ds.task? t.parentID = some p' := h1
  rw [hp] at h1; cases h1; exact h2

theorem same_finRow (t r : Task) : SameTask r (persistTask r (finRow t r)) :=
  ⟨by cases r; rfl, rfl, rfl, rfl, rfl, rfl⟩

theorem edge_finRow {t r : Task} (hf : r.state.finishable) (ht : t.state = .completed ∨ t.state = .skipped) :
    TaskEdge r.composite r.state (persistTask r (finRow t r)).state := by
  show TaskEdge r.composite r.state t.state
  rcases ht with h | h <;> rw [h]
  · exact .complete hf
  · exact .skip _

theorem finishes_finRow {t r : Task} (hf : r.state.finishable) (ht : t.state = .completed ∨ t.state = .skipped)
    (hc : t.completedAt.isSome) : Finishes r (persistTask r (finRow t r)) := ⟨hf, ht, hc⟩

@[simp] theorem count_finRow (t r : Task) : (persistTask r (finRow t r)).count = r.count := rfl

/-- The counting update of a parent row. -/
structure CountUpd (G : Ghost) (p b : Task) : Prop where
  inv : TaskInv G b
  same : SameTask p b
  state : b.state = p.state
  count : b.count = p.count + 1

theorem ctxRow_state (t : Task) (k : Nat) (j : Job) : (ctxRow t k j).state = j.state := by
  unfold ctxRow; split <;> rfl
theorem ctxRow_position (t : Task) (k : Nat) (j : Job) : (ctxRow t k j).position = j.position := by
  unfold ctxRow; split <;> rfl
theorem ctxRow_tasks (t : Task) (k : Nat) (j : Job) : (ctxRow t k j).tasks = j.tasks := by
  unfold ctxRow; split <;> rfl
theorem ctxRow_parentID (t : Task) (k : Nat) (j : Job) : (ctxRow t k j).parentID = j.parentID := by
  unfold ctxRow; split <;> rfl
theorem ctxRow_context (t : Task) (k : Nat) (j : Job) (h : (ctxRow t k j).context ≠ j.context) :
    (t.result ≠ "" ∧ t.var ≠ "") ∧ k = t.jobID ∧
    (ctxRow t k j).context = { j.context with tasks := mset j.context.tasks t.var t.result } := by
  unfold ctxRow at h ⊢
  split
  · rename_i hc; exact ⟨hc.1, hc.2, rfl⟩
  · rename_i hc; rw [if_neg hc] at h; exact absurd rfl h
theorem ctxRow_same (t : Task) (k : Nat) (j : Job) : SameJob j (ctxRow t k j) := by
  unfold ctxRow; split
  · rfl
  · exact SameJob.refl j
theorem ctxRow_inv {G : Ghost} (t : Task) (k : Nat) {j : Job} (h : JobInv G j) : JobInv G (ctxRow t k j) := by
  unfold ctxRow; split
  · exact ⟨h.tasks, h.parent, h.pend, h.done, h.began⟩
  · exact h

theorem static_inj {G : Ghost} {t r : Task} (ht : G.st t.id = some t.static) (hr : TaskInv G r)
    (hid : r.id = t.id) : r.static = t.static := by
  have := hr.st
  rw [hid, ht] at this
  exact (Option.some.inj this).symm

/-! ## Sub-task completion -/

/-- The heart of sub-task completion: rows of `t`, of its parent, and (optionally) of a released sibling
`n` are changed. -/
theorem opeff_sub {T : List Nat} {G : Ghost} {ds ds' : DS} {t r p b : Task} {sib : Option (Task × Task)}
    {ms : List Msg} (hi : Inv G ds) (hu : ∀ n ∈ T, Unused G ds n) (ht : MsgTask G t)
    (hst : t.state = .completed ∨ t.state = .skipped) (hcomp : t.completedAt.isSome)
    (hmay : t.state = .completed → MayComplete G t.id t.static) (hpar : t.parentID ≠ 0)
    (hr : ds.task? t.id = some r) (hf : r.state.finishable) (hp : ds.task? t.parentID = some p)
    (hb : CountUpd G p b)
    (hsib : ∀ n n', sib = some (n, n') → ds.task? n.id = some n ∧ PlainUpd G n n' ∧ n.id ≠ t.id ∧
      n.id ≠ t.parentID)
    (hT : ∀ k, ds'.task? k = if k = t.parentID then some b else
        if k = t.id then some (persistTask r (finRow t r)) else
        match sib with
        | some (n, n') => if k = n.id then some n' else ds.task? k
        | none => ds.task? k)
    (hJ : ∀ k, ds'.job? k = (ds.job? k).map (ctxRow t k))
    (k1 : ds'.tasks.map (·.id) = ds.tasks.map (·.id)) (k2 : ds'.jobs.map (·.id) = ds.jobs.map (·.id))
    (hN : ds'.nodes = ds.nodes)
    (hms : ∀ m ∈ ms, MsgOK rok G m ∧ m.startsJob = false) :
    OpEff rok T T G G ds ds' ms := by
  have hri := hi.tasks _ _ hr
  have hrid := (task?_mem hr).2
  have hrs := static_inj ht.st hri hrid
  have hrpar : r.parentID = t.parentID := congrArg Static.parentID hrs
  have hrjob : r.jobID = t.jobID := congrArg Static.jobID hrs
  have hrvar : r.var = t.var := congrArg Static.var hrs
  have hne : t.parentID ≠ t.id := (hi.ghost _ _ ht.st).self
  -- every row: which case
  have hrow : ∀ k a, ds.task? k = some a → ∃ a', ds'.task? k = some a' ∧ TaskInv G a' ∧ SameTask a a' ∧
      (a'.state = a.state ∨ TaskEdge a.composite a.state a'.state) ∧
      (k = t.parentID ∧ a = p ∧ a' = b ∨
       k = t.id ∧ a = r ∧ a' = persistTask r (finRow t r) ∨
       (a'.count = a.count ∧ (a'.state = .completed → a.state = .completed))) := by
    intro k a ha
    rw [hT k]
    by_cases hk : k = t.parentID
    · subst hk; rw [hp] at ha; cases ha
      exact ⟨b, by simp, hb.inv, hb.same, .inl hb.state, .inl ⟨rfl, rfl, rfl⟩⟩
    · rw [if_neg hk]
      by_cases hk2 : k = t.id
      · subst hk2; rw [hr] at ha; cases ha
        exact ⟨_, by simp, inv_finRow hri hst, same_finRow _ _, .inr (edge_finRow hf hst),
          .inr (.inl ⟨rfl, rfl, rfl⟩)⟩
      · rw [if_neg hk2]
        cases sib with
        | none => exact ⟨a, ha, hi.tasks k a ha, SameTask.refl a, .inl rfl, .inr (.inr ⟨rfl, fun h => h⟩)⟩
        | some nn =>
          obtain ⟨n, n'⟩ := nn
          obtain ⟨hn1, hn2, hn3⟩ := hsib n n' rfl
          by_cases hk3 : k = n.id
          · subst hk3; rw [hn1] at ha; cases ha
            exact ⟨n', by simp, hn2.inv, hn2.same, hn2.state, .inr (.inr ⟨hn2.count, hn2.nodone⟩)⟩
          · exact ⟨a, by simp [hk3, ha], hi.tasks k a ha, SameTask.refl a, .inl rfl,
              .inr (.inr ⟨rfl, fun h => h⟩)⟩
  have hnone : ∀ k, ds.task? k = none → ds'.task? k = none := by
    intro k hk
    rw [hT k, if_neg (by rintro rfl; rw [hp] at hk; simp at hk),
      if_neg (by rintro rfl; rw [hr] at hk; simp at hk)]
    cases sib with
    | none => exact hk
    | some nn =>
      obtain ⟨n, n'⟩ := nn
      have := (hsib n n' rfl).1
      simp only
      rw [if_neg (by rintro rfl; rw [this] at hk; simp at hk)]; exact hk
  have hfin : ds'.task? t.id = some (persistTask r (finRow t r)) := by
    rw [hT, if_neg (Ne.symm hne), if_pos rfl]
  refine ⟨.refl _, fun n s h1 h2 => by rw [h1] at h2; simp at h2, ?_, ?_, hms, ?_, .refl _ _, ?_⟩
  · refine ⟨?_, ?_, ?_, ?_, hi.ghost, ?_, ?_, by rw [hN]; exact hi.nodes, by rw [k1]; exact hi.keysT, by rw [k2]; exact hi.keysJ⟩
    · intro k a' ha'
      cases ha : ds.task? k with
      | none => rw [hnone k ha] at ha'; simp at ha'
      | some a =>
        obtain ⟨a'', h1, h2, _⟩ := hrow k a ha
        rw [h1] at ha'; cases ha'; exact h2
    · intro k j hj
      rw [hJ] at hj
      cases ho : ds.job? k with
      | none => rw [ho] at hj; simp at hj
      | some j0 => rw [ho] at hj; simp at hj; subst hj; exact ctxRow_inv _ _ (hi.jobs k j0 ho)
    · intro n q hq
      obtain ⟨j, hj, h1, h2⟩ := hi.pos n q hq
      exact ⟨_, by rw [hJ, hj]; rfl, by rw [ctxRow_state]; exact h1, by rw [ctxRow_position]; exact h2⟩
    · intro n hq
      obtain ⟨j, hj, h1, h2⟩ := hi.past n hq
      exact ⟨_, by rw [hJ, hj]; rfl, by rw [ctxRow_state]; exact h1,
        by rw [ctxRow_position, ctxRow_tasks]; exact h2⟩
    · intro n q hq
      obtain ⟨j, hj, h1⟩ := hi.jpar n q hq
      exact ⟨_, by rw [hJ, hj]; rfl, by rw [ctxRow_parentID]; exact h1⟩
    · intro n hn
      obtain ⟨a, ha, hs⟩ := hi.rel n hn
      obtain ⟨a', h1, _, _, h2, _⟩ := hrow n a ha
      refine ⟨a', h1, ?_⟩
      rcases h2 with h2 | h2
      · rw [h2]; exact hs
      · exact h2.ne_created
  · refine ⟨?_, ?_, ?_, ?_, ?_, ?_, ?_, ?_, ?_⟩
    · intro k a ha
      obtain ⟨a', h1, _, h2, h3, _⟩ := hrow k a ha
      exact ⟨a', h1, h2, h3⟩
    · intro k b' h1 h2; rw [hnone k h1] at h2; simp at h2
    · intro k a ha
      exact ⟨_, by rw [hJ, ha]; rfl, ctxRow_same _ _ _, .inl (ctxRow_state _ _ _)⟩
    · intro k b' h1 h2; rw [hJ, h1] at h2; simp at h2
    · intro k a b' h1 h2 h3
      rw [hJ, h1] at h2; simp at h2; subst h2; exact absurd (ctxRow_position _ _ _) h3
    · intro k a b' h1 h2 h3
      obtain ⟨a', h4, _, _, _, h5⟩ := hrow k a h1
      rw [h4] at h2; cases h2
      rcases h5 with ⟨rfl, rfl, rfl⟩ | ⟨rfl, rfl, rfl⟩ | h5
      · exact ⟨hb.count, t.id, r, _, hr, hfin, hrpar, finishes_finRow hf hst hcomp⟩
      · exact absurd rfl h3
      · exact absurd h5.1 h3
    · intro k a b' h1 h2 h3 h4
      obtain ⟨a', h6, _, _, _, h5⟩ := hrow k a h1
      rw [h6] at h2; cases h2
      rcases h5 with ⟨rfl, rfl, rfl⟩ | ⟨rfl, rfl, rfl⟩ | h5
      · rw [hb.state] at h4; exact absurd h4 h3
      · refine ⟨fun h => absurd (hrpar ▸ h) hpar, fun _ => ⟨p, b, by rw [hrpar]; exact hp, ?_, hb.count⟩⟩
        rw [hrpar, hT, if_pos rfl]
      · exact absurd (h5.2 h4) h3
    · intro k a b' h1 h2 h3
      rw [hJ, h1] at h2; simp at h2; subst h2
      obtain ⟨⟨hr1, hr2⟩, rfl, hr3⟩ := ctxRow_context t k a h3
      exact ⟨t.id, r, _, t.result, hr, hfin, hrjob, finishes_finRow hf hst hcomp, by rw [hrvar]; exact hr2, hr1, rfl,
        by rw [hr3, hrvar], fun h => absurd (hrpar ▸ h) hpar⟩
    · intro k a b' h1 h2 h3 h4
      obtain ⟨a', h6, _, _, _, h5⟩ := hrow k a h1
      rw [h6] at h2; cases h2
      rcases h5 with ⟨rfl, rfl, rfl⟩ | ⟨rfl, rfl, rfl⟩ | h5
      · rw [hb.state] at h4; exact absurd h4 h3
      · refine ⟨t.result, rfl, fun hx hy => ?_⟩
        obtain ⟨q, hq⟩ := ht.started
        obtain ⟨j, hj, _, _⟩ := hi.pos _ _ hq
        refine ⟨j, _, by rw [hrjob]; exact hj, by rw [hrjob, hJ, hj]; rfl, ?_⟩
        rw [hrvar] at hy ⊢
        rw [ctxRow, if_pos ⟨⟨hx, hy⟩, rfl⟩]
        rfl
      · exact absurd (h5.2 h4) h3
  · intro n hn
    refine ⟨fun j hj => ?_, (hu n hn).fresh⟩
    rw [hJ] at hj
    cases ho : ds.job? n with
    | none => rw [ho] at hj; simp at hj
    | some j0 => rw [ho] at hj; simp at hj; subst hj; rw [ctxRow_state]; exact (hu n hn).pend j0 ho
  · intro k a b' h1 h2 h3 h4
    obtain ⟨a', h6, _, _, _, h5⟩ := hrow k a h1
    rw [h6] at h2; cases h2
    rcases h5 with ⟨rfl, rfl, rfl⟩ | ⟨rfl, rfl, rfl⟩ | h5
    · rw [hb.state] at h4; exact absurd h4 h3
    · rw [hrs]; exact hmay h4
    · exact absurd (h5.2 h4) h3

/-- Record that the counter of a composite task has reached its target. -/
def Ghost.mark (G : Ghost) (n : Nat) (d : Prop) : Ghost :=
  { G with full := fun m => G.full m ∨ (m = n ∧ d) }

theorem Ghost.le_mark (G : Ghost) (n : Nat) (d : Prop) : G.le (G.mark n d) :=
  ⟨fun _ _ h => h, fun _ p h => ⟨p, h, Nat.le_refl _⟩, fun _ h => h, fun _ h => .inl h, fun _ h => h,
   fun _ _ h => h, fun _ h => h⟩

/-- Record that a task has been handed out. -/
def Ghost.handOut (G : Ghost) (n : Nat) : Ghost := { G with rel := fun m => G.rel m ∨ m = n }

theorem Ghost.le_handOut (G : Ghost) (n : Nat) : G.le (G.handOut n) :=
  ⟨fun _ _ h => h, fun _ p h => ⟨p, h, Nat.le_refl _⟩, fun _ h => h, fun _ h => h, fun _ h => h, fun _ _ h => h,
   fun _ h => .inl h⟩

theorem OpEff.handOut {T : List Nat} {G : Ghost} {ds ds' : DS} {ms : List Msg} (h : OpEff rok T T G G ds ds' [])
    {n : Nat} (hn : ∃ t, ds'.task? n = some t ∧ t.state ≠ .created)
    (hms : ∀ m ∈ ms, MsgOK rok (G.handOut n) m ∧ m.startsJob = false) :
    OpEff rok T T G (G.handOut n) ds ds' ms := by
  have hl := G.le_handOut n
  refine ⟨hl, h.own, ?_, h.eff, hms,
    fun n hn => ⟨(h.unused n hn).pend, (h.unused n hn).fresh⟩, ⟨fun _ => .inl, fun _ => .inl⟩, h.joins⟩
  refine ⟨fun id t ht => (h.inv.tasks id t ht).mono hl, fun id t ht => (h.inv.jobs id t ht).mono hl, h.inv.pos,
      h.inv.past, fun m s hm => (h.inv.ghost m s hm).mono hl, h.inv.jpar, ?_, h.inv.nodes, h.inv.keysT, h.inv.keysJ⟩
  rintro m (hm | rfl)
  · exact h.inv.rel m hm
  · exact hn

theorem OpEff.mark {T : List Nat} {G0 G : Ghost} {ds ds' : DS} {ms : List Msg} (h : OpEff rok T T G0 G ds ds' ms)
    {n : Nat} {d : Prop} (hd : d → ∃ t, ds'.task? n = some t ∧ t.Full) : OpEff rok T T G0 (G.mark n d) ds ds' ms := by
  have hl := G.le_mark n d
  refine ⟨h.le.trans hl, h.own, ?_, h.eff, fun m hm => ⟨(h.msgs m hm).1.mono hl, (h.msgs m hm).2⟩,
    fun n hn => ⟨(h.unused n hn).pend, (h.unused n hn).fresh⟩, ⟨?_, h.seen.sub⟩, h.joins⟩
  · exact ⟨fun id t ht => (h.inv.tasks id t ht).mono hl, fun id t ht => (h.inv.jobs id t ht).mono hl, h.inv.pos,
      h.inv.past, fun m s hm => (h.inv.ghost m s hm).mono hl, h.inv.jpar, h.inv.rel, h.inv.nodes, h.inv.keysT, h.inv.keysJ⟩
  · rintro m (hm | ⟨rfl, hm⟩)
    · exact h.seen.full m hm
    · exact .inr (hd hm)

theorem countUpd_par {G : Ghost} {p u : Task} {g : Bool} (hi : TaskInv G p) (hs : p.state ≠ .created)
    (h : parallelRow p = .ok (g, u)) :
    CountUpd G p (persistTask p u) := by
  unfold parallelRow at h
  split at h
  · simp at h
  · rename_i q hq
    simp at h
    obtain ⟨_, rfl⟩ := h
    refine ⟨⟨?_, hi.retry, ⟨?_, hi.nested.ea, hi.nested.sub⟩, hi.progress, hi.node, fun h => absurd h hs⟩,
      ⟨by cases p; rfl, ?_, rfl, rfl, ?_, rfl⟩, rfl, ?_⟩
    · rw [show (persistTask p { p with parallel := some { q with completions := q.completions + 1 } }).id = p.id from rfl,
        hi.st]
      simp [Task.static, Task.branches, Task.detachedSub, persistTask, hq]
    · intro q' hq'
      simp [persistTask] at hq'
      subst hq'
      exact hi.nested.par q hq
    · simp [persistTask, hq]
    · simp [Task.branches, persistTask, hq]
    · simp [Task.count, persistTask, hq]

theorem countUpd_each {G : Ghost} {p u : Task} {g : Bool} (hi : TaskInv G p) (hs : p.state ≠ .created) (hpar : p.parallel = none)
    (h : eachParentRow p = .ok (g, u)) : CountUpd G p (persistTask p u) := by
  unfold eachParentRow at h
  split at h
  · simp at h
  · rename_i q hq
    simp at h
    obtain ⟨_, rfl⟩ := h
    refine ⟨⟨?_, hi.retry, ⟨hi.nested.par, ?_, hi.nested.sub⟩, hi.progress, hi.node, fun h => absurd h hs⟩,
      ⟨by cases p; rfl, rfl, ?_, rfl, rfl, rfl⟩, rfl, ?_⟩
    · rw [show (persistTask p { p with each := some { q with completions := q.completions + 1, index := q.index + 1 } }).id
        = p.id from rfl, hi.st]
      simp [Task.static, Task.branches, Task.detachedSub, persistTask, hq]
    · intro q' hq'
      simp [persistTask] at hq'
      subst hq'
      exact hi.nested.ea q hq
    · simp [persistTask, hq]
    · simp [Task.count, persistTask, hq, hpar]

theorem full_par {p u : Task} {g : Bool} (h : parallelRow p = .ok (g, u)) (hg : g = true) :
    (persistTask p u).Full := by
  unfold parallelRow at h
  split at h
  · simp at h
  · rename_i q hq
    simp at h
    obtain ⟨rfl, rfl⟩ := h
    refine ⟨fun p' hp' => ?_, fun hn => by simp [persistTask] at hn⟩
    simp [persistTask] at hp'
    subst hp'
    simpa using hg

theorem full_each {p u : Task} {g : Bool} (hpar : p.parallel = none) (h : eachParentRow p = .ok (g, u))
    (hg : g = true) : (persistTask p u).Full := by
  unfold eachParentRow at h
  split at h
  · simp at h
  · rename_i q hq
    simp at h
    obtain ⟨rfl, rfl⟩ := h
    refine ⟨fun p' hp' => by simp [persistTask, hpar] at hp', fun _ e he => ?_⟩
    simp [persistTask] at he
    subst he
    simpa using hg

theorem each_isSome {p u : Task} {g : Bool} (h : eachParentRow p = .ok (g, u)) : p.each.isSome = true := by
  unfold eachParentRow at h
  split at h
  · simp at h
  · rename_i q hq; rw [hq]; rfl

theorem safe_parTx {t : Task} {k : Except Err Bool → Prog α} {T : List Nat} {G : Ghost}
    {post : List Nat → Ghost → α → Prop} (ht : MsgTask G t)
    (hst : t.state = .completed ∨ t.state = .skipped) (hcomp : t.completedAt.isSome)
    (hmay : t.state = .completed → MayComplete G t.id t.static) (hpar : t.parentID ≠ 0)
    (he : ∀ e, Safe rok (k (.error e)) T G post)
    (ho : ∀ G1 b, G.le G1 → (b = true → G1.full t.parentID) → Safe rok (k (.ok b)) T G1 post) :
    Safe rok ((tx (subTaskTx t parallelRow)).bind k) T G post := by
  refine safe_db (List.Sublist.refl T) he fun G1 ds hl hi hu g ds' h => ?_
  have ht := ht.mono hl
  obtain ⟨r, p, u, hr, hf, hp, hm, h1, h2, h3, h4⟩ := subTaskTx_ok h (hi.ghost _ _ ht.st).self
  refine ⟨G1.mark t.parentID (g = true), (opeff_sub (sib := none) hi hu ht hst hcomp (fun h => (hmay h).mono hl) hpar hr hf hp
    (countUpd_par (hi.tasks _ _ hp) (parent_handed_out hi ht.st hpar hp) hm) (by simp) h1 h2 h3 h4 (subTaskTx_keepsNodes h) (by simp)).mark fun hg => ?_,
    ho _ _ (hl.trans (G1.le_mark _ _)) fun hg => .inr ⟨rfl, hg⟩⟩
  exact ⟨_, by rw [h1, if_pos rfl], full_par hm hg⟩

/-- The released sibling as read, and what it becomes. -/
theorem plain_release {G : Ghost} {n : Task} (hi : TaskInv G n) (hs : n.state = .created) :
    PlainUpd G n (persistTask n { n with state := .pending }) where
  inv := ⟨hi.st, hi.retry, ⟨hi.nested.par, hi.nested.ea, hi.nested.sub⟩, hi.progress, hi.node,
    fun h => by simp [persistTask] at h⟩
  same := ⟨by cases n; rfl, rfl, rfl, rfl, rfl, rfl⟩
  state := .inr (by rw [hs]; exact .release)
  count := rfl
  nodone h := by simp [persistTask] at h

theorem eachNext_some {t next : Task} {ds : DS} (h : eachNext t ds = .ok (some next)) :
    ∃ r p n, ds.task? t.id = some r ∧ r.state.finishable ∧ ds.task? t.parentID = some p ∧
      n ∈ ds.tasks ∧ n.parentID = p.id ∧ n.state = .created ∧ next = { n with state := .pending } := by
  unfold eachNext at h
  split at h
  · simp at h
  · rename_i r hr
    split at h
    · simp at h
    · rename_i x hx
      obtain ⟨hf, _⟩ := completeTaskRow_ok hx
      split at h
      · simp at h
      · rename_i p hp
        split at h
        · simp at h
        · split at h
          · split at h
            · simp at h
            · rename_i n ds2 hn
              simp at h
              subst h
              unfold getNextTask at hn
              split at hn
              · simp at hn
              · rename_i n' hn'
                simp at hn
                obtain ⟨rfl, rfl⟩ := hn
                have h1 := List.mem_of_find?_eq_some hn'
                have h2 := List.find?_some hn'
                simp at h2
                exact ⟨r, p, _, hr, hf, hp, h1, h2.1, h2.2, rfl⟩
          · simp at h

/-- What is known about the released sibling. -/
theorem release_facts {G : Ghost} {ds : DS} {t next : Task} (hi : Inv G ds) (ht : MsgTask G t)
    (hpar : t.parentID ≠ 0) (h : eachNext t ds = .ok (some next)) :
    ∃ n, next = { n with state := .pending } ∧ ds.task? n.id = some n ∧ TaskInv G n ∧
      n.state = .created ∧ n.id ≠ t.id ∧ n.id ≠ t.parentID ∧ MsgTask (G.handOut n.id) next ∧ next.count = 0 := by
  obtain ⟨r, p, n, hr, hf, hp, hn, hnp, hns, rfl⟩ := eachNext_some h
  have hnl := task?_of_mem hi.keysT hn
  have hni := hi.tasks _ _ hnl
  have hpid := (task?_mem hp).2
  have hnself := (hi.ghost _ _ hni.st).self
  refine ⟨n, rfl, hnl, hni, hns, ?_, ?_, ?_, hni.zero hns⟩
  · intro hc
    rw [hc, hr] at hnl
    cases hnl
    rw [hns] at hf
    simp [TaskState.finishable] at hf
  · intro hc
    apply hnself
    show n.parentID = n.id
    rw [hnp, hpid, hc]
  · refine ⟨hni.st, ?_, hni.retry, ⟨hni.nested.par, hni.nested.ea, hni.nested.sub⟩, .inr rfl⟩
    -- the job of the sibling is the parent's job, which is `t`'s job
    obtain ⟨sp, h1, h2, _⟩ := (hi.ghost _ _ ht.st).parent hpar
    have hnpar : n.static.parentID ≠ 0 := by
      show n.parentID ≠ 0
      rw [hnp, hpid]; exact hpar
    obtain ⟨sp', h3, h4, _⟩ := (hi.ghost _ _ hni.st).parent hnpar
    have h1 : G.st t.parentID = some sp := h1
    have h3 : G.st n.parentID = some sp' := h3
    rw [hnp, hpid, h1] at h3
    cases h3
    have : n.jobID = t.jobID := by
      have h4 : sp.jobID = n.jobID := h4
      have h2 : sp.jobID = t.jobID := h2
      rw [← h4, h2]
    show G.started n.jobID
    rw [this]; exact ht.started

theorem setTask_release {G : Ghost} {ds : DS} {T : List Nat} {n : Task} (hi : Inv G ds)
    (hu : ∀ m ∈ T, Unused G ds m) (hn : ds.task? n.id = some n) (hs : n.state = .created)
    {ms : List Msg} (hms : ∀ m ∈ ms, MsgOK rok (G.handOut n.id) m ∧ m.startsJob = false) :
    OpEff rok T T G (G.handOut n.id) ds (ds.setTask n.id { n with state := .pending }) ms := by
  have hp := plain_release (hi.tasks _ _ hn) hs
  have h : OpEff rok T T G G ds (ds.setTask n.id { n with state := .pending }) [] :=
    ⟨.refl _, fun m s h1 h2 => by rw [h1] at h2; simp at h2, keysInv_setTask hi hn hp,
      eff_setTask hn hp, by simp, fun m hm => ⟨(hu m hm).pend, (hu m hm).fresh⟩, .refl _ _, joins_setTask hn hp⟩
  refine h.handOut ⟨persistTask n { n with state := .pending }, ?_, ?_⟩ hms
  · rw [task?_set_eq hn]; exact if_pos rfl
  · simp [persistTask]

/-- Plain tasks count nothing. -/
theorem Static.plain.count {t : Task} (h : t.static.plain) : t.count = 0 := by
  have h1 : t.parallel = none := by simpa [Task.static] using h.1
  have h2 : t.each = none := by simpa [Task.static] using h.2.1
  simp [Task.count, h1, h2]

/-- Messages to the PENDING queue only need the task invariant. -/
theorem queueOK_pending {G : Ghost} {t : Task} (h0 : t.count = 0) : QueueOK G QUEUE_PENDING t :=
  ⟨fun h => absurd h (by decide), fun h => by
    rcases h with h | h
    · exact absurd h (by decide +kernel)
    · exact absurd h (by decide), fun _ => h0⟩

theorem queueOK_error {G : Ghost} {t : Task} (h0 : t.count = 0) : QueueOK G QUEUE_ERROR t :=
  ⟨fun h => absurd h (by decide), fun h => by
    rcases h with h | h
    · exact absurd h (by decide +kernel)
    · exact absurd h (by decide), fun _ => h0⟩

theorem queueOK_started {G : Ghost} {t : Task} (h0 : t.count = 0) : QueueOK G QUEUE_STARTED t :=
  ⟨fun h => absurd h (by decide), fun h => by
    rcases h with h | h
    · exact absurd h (by decide +kernel)
    · exact absurd h (by decide), fun _ => h0⟩

theorem queueOK_completed {G : Ghost} {t : Task} (h0 : t.count = 0)
    (h : t.state = .completed → MayComplete G t.id t.static) :
    QueueOK G QUEUE_COMPLETED t :=
  ⟨fun _ => h, fun h => by
    rcases h with h | h
    · exact absurd h (by decide +kernel)
    · exact absurd h (by decide), fun _ => h0⟩

/-- Cancellations go to the queue of one worker. -/
theorem queueOK_node {G : Ghost} {t : Task} {q : String} (hq : isExclusiveQueue q = true)
    (hs : t.state ≠ .completed) : QueueOK G q t :=
  ⟨fun _ h => absurd h hs, fun h => by
    rcases h with h | h
    · simp [isTaskQueue, hq] at h
    · subst h; exact absurd hq (by decide +kernel), fun h => by rw [hq] at h; cases h⟩

theorem queueOK_plain {G : Ghost} {t : Task} {q : String} (h : t.static.plain) : QueueOK G q t :=
  ⟨fun _ _ => .plain h, fun _ => h, fun _ => h.count⟩

theorem safe_eachTx {t : Task} {k : Except Err Bool → Prog α} {T : List Nat} {G : Ghost}
    {post : List Nat → Ghost → α → Prop} (ht : MsgTask G t)
    (hst : t.state = .completed ∨ t.state = .skipped) (hcomp : t.completedAt.isSome)
    (hmay : t.state = .completed → MayComplete G t.id t.static) (hpar : t.parentID ≠ 0)
    (hnp : ∃ sp, G.st t.parentID = some sp ∧ sp.isPar = false)
    (he : ∀ e, Safe rok (k (.error e)) T G post)
    (ho : ∀ G1 b, G.le G1 → (b = true → G1.full t.parentID) →
      (∃ sp, G1.st t.parentID = some sp ∧ sp.isEach = true) → Safe rok (k (.ok b)) T G1 post) :
    Safe rok ((txOp (eachTx t)).bind k) T G post := by
  refine ⟨T, List.Sublist.refl T, he, fun G1 ds hl hi hu => ?_⟩
  have ht := ht.mono hl
  have hmay := fun h => (hmay h).mono hl
  have hself : t.parentID ≠ t.id := (hi.ghost _ _ ht.st).self
  obtain ⟨sp, hsp, hspp⟩ := hnp
  have hsp := hl.st _ _ hsp
  have hparnone : ∀ p, ds.task? t.parentID = some p → p.parallel = none := by
    intro p hp
    have h1 := (hi.tasks _ _ hp).st
    rw [(task?_mem hp).2, hsp] at h1
    have : sp.isPar = p.static.isPar := by rw [Option.some.inj h1]
    rw [hspp] at this
    simpa [Task.static] using this.symm
  constructor
  · -- the complete transaction
    show ∃ G2, OpEff rok T T G1 G2 ds ((eachTx t).run ds).2.1 ((eachTx t).run ds).2.2 ∧
      ∀ g, ((eachTx t).run ds).1 = .ok g → Safe rok (k (.ok g)) T G2 post
    unfold eachTx
    simp only
    cases hx : eachNext t ds with
    | error e => exact ⟨G1, OpEff.refl hi (List.Sublist.refl T) hu, fun g h => by cases h⟩
    | ok o =>
      cases o with
      | none =>
        simp only
        cases hy : subTaskTx t eachParentRow ds with
        | error e => exact ⟨G1, OpEff.refl hi (List.Sublist.refl T) hu, fun g h => by cases h⟩
        | ok y =>
          obtain ⟨g, ds'⟩ := y
          obtain ⟨r, p, u, hr, hf, hp, hm, h1, h2, h3, h4⟩ := subTaskTx_ok hy hself
          refine ⟨G1.mark t.parentID (g = true), (opeff_sub (sib := none) hi hu ht hst hcomp hmay hpar hr hf hp
            (countUpd_each (hi.tasks _ _ hp) (parent_handed_out hi ht.st hpar hp) (hparnone p hp) hm) (by simp) h1 h2 h3 h4
            (subTaskTx_keepsNodes hy) (by simp)).mark fun hg => ⟨_, by rw [h1, if_pos rfl], full_each (hparnone p hp) hm hg⟩,
            fun g' hg' => ?_⟩
          cases hg'
          refine ho _ _ (hl.trans (G1.le_mark _ _)) (fun hg => .inr ⟨rfl, hg⟩) ⟨p.static, ?_, each_isSome hm⟩
          rw [← (task?_mem hp).2]; exact (hi.tasks _ _ hp).st
      | some next =>
        obtain ⟨n, rfl, hn, hni, hns, hnt, hnp, hmn, hmc⟩ := release_facts hi ht hpar hx
        have hms : ∀ m ∈ [Msg.task QUEUE_PENDING { n with state := .pending }],
            MsgOK rok (G1.handOut n.id) m ∧ m.startsJob = false := by
          intro m hm; simp at hm; subst hm; exact ⟨⟨hmn, queueOK_pending hmc⟩, rfl⟩
        simp only
        cases hy : subTaskTx t eachParentRow (ds.setTask n.id { n with state := .pending }) with
        | error e => exact ⟨_, setTask_release hi hu hn hns hms, fun g h => by cases h⟩
        | ok y =>
          obtain ⟨g, ds'⟩ := y
          obtain ⟨r, p, u, hr, hf, hp, hm, h1, h2, h3, h4⟩ := subTaskTx_ok hy hself
          rw [task?_set_eq hn, if_neg (Ne.symm hnt)] at hr
          rw [task?_set_eq hn, if_neg (Ne.symm hnp)] at hp
          refine ⟨(G1.handOut n.id).mark t.parentID (g = true), ((opeff_sub (sib := some (n, persistTask n { n with state := .pending }))
            hi hu ht hst hcomp hmay hpar hr hf hp
            (countUpd_each (hi.tasks _ _ hp) (parent_handed_out hi ht.st hpar hp) (hparnone p hp) hm) ?_ ?_ h2
            (by rw [h3, keys_setTask]) h4 (by rw [subTaskTx_keepsNodes hy]; rfl) (by simp)).handOut ?_ hms).mark fun hg =>
              ⟨_, by rw [h1, if_pos rfl], full_each (hparnone p hp) hm hg⟩, fun g' hg' => ?_⟩
          · intro a b hab; cases hab; exact ⟨hn, plain_release hni hns, hnt, hnp⟩
          · intro k; rw [h1, task?_set_eq hn]
          · refine ⟨persistTask n { n with state := .pending }, ?_, by simp [persistTask]⟩
            rw [h1, if_neg hnp, if_neg hnt, task?_set_eq hn]; exact if_pos rfl
          cases hg'
          refine ho _ _ (hl.trans ((G1.le_handOut n.id).trans ((G1.handOut n.id).le_mark _ _))) (fun hg => .inr ⟨rfl, hg⟩) ⟨p.static, ?_, each_isSome hm⟩
          rw [← (task?_mem hp).2]; exact (hi.tasks _ _ hp).st
  · intro x hx
    unfold eachTx at hx
    simp only at hx
    cases hy : eachNext t ds with
    | error e => rw [hy] at hx; simp at hx
    | ok o =>
      rw [hy] at hx
      cases o with
      | none => simp at hx
      | some next =>
        obtain ⟨n, rfl, hn, hni, hns, hnt, hnp, hmn, hmc⟩ := release_facts hi ht hpar hy
        simp at hx
        rcases hx with rfl | rfl
        · exact ⟨_, setTask_release hi hu hn hns (by simp)⟩
        · refine ⟨_, setTask_release hi hu hn hns ?_⟩
          intro m hm; simp at hm; subst hm; exact ⟨⟨hmn, queueOK_pending hmc⟩, rfl⟩

/-! ## Top-level completion -/

theorem topLevelJobRow_facts (t : Task) (j : Job) :
    SameJob j (persistJob j (topLevelJobRow t j)) ∧
    (persistJob j (topLevelJobRow t j)).state = j.state ∧
    (persistJob j (topLevelJobRow t j)).position = j.position + 1 ∧
    (persistJob j (topLevelJobRow t j)).tasks = j.tasks ∧
    (persistJob j (topLevelJobRow t j)).parentID = j.parentID := by
  unfold topLevelJobRow
  simp only
  split <;> exact ⟨rfl, rfl, rfl, rfl, rfl⟩

theorem topLevelJobRow_context (t : Task) (j : Job) :
    (persistJob j (topLevelJobRow t j)).context = if t.result ≠ "" ∧ t.var ≠ "" then
      { j.context with tasks := mset j.context.tasks t.var t.result } else j.context := by
  unfold topLevelJobRow
  simp only
  split <;> rfl

theorem safe_topTx {t : Task} {k : Except Err Unit → Prog α} {T : List Nat} {G : Ghost}
    {post : List Nat → Ghost → α → Prop} (ht : MsgTask G t)
    (hst : t.state = .completed ∨ t.state = .skipped) (hcomp : t.completedAt.isSome)
    (hmay : t.state = .completed → MayComplete G t.id t.static) (hpar : t.parentID = 0)
    (hk : ∀ r, Safe rok (k r) T G post) : Safe rok ((tx (topLevelTx t)).bind k) T G post := by
  refine safe_db (List.Sublist.refl T) (fun e => hk _) fun G1 ds hl hi hu g ds' h => ?_
  have ht := ht.mono hl
  obtain ⟨r, j, hr, hf, hj, hT, hJ, k1, k2⟩ := topLevelTx_ok h
  have hri := hi.tasks _ _ hr
  have hrid := (task?_mem hr).2
  have hrs := static_inj ht.st hri hrid
  have hrpar : r.parentID = 0 := by rw [← hpar]; exact congrArg Static.parentID hrs
  have hrjob : r.jobID = t.jobID := congrArg Static.jobID hrs
  have hrvar : r.var = t.var := congrArg Static.var hrs
  have f6 := topLevelJobRow_context t j
  have hji := hi.jobs _ _ hj
  obtain ⟨f1, f2, f3, f4, f5⟩ := topLevelJobRow_facts t j
  have hjs : j.state ≠ .pending := by
    obtain ⟨p, hp⟩ := ht.started
    obtain ⟨j', hj', hs, _⟩ := hi.pos _ _ hp
    rw [hj] at hj'; cases hj'; exact hs
  have hfin : ds'.task? t.id = some (persistTask r (finRow t r)) := by rw [hT, if_pos rfl]
  have hj' : ds'.job? t.jobID = some (persistJob j (topLevelJobRow t j)) := by rw [hJ, if_pos rfl]
  refine ⟨G1, ⟨.refl _, fun n s h1 h2 => by rw [h1] at h2; simp at h2, ?_, ?_, by simp, ?_, .refl _ _, ?_⟩, (hk _).le hl⟩
  · refine ⟨?_, ?_, ?_, ?_, hi.ghost, ?_, ?_, by rw [topLevelTx_keepsNodes h]; exact hi.nodes, by rw [k1]; exact hi.keysT, by rw [k2]; exact hi.keysJ⟩
    · intro k a ha
      rw [hT] at ha
      by_cases hk : k = t.id
      · rw [if_pos hk] at ha; cases ha; exact inv_finRow hri hst
      · rw [if_neg hk] at ha; exact hi.tasks k a ha
    · intro k a ha
      rw [hJ] at ha
      by_cases hk : k = t.jobID
      · rw [if_pos hk] at ha; cases ha
        exact ⟨by rw [f4]; exact hji.tasks, by rw [f5]; exact hji.parent, fun h => absurd (f2 ▸ h) hjs,
          fun h => by rw [f3, f4]; exact Nat.lt_succ_of_lt (hji.done (f2 ▸ h)), fun _ => by rw [f3]; exact Nat.succ_ne_zero _⟩
      · rw [if_neg hk] at ha; exact hi.jobs k a ha
    · intro n q hq
      obtain ⟨a, ha, h1, h2⟩ := hi.pos n q hq
      rw [hJ]
      by_cases hk : n = t.jobID
      · rw [if_pos hk]; subst hk; rw [hj] at ha; cases ha
        exact ⟨_, rfl, by rw [f2]; exact h1, by rw [f3]; omega⟩
      · rw [if_neg hk]; exact ⟨a, ha, h1, h2⟩
    · intro n hq
      obtain ⟨a, ha, h1, h2⟩ := hi.past n hq
      rw [hJ]
      by_cases hk : n = t.jobID
      · rw [if_pos hk]; subst hk; rw [hj] at ha; cases ha
        exact ⟨_, rfl, by rw [f2]; exact h1, by rw [f3, f4]; omega⟩
      · rw [if_neg hk]; exact ⟨a, ha, h1, h2⟩
    · intro n q hq
      obtain ⟨a, ha, h1⟩ := hi.jpar n q hq
      rw [hJ]
      by_cases hk : n = t.jobID
      · rw [if_pos hk]; subst hk; rw [hj] at ha; cases ha
        exact ⟨_, rfl, by rw [f5]; exact h1⟩
      · rw [if_neg hk]; exact ⟨a, ha, h1⟩
    · intro n hq
      obtain ⟨a, ha, h1⟩ := hi.rel n hq
      rw [hT]
      by_cases hk : n = t.id
      · rw [if_pos hk]; subst hk; rw [hr] at ha; cases ha
        exact ⟨_, rfl, (edge_finRow hf hst).ne_created⟩
      · rw [if_neg hk]; exact ⟨a, ha, h1⟩
  · refine ⟨?_, ?_, ?_, ?_, ?_, ?_, ?_, ?_, ?_⟩
    · intro k a ha
      rw [hT]
      by_cases hk : k = t.id
      · rw [if_pos hk]; subst hk; rw [hr] at ha; cases ha
        exact ⟨_, rfl, same_finRow _ _, .inr (edge_finRow hf hst)⟩
      · rw [if_neg hk]; exact ⟨a, ha, SameTask.refl a, .inl rfl⟩
    · intro k b h1 h2
      rw [hT] at h2
      by_cases hk : k = t.id
      · subst hk; rw [hr] at h1; simp at h1
      · rw [if_neg hk, h1] at h2; simp at h2
    · intro k a ha
      rw [hJ]
      by_cases hk : k = t.jobID
      · rw [if_pos hk]; subst hk; rw [hj] at ha; cases ha
        exact ⟨_, rfl, f1, .inl f2⟩
      · rw [if_neg hk]; exact ⟨a, ha, SameJob.refl a, .inl rfl⟩
    · intro k b h1 h2
      rw [hJ] at h2
      by_cases hk : k = t.jobID
      · subst hk; rw [hj] at h1; simp at h1
      · rw [if_neg hk, h1] at h2; simp at h2
    · intro k a b h1 h2 h3
      rw [hJ] at h2
      by_cases hk : k = t.jobID
      · rw [if_pos hk] at h2; subst hk; rw [hj] at h1; cases h1; cases h2
        exact .inr ⟨hjs, f3, t.id, r, _, hr, hfin, hrjob, hrpar, finishes_finRow hf hst hcomp, fun x hx => by rw [hT, if_neg hx], t.result, rfl, by rw [f6, hrvar]; rfl⟩
      · rw [if_neg hk, h1] at h2; cases h2; exact absurd rfl h3
    · intro k a b h1 h2 h3
      rw [hT] at h2
      by_cases hk : k = t.id
      · rw [if_pos hk] at h2; subst hk; rw [hr] at h1; cases h1; cases h2; exact absurd rfl h3
      · rw [if_neg hk, h1] at h2; cases h2; exact absurd rfl h3
    · intro k a b h1 h2 h3 h4
      rw [hT] at h2
      by_cases hk : k = t.id
      · rw [if_pos hk] at h2; subst hk; rw [hr] at h1; cases h1; cases h2
        exact ⟨fun _ => ⟨j, _, by rw [hrjob]; exact hj, by rw [hrjob]; exact hj', hjs, f3⟩,
          fun h => absurd hrpar h⟩
      · rw [if_neg hk, h1] at h2; cases h2; exact absurd h4 h3
    · intro k a b h1 h2 h3
      rw [hJ] at h2
      by_cases hk : k = t.jobID
      · rw [if_pos hk] at h2; subst hk; rw [hj] at h1; cases h1; cases h2
        rw [f6] at h3 ⊢
        by_cases hc : t.result ≠ "" ∧ t.var ≠ ""
        · rw [if_pos hc]
          exact ⟨t.id, r, _, t.result, hr, hfin, hrjob, finishes_finRow hf hst hcomp, by rw [hrvar]; exact hc.2, hc.1,
            rfl, by rw [hrvar], fun _ => f3⟩
        · rw [if_neg hc] at h3; exact absurd rfl h3
      · rw [if_neg hk, h1] at h2; cases h2; exact absurd rfl h3
    · intro k a b h1 h2 h3 h4
      rw [hT] at h2
      by_cases hk : k = t.id
      · rw [if_pos hk] at h2; subst hk; rw [hr] at h1; cases h1; cases h2
        refine ⟨t.result, rfl, fun hx hy => ⟨j, _, by rw [hrjob]; exact hj, by rw [hrjob]; exact hj', ?_⟩⟩
        rw [hrvar] at hy ⊢
        rw [f6, if_pos ⟨hx, hy⟩]
      · rw [if_neg hk, h1] at h2; cases h2; exact absurd h4 h3
  · intro n hn
    refine ⟨fun b hb => ?_, (hu n hn).fresh⟩
    rw [hJ] at hb
    by_cases hk : n = t.jobID
    · subst hk; exact absurd ((hu _ hn).pend j hj) hjs
    · rw [if_neg hk] at hb; exact (hu n hn).pend b hb
  · intro k a b h1 h2 h3 h4
    rw [hT] at h2
    by_cases hk : k = t.id
    · rw [if_pos hk] at h2; subst hk; rw [hr] at h1; cases h1; cases h2
      rw [hrs]; exact (hmay h4).mono hl
    · rw [if_neg hk, h1] at h2; cases h2; exact absurd h4 h3

end Tork

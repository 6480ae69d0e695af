import Verif.Origin
import Verif.ExecCancel
/-!
# Where tasks come from: datastore operations
-/

namespace Tork.Origin
open Prog

variable {E : Env} {α β γ : Type} {G : Ghost} {T : Option Nat} {post : Ghost → α → Prop}

theorem next_idle {ds : DS} (hi : Inv E G ds) : Next E G none ds [] G none :=
  ⟨.refl _, hi, fun _ h => (by cases h), fun _ _ _ h => .inl h, fun _ _ _ h => .inl h, fun _ _ _ => Iff.rfl, fun _ h => absurd rfl h, .inl rfl⟩

/-- Task rows change, but not what they stand for. -/
theorem inv_setTask {ds : DS} {n : Nat} {u : Task} (hi : Inv E G ds)
    (hu : ∀ r, ds.task? n = some r → KeepsTask E G r u) : Inv E G (ds.setTask n u) where
  tasks k t h := by
    rw [task?_setTask] at h
    split at h
    · rename_i hk
      subst hk
      cases hr : ds.task? k with
      | none => rw [hr] at h; cases h
      | some r =>
        rw [hr] at h
        cases h
        rw [(hu r hr).1]
        exact hi.tasks k r hr
    · exact hi.tasks k t h
  jobs := hi.jobs
  works k x h := by
    obtain ⟨⟨t, h1⟩, h2⟩ := hi.works k x h
    refine ⟨?_, h2⟩
    rw [task?_setTask]
    split
    · exact ⟨persistTask t u, by rw [h1]; rfl⟩
    · exact ⟨t, h1⟩
  defs := hi.defs
  stored := hi.stored
  snaps := hi.snaps
  results := hi.results
  nodes := hi.nodes
  keysT := by rw [keys_setTask]; exact hi.keysT
  ends k t h := by
    rw [task?_setTask] at h
    split at h
    · rename_i hk
      subst hk
      cases hr : ds.task? k with
      | none => rw [hr] at h; cases h
      | some r =>
        rw [hr] at h
        cases h
        obtain ⟨h1, h2, h7, h8⟩ := hu r hr
        have hsame : SameWork r (persistTask r u) := (key_eq.1 h1).symm
        obtain ⟨e1, e2, e3⟩ := hi.ends k r hr
        have back : ∀ {v}, u.result = r.result → r.result = sanitizeString v → (persistTask r u).result = sanitizeString v := fun {v} h4 h5 => by
          show sanitizeString u.result = _
          rw [h4, h5, sanitize_idem]
        refine ⟨fun hs => ?_, fun hs => ?_, ?_⟩
        · rcases h2 hs with ⟨h3, h4⟩ | h3
          · obtain ⟨v, h5, h6⟩ := e1 h3
            exact ⟨v, back h4 h5, h6.same hsame⟩
          · exact ⟨u.result, rfl, h3.same hsame⟩
        · rcases h7 hs with h3 | h3
          · exact e2 h3
          · exact h3
        · rcases h8 with h4 | h4
          · obtain ⟨v, h5, h6⟩ := e3
            exact ⟨v, back h4 h5, h6.imp (·.same hsame) (·.same hsame)⟩
          · exact ⟨u.result, rfl, h4.imp (·.same hsame) (·.same hsame)⟩
    · exact hi.ends k t h

theorem inv_updateTask {ds ds' : DS} {n : Nat} {m : Task → Except Err (γ × Task)} {g : γ} (hi : Inv E G ds)
    (h : updateTask n m ds = .ok (g, ds')) (hm : ∀ r g u, TaskOK G r → r.id = n → m r = .ok (g, u) → KeepsTask E G r u) :
    Inv E G ds' := by
  unfold updateTask at h
  split at h
  · cases h
  · rename_i t ht
    split at h
    · cases h
    · rename_i g' u hu
      cases h
      refine inv_setTask hi fun r hr => ?_
      rw [ht] at hr
      cases hr
      exact hm t _ u (hi.task ht) (task?_mem ht).2 hu

theorem next_task {ds ds' : DS} (hi : Inv E G ds') : Next E G none ds' [] G none :=
  ⟨.refl _, hi, fun _ h => (by cases h), fun _ _ _ h => .inl h, fun _ _ _ h => .inl h, fun _ _ _ => Iff.rfl, fun _ h => absurd rfl h, .inl rfl⟩

/-- The values that the variables of jobs have in `ds` are added. -/
def Ghost.grow (G : Ghost) (ds : DS) : Ghost :=
  { G with
    vals := fun n k v => G.vals n k v ∨ ∃ j, ds.job? n = some j ∧ (k, v) ∈ j.context.tasks
    snaps := fun n k c => G.snaps n k c ∨ ∃ j, ds.job? n = some j ∧ j.position = k ∧ j.context = c }

theorem Ghost.le_grow (G : Ghost) (ds : DS) : G.le (G.grow ds) :=
  ⟨fun _ _ h => h, fun _ _ h => h, fun _ _ _ h => .inl h, fun _ _ _ h => .inl h, fun _ h => h⟩

/-- A job row changes, but not what it stands for. -/
theorem inv_setJob {ds : DS} {n : Nat} {u : Job} (hi : Inv E G ds)
    (hu : ∀ r, ds.job? n = some r → KeepsJob E G r u) : Inv E (G.grow (ds.setJob n u)) (ds.setJob n u) where
  tasks := hi.tasks
  jobs k j h := by
    have hid := (job?_mem h).2
    refine ⟨?_, fun a v hv => .inr ⟨j, by rw [hid]; exact h, hv⟩, .inr ⟨j, by rw [hid]; exact h, rfl, rfl⟩⟩
    show G.defs j.id = _
    rw [job?_setJob] at h
    split at h
    · rename_i hk
      subst hk
      cases hr : ds.job? k with
      | none => rw [hr] at h; cases h
      | some r =>
        rw [hr] at h
        cases h
        rw [(hu r hr).1, hid, ← (job?_mem hr).2]
        exact (hi.jobs k r hr).1
    · exact (hi.jobs k j h).1
  works k x h := by
    obtain ⟨h1, t, h2, h3⟩ := hi.works k x h
    exact ⟨h1, t, h2, h3.mono (G.le_grow _)⟩
  defs k d h := (hi.defs k d h).mono (G.le_grow _)
  stored k := by
    show G.stored k ↔ _
    rw [hi.stored k, job?_setJob]
    split
    · cases ds.job? k <;> simp
    · rfl
  snaps k p c h := by
    rcases h with h | ⟨j, hj, -⟩
    · exact hi.snaps k p c h
    · rw [job?_setJob] at hj
      have : ∃ r, ds.job? k = some r := by
        split at hj
        · cases hr : ds.job? k with
          | none => rw [hr] at hj; cases hj
          | some r => exact ⟨r, rfl⟩
        · exact ⟨j, hj⟩
      obtain ⟨r, hr⟩ := this
      have h1 := (hi.jobs k r hr).1
      rw [(job?_mem hr).2] at h1
      show G.defs k ≠ none
      rw [h1]; simp
  nodes := hi.nodes
  keysT := hi.keysT
  ends k t h := (hi.ends k t h).mono (G.le_grow _)
  results k j h hs := by
    refine ResultOK.mono ?_ (G.le_grow _)
    rw [job?_setJob] at h
    split at h
    · rename_i hk
      subst hk
      cases hr : ds.job? k with
      | none => rw [hr] at h; cases h
      | some r =>
        rw [hr] at h
        cases h
        rcases (hu r hr).2 hs with ⟨k1, k2⟩ | k1
        · obtain ⟨p, c, sd, m1, m2, m3⟩ := hi.results k r hr k1
          exact ⟨p, c, sd, m1, m2, k2.symm ▸ m3⟩
        · exact k1
    · exact hi.results k j h hs

theorem next_job {ds : DS} (hi : Inv E (G.grow ds) ds) : Next E G none ds [] (G.grow ds) none :=
  ⟨G.le_grow _, hi, fun _ h => (by cases h), fun n _ _ h => h.imp id fun ⟨j, hj, hk⟩ => ⟨(hi.stored n).2 ⟨j, hj⟩, j, hj, hk⟩,
    fun n _ _ h => h.imp id fun h _ => h, fun _ _ _ => Iff.rfl, fun _ h => absurd rfl h, .inl rfl⟩

theorem next_updateJob {ds ds' : DS} {n : Nat} {m : Job → Except Err (γ × Job)} {g : γ} (hi : Inv E G ds)
    (h : updateJob n m ds = .ok (g, ds')) (hm : ∀ r g u, m r = .ok (g, u) → KeepsJob E G r u) :
    Next E G none ds' [] (G.grow ds') none := by
  unfold updateJob at h
  split at h
  · cases h
  · rename_i t ht
    split at h
    · cases h
    · rename_i g' u hu
      cases h
      refine next_job (inv_setJob hi fun r hr => ?_)
      rw [ht] at hr
      cases hr
      exact hm t _ u hu

/-! ## Reading -/

theorem good_read {f : DS → Except Err (γ × DS)} {k : Except Err γ → Prog α} (hf : ∀ ds g ds', f ds = .ok (g, ds') → ds' = ds)
    (he : ∀ G' e, G.le G' → Good E (k (.error e)) G' T post)
    (hk : ∀ G1 ds g, G.le G1 → Inv E G1 ds → f ds = .ok (g, ds) → Good E (k (.ok g)) G1 T post) :
    Good E ((tx f).bind k) G T post :=
  good_tx he fun G1 ds g ds' hl hi h => by
    have := hf _ _ _ h
    subst this
    exact ⟨G1, next_idle hi, hk G1 _ g hl hi h⟩

theorem good_getJob {n : Nat} {k : Except Err Job → Prog α} (he : ∀ G' e, G.le G' → Good E (k (.error e)) G' T post)
    (hk : ∀ G1 j, G.le G1 → JobOK G1 j → j.id = n → G1.stored n → Good E (k (.ok j)) G1 T post) :
    Good E ((tx (getJob n)).bind k) G T post := by
  refine good_read (fun ds g ds' h => ?_) he fun G1 ds j hl hi h => ?_
  · unfold getJob at h; split at h <;> cases h; rfl
  · unfold getJob at h
    split at h
    · cases h
    · rename_i x hx
      cases h
      exact hk G1 j hl (hi.jobs _ _ hx) (job?_mem hx).2 ((hi.stored _).2 ⟨_, hx⟩)

theorem good_getTask {n : Nat} {k : Except Err Task → Prog α} (he : ∀ G' e, G.le G' → Good E (k (.error e)) G' T post)
    (hk : ∀ G1 t, G.le G1 → TaskOK G1 t → t.id = n → Good E (k (.ok t)) G1 T post) :
    Good E ((tx (getTask n)).bind k) G T post := by
  refine good_read (fun ds g ds' h => ?_) he fun G1 ds j hl hi h => ?_
  · unfold getTask at h; split at h <;> cases h; rfl
  · unfold getTask at h
    split at h
    · cases h
    · rename_i x hx
      cases h
      exact hk G1 j hl (hi.task hx) (task?_mem hx).2

theorem good_getNode {n : Nat} {k : Except Err Node → Prog α} (he : ∀ G' e, G.le G' → Good E (k (.error e)) G' T post)
    (hk : ∀ G1 t, G.le G1 → isExclusiveQueue t.queue = true → Good E (k (.ok t)) G1 T post) :
    Good E ((tx (getNode n)).bind k) G T post := by
  refine good_read (fun ds g ds' h => ?_) he fun G1 ds j hl hi h => ?_
  · unfold getNode at h; split at h <;> cases h; rfl
  · unfold getNode at h
    split at h
    · cases h
    · rename_i x hx
      cases h
      exact hk G1 j hl (hi.nodes _ (List.mem_of_find?_eq_some hx))

theorem good_getActive {n : Nat} {k : Except Err (List Task) → Prog α} (he : ∀ G' e, G.le G' → Good E (k (.error e)) G' T post)
    (hk : ∀ G1 ts, G.le G1 → (∀ t ∈ ts, TaskOK G1 t) → Good E (k (.ok ts)) G1 T post) :
    Good E ((tx (getActiveTasks n)).bind k) G T post := by
  refine good_read (fun ds g ds' h => ?_) he fun G1 ds ts hl hi h => ?_
  · unfold getActiveTasks at h; cases h; rfl
  · unfold getActiveTasks at h
    cases h
    exact hk G1 _ hl fun t ht => hi.task (task?_of_mem hi.keysT (List.mem_filter.1 ht).1)

/-! ## Writing -/

theorem good_updTask {n : Nat} {m : Task → Task} {k : Except Err Unit → Prog α}
    (hm : ∀ G' r, G.le G' → TaskOK G' r → r.id = n → KeepsTask E G' r (m r)) (hk : ∀ G' r, G.le G' → Good E (k r) G' T post) :
    Good E ((tx (updateTask' n m)).bind k) G T post :=
  good_tx (fun G' e hl => hk G' _ hl) fun G1 ds g ds' hl hi h =>
    ⟨G1, next_task (ds := ds) (inv_updateTask hi h fun r g u hr hid hu => by cases hu; exact hm G1 r hl hr hid), hk G1 _ hl⟩

theorem good_updJob {n : Nat} {m : Job → Job} {k : Except Err Unit → Prog α}
    (hm : ∀ G' r, G.le G' → KeepsJob E G' r (m r)) (hk : ∀ G' r, G.le G' → Good E (k r) G' T post) :
    Good E ((tx (updateJob' n m)).bind k) G T post :=
  good_tx (fun G' e hl => hk G' _ hl) fun G1 ds g ds' hl hi h =>
    ⟨G1.grow ds', next_updateJob hi h fun r g u hu => by cases hu; exact hm G1 r hl, hk _ _ (hl.trans (G1.le_grow _))⟩

theorem good_updJobE {n : Nat} {m : Job → Except Err (γ × Job)} {k : Except Err γ → Prog α}
    (hm : ∀ G' r g u, G.le G' → m r = .ok (g, u) → KeepsJob E G' r u) (hk : ∀ G' r, G.le G' → Good E (k r) G' T post) :
    Good E ((tx (updateJob n m)).bind k) G T post :=
  good_tx (fun G' e hl => hk G' _ hl) fun G1 ds g ds' hl hi h =>
    ⟨G1.grow ds', next_updateJob hi h fun r g u hu => hm G1 r g u hl hu, hk _ _ (hl.trans (G1.le_grow _))⟩

theorem good_updJobE' {n : Nat} {m : Job → Except Err (γ × Job)} {k : Except Err γ → Prog α}
    (hm : ∀ G' r g u, G.le G' → JobOK G' r → r.id = n → m r = .ok (g, u) → KeepsJob E G' r u) (hk : ∀ G' r, G.le G' → Good E (k r) G' T post) :
    Good E ((tx (updateJob n m)).bind k) G T post :=
  good_tx (fun G' e hl => hk G' _ hl) fun G1 ds g ds' hl hi h => by
    refine ⟨G1.grow ds', ?_, hk _ _ (hl.trans (G1.le_grow _))⟩
    unfold updateJob at h
    split at h
    · cases h
    · rename_i t ht
      split at h
      · cases h
      · rename_i g' u hu
        cases h
        refine next_job (inv_setJob hi fun r hr => ?_)
        rw [ht] at hr
        cases hr
        exact hm G1 t _ u hl (hi.jobs _ _ ht) (job?_mem ht).2 hu

/-- The continuation may also use that a returned value was computed from some row. -/
theorem good_updJobE'' {n : Nat} {m : Job → Except Err (γ × Job)} {k : Except Err γ → Prog α}
    (hm : ∀ G' r g u, G.le G' → JobOK G' r → r.id = n → m r = .ok (g, u) → KeepsJob E G' r u)
    (hk : ∀ G' r, G.le G' → (∀ g, r = .ok g → ∃ x u, m x = .ok (g, u)) → Good E (k r) G' T post) :
    Good E ((tx (updateJob n m)).bind k) G T post :=
  good_tx (fun G' e hl => hk G' _ hl fun _ h => by cases h) fun G1 ds g ds' hl hi h => by
    unfold updateJob at h
    split at h
    · cases h
    · rename_i t ht
      split at h
      · cases h
      · rename_i g' u hu
        cases h
        refine ⟨G1.grow _, next_job (inv_setJob hi fun r hr => ?_), hk _ _ (hl.trans (G1.le_grow _)) fun _ h => by cases h; exact ⟨t, u, hu⟩⟩
        rw [ht] at hr
        cases hr
        exact hm G1 t _ u hl (hi.jobs _ _ ht) (job?_mem ht).2 hu

/-! ## Creating -/

def Ghost.addTask (G : Ghost) (t : Task) : Ghost := { G with works := fun n => if n = t.id then some (key t) else G.works n }

theorem key_taskRow (t : Task) : key (taskRow t) = key t := rfl

theorem good_createTask' {t : Task} {k : Except Err Unit → Prog α} (hm : ∀ G', G.le G' → G'.stored t.jobID → (∀ ds, Inv E G' ds → G'.Made E t))
    (hst : t.state ≠ .completed ∧ t.state ≠ .skipped) (hun : ∀ G', G.le G' → G'.stored t.jobID → Unrun G' t t.result)
    (he : ∀ G' e, G.le G' → Good E (k (.error e)) G' T post)
    (hk : ∀ G', G.le G' → TaskOK G' t → Unrun G' t t.result → Good E (k (.ok ())) G' T post) :
    Good E ((tx (createTask t)).bind k) G T post := by
  refine good_tx he fun G1 ds g ds' hl hi h => ?_
  unfold createTask at h
  by_cases c1 : (ds.task? t.id).isSome
  · rw [if_pos c1] at h; cases h
  rw [if_neg c1] at h
  by_cases c2 : (ds.job? t.jobID).isNone
  · rw [if_pos c2] at h; cases h
  rw [if_neg c2] at h
  by_cases c3 : t.createdAt.isNone
  · rw [if_pos c3] at h; cases h
  rw [if_neg c3] at h
  cases h
  have hnone : ds.task? t.id = none := by simpa using c1
  have hstored : G1.stored t.jobID := (hi.stored _).2 (by
    cases hj : ds.job? t.jobID with
    | none => rw [hj] at c2; exact absurd rfl c2
    | some j => exact ⟨j, rfl⟩)
  have hfree : G1.works t.id = none := by
    cases hw : G1.works t.id with
    | none => rfl
    | some x => obtain ⟨⟨r, hr⟩, _⟩ := hi.works _ _ hw; rw [hnone] at hr; cases hr
  have hmade := hm G1 hl hstored ds hi
  have hle : G1.le (G1.addTask t) := by
    refine ⟨fun _ _ h => h, fun n x hx => ?_, fun _ _ _ h => h, fun _ _ _ h => h, fun _ h => h⟩
    show (if n = t.id then _ else _) = _
    by_cases hn : n = t.id
    · subst hn; rw [hfree] at hx; cases hx
    · rw [if_neg hn]; exact hx
  have hok : TaskOK (G1.addTask t) t := if_pos rfl
  refine ⟨G1.addTask t, ⟨hle, ⟨fun n r hr => ?_, fun n j hj => (hi.jobs n j hj).mono hle, fun n x hx => ?_,
    fun n d hd => (hi.defs n d hd).mono hle, hi.stored, hi.snaps, hi.nodes, ?_, fun n j hj hs => (hi.results n j hj hs).mono hle, fun n r hr => ?_⟩, fun _ h => (by cases h), fun _ _ _ h => .inl h, fun _ _ _ h => .inl h, fun _ _ _ => Iff.rfl, fun _ h => absurd rfl h, .inl rfl⟩,
    hk _ (hl.trans hle) hok ((hun G1 hl hstored).mono hle)⟩
  · rw [task?_append] at hr
    cases hd : ds.task? n with
    | some r' =>
      rw [hd] at hr
      cases hr
      exact hle.works _ _ (hi.tasks n r hd)
    | none =>
      rw [hd] at hr
      simp only [Option.none_or] at hr
      split at hr
      · rename_i hid
        cases hr
        rw [← hid, key_taskRow]
        exact hok
      · cases hr
  · rw [task?_append]
    by_cases hn : n = t.id
    · subst hn
      refine ⟨⟨taskRow t, by rw [hnone]; simp [taskRow]⟩, t, ?_, hmade.mono hle⟩
      have : (G1.addTask t).works t.id = some (key t) := hok
      rw [this] at hx
      exact Option.some.inj hx
    · have hx' : G1.works n = some x := by
        have : (if n = t.id then some (key t) else G1.works n) = some x := hx
        rwa [if_neg hn] at this
      obtain ⟨⟨r, h1⟩, u, h2, h3⟩ := hi.works n x hx'
      exact ⟨⟨r, by rw [h1]; rfl⟩, u, h2, h3.mono hle⟩
  · show ((ds.tasks ++ [taskRow t]).map (·.id)).Nodup
    rw [List.map_append, List.nodup_append]
    refine ⟨hi.keysT, by simp, fun a ha b hb => ?_⟩
    obtain ⟨x, hx, rfl⟩ := List.mem_map.1 ha
    rw [List.map_singleton, List.mem_singleton] at hb
    rw [hb]
    intro hc
    have hx' := task?_of_mem hi.keysT hx
    rw [show x.id = t.id from hc, hnone] at hx'
    cases hx'
  · rw [task?_append] at hr
    cases hd : ds.task? n with
    | some r' =>
      rw [hd] at hr
      cases hr
      exact (hi.ends n r hd).mono hle
    | none =>
      rw [hd] at hr
      simp only [Option.none_or] at hr
      split at hr
      · cases hr
        exact ⟨fun hs => absurd hs hst.1, fun hs => absurd hs hst.2, t.result, rfl,
          .inr (((hun G1 hl hstored).mono hle).same (key_eq.1 (key_taskRow t).symm))⟩
      · cases hr

theorem good_createTask {t : Task} {k : Except Err Unit → Prog α} (hm : ∀ G', G.le G' → G'.stored t.jobID → (∀ ds, Inv E G' ds → G'.Made E t))
    (hst : t.state ≠ .completed ∧ t.state ≠ .skipped) (hun : ∀ G', G.le G' → G'.stored t.jobID → Unrun G' t t.result)
    (he : ∀ G' e, G.le G' → Good E (k (.error e)) G' T post)
    (hk : ∀ G', G.le G' → TaskOK G' t → Good E (k (.ok ())) G' T post) : Good E ((tx (createTask t)).bind k) G T post :=
  good_createTask' hm hst hun he fun G' hl ht _ => hk G' hl ht

def Ghost.addJob (G : Ghost) (j : Job) (b : Prop) : Ghost :=
  { G with defs := fun n => if n = j.id then some (jobDef j) else G.defs n, stored := fun n => G.stored n ∨ b ∧ n = j.id
           snaps := fun n k c => G.snaps n k c ∨ n = j.id ∧ j.position = k ∧ j.context = c }

theorem le_addJob {j : Job} {b : Prop} (h : G.defs j.id = none) : G.le (G.addJob j b) := by
  refine ⟨fun n d hd => ?_, fun _ _ h => h, fun _ _ _ h => h, fun _ _ _ h => .inl h, fun _ h => .inl h⟩
  show (if n = j.id then _ else _) = _
  by_cases hn : n = j.id
  · subst hn; rw [h] at hd; cases hd
  · rw [if_neg hn]; exact hd

theorem addJob_defs {j : Job} {b : Prop} {n : Nat} (h : (G.addJob j b).defs n ≠ G.defs n) : n = j.id :=
  Classical.byContradiction fun hn => h (if_neg hn)

theorem next_addJob {ds ds' : DS} {j : Job} {b : Prop} [Decidable b] (hi : Inv E G ds) (h : G.defs j.id = none)
    (hfrom : JobFrom E G.J G.Cx (TaskOK G) (jobDef j)) (hc : j.context.tasks = []) (hst : j.state ≠ .completed)
    (hds : ds'.tasks = ds.tasks ∧ ds'.nodes = ds.nodes)
    (hj : ∀ n, ds'.job? n = (ds.job? n).or (if b ∧ n = j.id then some (jobRow ds.guest j) else none)) :
    Next E G (some j.id) ds' [] (G.addJob j b) none := by
  have hle := le_addJob (b := b) h
  have hself : (G.addJob j b).defs j.id = some (jobDef j) := if_pos rfl
  have htask : ∀ n, ds'.task? n = ds.task? n := fun n => by unfold DS.task?; rw [hds.1]
  refine ⟨hle, ⟨fun n r hr => ?_, fun n r hr => ?_, fun n x hx => ?_, fun n d hd => ?_, fun n => ?_, fun n k c hk => ?_, fun n hn => ?_, by rw [hds.1]; exact hi.keysT, fun n r hr hs => ?_, fun n r hr => ?_⟩, fun _ h => (by cases h),
    fun _ _ _ h => .inl h, fun n k c hk => ?_, fun n d hd => ?_, fun n hn => (by rw [addJob_defs hn]), .inl rfl⟩
  · rw [htask] at hr; exact hi.tasks n r hr
  · rw [hj] at hr
    cases hd : ds.job? n with
    | some x =>
      rw [hd] at hr
      cases hr
      exact (hi.jobs n r hd).mono hle
    | none =>
      rw [hd, Option.none_or] at hr
      split at hr
      · cases hr
        refine ⟨hself, fun k v hk => ?_, .inr ⟨rfl, rfl, rfl⟩⟩
        have : (k, v) ∈ j.context.tasks := hk
        rw [hc] at this; cases this
      · cases hr
  · obtain ⟨⟨r, h1⟩, u, h2, h3⟩ := hi.works n x hx
    exact ⟨⟨r, by rw [htask]; exact h1⟩, u, h2, h3.mono hle⟩
  · by_cases hn : n = j.id
    · subst hn
      rw [hself] at hd
      cases hd
      exact hfrom.mono hle
    · exact (hi.defs n d (by
        have : (if n = j.id then some (jobDef j) else G.defs n) = some d := hd
        rwa [if_neg hn] at this)).mono hle
  · show G.stored n ∨ b ∧ n = j.id ↔ _
    rw [hi.stored n, hj]
    cases ds.job? n with
    | some x => simp
    | none =>
      simp only [Option.none_or]
      by_cases hb : b ∧ n = j.id
      · simp [hb]
      · simp [hb]
  · rcases hk with hk | ⟨rfl, -, -⟩
    · intro hd
      refine hi.snaps n k c hk ?_
      cases hg : G.defs n with
      | none => rfl
      | some d => rw [hle.defs n d hg] at hd; cases hd
    · rw [hself]; simp
  · rw [hds.2] at hn; exact hi.nodes n hn
  · rw [hj] at hr
    cases hd : ds.job? n with
    | some x =>
      rw [hd] at hr
      cases hr
      exact (hi.results n r hd hs).mono hle
    | none =>
      rw [hd, Option.none_or] at hr
      split at hr
      · cases hr; exact absurd hs hst
      · cases hr
  · rw [htask] at hr
    exact (hi.ends n r hr).mono hle
  · rcases hk with hk | ⟨rfl, rfl, rfl⟩
    · exact .inl hk
    · refine .inr fun hs => ?_
      rcases hs with hs | ⟨hb, -⟩
      · obtain ⟨x, hx⟩ := (hi.stored _).1 hs
        have := (hi.jobs _ _ hx).1
        rw [(job?_mem hx).2, h] at this
        cases this
      · have hmiss : ds.job? j.id = none := by
          cases hd : ds.job? j.id with
          | none => rfl
          | some x =>
            have h2 := (hi.jobs _ _ hd).1
            rw [(job?_mem hd).2, h] at h2
            cases h2
        exact ⟨jobRow ds.guest j, by rw [hj, hmiss]; simp [hb], rfl, rfl⟩
  · refine ⟨fun hs => ?_, fun hs => .inl hs⟩
    rcases hs with hs | ⟨-, rfl⟩
    · exact hs
    · rw [h] at hd; cases hd

theorem good_createJob {j : Job} {k : Except Err Unit → Prog α} (hc : j.context.tasks = []) (hst : j.state ≠ .completed)
    (hfrom : ∀ G' ds, G.le G' → Inv E G' ds → JobFrom E G'.J G'.Cx (TaskOK G') (jobDef j))
    (hk : ∀ G' r, G.le G' → JobOK G' j → Good E (k r) G' none post) :
    Good E ((tx (createJob j)).bind k) G (some j.id) post := by
  intro G1 ds h1 hi ho r ds' ms hr
  have hnone := ho _ rfl
  have hok : ∀ b, JobOK (G1.addJob j b) j := fun b => ⟨if_pos rfl, fun a v hv => (by rw [hc] at hv; cases hv), .inr ⟨rfl, rfl, rfl⟩⟩
  have fails : ∀ e, ∃ G2 T', Next E G1 (some j.id) ds [] G2 T' ∧ Good E (k (.error e)) G2 T' post := fun e =>
    ⟨G1.addJob j False, none, next_addJob hi hnone (hfrom G1 ds h1 hi) hc hst ⟨rfl, rfl⟩ fun n => by simp,
      hk _ _ (h1.trans (le_addJob hnone)) (hok _)⟩
  have hmiss : ds.job? j.id = none := by
    cases hd : ds.job? j.id with
    | none => rfl
    | some x =>
      have h2 := (hi.jobs _ _ hd).1
      rw [(job?_mem hd).2, hnone] at h2
      cases h2
  have wins : j.id ≠ 0 → ∀ r, ∃ G2 T', Next E G1 (some j.id) { ds with jobs := ds.jobs ++ [jobRow ds.guest j] } [] G2 T' ∧
      Good E (k r) G2 T' post := fun _ r =>
    ⟨G1.addJob j True, none, next_addJob hi hnone (hfrom G1 ds h1 hi) hc hst ⟨rfl, rfl⟩ fun n => by
        rw [job?_append]
        congr 1
        have : (jobRow ds.guest j).id = j.id := rfl
        rw [this]
        by_cases hn : n = j.id
        · subst hn; simp
        · simp [hn, Ne.symm hn], hk _ _ (h1.trans (le_addJob hnone)) (hok _)⟩
  have hrun : (∃ e, createJob j ds = .error e) ∨ j.id ≠ 0 ∧ createJob j ds = .ok ((), { ds with jobs := ds.jobs ++ [jobRow ds.guest j] }) := by
    unfold createJob
    by_cases h0 : j.id = 0
    · rw [if_pos h0]; exact .inl ⟨_, rfl⟩
    · rw [if_neg h0, hmiss]; exact .inr ⟨h0, rfl⟩
  cases hr with
  | fail e => exact fails e
  | ok =>
    rcases hrun with ⟨e, hf⟩ | ⟨h0, hf⟩
    · rw [Calm.run_of_err hf] at *; exact fails e
    · rw [Calm.run_of_ok hf] at *; exact wins h0 _
  | lost e =>
    rcases hrun with ⟨e', hf⟩ | ⟨h0, hf⟩
    · rw [Calm.run_of_err hf] at *; exact fails e
    · rw [Calm.run_of_ok hf] at *; exact wins h0 _
  | part e x hx => cases hx

end Tork.Origin

import Verif.DS
/-! Lookup lemmas for the datastore model. -/

namespace Tork

theorem find?_map_key {α : Type} (key : α → Nat) (f : α → α) (hf : ∀ a, key (f a) = key a) (k : Nat)
    (l : List α) : (l.map f).find? (fun a => decide (key a = k)) =
      (l.find? fun a => decide (key a = k)).map f := by
  induction l with
  | nil => rfl
  | cons a l ih =>
    simp only [List.map_cons, List.find?_cons, hf]
    split <;> simp_all

theorem task?_setTask (ds : DS) (id k : Nat) (u : Task) :
    (ds.setTask id u).task? k =
      if k = id then (ds.task? k).map (persistTask · u) else ds.task? k := by
  unfold DS.setTask DS.task?
  rw [find?_map_key (·.id) (fun r => if r.id = id then persistTask r u else r)
    (fun a => by by_cases h : a.id = id <;> simp [h, persistTask])]
  cases h : ds.tasks.find? (fun a => decide (a.id = k)) with
  | none => simp
  | some r =>
    have hr : r.id = k := by simpa using List.find?_some h
    by_cases hk : k = id <;> simp [hk, hr]

@[simp] theorem job?_setTask (ds : DS) (id k : Nat) (u : Task) :
    (ds.setTask id u).job? k = ds.job? k := rfl

theorem job?_setJob (ds : DS) (id k : Nat) (u : Job) :
    (ds.setJob id u).job? k =
      if k = id then (ds.job? k).map (persistJob · u) else ds.job? k := by
  unfold DS.setJob DS.job?
  rw [find?_map_key (·.id) (fun r => if r.id = id then persistJob r u else r)
    (fun a => by by_cases h : a.id = id <;> simp [h, persistJob])]
  cases h : ds.jobs.find? (fun a => decide (a.id = k)) with
  | none => simp
  | some r =>
    have hr : r.id = k := by simpa using List.find?_some h
    by_cases hk : k = id <;> simp [hk, hr]

@[simp] theorem task?_setJob (ds : DS) (id k : Nat) (u : Job) :
    (ds.setJob id u).task? k = ds.task? k := rfl

theorem keys_setTask (ds : DS) (id : Nat) (u : Task) :
    (ds.setTask id u).tasks.map (·.id) = ds.tasks.map (·.id) := by
  simp only [DS.setTask, List.map_map]
  apply List.map_congr_left
  intro r _
  by_cases h : r.id = id <;> simp [h, persistTask]

theorem keys_setJob (ds : DS) (id : Nat) (u : Job) :
    (ds.setJob id u).jobs.map (·.id) = ds.jobs.map (·.id) := by
  simp only [DS.setJob, List.map_map]
  apply List.map_congr_left
  intro r _
  by_cases h : r.id = id <;> simp [h, persistJob]

theorem task?_append (ds : DS) (t : Task) (k : Nat) :
    DS.task? { ds with tasks := ds.tasks ++ [t] } k =
      (ds.task? k).or (if t.id = k then some t else none) := by
  simp only [DS.task?, List.find?_append]
  congr 1
  simp [List.find?_cons]
  split <;> simp_all

theorem job?_append (ds : DS) (j : Job) (k : Nat) :
    DS.job? { ds with jobs := ds.jobs ++ [j] } k =
      (ds.job? k).or (if j.id = k then some j else none) := by
  simp only [DS.job?, List.find?_append]
  congr 1
  simp [List.find?_cons]
  split <;> simp_all

theorem job?_mem {ds : DS} {n : Nat} {j : Job} (h : ds.job? n = some j) : j ∈ ds.jobs ∧ j.id = n := by
  unfold DS.job? at h
  exact ⟨List.mem_of_find?_eq_some h, by simpa using List.find?_some h⟩

theorem task?_mem {ds : DS} {n : Nat} {t : Task} (h : ds.task? n = some t) : t ∈ ds.tasks ∧ t.id = n := by
  unfold DS.task? at h
  exact ⟨List.mem_of_find?_eq_some h, by simpa using List.find?_some h⟩

theorem job?_isSome {ds : DS} {j : Job} (h : j ∈ ds.jobs) : ∃ j', ds.job? j.id = some j' := by
  cases hf : ds.job? j.id with
  | some j' => exact ⟨j', rfl⟩
  | none =>
    unfold DS.job? at hf
    rw [List.find?_eq_none] at hf
    have := hf j h
    simp at this

theorem find?_of_nodup {α : Type} (key : α → Nat) {l : List α} (h : (l.map key).Nodup) {a : α}
    (ha : a ∈ l) : l.find? (fun x => decide (key x = key a)) = some a := by
  induction l with
  | nil => simp at ha
  | cons x l ih =>
    simp only [List.map_cons, List.nodup_cons, List.mem_map] at h
    rcases List.mem_cons.1 ha with rfl | ha
    · simp
    · have : key x ≠ key a := fun he => h.1 ⟨a, ha, he.symm⟩
      simp only [List.find?_cons, this, decide_false]
      exact ih h.2 ha

theorem task?_of_mem {ds : DS} (h : (ds.tasks.map (·.id)).Nodup) {t : Task} (ht : t ∈ ds.tasks) :
    ds.task? t.id = some t := find?_of_nodup Task.id h ht

theorem job?_of_mem {ds : DS} (h : (ds.jobs.map (·.id)).Nodup) {j : Job} (ht : j ∈ ds.jobs) :
    ds.job? j.id = some j := find?_of_nodup Job.id h ht

end Tork

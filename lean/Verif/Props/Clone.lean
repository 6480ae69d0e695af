import Verif.CloneLemmas
import Verif.Heap
/-!
# C27 — Clone is an independent copy

* value part: what `Clone` returns, compared with `forgetRedelivery` of `CloneSpec.lean`;
* memory part (`Heap.lean`): which later writes can be seen through the other object.
-/

namespace Tork

/-- The clone of any task, however nested, equals the task in every field of every nested task except that the
redelivery counters are zero. -/
theorem C27_task_clone_value (t : Task) : t.clone = t.forgetRedelivery := clone_forget t

/-- If no task in the tree has been redelivered the clone equals the original; and cloning is idempotent. -/
theorem C27_task_clone_equal (t : Task) : (t.Undelivered → t.clone = t) ∧ t.clone.Undelivered ∧ t.clone.clone = t.clone := by
  have h : t.clone.Undelivered := by rw [clone_forget]; exact forget_undelivered t
  exact ⟨fun h => by rw [clone_forget, forget_of_undelivered t h], h,
    by rw [clone_forget t.clone, forget_of_undelivered _ h]⟩

/-- Full claim "equal object" fails for a redelivered task: the counter is lost. -/
theorem C27_clone_loses_redelivery (t : Task) (h : t.redelivered ≠ 0) : t.clone ≠ t := by
  intro e
  have : t.clone.redelivered = 0 := by cases t; rw [Task.clone]
  rw [e] at this
  exact h this

/-- A job without a deletion date, whose users carry no plain password and whose permissions name one role or user
each, is cloned to an equal job. -/
theorem C27_job_clone_equal (j : Job) (hd : j.deleteAt = none) (hu : ∀ u, j.createdBy = some u → u.NoPlainPassword)
    (hp : ∀ p ∈ j.permissions, p.Exact) (ht : UndeliveredL j.tasks) (he : UndeliveredL j.execution) : j.clone = j := by
  cases j
  simp only at hd hu hp ht he
  subst hd
  simp only [Job.clone, cloneL_forget, forgetL_of _ ht, forgetL_of _ he, usrOptClone _ hu, defClone, whsClone,
    permsClone _ hp, adClone, schClone, JobContext.clone]

/-- The clone never carries a deletion date: for a job that has one the clone differs. -/
theorem C27_job_clone_loses_deleteAt (j : Job) (h : j.deleteAt ≠ none) : j.clone ≠ j := fun e =>
  h (by rw [← e, Job.clone])

theorem C27_scheduled_job_clone_equal (j : ScheduledJob) (hu : ∀ u, j.createdBy = some u → u.NoPlainPassword)
    (hp : ∀ p ∈ j.permissions, p.Exact) (ht : UndeliveredL j.tasks) : j.clone = j := by
  cases j
  simp only at hu hp ht
  simp only [ScheduledJob.clone, cloneL_forget, forgetL_of _ ht, usrOptClone _ hu, defClone, whsClone,
    permsClone _ hp, adClone]

theorem C27_node_clone_equal (n : Node) : n.clone = n := rfl

/-- The stored hash is copied, a plain-text password never is. -/
theorem C27_user_clone (u : User) : u.clone = { u with password := "" } := rfl

/-- **Independence in memory.** Let `o` be the object graph of any task `t` at pairwise different addresses below
`n` in a heap `H`. After cloning, the clone reads as the original did and the original is untouched. Any later
mutation `H'` that only changes cells of the clone outside the fields `CMD`, `Entrypoint`, `Networks`, `Tags` (or
memory allocated later) is invisible through the original; and symmetrically. -/
theorem C27_clone_independent {V : Type} (t : Task) (o : Obj) (ho : o.shape = taskShape t) (H : Nat → V) (n : Nat)
    (hn : ∀ c ∈ o.cells, c.2 < n) (hd : (o.cells.map (·.2)).Nodup) :
    let o' := (o.clone H n).1
    let H1 := (o.clone H n).2.1
    o'.view H1 = o.view H ∧ o.view H1 = o.view H ∧
    (∀ H' : Nat → V, (∀ a, H' a ≠ H1 a → (o.clone H n).2.2 ≤ a ∨
        ∃ f, (f, a) ∈ o'.cells ∧ f ∉ ["CMD", "Entrypoint", "Networks", "Tags"]) → o.view H' = o.view H1) ∧
    (∀ H' : Nat → V, (∀ a, H' a ≠ H1 a → (o.clone H n).2.2 ≤ a ∨
        ∃ f, (f, a) ∈ o.cells ∧ f ∉ ["CMD", "Entrypoint", "Networks", "Tags"]) → o'.view H' = o'.view H1) := by
  have h := clone_task_ok t o ho H n hn
  refine ⟨h.same, view_congr o fun c hc => h.old _ (hn c hc), ?_, ?_⟩
  · intro H' hH
    refine view_congr o fun c hc => ?_
    refine Classical.byContradiction fun hne => ?_
    have hlt := hn c hc
    rcases hH c.2 hne with h1 | ⟨f, hf, hnf⟩
    · have := h.le; omega
    · rcases h.fresh _ hf with h2 | ⟨h2, _⟩
      · simp only at h2; omega
      · exact hnf h2
  · intro H' hH
    refine view_congr _ fun c hc => ?_
    refine Classical.byContradiction fun hne => ?_
    rcases hH c.2 hne with h1 | ⟨f, hf, hnf⟩
    · rcases h.fresh c hc with h2 | ⟨_, h2⟩
      · omega
      · have := h.le; have := hn c h2; omega
    · have hlt := hn _ hf
      rcases h.fresh c hc with h2 | ⟨h2, h3⟩
      · simp only at hlt; omega
      · have : c = (f, c.2) := inj_of_nodup_map hd h3 hf rfl
        rw [this] at h2
        exact hnf h2

/-- The hypothesis on the fields cannot be dropped: for every task there is a cell of the field `CMD` that belongs
to both objects, and writing it through the clone changes what a reader of the original sees. -/
theorem C27_cmd_is_shared {V : Type} (t : Task) (o : Obj) (ho : o.shape = taskShape t) (H : Nat → V) (n : Nat)
    (_hn : ∀ c ∈ o.cells, c.2 < n) :
    ∃ a, ("CMD", a) ∈ o.cells ∧ ("CMD", a) ∈ (o.clone H n).1.cells ∧
      ∀ v, v ≠ (o.clone H n).2.1 a → o.view (write (o.clone H n).2.1 a v) ≠ o.view (o.clone H n).2.1 := by
  obtain ⟨f, c, a, ks⟩ := o
  cases t
  rw [Obj.shape, taskShape] at ho
  injection ho with h1 h2 h3
  subst h2
  cases ks with
  | nil => rw [shapes] at h3; cases h3
  | cons k ks =>
    rw [shapes] at h3
    simp only [List.cons_append] at h3
    injection h3 with h3 _
    obtain ⟨f', c', a', ks'⟩ := k
    rw [Obj.shape, sharedCell] at h3
    injection h3 with h4 h5 h6
    subst h4 h5
    have hmem : ("CMD", a') ∈ (Obj.mk f true a (Obj.mk "CMD" false a' ks' :: ks)).cells := by
      simp [Obj.cells, cellsL]
    refine ⟨a', hmem, ?_, fun v hv hview => ?_⟩
    · simp [Obj.clone, cloneL, Obj.cells, cellsL]
    · have := view_inj _ _ _ hview _ hmem
      simp [write] at this
      exact hv this

/-! ### Concrete cases meeting the hypotheses -/

/-- A nested task: a parallel group with an `each` inside a branch. -/
def exNested : Task :=
  { id := 1, parallel := some { tasks := [{ name := "a", cmd := ["x"] },
      { name := "b", each := some { task := { env := [("k", "v")] } } }] } }

example : exNested.Undelivered := by
  simp [exNested, Task.Undelivered, UndeliveredL, UndeliveredP, UndeliveredE, UndeliveredS]

example : exNested.clone = exNested := (C27_task_clone_equal exNested).1 (by
  simp [exNested, Task.Undelivered, UndeliveredL, UndeliveredP, UndeliveredE, UndeliveredS])

mutual
/-- Lay a shape out in memory at consecutive addresses. -/
def Shape.layout : Shape → Nat → Obj × Nat
  | .mk f c ks, n => let r := layoutL ks (n + 1); (.mk f c n r.1, r.2)
def layoutL : List Shape → Nat → List Obj × Nat
  | [], n => ([], n)
  | s :: ss, n => let r := s.layout n; let r2 := layoutL ss r.2; (r.1 :: r2.1, r2.2)
end

mutual
theorem layout_ok : (s : Shape) → (n : Nat) → n ≤ (s.layout n).2 ∧ (s.layout n).1.shape = s ∧
    (∀ c ∈ (s.layout n).1.cells, n ≤ c.2 ∧ c.2 < (s.layout n).2) ∧ ((s.layout n).1.cells.map (·.2)).Nodup
  | .mk f c ks, n => by
    have h := layoutL_ok ks (n + 1)
    rw [Shape.layout]
    refine ⟨by have := h.1; simp only; omega, by simp only [Obj.shape, h.2.1], ?_, ?_⟩
    · simp only [Obj.cells, List.mem_cons]
      rintro c' (rfl | hc)
      · have := h.1; simp only; omega
      · have := h.2.2.1 c' hc; omega
    · simp only [Obj.cells, List.map_cons, List.nodup_cons]
      refine ⟨fun hc => ?_, h.2.2.2⟩
      obtain ⟨c', hc', e⟩ := List.mem_map.1 hc
      have := h.2.2.1 c' hc'
      omega
theorem layoutL_ok : (s : List Shape) → (n : Nat) → n ≤ (layoutL s n).2 ∧ shapes (layoutL s n).1 = s ∧
    (∀ c ∈ cellsL (layoutL s n).1, n ≤ c.2 ∧ c.2 < (layoutL s n).2) ∧ ((cellsL (layoutL s n).1).map (·.2)).Nodup
  | [], n => by rw [layoutL]; simp [shapes, cellsL]
  | s :: ss, n => by
    have h1 := layout_ok s n
    have h2 := layoutL_ok ss (s.layout n).2
    rw [layoutL]
    refine ⟨Nat.le_trans h1.1 h2.1, by simp only [shapes, h1.2.1, h2.2.1], ?_, ?_⟩
    · simp only [cellsL, List.mem_append]
      rintro c (hc | hc)
      · have := h1.2.2.1 c hc; have := h2.1; omega
      · have := h2.2.2.1 c hc; have := h1.1; omega
    · simp only [cellsL, List.map_append]
      refine List.nodup_append.2 ⟨h1.2.2.2, h2.2.2.2, ?_⟩
      intro a ha b hb e
      obtain ⟨c, hc, e1⟩ := List.mem_map.1 ha
      obtain ⟨c', hc', e2⟩ := List.mem_map.1 hb
      have := h1.2.2.1 c hc; have := h2.2.2.1 c' hc'; omega
end

/-- Every task has a memory layout meeting the hypotheses of `C27_clone_independent`. -/
example (t : Task) : ∃ (o : Obj) (n : Nat), o.shape = taskShape t ∧ (∀ c ∈ o.cells, c.2 < n) ∧
    (o.cells.map (·.2)).Nodup :=
  have h := layout_ok (taskShape t) 0
  ⟨_, _, h.2.1, fun c hc => (h.2.2.1 c hc).2, h.2.2.2⟩

/-- A job meeting the hypotheses of `C27_job_clone_equal`. -/
example : ({ tasks := [exNested], permissions := [{ role := some { slug := "r" } }, { user := some { username := "u" } }]
             createdBy := some { username := "u", passwordHash := "h" } } : Job).clone.permissions.length = 2 := by
  rw [C27_job_clone_equal]
  · rfl
  · rfl
  · intro u hu; cases hu; rfl
  · intro p hp
    simp only [List.mem_cons, List.not_mem_nil, or_false] at hp
    rcases hp with rfl | rfl
    · exact .inl ⟨_, rfl⟩
    · exact .inr ⟨{ username := "u" }, by unfold User.NoPlainPassword; rfl, rfl⟩
  · simp [exNested, Task.Undelivered, UndeliveredL, UndeliveredP, UndeliveredE, UndeliveredS]
  · simp [UndeliveredL]

end Tork

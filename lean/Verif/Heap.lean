import Verif.Types
/-!
# Sharing of memory between a task and its clone

The value-level model of `Clone` (`Clone.lean`) cannot express aliasing. Here the mutable memory of a Go task is
a tree of cells: the struct, each map, each slice's backing array, each nested struct reached by a pointer. For
every cell the model says whether `Clone` allocates a new one or copies the reference.
Cells that are never written through after creation (`*time.Time`) are not listed.
-/

namespace Tork

/-- Shape of an object graph: the field, whether `Clone` makes a copy of the cell, the cells below. -/
inductive Shape
  | mk (field : String) (copied : Bool) (kids : List Shape)

def cell (field : String) : Shape := .mk field true []
/-- a reference that `Clone` copies without copying what it refers to -/
def sharedCell (field : String) : Shape := .mk field false []

/-- `mount.go:19-35` -/
def mountShape (_ : Mount) : Shape := .mk "Mount" true [cell "Opts"]
/-- `job.go:310-317` -/
def webhookShape (_ : Webhook) : Shape := .mk "Webhook" true [cell "Headers"]

mutual
/-- `task.go:165-240`: `Clone` builds a new struct; `CMD`, `Entrypoint`, `Networks` and `Tags` are copied by
reference, all other maps, slices and pointers are cloned. -/
def taskShape : Task → Shape
  | { registry := registry, pre := pre, post := post, sidecars := sidecars, mounts := mounts, retry := retry, limits := limits
      parallel := par, each := ea, subJob := sj, probe := probe, .. } =>
    .mk "Task" true ([sharedCell "CMD", sharedCell "Entrypoint", sharedCell "Networks", sharedCell "Tags",
      cell "Env", cell "Files", .mk "Pre" true (tasksShape pre), .mk "Post" true (tasksShape post),
      .mk "Sidecars" true (tasksShape sidecars), .mk "Mounts" true (mounts.map mountShape)]
      ++ (if registry.isSome then [cell "Registry"] else []) ++ (if retry.isSome then [cell "Retry"] else [])
      ++ (if limits.isSome then [cell "Limits"] else []) ++ (if probe.isSome then [cell "Probe"] else [])
      ++ parShape par ++ eachShape ea ++ subJobShape sj)
def tasksShape : List Task → List Shape
  | [] => []
  | t :: ts => taskShape t :: tasksShape ts
/-- `task.go:288-294` -/
def parShape : Option (ParallelTask Task) → List Shape
  | none => []
  | some { tasks := ts, .. } => [.mk "Parallel" true [.mk "Tasks" true (tasksShape ts)]]
/-- `task.go:256-266` -/
def eachShape : Option (EachTask Task) → List Shape
  | none => []
  | some { task := t, .. } => [.mk "Each" true [taskShape t]]
/-- `task.go:268-286` -/
def subJobShape : Option (SubJobTask Task) → List Shape
  | none => []
  | some { tasks := ts, autoDelete := ad, webhooks := wh, .. } =>
    [.mk "SubJob" true ([cell "Inputs", cell "Secrets", .mk "Tasks" true (tasksShape ts),
      .mk "Webhooks" true (wh.map webhookShape)] ++ (if ad.isSome then [cell "AutoDelete"] else []))]
end

/-- An object graph in memory: a shape with an address for every cell. -/
inductive Obj
  | mk (field : String) (copied : Bool) (addr : Nat) (kids : List Obj)

mutual
def Obj.shape : Obj → Shape
  | .mk f c _ ks => .mk f c (shapes ks)
def shapes : List Obj → List Shape
  | [] => []
  | o :: os => o.shape :: shapes os
end

mutual
/-- All cells of an object, with the field they belong to. -/
def Obj.cells : Obj → List (String × Nat)
  | .mk f _ a ks => (f, a) :: cellsL ks
def cellsL : List Obj → List (String × Nat)
  | [] => []
  | o :: os => o.cells ++ cellsL os
end

mutual
/-- `Clone`: cells are copied to the addresses `n, n+1, …` (fresh memory) or shared. The heap is extended by the
copied contents. -/
def Obj.clone {V : Type} : Obj → (Nat → V) → Nat → Obj × (Nat → V) × Nat
  | .mk f false a ks, H, n => (.mk f false a ks, H, n)
  | .mk f true a ks, H, n =>
    let r := cloneL ks (fun x => if x = n then H a else H x) (n + 1)
    (.mk f true n r.1, r.2.1, r.2.2)
def cloneL {V : Type} : List Obj → (Nat → V) → Nat → List Obj × (Nat → V) × Nat
  | [], H, n => ([], H, n)
  | o :: os, H, n =>
    let r := o.clone H n
    let r2 := cloneL os r.2.1 r.2.2
    (r.1 :: r2.1, r2.2.1, r2.2.2)
end

mutual
/-- The contents of an object: what a reader of the task sees. -/
def Obj.view {V : Type} (H : Nat → V) : Obj → List V
  | .mk _ _ a ks => H a :: viewL H ks
def viewL {V : Type} (H : Nat → V) : List Obj → List V
  | [] => []
  | o :: os => o.view H ++ viewL H os
end

/-- Write `v` at address `a`. -/
def write {V : Type} (H : Nat → V) (a : Nat) (v : V) : Nat → V := fun x => if x = a then v else H x

/-! ## Lemmas -/

mutual
theorem view_congr {V : Type} {H H' : Nat → V} : (o : Obj) → (∀ c ∈ o.cells, H' c.2 = H c.2) → o.view H' = o.view H
  | .mk f c a ks, h => by
    rw [Obj.cells] at h
    rw [Obj.view, Obj.view, h (f, a) (by simp), viewL_congr ks fun c hc => h c (by simp [hc])]
theorem viewL_congr {V : Type} {H H' : Nat → V} : (os : List Obj) → (∀ c ∈ cellsL os, H' c.2 = H c.2) →
    viewL H' os = viewL H os
  | [], _ => by rw [viewL, viewL]
  | o :: os, h => by
    rw [cellsL] at h
    rw [viewL, viewL, view_congr o fun c hc => h c (by simp [hc]), viewL_congr os fun c hc => h c (by simp [hc])]
end

/-- What cloning does, for one object or a list of them. -/
structure CloneOK {V : Type} (H : Nat → V) (n : Nat) (cs cs' : List (String × Nat)) (v v' : List V)
    (H' : Nat → V) (n' : Nat) (shared : String → Prop) : Prop where
  le : n ≤ n'
  old : ∀ x, x < n → H' x = H x
  same : v' = v
  fresh : ∀ c ∈ cs', (n ≤ c.2 ∧ c.2 < n') ∨ (shared c.1 ∧ c ∈ cs)

mutual
/-- The fields of the cells that are not copied. -/
def Obj.uncopied : Obj → List String
  | .mk f false _ _ => [f]
  | .mk _ true _ ks => uncopiedL ks
def uncopiedL : List Obj → List String
  | [] => []
  | o :: os => o.uncopied ++ uncopiedL os
end

mutual
def Obj.leafShared : Obj → Prop
  | .mk _ false _ ks => ks = []
  | .mk _ true _ ks => leafSharedL ks
def leafSharedL : List Obj → Prop
  | [] => True
  | o :: os => o.leafShared ∧ leafSharedL os
end

mutual
theorem clone_ok {V : Type} : (o : Obj) → (H : Nat → V) → (n : Nat) → (∀ c ∈ o.cells, c.2 < n) → o.leafShared →
    CloneOK H n o.cells (o.clone H n).1.cells (o.view H) ((o.clone H n).1.view (o.clone H n).2.1)
      (o.clone H n).2.1 (o.clone H n).2.2 (· ∈ o.uncopied)
  | .mk f false a ks, H, n, _, hl => by
    rw [Obj.leafShared] at hl
    subst hl
    rw [Obj.clone]
    refine ⟨Nat.le_refl _, fun _ _ => rfl, rfl, fun c hc => .inr ⟨?_, hc⟩⟩
    simp [Obj.cells, cellsL] at hc
    simp [Obj.uncopied, hc]
  | .mk f true a ks, H, n, hc, hl => by
    rw [Obj.leafShared] at hl
    rw [Obj.cells] at hc
    have hH : ∀ c ∈ cellsL ks, (if c.2 = n then H a else H c.2) = H c.2 := by
      intro c h
      have := hc c (by simp [h])
      rw [if_neg (by omega)]
    have ih := cloneL_ok ks (fun x => if x = n then H a else H x) (n + 1)
      (fun c h => Nat.lt_succ_of_lt (hc c (by simp [h]))) hl
    rw [Obj.clone]
    refine ⟨?_, ?_, ?_, ?_⟩
    · have := ih.le; simp only; omega
    · intro x hx
      simp only
      rw [ih.old x (by omega), if_neg (by omega)]
    · simp only [Obj.view]
      rw [ih.old n (by omega), ih.same]
      simp only [if_pos]
      rw [viewL_congr ks hH]
    · intro c h
      simp only [Obj.cells, List.mem_cons] at h
      rcases h with rfl | h
      · left; have := ih.le; simp only; omega
      · rcases ih.fresh c h with h1 | ⟨h1, h2⟩
        · left; simp only; omega
        · right; exact ⟨by simp only [Obj.uncopied]; exact h1, by simp [Obj.cells, h2]⟩
theorem cloneL_ok {V : Type} : (os : List Obj) → (H : Nat → V) → (n : Nat) → (∀ c ∈ cellsL os, c.2 < n) →
    leafSharedL os →
    CloneOK H n (cellsL os) (cellsL (cloneL os H n).1) (viewL H os) (viewL (cloneL os H n).2.1 (cloneL os H n).1)
      (cloneL os H n).2.1 (cloneL os H n).2.2 (· ∈ uncopiedL os)
  | [], H, n, _, _ => by
    rw [cloneL]
    exact ⟨Nat.le_refl _, fun _ _ => rfl, by simp [viewL], fun c hc => by simp [cellsL] at hc⟩
  | o :: os, H, n, hc, hl => by
    rw [leafSharedL] at hl
    rw [cellsL] at hc
    have h1 := clone_ok o H n (fun c h => hc c (by simp [h])) hl.1
    have h2 := cloneL_ok os (o.clone H n).2.1 (o.clone H n).2.2
      (fun c h => Nat.lt_of_lt_of_le (hc c (by simp [h])) h1.le) hl.2
    rw [cloneL]
    refine ⟨Nat.le_trans h1.le h2.le, ?_, ?_, ?_⟩
    · intro x hx
      simp only
      rw [h2.old x (Nat.lt_of_lt_of_le hx h1.le), h1.old x hx]
    · simp only [viewL]
      rw [h2.same]
      have e1 : (o.clone H n).1.view (cloneL os (o.clone H n).2.1 (o.clone H n).2.2).2.1 =
          (o.clone H n).1.view (o.clone H n).2.1 := by
        apply view_congr
        intro c hcc
        apply h2.old
        rcases h1.fresh c hcc with h | ⟨_, h⟩
        · exact h.2
        · exact Nat.lt_of_lt_of_le (hc c (by simp [h])) h1.le
      have e2 : viewL (o.clone H n).2.1 os = viewL H os := by
        apply viewL_congr
        intro c hcc
        exact h1.old _ (hc c (by simp [hcc]))
      rw [e1, h1.same, e2]
    · intro c h
      simp only [cellsL, List.mem_append] at h
      rcases h with h | h
      · rcases h1.fresh c h with h3 | ⟨h3, h4⟩
        · left; exact ⟨h3.1, Nat.lt_of_lt_of_le h3.2 h2.le⟩
        · right; exact ⟨by simp only [uncopiedL, List.mem_append]; exact .inl h3, by simp [cellsL, h4]⟩
      · rcases h2.fresh c h with h3 | ⟨h3, h4⟩
        · left; exact ⟨Nat.le_trans h1.le h3.1, h3.2⟩
        · right; exact ⟨by simp only [uncopiedL, List.mem_append]; exact .inr h3, by simp [cellsL, h4]⟩
end

/-! ### Transfer from shapes to objects -/

mutual
def Shape.uncopied : Shape → List String
  | .mk f false _ => [f]
  | .mk _ true ks => shUncopiedL ks
def shUncopiedL : List Shape → List String
  | [] => []
  | o :: os => o.uncopied ++ shUncopiedL os
end

mutual
def Shape.leafShared : Shape → Prop
  | .mk _ false ks => ks = []
  | .mk _ true ks => shLeafSharedL ks
def shLeafSharedL : List Shape → Prop
  | [] => True
  | o :: os => o.leafShared ∧ shLeafSharedL os
end

mutual
theorem uncopied_shape : (o : Obj) → o.shape.uncopied = o.uncopied
  | .mk f false _ ks => by rw [Obj.shape, Shape.uncopied, Obj.uncopied]
  | .mk f true _ ks => by rw [Obj.shape, Shape.uncopied, Obj.uncopied, uncopied_shapes ks]
theorem uncopied_shapes : (os : List Obj) → shUncopiedL (shapes os) = uncopiedL os
  | [] => by rw [shapes, shUncopiedL, uncopiedL]
  | o :: os => by rw [shapes, shUncopiedL, uncopiedL, uncopied_shape o, uncopied_shapes os]
end

mutual
theorem leafShared_shape : (o : Obj) → o.shape.leafShared → o.leafShared
  | .mk f false _ ks => by
    rw [Obj.shape, Shape.leafShared, Obj.leafShared]
    intro h
    cases ks with
    | nil => rfl
    | cons k ks => rw [shapes] at h; cases h
  | .mk f true _ ks => by
    rw [Obj.shape, Shape.leafShared, Obj.leafShared]; exact leafShared_shapes ks
theorem leafShared_shapes : (os : List Obj) → shLeafSharedL (shapes os) → leafSharedL os
  | [] => by rw [shapes, shLeafSharedL, leafSharedL]; exact id
  | o :: os => by
    rw [shapes, shLeafSharedL, leafSharedL]
    exact fun h => ⟨leafShared_shape o h.1, leafShared_shapes os h.2⟩
end

/-- Both facts the main lemma needs about a shape. -/
def Shape.good (fs : List String) (s : Shape) : Prop := s.leafShared ∧ ∀ f ∈ s.uncopied, f ∈ fs
def goodL (fs : List String) (s : List Shape) : Prop := shLeafSharedL s ∧ ∀ f ∈ shUncopiedL s, f ∈ fs

theorem goodL_nil {fs : List String} : goodL fs [] := by
  constructor
  · rw [shLeafSharedL]; trivial
  · rw [shUncopiedL]; simp
theorem goodL_cons {fs : List String} {s : Shape} {ss : List Shape} (h : s.good fs) (h' : goodL fs ss) :
    goodL fs (s :: ss) := by
  constructor
  · rw [shLeafSharedL]; exact ⟨h.1, h'.1⟩
  · rw [shUncopiedL]; intro f hf
    rcases List.mem_append.1 hf with hf | hf
    · exact h.2 f hf
    · exact h'.2 f hf
theorem goodL_append {fs : List String} {s s' : List Shape} (h : goodL fs s) (h' : goodL fs s') :
    goodL fs (s ++ s') := by
  induction s with
  | nil => exact h'
  | cons x s ih =>
    rw [List.cons_append]
    have h1 := h.1
    have h2 := h.2
    rw [shLeafSharedL] at h1
    rw [shUncopiedL] at h2
    exact goodL_cons ⟨h1.1, fun f hf => h2 f (by simp [hf])⟩ (ih ⟨h1.2, fun f hf => h2 f (by simp [hf])⟩)
theorem good_mk {fs : List String} {f : String} {ks : List Shape} (h : goodL fs ks) : (Shape.mk f true ks).good fs := by
  constructor
  · rw [Shape.leafShared]; exact h.1
  · rw [Shape.uncopied]; exact h.2
theorem good_cell {fs : List String} {f : String} : (cell f).good fs := good_mk goodL_nil
theorem good_shared {fs : List String} {f : String} (h : f ∈ fs) : (sharedCell f).good fs := by
  constructor
  · rw [sharedCell, Shape.leafShared]
  · rw [sharedCell, Shape.uncopied]; intro g hg; rw [List.mem_singleton.1 hg]; exact h
theorem goodL_if {fs : List String} {b : Bool} {s : Shape} (h : s.good fs) :
    goodL fs (if b then [s] else []) := by
  cases b
  · exact goodL_nil
  · exact goodL_cons h goodL_nil
theorem goodL_map {α : Type} {fs : List String} {f : α → Shape} (h : ∀ a, (f a).good fs) (l : List α) :
    goodL fs (l.map f) := by
  induction l with
  | nil => exact goodL_nil
  | cons a l ih => exact goodL_cons (h a) ih

/-- The fields whose backing memory `Clone` shares. -/
def sharedFields : List String := ["CMD", "Entrypoint", "Networks", "Tags"]

mutual
theorem good_task : (t : Task) → (taskShape t).good sharedFields
  | { registry := registry, pre := pre, post := post, sidecars := sidecars, mounts := mounts, retry := retry, limits := limits
      parallel := par, each := ea, subJob := sj, probe := probe, .. } => by
    rw [taskShape]
    have hw : ∀ l : List Mount, goodL sharedFields (l.map mountShape) :=
      goodL_map fun m => good_mk (goodL_cons good_cell goodL_nil)
    refine good_mk (goodL_append (goodL_append (goodL_append (goodL_append (goodL_append (goodL_append
      (goodL_append ?_ (goodL_if good_cell)) (goodL_if good_cell)) (goodL_if good_cell)) (goodL_if good_cell))
      (good_par par)) (good_each ea)) (good_sub sj))
    exact goodL_cons (good_shared (by simp [sharedFields])) <| goodL_cons (good_shared (by simp [sharedFields])) <|
      goodL_cons (good_shared (by simp [sharedFields])) <| goodL_cons (good_shared (by simp [sharedFields])) <|
      goodL_cons good_cell <| goodL_cons good_cell <| goodL_cons (good_mk (good_tasks pre)) <|
      goodL_cons (good_mk (good_tasks post)) <| goodL_cons (good_mk (good_tasks sidecars)) <|
      goodL_cons (good_mk (hw mounts)) goodL_nil
theorem good_tasks : (ts : List Task) → goodL sharedFields (tasksShape ts)
  | [] => by rw [tasksShape]; exact goodL_nil
  | t :: ts => by rw [tasksShape]; exact goodL_cons (good_task t) (good_tasks ts)
theorem good_par : (p : Option (ParallelTask Task)) → goodL sharedFields (parShape p)
  | none => by rw [parShape]; exact goodL_nil
  | some { tasks := ts, .. } => by
    rw [parShape]
    exact goodL_cons (good_mk (goodL_cons (good_mk (good_tasks ts)) goodL_nil)) goodL_nil
theorem good_each : (p : Option (EachTask Task)) → goodL sharedFields (eachShape p)
  | none => by rw [eachShape]; exact goodL_nil
  | some { task := t, .. } => by
    rw [eachShape]
    exact goodL_cons (good_mk (goodL_cons (good_task t) goodL_nil)) goodL_nil
theorem good_sub : (p : Option (SubJobTask Task)) → goodL sharedFields (subJobShape p)
  | none => by rw [subJobShape]; exact goodL_nil
  | some { tasks := ts, autoDelete := ad, webhooks := wh, .. } => by
    rw [subJobShape]
    have hw : goodL sharedFields (wh.map webhookShape) :=
      goodL_map (fun m => good_mk (goodL_cons good_cell goodL_nil)) wh
    refine goodL_cons (good_mk (goodL_append ?_ (goodL_if good_cell))) goodL_nil
    exact goodL_cons good_cell <| goodL_cons good_cell <| goodL_cons (good_mk (good_tasks ts)) <|
      goodL_cons (good_mk hw) goodL_nil
end

/-- The main lemma for an object laid out like a task. -/
theorem clone_task_ok {V : Type} (t : Task) (o : Obj) (ho : o.shape = taskShape t) (H : Nat → V) (n : Nat)
    (hn : ∀ c ∈ o.cells, c.2 < n) :
    CloneOK H n o.cells (o.clone H n).1.cells (o.view H) ((o.clone H n).1.view (o.clone H n).2.1)
      (o.clone H n).2.1 (o.clone H n).2.2 (· ∈ sharedFields) := by
  have hg := good_task t
  rw [← ho] at hg
  have h := clone_ok o H n hn (leafShared_shape o hg.1)
  refine ⟨h.le, h.old, h.same, fun c hc => ?_⟩
  rcases h.fresh c hc with h1 | ⟨h1, h2⟩
  · exact .inl h1
  · exact .inr ⟨hg.2 _ (by rw [uncopied_shape]; exact h1), h2⟩

mutual
theorem view_len {V : Type} (H H' : Nat → V) : (o : Obj) → (o.view H).length = (o.view H').length
  | .mk _ _ _ ks => by rw [Obj.view, Obj.view, List.length_cons, List.length_cons, viewL_len H H' ks]
theorem viewL_len {V : Type} (H H' : Nat → V) : (os : List Obj) → (viewL H os).length = (viewL H' os).length
  | [] => by rw [viewL, viewL]
  | o :: os => by rw [viewL, viewL, List.length_append, List.length_append, view_len H H' o, viewL_len H H' os]
end

mutual
/-- A reader sees every change of every cell. -/
theorem view_inj {V : Type} (H H' : Nat → V) : (o : Obj) → o.view H' = o.view H → ∀ c ∈ o.cells, H' c.2 = H c.2
  | .mk f _ a ks => by
    rw [Obj.view, Obj.view, Obj.cells]
    intro h c hc
    rw [List.cons.injEq] at h
    rcases List.mem_cons.1 hc with rfl | hc
    · exact h.1
    · exact viewL_inj H H' ks h.2 c hc
theorem viewL_inj {V : Type} (H H' : Nat → V) : (os : List Obj) → viewL H' os = viewL H os →
    ∀ c ∈ cellsL os, H' c.2 = H c.2
  | [] => by rw [cellsL]; simp
  | o :: os => by
    rw [viewL, viewL, cellsL]
    intro h c hc
    have h' := List.append_inj h (view_len H' H o)
    rcases List.mem_append.1 hc with hc | hc
    · exact view_inj H H' o h'.1 c hc
    · exact viewL_inj H H' os h'.2 c hc
end

theorem inj_of_nodup_map {α β : Type} {f : α → β} {l : List α} (hd : (l.map f).Nodup) {a b : α} (ha : a ∈ l)
    (hb : b ∈ l) (e : f a = f b) : a = b := by
  induction l with
  | nil => cases ha
  | cons x l ih =>
    rw [List.map_cons, List.nodup_cons] at hd
    rcases List.mem_cons.1 ha with rfl | ha' <;> rcases List.mem_cons.1 hb with rfl | hb'
    · rfl
    · exact absurd (by rw [e]; exact List.mem_map_of_mem hb') hd.1
    · exact absurd (by rw [← e]; exact List.mem_map_of_mem ha') hd.1
    · exact ih hd.2 ha' hb'

end Tork

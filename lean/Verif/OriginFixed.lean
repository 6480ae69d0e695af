import Verif.OriginWorld
/-!
# Where tasks come from: what templates do not reach
-/

namespace Tork.Origin

theorem fixed_eq (t : Task) : Task.fixed t =
    { description := t.description, cmd := t.cmd.map fun _ => "", entrypoint := t.entrypoint, run := t.run, registry := t.registry
      env := mapVals (fun _ => "") t.env, files := t.files, pre := fixedL t.pre, post := fixedL t.post
      sidecars := forgetRedeliveryL t.sidecars, mounts := t.mounts, networks := t.networks, parallel := fixedP t.parallel
      each := fixedE t.each, subJob := fixedS t.subJob, gpus := t.gpus, tags := t.tags, workdir := t.workdir } := by
  cases t; rw [Task.fixed]

mutual
theorem fixed_forget : (t : Task) → Task.fixed t.forgetRedelivery = Task.fixed t
  | t@{ pre := pre, post := post, sidecars := sidecars, parallel := par, each := ea, subJob := sj, .. } => by
    simp only [Task.forgetRedelivery, Task.fixed, fixed_forgetL pre, fixed_forgetL post, forget_idemL sidecars, fixed_forgetP par,
      fixed_forgetE ea, fixed_forgetS sj]
theorem fixed_forgetL : (ts : List Task) → fixedL (forgetRedeliveryL ts) = fixedL ts
  | [] => by simp only [forgetRedeliveryL]
  | t :: ts => by simp only [forgetRedeliveryL, fixedL, fixed_forget t, fixed_forgetL ts]
theorem fixed_forgetP : (p : Option (ParallelTask Task)) → fixedP (forgetRedeliveryP p) = fixedP p
  | none => by simp only [forgetRedeliveryP]
  | some { tasks := ts, .. } => by simp only [forgetRedeliveryP, fixedP, fixed_forgetL ts]
theorem fixed_forgetE : (p : Option (EachTask Task)) → fixedE (forgetRedeliveryE p) = fixedE p
  | none => by simp only [forgetRedeliveryE]
  | some { task := t, .. } => by simp only [forgetRedeliveryE, fixedE, fixed_forget t]
theorem fixed_forgetS : (p : Option (SubJobTask Task)) → fixedS (forgetRedeliveryS p) = fixedS p
  | none => by simp only [forgetRedeliveryS]
  | some { tasks := ts, .. } => by simp only [forgetRedeliveryS, fixedS, forget_idemL ts]
end

mutual
theorem fixed_mapCmds (f : String → String) : (t : Task) → Task.fixed (t.mapCmds f) = Task.fixed t
  | t@{ pre := pre, post := post, parallel := par, .. } => by
    simp only [Task.mapCmds, Task.fixed, fixed_mapCmdsL f pre, fixed_mapCmdsL f post, fixed_mapCmdsP f par, List.map_map]
    congr 1
theorem fixed_mapCmdsL (f : String → String) : (ts : List Task) → fixedL (mapCmdsL f ts) = fixedL ts
  | [] => by simp only [mapCmdsL]
  | t :: ts => by simp only [mapCmdsL, fixedL, fixed_mapCmds f t, fixed_mapCmdsL f ts]
theorem fixed_mapCmdsP (f : String → String) : (p : Option (ParallelTask Task)) → fixedP (mapCmdsP f p) = fixedP p
  | none => by simp only [mapCmdsP]
  | some { tasks := ts, .. } => by simp only [mapCmdsP, fixedP, fixed_mapCmdsL f ts]
end

theorem fixed_work (t : Task) : Task.fixed (work t) = Task.fixed t := by
  rw [fixed_eq, fixed_eq t]
  simp only [work, fixed_forgetL, forget_idemL]
  congr 1
  · cases t.parallel with
    | none => rfl
    | some p => simp only [Option.map_some, branches, fixedP, fixed_forgetL]
  · cases t.each with
    | none => rfl
    | some p => simp only [Option.map_some, loop, fixedE, fixed_forget, fixed_mapCmds]
  · cases t.subJob with
    | none => rfl
    | some p => simp only [Option.map_some, subDef, fixedS, forget_idemL]

theorem fixed_same {a b : Task} (h : SameWork a b) : Task.fixed a = Task.fixed b := by
  rw [← fixed_work a, h.1, fixed_work]

theorem fixed_clone (t : Task) : Task.fixed t.clone = Task.fixed t := fixed_same (same_clone t)

theorem evalMap_keys (tm : String → Except Err String) (m : StrMap) : mapVals (fun _ => "") (evalMap tm m).1 = mapVals (fun _ => "") m := by
  induction m with
  | nil => rfl
  | cons kv m ih =>
    obtain ⟨k, v⟩ := kv
    rw [evalMap]
    cases tm v with
    | error e => rfl
    | ok r => exact congrArg (List.cons (k, "")) ih

theorem evalList_length (tm : String → Except Err String) (m : List String) : ((evalList tm m).1.map fun _ => "") = m.map fun _ => "" := by
  induction m with
  | nil => rfl
  | cons v m ih =>
    rw [evalList]
    cases tm v with
    | error e => rfl
    | ok r => exact congrArg (List.cons "") ih

theorem fixedS_eval (tm : String → Except Err String) (s : SubJobTask Task) : fixedS (some (evalSubJob tm s).1) = fixedS (some s) := by
  unfold evalSubJob
  repeat' split
  all_goals rfl

theorem fixed_start (tm : String → Except Err String) (t : Task) : Task.fixed (evalTaskStart tm t).1 = Task.fixed t ∧
    (evalTaskStart tm t).1.pre = t.pre ∧ (evalTaskStart tm t).1.post = t.post ∧ (evalTaskStart tm t).1.parallel = t.parallel := by
  have h := evalMap_keys tm t.env
  unfold evalTaskStart
  rcases he : evalMap tm t.env with ⟨env, er⟩
  rw [he] at h
  dsimp only at h
  repeat' split
  all_goals refine ⟨?_, rfl, rfl, rfl⟩
  all_goals simp only [fixed_eq, Prod.mk.injEq] at *
  all_goals grind

theorem fixed_end (tm : String → Except Err String) (t : Task) : Task.fixed (evalTaskEnd tm t).1 = Task.fixed t := by
  have h := evalList_length tm t.cmd
  unfold evalTaskEnd
  split
  · rename_i he; rw [he] at h; rw [fixed_eq, fixed_eq t]; dsimp only at h ⊢; rw [h]
  · rename_i he
    rw [he] at h
    split
    · rw [fixed_eq, fixed_eq t]; dsimp only at h ⊢; rw [h]
    · rename_i s hs
      rw [fixed_eq, fixed_eq t]; dsimp only at h ⊢; rw [h, hs, fixedS_eval]

theorem fixed_parts {a : Task} {pre post : List Task} {par : Option (ParallelTask Task)} (h1 : fixedL pre = fixedL a.pre)
    (h2 : fixedL post = fixedL a.post) (h3 : fixedP par = fixedP a.parallel) :
    Task.fixed { a with pre := pre, post := post, parallel := par } = Task.fixed a := by
  rw [fixed_eq, fixed_eq a]; dsimp only; rw [h1, h2, h3]

theorem fixed_one {tm : String → Except Err String} {t : Task} (hpre : fixedL (evalTasks tm t.pre).1 = fixedL t.pre)
    (hpost : fixedL (evalTasks tm t.post).1 = fixedL t.post) (hpar : fixedP (evalPar tm t.parallel).1 = fixedP t.parallel) :
    Task.fixed (evaluateTask tm t).1 = Task.fixed t := by
  rw [evaluateTask_eq]
  obtain ⟨h0, h1, h2, h3⟩ := fixed_start tm t
  rcases hst : evalTaskStart tm t with ⟨t1, e1⟩
  rw [hst] at h0 h1 h2 h3
  dsimp only at h0 h1 h2 h3
  rw [← h1] at hpre; rw [← h2] at hpost; rw [← h3] at hpar
  cases e1 with
  | some e => exact h0
  | none =>
    dsimp only
    rw [← h1, ← h2, ← h3]
    rcases hp : evalTasks tm t1.pre with ⟨pre, e2⟩
    rw [hp] at hpre
    cases e2 with
    | some e => exact (fixed_parts (a := t1) hpre rfl rfl).trans h0
    | none =>
      dsimp only
      rcases hq : evalTasks tm t1.post with ⟨post, e3⟩
      rw [hq] at hpost
      cases e3 with
      | some e => exact (fixed_parts (a := t1) hpre hpost rfl).trans h0
      | none =>
        dsimp only
        rcases hr : evalPar tm t1.parallel with ⟨par, e4⟩
        rw [hr] at hpar
        cases e4 with
        | some e => exact (fixed_parts (a := t1) hpre hpost hpar).trans h0
        | none => exact (fixed_end tm _).trans ((fixed_parts (a := t1) hpre hpost hpar).trans h0)

mutual
theorem fixed_evaluate (tm : String → Except Err String) : (t : Task) → Task.fixed (evaluateTask tm t).1 = Task.fixed t
  | t@{ pre := pre, post := post, parallel := par, .. } =>
    fixed_one (fixed_evalTasks tm pre) (fixed_evalTasks tm post) (fixed_evalPar tm par)
theorem fixed_evalTasks (tm : String → Except Err String) : (ts : List Task) → fixedL (evalTasks tm ts).1 = fixedL ts
  | [] => by rw [evalTasks]
  | t :: ts => by
    have h1 := fixed_evaluate tm t
    have h2 := fixed_evalTasks tm ts
    rw [evalTasks]
    rcases he : evaluateTask tm t with ⟨t1, e⟩
    rw [he] at h1
    cases e with
    | some e => simp only [fixedL]; rw [h1]
    | none => simp only [fixedL]; rw [h1, h2]
theorem fixed_evalPar (tm : String → Except Err String) : (p : Option (ParallelTask Task)) → fixedP (evalPar tm p).1 = fixedP p
  | none => by rw [evalPar]
  | some { tasks := ts, completions := c } => by
    have h := fixed_evalTasks tm ts
    rw [evalPar]
    simp only [fixedP]
    rw [h]
end

/-! ## Descent -/

theorem mem_fixedL {x : Task} {l : List Task} (h : x ∈ l) : Task.fixed x ∈ fixedL l := by
  induction l with
  | nil => cases h
  | cons y l ih =>
    rw [fixedL]
    rcases List.mem_cons.1 h with rfl | h
    · exact List.mem_cons_self ..
    · exact List.mem_cons_of_mem _ (ih h)

theorem of_mem_fixedL {y : Task} {l : List Task} (h : y ∈ fixedL l) : ∃ x ∈ l, Task.fixed x = y := by
  induction l with
  | nil => rw [fixedL] at h; cases h
  | cons z l ih =>
    rw [fixedL] at h
    rcases List.mem_cons.1 h with rfl | h
    · exact ⟨z, List.mem_cons_self .., rfl⟩
    · obtain ⟨x, h1, h2⟩ := ih h
      exact ⟨x, List.mem_cons_of_mem _ h1, h2⟩

theorem fixed_branch {p d x : Task} {q : ParallelTask Task} (h : Task.fixed p = Task.fixed d) (hq : p.parallel = some q)
    (hx : x ∈ q.tasks) : ∃ q' y, d.parallel = some q' ∧ y ∈ q'.tasks ∧ Task.fixed x = Task.fixed y := by
  rw [fixed_eq p, fixed_eq d, hq] at h
  have h : fixedP (some q) = fixedP d.parallel := congrArg Task.parallel h
  cases hd : d.parallel with
  | none => rw [hd] at h; cases h
  | some q' =>
    rw [hd] at h
    simp only [fixedP, Option.some.injEq, ParallelTask.mk.injEq] at h
    have := mem_fixedL hx
    rw [h.1] at this
    obtain ⟨y, h1, h2⟩ := of_mem_fixedL this
    exact ⟨q', y, rfl, h1, h2.symm⟩

theorem fixed_body {p d : Task} {e : EachTask Task} (h : Task.fixed p = Task.fixed d) (hq : p.each = some e) :
    ∃ e', d.each = some e' ∧ Task.fixed e.task = Task.fixed e'.task := by
  rw [fixed_eq p, fixed_eq d, hq] at h
  have h : fixedE (some e) = fixedE d.each := congrArg Task.each h
  cases hd : d.each with
  | none => rw [hd] at h; cases h
  | some e' =>
    rw [hd] at h
    simp only [fixedE, Option.some.injEq, EachTask.mk.injEq] at h
    exact ⟨e', rfl, by grind⟩

end Tork.Origin

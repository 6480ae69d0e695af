import Verif.Props.Podman
/-!
# C64 — the Podman runtime: clean-up and order
-/

namespace Tork.Podman
open Calls

/-! ## Specification -/

/-- The table of running tasks behaves like a map, and nobody else uses the entries of the tasks in question: what is looked up is what was
registered last. `s` is the table at the beginning. -/
def Honest : (Nat → Option String) → List Ev → Prop
  | _, [] => True
  | s, (c, r) :: l =>
    match c with
    | .register i x => Honest (fun j => if j = i then some x else s j) l
    | .forget i => Honest (fun j => if j = i then none else s j) l
    | .lookup i => (if r.ok then some r.text else none) = s i ∧ Honest s l
    | _ => Honest s l

/-- the file or directory a call makes -/
def made : Call → Option String
  | .mkdir p => some p
  | .touch p => some p
  | .write p _ => some p
  | _ => none

/-- Task `x` was run in a container of its own: the script and the files were written to its directory, the container was created with the
arguments for this task, was started and ended with status 0, and `res` is what it left in its output file. -/
structure Success (cfg : Config) (x : Task) (l : List Ev) (res : String) : Prop where
  order : ∃ c args r0 r1 r2 r3 r4 r5 r6,
    [(.mkdir (workDir cfg x), r0), (.write (workDir cfg x ++ "/entrypoint.sh") (if x.run ≠ "" then x.run else String.intercalate " " x.cmd), r1),
      (.create args, r2), (.start c, r3), (.logs c, r4), (.exitCode c, r5), (.read (workDir cfg x ++ "/output"), r6)].Sublist l ∧
    createArgs cfg x = some args ∧ r0.ok = true ∧ r1.ok = true ∧ r2.ok = true ∧ r2.text = c ∧ r3.ok = true ∧ r4.ok = true ∧ r5.ok = true ∧
    r5.text = "0" ∧ r6.ok = true ∧ r6.text = res
  files : ∀ f ∈ x.files, ∃ r, (Call.write (workDir cfg x ++ "/workdir/" ++ f.1) f.2, r) ∈ l ∧ r.ok = true

/-- the mounts of a task and what they became -/
inductive Provided (cfg : Config) : List Mount → List Mount → Prop
  | nil : Provided cfg [] []
  | cons {m m' : Mount} {ms ms' : List Mount} : Provides cfg m m' → Provided cfg ms ms' → Provided cfg (m :: ms) (m' :: ms')

/-- The pre- or post-tasks `xs` of `t` were run successfully, one after the other, each under a new id, with the mounts `ms`, the networks and
the limits of `t`. -/
inductive InOrder (cfg : Config) (t : Task) (ms : List Mount) : List Task → List Ev → Prop
  | nil : InOrder cfg t ms [] []
  | cons {x : Task} {xs : List Task} {l l' : List Ev} {i : Nat} {res : String} :
      Success cfg { x with id := i, mounts := ms, networks := t.networks, limits := t.limits } l res → InOrder cfg t ms xs l' →
      InOrder cfg t ms (x :: xs) (l ++ l')

/-! ## Containers -/

/-- `register` and `forget` do not occur -/
def Still (l : List Ev) : Prop := ∀ e ∈ l, (∀ i c, e.1 ≠ .register i c) ∧ ∀ i, e.1 ≠ .forget i

/-- every container is registered at once, and looked up and removed later -/
def Removed (l : List Ev) : Prop :=
  ∀ l1 a r l2, l = l1 ++ (.create a, r) :: l2 → r.ok = true → r.text ≠ "" →
    ∃ i r1 m rl l3, l2 = (.register i r.text, r1) :: (m ++ (.lookup i, rl) :: l3) ∧ Still m ∧ (rl.ok = true → ∃ r', (Call.rm rl.text, r') ∈ l3)

theorem Removed.append {l l' : List Ev} (h : Removed l) (h' : Removed l') : Removed (l ++ l') := by
  intro l1 a r l2 hl hr ht
  rcases append_cut hl with ⟨k, h1, rfl⟩ | ⟨k, rfl, h2⟩
  · obtain ⟨i, r1, m, rl, l3, rfl, h3, h4⟩ := h l1 a r k h1 hr ht
    refine ⟨i, r1, m, rl, l3 ++ l', by simp, h3, fun ho => ?_⟩
    obtain ⟨r', hr'⟩ := h4 ho
    exact ⟨r', List.mem_append_left _ hr'⟩
  · exact h' k a r l2 h2 hr ht

def NoCreate (e : Ev) : Prop := ∀ a, e.1 ≠ .create a

theorem Removed.of {l : List Ev} (h : ∀ e ∈ l, NoCreate e) : Removed l := by
  rintro l1 a r l2 rfl
  exact absurd rfl (h (.create a, r) (by simp) a)

theorem Removed.bind {α β : Type} {p : Prog α} {f : α → Prog β} (h : Spec (fun l _ => Removed l) p)
    (h' : ∀ a, Spec (fun l _ => Removed l) (f a)) : Spec (fun l _ => Removed l) (p >>= f) :=
  Spec.bind h fun _ a hl => (h' a).mono fun _ _ hl' => hl.append hl'

section
variable {cfg : Config}

theorem each_allOk {Q : Ev → Prop} : ∀ {cs : List Call}, (∀ c ∈ cs, ∀ r, Q (c, r)) → Each Q (allOk cs)
  | [], _ => .pure
  | c :: cs, h => .call (h c (by simp)) fun r => .ite (fun _ => each_allOk fun c hc => h c (by simp [hc])) fun _ => .pure

theorem each_imagePull {Q : Ev → Prop} {image : String} (h : ∀ c r, (c = .known image ∨ c = .inspect image ∨ c = .pull image ∨ c = .remember image) → Q (c, r)) :
    Each Q (imagePull image) :=
  .call (fun r => h _ r (.inl rfl)) fun _ => .ite (fun _ => .pure) fun _ => .call (fun r => h _ r (.inr (.inl rfl))) fun _ =>
    .ite (fun _ => .call (fun r => h _ r (.inr (.inr (.inr rfl)))) fun _ => .pure) fun _ => .call (fun r => h _ r (.inr (.inr (.inl rfl)))) fun _ =>
      .ite (fun _ => .call (fun r => h _ r (.inr (.inr (.inr rfl)))) fun _ => .pure) fun _ => .pure

theorem mem_setup {dir : String} {t : Task} {c : Call} (h : c ∈ setup dir t) : (∃ s, made c = some (dir ++ "/" ++ s)) ∨ ∃ p, c = .chmod p := by
  simp only [setup, List.mem_cons, List.not_mem_nil, or_false] at h
  rcases h with rfl | rfl | rfl | rfl | rfl
  · exact .inl ⟨"output", by simp only [made, String.append_assoc]; rfl⟩
  · exact .inr ⟨_, rfl⟩
  · exact .inl ⟨"progress", by simp only [made, String.append_assoc]; rfl⟩
  · exact .inr ⟨_, rfl⟩
  · exact .inl ⟨"entrypoint.sh", by simp only [made, String.append_assoc]; rfl⟩

theorem mem_fileCalls {dir : String} {t : Task} {c : Call} (h : c ∈ fileCalls dir t) : ∃ s, made c = some (dir ++ "/" ++ s) := by
  simp only [fileCalls, List.mem_flatMap, List.mem_cons, List.not_mem_nil, or_false] at h
  obtain ⟨f, _, rfl | rfl⟩ := h
  · exact ⟨"workdir", by simp only [made, String.append_assoc]; rfl⟩
  · exact ⟨"workdir/" ++ f.1, by
      simp only [made, String.append_assoc]
      rw [← String.append_assoc (s₁ := "/") (s₂ := "workdir/")]; rfl⟩

/-- what is done before a container is created -/
def Prepares (dir : String) (e : Ev) : Prop :=
  (∃ s, made e.1 = some (dir ++ "/" ++ s)) ∨ (∃ p, e.1 = .chmod p) ∨ (∃ i, e.1 = .known i) ∨ (∃ i, e.1 = .inspect i) ∨ (∃ i, e.1 = .pull i) ∨
    ∃ i, e.1 = .remember i

theorem Prepares.noCreate {dir : String} {e : Ev} (h : Prepares dir e) : NoCreate e := by
  intro a ha
  simp [Prepares, ha, made] at h

theorem each_prepare (t : Task) : Each (Prepares (workDir cfg t)) (prepare cfg t) := by
  have h1 : Each (Prepares (workDir cfg t)) (allOk (setup (workDir cfg t) t)) := each_allOk fun c hc r => by
    rcases mem_setup hc with h | h
    · exact .inl h
    · exact .inr (.inl h)
  have h2 : Each (Prepares (workDir cfg t)) (allOk (fileCalls (workDir cfg t) t)) := each_allOk fun c hc r => .inl (mem_fileCalls hc)
  have h3 : Each (Prepares (workDir cfg t)) (imagePull t.image) := each_imagePull fun c r hc => by
    rcases hc with rfl | rfl | rfl | rfl <;> simp [Prepares]
  refine h1.bind fun ok => .ite (fun _ => .pure) fun _ => h3.bind fun ok => .ite (fun _ => .pure) fun _ => ?_
  split
  · exact .pure
  · exact h2.bind fun ok => .ite (fun _ => .pure) fun _ => .pure

/-- what is done with a container -/
def Watches (dir : String) (e : Ev) : Prop :=
  (∃ c, e.1 = .start c) ∨ (∃ c, e.1 = .logs c) ∨ (∃ c, e.1 = .exitCode c) ∨ e.1 = .read (dir ++ "/output")

theorem each_watch (dir c : String) : Each (Watches dir) (watch dir c) :=
  .call (fun _ => .inl ⟨c, rfl⟩) fun _ => .ite (fun _ => .pure) fun _ => .call (fun _ => .inr (.inl ⟨c, rfl⟩)) fun _ => .ite (fun _ => .pure) fun _ =>
    .call (fun _ => .inr (.inr (.inl ⟨c, rfl⟩))) fun _ => .ite (fun _ => .pure) fun _ => .ite (fun _ => .pure) fun _ =>
    .call (fun _ => .inr (.inr (.inr rfl))) fun _ => .ite (fun _ => .pure) fun _ => .pure

/-- the shape of `contain` -/
theorem contain_shape (t : Task) (args : List String) : Spec (fun l o =>
    (∃ r, l = [(.create args, r)] ∧ (r.ok = false ∨ r.text = "") ∧ o = none) ∨
    ∃ r r1 w rl s, l = (.create args, r) :: (.register t.id r.text, r1) :: (w ++ (.lookup t.id, rl) :: s) ∧ r.ok = true ∧ r.text ≠ "" ∧
      (∀ e ∈ w, Watches (workDir cfg t) e) ∧ (∀ e ∈ s, (∃ i, e.1 = .forget i) ∨ ∃ c, e.1 = .rm c) ∧
      (rl.ok = true → ∃ r', (Call.rm rl.text, r') ∈ s) ∧
      (∀ res, o = some res → ∃ a b c d, w = [(.start r.text, a), (.logs r.text, b), (.exitCode r.text, c), (.read (workDir cfg t ++ "/output"), d)] ∧
        a.ok = true ∧ b.ok = true ∧ c.ok = true ∧ c.text = "0" ∧ d.ok = true ∧ d.text = res)) (contain cfg t args) := by
  refine Spec.call fun r => Spec.ite (fun h => Spec.pure (.inl ⟨r, rfl, .inl (by simpa using h), rfl⟩)) fun h =>
    Spec.ite (fun ht => Spec.pure (.inl ⟨r, rfl, .inr ht, rfl⟩)) fun ht => Spec.call fun r1 => ?_
  have hw := each_watch (workDir cfg t) r.text
  have hres : Spec (fun w (o : Option String) => ∀ res, o = some res → ∃ a b c d, w = [(Call.start r.text, a), (.logs r.text, b), (.exitCode r.text, c),
      (.read (workDir cfg t ++ "/output"), d)] ∧ a.ok = true ∧ b.ok = true ∧ c.ok = true ∧ c.text = "0" ∧ d.ok = true ∧ d.text = res)
      (watch (workDir cfg t) r.text) := by
    refine Spec.call fun a => Spec.ite (fun _ => Spec.pure (by simp)) fun ha => Spec.call fun b => Spec.ite (fun _ => Spec.pure (by simp)) fun hb =>
      Spec.call fun c => Spec.ite (fun _ => Spec.pure (by simp)) fun hc => Spec.ite (fun _ => Spec.pure (by simp)) fun hc' => Spec.call fun d =>
      Spec.ite (fun hd => Spec.pure ?_) fun _ => Spec.pure (by simp)
    rintro res ⟨⟩
    exact ⟨a, b, c, d, rfl, by simpa using ha, by simpa using hb, by simpa using hc, by simpa using hc', hd, rfl⟩
  refine Spec.bind (Spec.and hw hres) fun w o hw => ?_
  refine Spec.bind (Φ := fun l _ => ∃ rl s, l = (.lookup t.id, rl) :: s ∧ (∀ e ∈ s, (∃ i, e.1 = .forget i) ∨ ∃ c, e.1 = .rm c) ∧
    (rl.ok = true → ∃ r', (Call.rm rl.text, r') ∈ s)) ?_ ?_
  · refine Spec.call fun rl => Spec.ite (fun hr => Spec.call fun a => Spec.call fun b => Spec.pure ?_) fun hr => Spec.pure ?_
    · exact ⟨rl, _, rfl, by simp, fun _ => ⟨b, by simp⟩⟩
    · exact ⟨rl, [], rfl, by simp, fun h => absurd h hr⟩
  · rintro l3 - ⟨rl, s, rfl, hs, hrm⟩
    exact Spec.pure (.inr ⟨r, r1, w, rl, s, by simp, by simpa using h, ht, hw.1, hs, hrm, hw.2⟩)

theorem removed_contain (t : Task) (args : List String) : Spec (fun l _ => Removed l) (contain cfg t args) := by
  refine (contain_shape t args).mono ?_
  rintro l o (⟨r, rfl, hr, -⟩ | ⟨r, r1, w, rl, s, rfl, hr, ht, hw, hs, hrm, -⟩)
  · intro l1 a r' l2 hl hr' ht'
    cases l1 with
    | cons b l1 => simp at hl
    | nil =>
      injection hl with h1 h2
      cases h1
      rcases hr with hr | hr
      · rw [hr] at hr'; cases hr'
      · exact absurd hr ht'
  · intro l1 a r' l2 hl hr' ht'
    cases l1 with
    | nil =>
      injection hl with h1 h2
      cases h1
      refine ⟨t.id, r1, w, rl, s, h2.symm, ?_, hrm⟩
      intro e he
      have := hw e he
      constructor
      · intro i c hc; simp [Watches, hc] at this
      · intro i hc; simp [Watches, hc] at this
    | cons b l1 =>
      exfalso
      injection hl with h1 h2
      have : (Call.create a, r') ∈ (Call.register t.id r.text, r1) :: (w ++ (Call.lookup t.id, rl) :: s) := by rw [h2]; simp
      simp only [List.mem_cons, List.mem_append, Prod.mk.injEq, reduceCtorEq, false_and, false_or] at this
      rcases this with h | h
      · have := hw _ h; simp [Watches] at this
      · have := hs _ h; simp at this

theorem removed_of_each {α : Type} {p : Prog α} {Q : Ev → Prop} (h : Each Q p) (hq : ∀ e, Q e → NoCreate e) : Spec (fun l _ => Removed l) p :=
  Spec.mono h fun _ _ hl => .of fun e he => hq e (hl e he)

theorem removed_doRun (t : Task) : Spec (fun l _ => Removed l) (doRun cfg t) := by
  refine Spec.call fun r => Spec.mono (Φ := fun l _ => Removed l) ?_ fun l _ hl => Removed.append (l := [(.mkdir (workDir cfg t), r)]) (.of (by simp [NoCreate])) hl
  refine Spec.ite (fun _ => Spec.pure (.of (by simp))) fun _ => Removed.bind ?_ fun o => ?_
  · refine Removed.bind (removed_of_each (each_prepare t) fun e => Prepares.noCreate) fun o => ?_
    cases o with
    | none => exact Spec.pure (.of (by simp))
    | some args => exact removed_contain t args
  · exact Spec.call fun r => Spec.pure (.of (by simp [NoCreate]))

theorem removed_runAll (t : Task) : ∀ xs, Spec (fun l _ => Removed l) (runAll cfg t xs)
  | [] => Spec.pure (.of (by simp))
  | x :: xs => Spec.fresh fun i => Removed.bind (removed_doRun _) fun o => by
    cases o with
    | none => exact Spec.pure (.of (by simp))
    | some r => exact removed_runAll t xs

theorem removed_tasks (t : Task) : Spec (fun l _ => Removed l) (tasks cfg t) := by
  refine Removed.bind (removed_runAll t t.pre) fun ok => Spec.ite (fun _ => Spec.pure (.of (by simp))) fun _ => Removed.bind (removed_doRun t) fun o => ?_
  cases o with
  | none => exact Spec.pure (.of (by simp))
  | some r => exact Removed.bind (removed_runAll t t.post) fun ok => Spec.ite (fun _ => Spec.pure (.of (by simp))) fun _ => Spec.pure (.of (by simp))

theorem each_mountOne {Q : Ev → Prop} (m : Mount) (h1 : ∀ r, Q (.hostDir m.source, r)) (h2 : ∀ v r, Q (.mkTemp v, r)) (h3 : ∀ v r, Q (.chmodTemp v, r)) :
    Each Q (mountOne cfg m) :=
  .ite (fun _ => .ite (fun _ => .call h1 fun _ => .ite (fun _ => .pure) fun _ => .pure) fun _ => .pure) fun _ => .ite (fun _ => .fresh fun v =>
    .call (h2 v) fun _ => .ite (fun _ => .pure) fun _ => .call (h3 v) fun _ => .ite (fun _ => .pure) fun _ => .pure) fun _ => .pure

theorem each_unmount {Q : Ev → Prop} (m : Mount) (h : ∀ p r, Q (.rmTemp p, r)) : Each Q (unmountOne m) :=
  .ite (fun _ => .call (h _) fun _ => .pure) fun _ => .pure

theorem removed_withMounts (t : Task) : ∀ ms done, Spec (fun l _ => Removed l) (withMounts cfg t done ms)
  | [], _ => removed_tasks _
  | m :: ms, done => Spec.fresh fun i => by
    refine Removed.bind (removed_of_each (Q := NoCreate) (each_mountOne _ (by simp [NoCreate]) (by simp [NoCreate]) (by simp [NoCreate])) fun _ h => h)
      fun o => ?_
    cases o with
    | none => exact Spec.pure (.of (by simp))
    | some m' =>
      exact Removed.bind (removed_withMounts t ms _) fun o => Removed.bind
        (removed_of_each (Q := NoCreate) (each_unmount _ (by simp [NoCreate])) fun _ h => h) fun _ => Spec.pure (.of (by simp))

end

theorem Honest.split {s : Nat → Option String} {l l' : List Ev} (h : Honest s (l ++ l')) : ∃ s', Honest s' l' := by
  induction l generalizing s with
  | nil => exact ⟨s, h⟩
  | cons e l ih =>
    obtain ⟨c, r⟩ := e
    cases c <;> simp only [List.cons_append, Honest] at h
    all_goals first | exact ih h | exact ih h.2

theorem Honest.still {s : Nat → Option String} {m l : List Ev} (hm : Still m) (h : Honest s (m ++ l)) : Honest s l := by
  induction m with
  | nil => exact h
  | cons e m ih =>
    have hm' : Still m := fun e he => hm e (List.mem_cons_of_mem _ he)
    have he := hm e (by simp)
    obtain ⟨c, r⟩ := e
    cases c <;> simp only [List.cons_append, Honest] at h
    all_goals first
      | exact absurd rfl (he.1 _ _)
      | exact absurd rfl (he.2 _)
      | exact ih hm' h
      | exact ih hm' h.2

/-- **C64 (containers).** Every container created during a run is removed by the end of the run, whatever fails and whenever the task is
cancelled, provided that no other run with the same task id uses the table of containers at the same time. -/
theorem C64_containers_removed {cfg : Config} {t : Task} {n n' : Nat} {l : List Ev} {o : Option String} (h : Runs (run cfg t) n l o n')
    {s : Nat → Option String} (hh : Honest s l) {l1 l2 : List Ev} {a : List String} {r : Reply} (hl : l = l1 ++ (.create a, r) :: l2)
    (hr : r.ok = true) (ht : r.text ≠ "") : ∃ r', (Call.rm r.text, r') ∈ l2 := by
  have key : Removed l := by
    refine (Spec.ite (fun _ => Spec.pure (.of (by simp))) fun _ => removed_withMounts t t.mounts [] : Spec (fun l _ => Removed l) (run cfg t)) n l o n' h
  obtain ⟨i, r1, m, rl, l3, rfl, hm, hrm⟩ := key l1 a r l2 hl hr ht
  subst hl
  obtain ⟨s', hs'⟩ := hh.split
  simp only [Honest] at hs'
  have hs'' := Honest.still hm hs'
  simp only [Honest, if_true] at hs''
  have h1 := hs''.1
  split at h1
  · rename_i ho
    injection h1 with h1
    obtain ⟨r', hr'⟩ := hrm ho
    rw [h1] at hr'
    exact ⟨r', by simp [hr']⟩
  · cases h1

/-! ## Directories -/

/-- every file is made in a directory that is removed later -/
def Placed (cfg : Config) (l : List Ev) : Prop :=
  ∀ l1 e l2 p, l = l1 ++ e :: l2 → made e.1 = some p → e.2.ok = true →
    ∃ i s, (p = "/tmp/tork/" ++ cfg.idText i ∨ p = "/tmp/tork/" ++ cfg.idText i ++ "/" ++ s) ∧ ∃ r, (Call.rmdir ("/tmp/tork/" ++ cfg.idText i), r) ∈ l2

theorem Placed.append {cfg : Config} {l l' : List Ev} (h : Placed cfg l) (h' : Placed cfg l') : Placed cfg (l ++ l') := by
  intro l1 e l2 p hl hp hr
  rcases append_cut hl with ⟨k, h1, rfl⟩ | ⟨k, rfl, h2⟩
  · obtain ⟨i, s, h1, r, h2⟩ := h l1 e k p h1 hp hr
    exact ⟨i, s, h1, r, List.mem_append_left _ h2⟩
  · exact h' k e l2 p h2 hp hr

theorem Placed.of {cfg : Config} {l : List Ev} (h : ∀ e ∈ l, made e.1 = none) : Placed cfg l := by
  rintro l1 e l2 p rfl hp
  rw [h e (by simp)] at hp; cases hp

theorem Placed.bind {cfg : Config} {α β : Type} {p : Prog α} {f : α → Prog β} (h : Spec (fun l _ => Placed cfg l) p)
    (h' : ∀ a, Spec (fun l _ => Placed cfg l) (f a)) : Spec (fun l _ => Placed cfg l) (p >>= f) :=
  Spec.bind h fun _ a hl => (h' a).mono fun _ _ hl' => hl.append hl'

section
variable {cfg : Config}

/-- what is made is made in the directory -/
def Inside (dir : String) (e : Ev) : Prop := ∀ p, made e.1 = some p → ∃ s, p = dir ++ "/" ++ s

theorem inside_inDir (t : Task) : Each (Inside (workDir cfg t)) (inDir cfg t) := by
  refine Each.bind ((each_prepare t).mono fun e he p hp => ?_) fun o => ?_
  · rcases he with ⟨s, hs⟩ | ⟨_, h⟩ | ⟨_, h⟩ | ⟨_, h⟩ | ⟨_, h⟩ | ⟨_, h⟩
    · rw [hs] at hp; cases hp; exact ⟨s, rfl⟩
    all_goals simp [made, h] at hp
  · cases o with
    | none => exact .pure
    | some args =>
      refine .call (fun r => by simp [Inside, made]) fun r => .ite (fun _ => .pure) fun _ => .ite (fun _ => .pure) fun _ =>
        .call (fun r => by simp [Inside, made]) fun _ => Each.bind ((each_watch _ _).mono fun e he p hp => ?_) fun o => Each.bind ?_ fun _ => .pure
      · rcases he with ⟨_, h⟩ | ⟨_, h⟩ | ⟨_, h⟩ | h
        all_goals simp [made, h] at hp
      · exact .call (fun r => by simp [Inside, made]) fun r => .ite (fun _ => .call (fun r => by simp [Inside, made]) fun _ =>
          .call (fun r => by simp [Inside, made]) fun _ => .pure) fun _ => .pure

theorem placed_doRun (t : Task) : Spec (fun l _ => Placed cfg l) (doRun cfg t) := by
  refine Spec.call fun r => Spec.ite (fun hr => Spec.pure ?_) fun hr => Spec.bind (inside_inDir t) fun mid o hm => Spec.call fun r' => Spec.pure ?_
  · intro l1 e l2 p hl hp ho
    cases l1 with
    | cons b l1 => simp at hl
    | nil => injection hl with h1 h2; subst h1; simp at hr; rw [hr] at ho; cases ho
  · intro l1 e l2 p hl hp ho
    cases l1 with
    | nil =>
      injection hl with h1 h2
      subst h1
      cases hp
      exact ⟨t.id, "", .inl rfl, r', by rw [← h2]; simp [workDir]⟩
    | cons b l1 =>
      injection hl with h1 h2
      have h2 : mid ++ [(Call.rmdir (workDir cfg t), r')] = l1 ++ e :: l2 := h2
      rcases append_cut h2 with ⟨k, h3, rfl⟩ | ⟨k, rfl, h4⟩
      · obtain ⟨s, rfl⟩ := hm e (by rw [h3]; simp) p hp
        exact ⟨t.id, s, .inr rfl, r', by simp [workDir]⟩
      · cases k with
        | nil => injection h4 with h5 h6; subst h5; cases hp
        | cons b k => simp at h4

theorem placed_of_each {α : Type} {p : Prog α} (h : Each (fun e => made e.1 = none) p) : Spec (fun l _ => Placed cfg l) p :=
  Spec.mono h fun _ _ hl => .of hl

theorem placed_runAll (t : Task) : ∀ xs, Spec (fun l _ => Placed cfg l) (runAll cfg t xs)
  | [] => Spec.pure (.of (by simp))
  | x :: xs => Spec.fresh fun i => Placed.bind (placed_doRun _) fun o => by
    cases o with
    | none => exact Spec.pure (.of (by simp))
    | some r => exact placed_runAll t xs

theorem placed_tasks (t : Task) : Spec (fun l _ => Placed cfg l) (tasks cfg t) := by
  refine Placed.bind (placed_runAll t t.pre) fun ok => Spec.ite (fun _ => Spec.pure (.of (by simp))) fun _ => Placed.bind (placed_doRun t) fun o => ?_
  cases o with
  | none => exact Spec.pure (.of (by simp))
  | some r => exact Placed.bind (placed_runAll t t.post) fun ok => Spec.ite (fun _ => Spec.pure (.of (by simp))) fun _ => Spec.pure (.of (by simp))

theorem placed_withMounts (t : Task) : ∀ ms done, Spec (fun l _ => Placed cfg l) (withMounts cfg t done ms)
  | [], _ => placed_tasks _
  | m :: ms, done => Spec.fresh fun i => by
    refine Placed.bind (placed_of_each (each_mountOne _ (by simp [made]) (by simp [made]) (by simp [made]))) fun o => ?_
    cases o with
    | none => exact Spec.pure (.of (by simp))
    | some m' =>
      exact Placed.bind (placed_withMounts t ms _) fun o => Placed.bind (placed_of_each (each_unmount _ (by simp [made]))) fun _ => Spec.pure (.of (by simp))

end

/-- **C64 (directories).** Every file and directory made for a task is made in a directory `/tmp/tork/<id>`, and that directory is removed
later in the run, whatever fails. (File names are taken as they are: with `..` in the name the file is elsewhere.) -/
theorem C64_directories_removed {cfg : Config} {t : Task} {n n' : Nat} {l : List Ev} {o : Option String} (h : Runs (run cfg t) n l o n')
    {l1 l2 : List Ev} {e : Ev} {p : String} (hl : l = l1 ++ e :: l2) (hp : made e.1 = some p) (hr : e.2.ok = true) :
    ∃ i s, (p = "/tmp/tork/" ++ cfg.idText i ∨ p = "/tmp/tork/" ++ cfg.idText i ++ "/" ++ s) ∧
      ∃ r, (Call.rmdir ("/tmp/tork/" ++ cfg.idText i), r) ∈ l2 :=
  (Spec.ite (fun _ => Spec.pure (.of (by simp))) fun _ => placed_withMounts t t.mounts [] : Spec (fun l _ => Placed cfg l) (run cfg t)) n l o n' h
    l1 e l2 p hl hp hr

/-! ## Volumes -/

/-- every volume is removed when nothing else is left to be done -/
def Emptied (cfg : Config) (l : List Ev) : Prop :=
  ∀ l1 v r l2, l = l1 ++ (.mkTemp v, r) :: l2 → r.ok = true → (∃ r', (Call.chmodTemp v, r') ∈ l2 ∧ r'.ok = false) ∨
    ∃ l3 r' l4, l2 = l3 ++ (.rmTemp (cfg.volume v), r') :: l4 ∧ ∀ e ∈ l4, ∃ p, e.1 = .rmTemp p

section
variable {cfg : Config}

theorem Emptied.append {l l' : List Ev} (h : Emptied cfg l) (h' : ∀ e ∈ l', ∃ p, e.1 = .rmTemp p) : Emptied cfg (l ++ l') := by
  intro l1 v r l2 hl hr
  rcases append_cut hl with ⟨k, h1, rfl⟩ | ⟨k, rfl, h2⟩
  · rcases h l1 v r k h1 hr with ⟨r', h2, h3⟩ | ⟨l3, r', l4, rfl, h2⟩
    · exact .inl ⟨r', List.mem_append_left _ h2, h3⟩
    · refine .inr ⟨l3, r', l4 ++ l', by simp, fun e he => ?_⟩
      rcases List.mem_append.1 he with he | he
      · exact h2 e he
      · exact h' e he
  · obtain ⟨p, hp⟩ := h' (.mkTemp v, r) (by rw [h2]; simp)
    cases hp

theorem Emptied.before {l l' : List Ev} (h : ∀ e ∈ l, ∀ v, e.1 ≠ .mkTemp v) (h' : Emptied cfg l') : Emptied cfg (l ++ l') := by
  intro l1 v r l2 hl hr
  rcases append_cut hl with ⟨k, rfl, rfl⟩ | ⟨k, rfl, h2⟩
  · exact absurd rfl (h (.mkTemp v, r) (by simp) v)
  · exact h' k v r l2 h2 hr

def NoTemp (e : Ev) : Prop := ∀ v, e.1 ≠ .mkTemp v

theorem noTemp_doRun (t : Task) : Each NoTemp (doRun cfg t) := by
  refine .call (fun _ => by simp [NoTemp]) fun r => .ite (fun _ => .pure) fun _ => Each.bind (Each.bind ((each_prepare t).mono fun e he v hv => ?_) fun o => ?_)
    fun _ => .call (fun _ => by simp [NoTemp]) fun _ => .pure
  · simp [Prepares, hv, made] at he
  · cases o with
    | none => exact .pure
    | some args =>
      refine .call (fun r => by simp [NoTemp]) fun r => .ite (fun _ => .pure) fun _ => .ite (fun _ => .pure) fun _ =>
        .call (fun r => by simp [NoTemp]) fun _ => Each.bind ((each_watch _ _).mono fun e he v hv => ?_) fun o => Each.bind ?_ fun _ => .pure
      · simp [Watches, hv] at he
      · exact .call (fun r => by simp [NoTemp]) fun r => .ite (fun _ => .call (fun r => by simp [NoTemp]) fun _ =>
          .call (fun r => by simp [NoTemp]) fun _ => .pure) fun _ => .pure

theorem noTemp_runAll (t : Task) : ∀ xs, Each NoTemp (runAll cfg t xs)
  | [] => .pure
  | x :: xs => .fresh fun i => (noTemp_doRun _).bind fun o => by
    cases o with
    | none => exact .pure
    | some r => exact noTemp_runAll t xs

theorem noTemp_tasks (t : Task) : Each NoTemp (tasks cfg t) := by
  refine (noTemp_runAll t t.pre).bind fun ok => .ite (fun _ => .pure) fun _ => (noTemp_doRun t).bind fun o => ?_
  cases o with
  | none => exact .pure
  | some r => exact (noTemp_runAll t t.post).bind fun ok => .ite (fun _ => .pure) fun _ => .pure

/-- the shape of `mountOne` -/
theorem mountOne_shape (m : Mount) : Spec (fun l o => (l = [] ∧ o = none) ∨ (∃ r, l = [(.hostDir m.source, r)] ∧ ∀ m', o = some m' → m' = m ∧ m.type = "bind") ∨
    (∃ v r, l = [(.mkTemp v, r)] ∧ r.ok = false ∧ o = none) ∨
    ∃ v r r', l = [(.mkTemp v, r), (.chmodTemp v, r')] ∧ r.ok = true ∧ m.type = "volume" ∧
      o = if r'.ok then some { m with source := cfg.volume v } else none) (mountOne cfg m) := by
  refine Spec.ite (fun hb => Spec.ite (fun _ => Spec.call fun r => Spec.ite (fun _ => Spec.pure ?_) fun _ => Spec.pure ?_) fun _ => Spec.pure (.inl ⟨rfl, rfl⟩))
    fun _ => Spec.ite (fun hv => Spec.fresh fun v => Spec.call fun r => Spec.ite (fun hr => Spec.pure ?_) fun hr => Spec.call fun r' =>
      Spec.ite (fun hr' => Spec.pure ?_) fun hr' => Spec.pure ?_) fun _ => Spec.pure (.inl ⟨rfl, rfl⟩)
  · exact .inr (.inl ⟨r, rfl, by rintro m' ⟨⟩; exact ⟨rfl, hb⟩⟩)
  · exact .inr (.inl ⟨r, rfl, by simp⟩)
  · exact .inr (.inr (.inl ⟨v, r, rfl, by simpa using hr, rfl⟩))
  · have : r'.ok = false := by simpa using hr'
    exact .inr (.inr (.inr ⟨v, r, r', rfl, by simpa using hr, hv, by simp [this]⟩))
  · have : r'.ok = true := by simpa using hr'
    exact .inr (.inr (.inr ⟨v, r, r', rfl, by simpa using hr, hv, by simp [this]⟩))

theorem emptied_withMounts (t : Task) : ∀ ms done, Spec (fun l _ => Emptied cfg l) (withMounts cfg t done ms)
  | [], _ => Spec.mono (noTemp_tasks _) fun l _ hl => by
    have := Emptied.before (cfg := cfg) (l := l) (l' := []) hl (by intro l1 v r l2 h; simp at h)
    simpa using this
  | m :: ms, done => Spec.fresh fun i => by
    refine Spec.bind (mountOne_shape _) fun l1 o h1 => ?_
    cases o with
    | none =>
      refine Spec.pure ?_
      rw [List.append_nil]
      rcases h1 with ⟨rfl, -⟩ | ⟨r, rfl, -⟩ | ⟨v, r, rfl, hr, -⟩ | ⟨v, r, r', rfl, hr, -, ho⟩
      · intro l1 v r l2 h; simp at h
      · intro l1 v r l2 h
        cases l1 <;> simp at h
      · intro l1 v r l2 h hr'
        cases l1 with
        | nil => injection h with h2 h3; cases h2; rw [hr] at hr'; cases hr'
        | cons b l1 => simp at h
      · have hf : r'.ok = false := by
          cases hq : r'.ok with
          | false => rfl
          | true => rw [hq] at ho; cases ho
        intro l1 v' r2 l2 h hr'
        cases l1 with
        | nil =>
          injection h with h2 h3
          cases h2
          exact .inl ⟨r', by rw [← h3]; simp, hf⟩
        | cons b l1 =>
          cases l1 with
          | nil => injection h with h2 h3; injection h3 with h4; cases h4
          | cons b l1 => simp at h
    | some m' =>
      refine Spec.bind (emptied_withMounts t ms _) fun l2 o hl2 => ?_
      refine Spec.bind (Φ := fun l _ => l = [] ∧ m'.type ≠ "volume" ∨ ∃ r, l = [(.rmTemp m'.source, r)]) ?_ ?_
      · refine Spec.ite (fun _ => Spec.call fun r => Spec.pure (.inr ⟨r, rfl⟩)) fun h => Spec.pure (.inl ⟨rfl, h⟩)
      · intro l3 _ h3
        refine Spec.pure ?_
        rw [List.append_nil]
        rcases h1 with ⟨-, ho⟩ | ⟨r, rfl, hm⟩ | ⟨v, r, -, -, ho⟩ | ⟨v, r, r', rfl, hr, hv, ho⟩
        · cases ho
        · refine Emptied.before (by simp) (hl2.append ?_)
          rcases h3 with ⟨rfl, -⟩ | ⟨r, rfl⟩
          · simp
          · simp
        · cases ho
        · have hr' : r'.ok = true := by
            cases hq : r'.ok with
            | true => rfl
            | false => rw [hq] at ho; cases ho
          rw [hr', if_pos rfl] at ho
          cases ho
          rcases h3 with ⟨-, hn⟩ | ⟨r3, rfl⟩
          · exact absurd hv hn
          · have hrest : Emptied cfg (l2 ++ [(Call.rmTemp (cfg.volume v), r3)]) := hl2.append (by simp)
            intro k1 v' r'' k2 hl hok
            cases k1 with
            | nil =>
              injection hl with e1 e2
              cases e1
              exact .inr ⟨(.chmodTemp v, r') :: l2, r3, [], by rw [← e2]; simp, by simp⟩
            | cons b k1 =>
              injection hl with e1 e2
              cases k1 with
              | nil => injection e2 with e3; cases e3
              | cons b' k1 =>
                injection e2 with e3 e4
                exact hrest k1 v' r'' k2 e4 hok

end

/-- **C64 (volumes).** Every temporary directory made for a volume is removed by the end of the run, whatever fails, after everything else: by then
the containers are gone. (Except for a directory whose permissions could not be changed, which is left behind.) -/
theorem C64_volumes_removed {cfg : Config} {t : Task} {n n' : Nat} {l : List Ev} {o : Option String} (h : Runs (run cfg t) n l o n')
    {l1 l2 : List Ev} {v : Nat} {r : Reply} (hl : l = l1 ++ (.mkTemp v, r) :: l2) (hr : r.ok = true) :
    (∃ r', (Call.chmodTemp v, r') ∈ l2 ∧ r'.ok = false) ∨
    ∃ l3 r' l4, l2 = l3 ++ (.rmTemp (cfg.volume v), r') :: l4 ∧ ∀ e ∈ l4, ∃ p, e.1 = .rmTemp p :=
  (Spec.ite (fun _ => Spec.pure (by intro l1 v r l2 h; simp at h)) fun _ => emptied_withMounts t t.mounts [] : Spec (fun l _ => Emptied cfg l) (run cfg t))
    n l o n' h l1 v r l2 hl hr

end Tork.Podman

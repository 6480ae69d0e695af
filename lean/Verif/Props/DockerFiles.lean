import Verif.Props.DockerPolicy
/-!
# C60 — what is written into the containers of a task
-/

namespace Tork.Docker
open Calls

/-! ### Specification -/

/-- The files `fs`, written to the directory `dir`, are those of task `x`: in `/tork`, the empty output and progress files and the script,
if there is one; in the working directory, the files of the task. -/
def FilesOf (x : Task) (dir : String) (fs : StrMap) : Prop :=
  (dir = "/tork" ∧ ((x.run = "" ∧ fs = [("stdout", ""), ("progress", "")]) ∨
    (x.run ≠ "" ∧ fs = [("stdout", ""), ("progress", ""), ("entrypoint", x.run)]))) ∨
  (x.files ≠ [] ∧ fs = x.files ∧ dir = if x.workdir = "" then "/tork/workdir" else x.workdir)

/-! ### Proofs -/

/-- Every call `p` can make satisfies `Q`, given the calls `p` made before. -/
def AllP (Q : List Ev → Ev → Prop) {α : Type} (p : Prog α) : Prop :=
  ∀ n l a n', Runs p n l a n' → ∀ l1 e l2, l = l1 ++ e :: l2 → Q l1 e

/-- what holds after some calls holds after more -/
def Grows (Q : List Ev → Ev → Prop) : Prop := ∀ l0 l e, Q l e → Q (l0 ++ l) e

/-- calls that write nothing satisfy `Q` -/
def OnlyCopy (Q : List Ev → Ev → Prop) : Prop := ∀ l e, (∀ c d f, e.1 ≠ .copy c d f) → Q l e

section
variable {cfg : Config} {Q : List Ev → Ev → Prop} {α β : Type}

theorem AllP.bind {p : Prog α} {f : α → Prog β} (hg : Grows Q) (h : AllP Q p) (h' : ∀ a, AllP Q (f a)) : AllP Q (p >>= f) := by
  intro n l a n' hr l1 e l2 hl
  obtain ⟨x, k1, k2, m, rfl, g1, g2⟩ := runs_bind.1 hr
  rcases List.append_eq_append_iff.1 hl with ⟨k, rfl, hk⟩ | ⟨k, rfl, hk⟩
  · exact hg _ _ _ (h' x m k2 a n' g2 k e l2 hk)
  · cases k with
    | nil => exact by simpa using hg l1 [] e (h' x m k2 a n' g2 [] e l2 (by simpa using hk.symm))
    | cons b k =>
      obtain ⟨rfl, rfl⟩ := List.cons.inj hk
      exact h n _ x m g1 l1 _ k rfl

theorem AllP.pure {a : α} : AllP Q (pure a) := by
  rintro n l b n' ⟨rfl, rfl, rfl⟩ l1 e l2 hl
  simp at hl

theorem AllP.silent {p : Prog α} (hQ : OnlyCopy Q) (h : ∀ n l a n', Runs p n l a n' → ∀ e ∈ l, ∀ c d f, e.1 ≠ .copy c d f) : AllP Q p := by
  intro n l a n' hr l1 e l2 hl
  exact hQ l1 e (h n l a n' hr e (by rw [hl]; simp))

theorem AllP.fresh' {f : Nat → Prog β} (h' : ∀ r, AllP Q (f r)) : AllP Q (newId >>= f) := by
  intro n l a n' hr
  exact h' n _ _ _ _ (runs_idBind.1 hr)

theorem AllP.ite {c : Prop} [Decidable c] {p q : Prog α} (h : AllP Q p) (h' : AllP Q q) : AllP Q (if c then p else q) := by
  split
  · exact h
  · exact h'

/-- a file is written into a container made before, for the same task -/
def Wrote (cfg : Config) (x : Task) (l : List Ev) (e : Ev) : Prop :=
  ∀ c d fs, e.1 = .copy c d fs → FilesOf x d fs ∧ ∃ s r, (Call.create c s, r) ∈ l ∧ r.ok = true ∧ For cfg x s

theorem allP_create {x : Task} : AllP (Wrote cfg x) (createTaskContainer cfg x) := by
  intro n l a n' h
  have key : ∀ {c : Call} {r : Reply} {l : List Ev}, (∀ k d f, c ≠ .copy k d f) →
      (∀ l1 e l2, l = l1 ++ e :: l2 → Wrote cfg x ((c, r) :: l1) e) → ∀ l1 e l2, (c, r) :: l = l1 ++ e :: l2 → Wrote cfg x l1 e := by
    intro c r l hc h l1 e l2 hl
    cases l1 with
    | nil => obtain ⟨rfl, -⟩ := List.cons.inj hl; exact fun k d f h => absurd h (hc k d f)
    | cons b l1 => obtain ⟨rfl, h2⟩ := List.cons.inj hl; exact h l1 e l2 h2
  unfold createTaskContainer at h
  replace h := runs_ite h
  rcases h with ⟨-, rfl, -, -⟩ | ⟨-, h⟩
  · simp
  replace h := runs_askBind.1 h
  obtain ⟨r0, l, rfl, h⟩ := h
  refine key (by simp) ?_
  replace h := runs_ite h
  rcases h with ⟨-, rfl, -, -⟩ | ⟨-, h⟩
  · simp
  replace h := runs_ite h
  rcases h with ⟨-, rfl, -, -⟩ | ⟨-, h⟩
  · simp
  replace h := runs_idBind.1 h
  replace h := runs_bind.1 h
  obtain ⟨td, l3, l4, m, rfl, h1, h⟩ := h
  obtain ⟨r1, rfl, rfl, rfl⟩ := runs_mountVolume rfl h1
  suffices hs : ∀ l1 e l2, l4 = l1 ++ e :: l2 → Wrote cfg x l1 e by
    intro l1 e l2 hl k d f he
    have grow : ∀ {a l}, Wrote cfg x l e → Wrote cfg x (a :: l) e := fun h k d f he => by
      obtain ⟨g1, s, r, g2, g3⟩ := h k d f he
      exact ⟨g1, s, r, List.mem_cons_of_mem _ g2, g3⟩
    cases l1 with
    | nil => obtain ⟨rfl, -⟩ := List.cons.inj hl; cases he
    | cons b l1 => obtain ⟨rfl, h2⟩ := List.cons.inj hl; exact grow (grow (hs l1 e l2 h2)) k d f he
  cases hr1 : r1.ok with
  | false =>
    rw [hr1] at h
    obtain ⟨rfl, rfl, rfl⟩ := h
    simp
  | true =>
    rw [hr1, if_pos rfl] at h
    dsimp only at h
    split at h
    · rename_i cpus mem h2 h3
      replace h := runs_ite h
      rcases h with ⟨-, rfl, -, -⟩ | ⟨-, h⟩
      · simp
      replace h := runs_idBind.1 h
      replace h := runs_askBind.1 h
      obtain ⟨r2, l, rfl, h⟩ := h
      refine key (by simp) ?_
      replace h := runs_ite h
      rcases h with ⟨-, rfl, -, -⟩ | ⟨hr2, h⟩
      · simp
      replace hr2 : r2.ok = true := by simpa using hr2
      replace h := runs_askBind.1 h
      obtain ⟨r3, l, rfl, h⟩ := h
      intro l1 e l2 hl
      have hfor := For.of cfg x n cpus mem h2 h3
      cases l1 with
      | nil =>
        obtain ⟨rfl, -⟩ := List.cons.inj hl
        rintro c d fs ⟨⟩
        refine ⟨.inl ⟨rfl, ?_⟩, _, r2, List.mem_cons_self, hr2, hfor⟩
        by_cases hrun : x.run = ""
        · exact .inl ⟨hrun, by simp [torkFiles, hrun]⟩
        · exact .inr ⟨hrun, by simp [torkFiles, hrun]⟩
      | cons b l1 =>
        obtain ⟨rfl, hl'⟩ := List.cons.inj hl
        clear hl
        subst hl'
        replace h := runs_ite h
        rcases h with ⟨-, h, -, -⟩ | ⟨-, h⟩
        · simp at h
        replace h := runs_ite h
        rcases h with ⟨-, h, -, -⟩ | ⟨hf, h⟩
        · simp at h
        replace h := runs_askBind.1 h
        obtain ⟨r4, l, hl, h⟩ := h
        cases l1 with
        | nil =>
          obtain ⟨rfl, -⟩ := List.cons.inj hl
          rintro c d fs ⟨⟩
          have hf : x.files ≠ [] := by simpa using hf
          refine ⟨.inr ⟨hf, rfl, ?_⟩, _, r2, List.mem_cons_self, hr2, hfor⟩
          by_cases hw : x.workdir = ""
          · simp [containerOf, hw, hf]
          · simp [containerOf, hw]
        | cons b l1 =>
          obtain ⟨-, hl⟩ := List.cons.inj hl
          have := runs_ite h
          rcases this with ⟨-, h, -, -⟩ | ⟨-, h, -, -⟩ <;> simp [h] at hl
    · obtain ⟨rfl, rfl, rfl⟩ := h
      simp

/-- a file is written into a container made before, for the same one of the tasks `xs` -/
def WroteAny (cfg : Config) (xs : List Task) (l : List Ev) (e : Ev) : Prop :=
  ∀ c d fs, e.1 = .copy c d fs → ∃ x ∈ xs, FilesOf x d fs ∧
    ∃ s r ms nets lim, (Call.create c s, r) ∈ l ∧ r.ok = true ∧ For cfg { x with mounts := ms, networks := nets, limits := lim } s

variable {xs : List Task}

theorem grows : Grows (WroteAny cfg xs) := by
  intro l0 l e h c d fs he
  obtain ⟨x, hx, hf, s, r, ms, nets, lim, h1, h2⟩ := h c d fs he
  exact ⟨x, hx, hf, s, r, ms, nets, lim, List.mem_append_right _ h1, h2⟩

theorem onlyCopy : OnlyCopy (WroteAny cfg xs) := fun _ _ h c d fs he => absurd he (h c d fs)

theorem writes_create {x : Task} (hx : x ∈ xs) (i : Nat) (ms : List Mount) (nets : List String) (lim : Option TaskLimits) :
    AllP (WroteAny cfg xs) (createTaskContainer cfg { x with id := i, mounts := ms, networks := nets, limits := lim }) := by
  intro n l a n' h l1 e l2 hl c d fs he
  obtain ⟨hf, s, r, h1, h2, h3⟩ := allP_create n l a n' h l1 e l2 hl c d fs he
  exact ⟨x, hx, hf, s, r, ms, nets, lim, h1, h2,
    ⟨h3.1, h3.2, h3.3, h3.4, h3.5, h3.6, h3.7, h3.8, h3.9, h3.10, h3.11, h3.12, h3.13, h3.14, h3.15, h3.16, h3.17, h3.18⟩⟩

theorem writes_start (t : Task) (k : Made) : AllP (WroteAny cfg xs) (startContainer t k) := by
  refine .silent onlyCopy fun n l a n' h e he c d f hc => ?_
  have := (start_watches h).2 e he
  obtain ⟨e, r⟩ := e
  cases hc
  simp [Watches] at this

theorem writes_wait (k : Made) : AllP (WroteAny cfg xs) (waitContainer k) := by
  refine .silent onlyCopy fun n l a n' h e he c d f hc => ?_
  have := (wait_watches h).2 e he
  obtain ⟨e, r⟩ := e
  cases hc
  simp [Watches] at this

theorem writes_remove (k : Made) : AllP (WroteAny cfg xs) (removeContainer k) := by
  refine .silent onlyCopy fun n l a n' h e he c d f hc => ?_
  have := remove_cleanup h e he
  obtain ⟨e, r⟩ := e
  cases hc
  cases this

theorem writes_unmount (m : Mount) : AllP (WroteAny cfg xs) (unmountOne m) := by
  refine .silent onlyCopy fun n l a n' h e he c d f hc => ?_
  obtain ⟨-, ⟨-, r, rfl⟩ | ⟨-, rfl⟩⟩ := runs_unmount h
  · rw [List.mem_singleton.1 he] at hc; cases hc
  · simp at he

theorem writes_mount (m : Mount) : AllP (WroteAny cfg xs) (mountOne cfg m) := by
  refine .silent onlyCopy fun n l a n' h e he c d f hc => ?_
  obtain ⟨-, ⟨-, hf | ⟨m', r, rfl, -, -⟩⟩ | ⟨m', -, -, -, -, ⟨-, -, hh⟩ | ⟨-, r, rfl, -⟩⟩⟩ := mount_cases h
  · have := hf e he; rw [hc] at this; cases this
  · rw [List.mem_singleton.1 he] at hc; cases hc
  · have := (hh e he).1; rw [hc] at this; cases this
  · rw [List.mem_singleton.1 he] at hc; cases hc

theorem writes_net (n k : Nat) : AllP (WroteAny cfg xs) (removeNetwork n k) := by
  refine .silent onlyCopy fun m l a n' h e he c d f hc => ?_
  obtain ⟨-, hrm, -⟩ := runs_removeNetwork h
  have := hrm _ he
  rw [hc] at this
  cases this

theorem writes_sidecars (t : Task) (body : Prog (Option String)) (hb : AllP (WroteAny cfg xs) body) (ss : List Task) (hs : ∀ x ∈ ss, x ∈ xs) :
    AllP (WroteAny cfg xs) (withSidecars cfg t body ss) := by
  induction ss with
  | nil => exact hb
  | cons s ss ih =>
    unfold withSidecars
    refine .fresh' fun id => .bind grows (writes_create (hs s (by simp)) _ _ _ _) fun o => ?_
    cases o with
    | none => exact .pure
    | some k =>
      refine .bind grows (writes_start _ _) fun ok => .bind grows ?_ fun r => .bind grows (writes_remove k) fun _ => .pure
      unfold after
      exact .ite (ih fun x hx => hs x (List.mem_cons_of_mem _ hx)) .pure

theorem writes_doRun {x : Task} (hx : ∀ y ∈ x :: x.sidecars, y ∈ xs) (i : Nat) (ms : List Mount) (nets : List String) (lim : Option TaskLimits) :
    AllP (WroteAny cfg xs) (doRun cfg { x with id := i, mounts := ms, networks := nets, limits := lim }) := by
  unfold doRun
  refine .bind grows (writes_create (hx x (by simp)) i ms nets lim) fun o => ?_
  cases o with
  | none => exact .pure
  | some k =>
    refine .bind grows (writes_sidecars _ _ ?_ _ fun y hy => hx y (List.mem_cons_of_mem _ hy)) fun r => .bind grows (writes_remove k) fun _ => .pure
    refine .bind grows (writes_start _ _) fun ok => ?_
    unfold after
    exact .ite (writes_wait k) .pure

theorem writes_runAll (t : Task) (ps : List Task) (hp : ∀ p ∈ ps, ∀ y ∈ p :: p.sidecars, y ∈ xs) : AllP (WroteAny cfg xs) (runAll cfg t ps) := by
  induction ps with
  | nil => exact .pure
  | cons p ps ih =>
    unfold runAll
    refine .fresh' fun id => .bind grows (writes_doRun (hp p (by simp)) id _ _ _) fun o => ?_
    cases o with
    | none => exact .pure
    | some r => exact ih fun p h => hp p (List.mem_cons_of_mem _ h)

theorem writes_runSteps (t : Task) (nets : List String) (ms : List Mount) :
    AllP (WroteAny cfg (containersOf t)) (runSteps cfg { t with networks := nets, mounts := ms }) := by
  have hc : ∀ p ∈ t.pre ++ t :: t.post, ∀ x ∈ p :: p.sidecars, x ∈ containersOf t := fun p hp x hx => List.mem_flatMap.2 ⟨p, hp, hx⟩
  unfold runSteps
  refine .bind grows (writes_runAll _ t.pre fun p hp => hc p (by simp [hp])) fun ok => .ite .pure ?_
  refine .bind grows (writes_doRun (hc t (by simp)) t.id ms nets t.limits) fun o => ?_
  cases o with
  | none => exact .pure
  | some r => exact .bind grows (writes_runAll _ t.post fun p hp => hc p (by simp [hp])) fun ok => .ite .pure .pure

theorem writes_mounts {k : List Mount → Prog (Option String)} (hk : ∀ ms, AllP (WroteAny cfg xs) (k ms)) (ms : List Mount) :
    AllP (WroteAny cfg xs) (withMounts cfg k ms) := by
  induction ms generalizing k with
  | nil => exact hk []
  | cons m ms ih =>
    unfold withMounts
    refine .fresh' fun id => .bind grows (writes_mount _) fun o => ?_
    cases o with
    | none => exact .pure
    | some m' => exact .bind grows (ih fun ms => hk _) fun r => .bind grows (writes_unmount m') fun _ => .pure

theorem writes_run (t : Task) : AllP (WroteAny cfg (containersOf t)) (run cfg t) := by
  unfold run
  refine .ite (writes_mounts (fun ms => ?_) _) (.fresh' fun n => ?_)
  · have := writes_runSteps (cfg := cfg) t t.networks ms
    cases t
    exact this
  · refine .bind grows (.silent onlyCopy fun m l a n' h e he c d f hc => ?_) fun r => .ite .pure
      (.bind grows (writes_mounts (fun ms => writes_runSteps t _ ms) _) fun _ => .bind grows (writes_net n 5) fun _ => .pure)
    obtain ⟨rfl, -⟩ := runs_ask.1 h
    rw [List.mem_singleton.1 he] at hc; cases hc
end

/-! ### C60 -/

/-- **C60 (files).** What a run writes into a container are the files of the task it was created for, and nothing else: its empty output
and progress files and its script, below `/tork`, and the files given with the task, in its working directory (or `/tork/workdir`). The
container was created before, for the same task (the task itself, one of its pre- and post-tasks, or a sidecar). -/
theorem C60_files {cfg : Config} {t : Task} {n n' : Nat} {o : Option String} {l1 l2 : List Ev} {c : Nat} {dir : String} {fs : StrMap} {r : Reply}
    (h : Runs (run cfg t) n (l1 ++ (.copy c dir fs, r) :: l2) o n') :
    ∃ x ∈ containersOf t, FilesOf x dir fs ∧ ∃ s r ms nets lim, (Call.create c s, r) ∈ l1 ∧ r.ok = true ∧
      For cfg { x with mounts := ms, networks := nets, limits := lim } s :=
  writes_run t n _ o n' h l1 _ l2 rfl c dir fs rfl

namespace DockerEx

def wrote (rs : List Reply) (cfg : Config) (t : Task) : List (Nat × String × StrMap) :=
  ((play (run cfg t) 1 rs).map fun x => x.1.filterMap fun e => match e.1 with | .copy c d f => some (c, d, f) | _ => none).getD []

def withFiles : Task :=
  { id := 5, image := "busybox", run := "ls", files := [("a", "b")], post := [{ image := "alpine", cmd := ["date"], files := [("x", "y")], workdir := "/w" }] }

/-- a task with a script and a file, and a post-task with a command and a working directory -/
example : (wrote (List.replicate 30 yes) cfg withFiles) =
    [(2, "/tork", [("stdout", ""), ("progress", ""), ("entrypoint", "ls")]), (2, "/tork/workdir", [("a", "b")]),
     (5, "/tork", [("stdout", ""), ("progress", "")]), (5, "/w", [("x", "y")])] := by
  decide +kernel

end DockerEx

end Tork.Docker

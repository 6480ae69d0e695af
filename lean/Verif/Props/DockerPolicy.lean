import Verif.Props.DockerOutcome
/-!
# C60 — what the containers of a task are given
-/

namespace Tork.Docker
open Calls

/-! ### Specification -/

/-- The operator allows the host directory `src` to be bound into containers. -/
def BindPermitted (cfg : Config) (src : String) : Prop :=
  cfg.bindAllowed = true ∧ (cfg.bindSources = [] ∨ ∃ a ∈ cfg.bindSources, cfg.fold a = cfg.fold src)

/-! ### Proofs -/

/-- Every call `p` can make satisfies `Q`, and its result `R`. -/
def All (Q : Ev → Prop) {α : Type} (R : α → Prop) (p : Prog α) : Prop :=
  ∀ n l a n', Runs p n l a n' → (∀ e ∈ l, Q e) ∧ R a

theorem All.bind {Q : Ev → Prop} {α β : Type} {R : α → Prop} {R' : β → Prop} {p : Prog α} {f : α → Prog β} (h : All Q R p)
    (h' : ∀ a, R a → All Q R' (f a)) : All Q R' (p >>= f) := by
  intro n l a n' hr
  obtain ⟨x, l1, l2, m, rfl, h1, h2⟩ := runs_bind.1 hr
  obtain ⟨g1, g2⟩ := h n l1 x m h1
  obtain ⟨g3, g4⟩ := h' x g2 m l2 a n' h2
  refine ⟨fun e he => ?_, g4⟩
  rcases List.mem_append.1 he with he | he
  · exact g1 e he
  · exact g3 e he

theorem All.pure {Q : Ev → Prop} {α : Type} {R : α → Prop} {a : α} (h : R a) : All Q R (pure a) := by
  rintro n l b n' ⟨rfl, rfl, rfl⟩
  exact ⟨by simp, h⟩

theorem All.call {Q : Ev → Prop} {c : Call} (h : ∀ r, Q (c, r)) : All Q (fun _ => True) (ask c) := by
  intro n l r n' hr
  obtain ⟨rfl, rfl⟩ := runs_ask.1 hr
  exact ⟨by simp [h], trivial⟩

theorem All.call' {Q : Ev → Prop} {c : Call} {β : Type} {R : β → Prop} {f : Reply → Prog β} (h : ∀ r, Q (c, r)) (h' : ∀ r, All Q R (f r)) :
    All Q R (ask c >>= f) := (All.call h).bind fun r _ => h' r

theorem All.fresh' {Q : Ev → Prop} {β : Type} {R : β → Prop} {f : Nat → Prog β} (h' : ∀ r, All Q R (f r)) : All Q R (newId >>= f) := by
  intro n l a n' hr
  exact h' n _ _ _ _ (runs_idBind.1 hr)

theorem All.ite {Q : Ev → Prop} {α : Type} {R : α → Prop} {c : Prop} [Decidable c] {p q : Prog α} (h : c → All Q R p) (h' : ¬ c → All Q R q) :
    All Q R (if c then p else q) := by
  split
  · exact h ‹_›
  · exact h' ‹_›

section
variable {cfg : Config} {Q : Ev → Prop}

/-- the calls other than the creation of a container satisfy `Q` -/
def Only (Q : Ev → Prop) : Prop := ∀ e, (∀ c s, e.1 ≠ .create c s) → Q e

theorem only {c : Call} (hQ : Only Q) (h : ∀ k s, c ≠ .create k s) : ∀ r, Q (c, r) := fun r => hQ (c, r) h

theorem all_mountVolume (hQ : Only Q) {m : Mount} (hm : m.type = "volume") :
    All Q (fun o => ∀ m', o = some m' → m'.type = "volume" ∧ m'.target = m.target) (mountOne cfg m) := by
  intro n l o n' h
  obtain ⟨r, rfl, rfl, rfl⟩ := runs_mountVolume hm h
  refine ⟨by simp; exact hQ _ (by simp), ?_⟩
  intro m' hm'
  split at hm'
  · cases hm'; exact ⟨hm, rfl⟩
  · cases hm'

theorem all_create (hQ : Only Q) {x : Task} (hc : ∀ c s r, For cfg x s → Q (.create c s, r)) :
    All Q (fun _ => True) (createTaskContainer cfg x) := by
  unfold createTaskContainer
  refine .ite (fun _ => .pure trivial) fun _ => .call' (only hQ (by simp)) fun r0 => .ite (fun _ => .pure trivial) fun _ =>
    .ite (fun _ => .pure trivial) fun _ => .fresh' fun v => ?_
  intro n l a n' h
  replace h := runs_bind.1 h
  obtain ⟨td, l3, l4, m, rfl, h1, h⟩ := h
  obtain ⟨r1, rfl, rfl, rfl⟩ := runs_mountVolume rfl h1
  suffices hs : ∀ e ∈ l4, Q e by
    refine ⟨?_, trivial⟩
    simp only [List.cons_append, List.nil_append]
    exact List.forall_mem_cons.2 ⟨hQ _ (by simp), hs⟩
  cases hr1 : r1.ok with
  | false =>
    rw [hr1] at h
    obtain ⟨rfl, rfl, rfl⟩ := h
    simp
  | true =>
    rw [hr1, if_pos rfl] at h
    dsimp only at h
    split at h
    · rename_i cpus mem h2 h3
      refine ((?_ : All Q (fun _ => True) _) _ _ _ _ h).1
      refine .ite (fun _ => .pure trivial) fun _ => .fresh' fun c => .call' (fun r => hc c _ r (For.of cfg x v cpus mem h2 h3)) fun r =>
        .ite (fun _ => .pure trivial) fun _ => .call' (only hQ (by simp)) fun r => .ite (fun _ => .pure trivial) fun _ =>
        .ite (fun _ => .pure trivial) fun _ => .call' (only hQ (by simp)) fun r => .ite (fun _ => .pure trivial) fun _ => .pure trivial
    · obtain ⟨rfl, rfl, rfl⟩ := h
      simp

theorem all_start (hQ : Only Q) (t : Task) (k : Made) : All Q (fun _ => True) (startContainer t k) := by
  intro n l b n' h
  refine ⟨fun e he => hQ e ?_, trivial⟩
  exact ((start_watches h).2 e he).neutral.2.2

theorem all_wait (hQ : Only Q) (k : Made) : All Q (fun _ => True) (waitContainer k) := by
  intro n l b n' h
  refine ⟨fun e he => hQ e ?_, trivial⟩
  exact ((wait_watches h).2 e he).neutral.2.2

theorem only_cleanup (hQ : Only Q) {e : Ev} (h : cleanup e = true) : Q e := by
  refine hQ e fun c s hc => ?_
  obtain ⟨c', r⟩ := e
  cases hc
  cases h

theorem all_remove (hQ : Only Q) (k : Made) : All Q (fun _ => True) (removeContainer k) := by
  intro n l b n' h
  exact ⟨fun e he => only_cleanup hQ (remove_cleanup h e he), trivial⟩

theorem all_sidecars (hQ : Only Q) (t : Task) (body : Prog (Option String)) (hb : All Q (fun _ => True) body) (ss : List Task)
    (hc : ∀ x ∈ ss, ∀ i c s r, For cfg { x with id := i, mounts := t.mounts, networks := t.networks, limits := t.limits } s → Q (.create c s, r)) :
    All Q (fun _ => True) (withSidecars cfg t body ss) := by
  induction ss with
  | nil => exact hb
  | cons s ss ih =>
    unfold withSidecars
    refine .fresh' fun id => (all_create hQ (hc s (by simp) id)).bind fun o _ => ?_
    cases o with
    | none => exact .pure trivial
    | some k =>
      refine (all_start hQ _ _).bind fun ok _ => All.bind (R := fun _ => True) ?_ fun r _ => (all_remove hQ k).bind fun _ _ => .pure trivial
      unfold after
      exact .ite (fun _ => ih fun x hx => hc x (List.mem_cons_of_mem _ hx)) fun _ => .pure trivial

theorem all_doRun (hQ : Only Q) (t : Task) (hc : ∀ c s r, For cfg t s → Q (.create c s, r))
    (hs : ∀ x ∈ t.sidecars, ∀ i c s r, For cfg { x with id := i, mounts := t.mounts, networks := t.networks, limits := t.limits } s → Q (.create c s, r)) :
    All Q (fun _ => True) (doRun cfg t) := by
  unfold doRun
  refine (all_create hQ hc).bind fun o _ => ?_
  cases o with
  | none => exact .pure trivial
  | some k =>
    refine All.bind (R := fun _ => True) (all_sidecars hQ t _ ?_ _ hs) fun r _ => (all_remove hQ k).bind fun _ _ => .pure trivial
    refine (all_start hQ _ _).bind fun ok _ => ?_
    unfold after
    exact .ite (fun _ => all_wait hQ k) fun _ => .pure trivial

/-- a container for `x`, sharing the mounts, networks and limits of `t` -/
def ForShared (cfg : Config) (t x : Task) (s : Container) : Prop := For cfg (shared t x) s

theorem ForShared.of {t x : Task} {i : Nat} {s : Container}
    (h : For cfg { x with id := i, mounts := t.mounts, networks := t.networks, limits := t.limits } s) : ForShared cfg t x s :=
  ⟨h.1, h.2, h.3, h.4, h.5, h.6, h.7, h.8, h.9, h.10, h.11, h.12, h.13, h.14, h.15, h.16, h.17, h.18⟩

theorem all_runAll (hQ : Only Q) (t : Task) (ps : List Task)
    (hc : ∀ p ∈ ps, ∀ x ∈ p :: p.sidecars, ∀ c s r, ForShared cfg t x s → Q (.create c s, r)) : All Q (fun _ => True) (runAll cfg t ps) := by
  induction ps with
  | nil => exact .pure trivial
  | cons p ps ih =>
    unfold runAll
    refine .fresh' fun id => (all_doRun hQ _ ?_ ?_).bind fun o _ => ?_
    · exact fun c s r h => hc p (by simp) p (by simp) c s r (.of h)
    · exact fun x hx i c s r h => hc p (by simp) x (List.mem_cons_of_mem _ hx) c s r (.of h)
    · cases o with
      | none => exact .pure trivial
      | some r => exact ih fun p hp => hc p (List.mem_cons_of_mem _ hp)

theorem all_runSteps (hQ : Only Q) (t : Task) (hc : ∀ x ∈ containersOf t, ∀ c s r, ForShared cfg t x s → Q (.create c s, r)) :
    All Q (fun _ => True) (runSteps cfg t) := by
  have hc' : ∀ p ∈ t.pre ++ t :: t.post, ∀ x ∈ p :: p.sidecars, ∀ c s r, ForShared cfg t x s → Q (.create c s, r) :=
    fun p hp x hx => hc x (List.mem_flatMap.2 ⟨p, hp, hx⟩)
  unfold runSteps
  refine (all_runAll hQ t t.pre fun p hp => hc' p (by simp [hp])).bind fun ok _ => .ite (fun _ => .pure trivial) fun _ => ?_
  refine (all_doRun hQ t ?_ ?_).bind fun o _ => ?_
  · exact fun c s r h => hc' t (by simp) t (by simp) c s r (.of (i := t.id) (by cases t; exact h))
  · exact fun x hx i c s r h => hc' t (by simp) x (List.mem_cons_of_mem _ hx) c s r (.of h)
  · cases o with
    | none => exact .pure trivial
    | some r =>
      exact (all_runAll hQ t t.post fun p hp => hc' p (by simp [hp])).bind fun ok _ => .ite (fun _ => .pure trivial) fun _ => .pure trivial
end

theorem mount_permitted {cfg : Config} {m m' : Mount} {n n' : Nat} {l : List Ev} (h : Runs (mountOne cfg m) n l (some m') n')
    (hb : m'.type = "bind") : BindPermitted cfg m'.source := by
  have hv : m.type = "bind" := by
    obtain ⟨-, ⟨h, -⟩ | ⟨m2, h1, -, h2, -⟩⟩ := mount_cases h
    · cases h
    · cases h1; rw [← h2, hb]
  unfold mountOne at h
  rw [if_pos hv] at h
  replace h := runs_ite h
  rcases h with ⟨ha, h⟩ | ⟨-, -, h, -⟩
  · replace h := runs_askBind.1 h
    obtain ⟨r, l2, rfl, h⟩ := h
    replace h := runs_ite h
    rcases h with ⟨-, rfl, h, -⟩ | ⟨-, -, h, -⟩
    · cases h
      simp only [Bool.and_eq_true, isSourceAllowed, Bool.or_eq_true, List.isEmpty_iff, List.any_eq_true, beq_iff_eq] at ha
      exact ha
    · cases h
  · cases h

/-- the mounts made available are those of the task, and the bind mounts among them are permitted -/
structure Provided (cfg : Config) (ms ms' : List Mount) : Prop where
  mounted : Mounted ms ms'
  permitted : ∀ m ∈ ms', m.type = "bind" → BindPermitted cfg m.source

theorem mounts_provided {cfg : Config} (ms : List Mount) {k : List Mount → Prog (Option String)} {n n' : Nat} {l : List Ev}
    {o : Option String} (h : Runs (withMounts cfg k ms) n l o n') {e : Ev} (he : e ∈ l) (hc : ∃ c s, e.1 = .create c s) :
    ∃ ms' m b m', Runs (k ms') m b o m' ∧ e ∈ b ∧ Provided cfg ms ms' := by
  induction ms generalizing k n n' l o with
  | nil => exact ⟨[], n, l, n', h, he, .nil, by simp⟩
  | cons m ms ih =>
    unfold withMounts at h
    replace h := runs_idBind.1 h
    obtain ⟨om, l1, l2, n1, rfl, h1, h2⟩ := runs_bind.1 h
    have hno : e ∉ l1 := by
      intro he
      obtain ⟨c, s, hc⟩ := hc
      obtain ⟨-, ⟨-, hf | ⟨m', r, rfl, -, -⟩⟩ | ⟨m', -, -, -, -, ⟨-, -, hh⟩ | ⟨-, r, rfl, -⟩⟩⟩ := mount_cases h1
      · have := hf e he; rw [hc] at this; cases this
      · rw [List.mem_singleton.1 he] at hc; cases hc
      · have := (hh e he).1; rw [hc] at this; cases this
      · rw [List.mem_singleton.1 he] at hc; cases hc
    replace he := (List.mem_append.1 he).resolve_left hno
    cases om with
    | none => obtain ⟨rfl, -, -⟩ := h2; simp at he
    | some m' =>
      obtain ⟨x, l3, l4, n2, rfl, h3, h4⟩ := runs_bind.1 h2
      obtain ⟨u, l5, l6, n3, rfl, h5, rfl, rfl, rfl⟩ := runs_bind.1 h4
      have hno : e ∉ l5 ++ [] := by
        intro he
        obtain ⟨c, s, hc⟩ := hc
        obtain ⟨-, ⟨-, r, rfl⟩ | ⟨-, rfl⟩⟩ := runs_unmount h5
        · have he : e ∈ [((Call.volumeRemove m'.id, r) : Ev)] := by simpa using he
          rw [List.mem_singleton.1 he] at hc; cases hc
        · simp at he
      replace he := (List.mem_append.1 he).resolve_right hno
      obtain ⟨ms', p, b, p', hr, hb, hM, hP⟩ := ih h3 he
      refine ⟨m' :: ms', p, b, p', hr, hb, ?_, ?_⟩
      · obtain ⟨-, ⟨h, -⟩ | ⟨m2, h0, -, hty, htg, hm⟩⟩ := mount_cases h1
        · cases h
        · cases h0
          refine .cons m m' ms ms' hty htg (fun hv => ?_) hM
          rcases hm with ⟨-, rfl, -⟩ | ⟨hv', -⟩
          · rfl
          · exact absurd hv' hv
      · exact List.forall_mem_cons.2 ⟨fun hb => mount_permitted h1 hb, hP⟩

theorem Mounted.origin {ms ms' : List Mount} (h : Mounted ms ms') {m : Mount} (hm : m ∈ ms') :
    ∃ m0 ∈ ms, m.type = m0.type ∧ m.target = m0.target ∧ (m0.type ≠ "volume" → m.source = m0.source) := by
  induction h with
  | nil => simp at hm
  | cons a a' ms ms' h1 h2 h3 _ ih =>
    rcases List.mem_cons.1 hm with rfl | hm
    · exact ⟨a, by simp, h1, h2, h3⟩
    · obtain ⟨m0, h4, h5⟩ := ih hm
      exact ⟨m0, List.mem_cons_of_mem _ h4, h5⟩

/-! ### C60 -/

/-- **C60 (every container belongs to the task).** Every container created during a run is set up for the task, one of its pre- or
post-tasks, or one of their sidecars, and all of them have the mounts and limits of the task and its networks (with the one made for
this run, if it has sidecars). -/
theorem C60_containers {cfg : Config} {t : Task} {n n' : Nat} {l : List Ev} {o : Option String} (h : Runs (run cfg t) n l o n')
    {c : Nat} {s : Container} {r : Reply} (hc : (Call.create c s, r) ∈ l) :
    ∃ x ∈ containersOf t, ∃ ms nets, Provided cfg t.mounts ms ∧
      (nets = t.networks ∨ ∃ k r, (Call.netCreate k, r) ∈ l ∧ r.ok = true ∧ nets = t.networks ++ [networkName k]) ∧
      For cfg { x with mounts := ms, networks := nets, limits := t.limits } s := by
  have key : ∀ {nets : List String} {n n' : Nat} {l : List Ev} {o : Option String}
      (_ : Runs (withMounts cfg (fun ms => runSteps cfg { t with networks := nets, mounts := ms }) t.mounts) n l o n')
      (_ : (Call.create c s, r) ∈ l), ∃ x ∈ containersOf t, ∃ ms, Provided cfg t.mounts ms ∧
      For cfg { x with mounts := ms, networks := nets, limits := t.limits } s := by
    intro nets n n' l o h hc
    obtain ⟨ms', m, b, m', hr, hb, hP⟩ := mounts_provided t.mounts h hc ⟨c, s, rfl⟩
    have hall := all_runSteps (cfg := cfg)
      (Q := fun e => ∀ c s, e.1 = .create c s → ∃ x ∈ containersOf { t with networks := nets, mounts := ms' }, ForShared cfg { t with networks := nets, mounts := ms' } x s)
      (fun e he c s hc => absurd hc (he c s)) { t with networks := nets, mounts := ms' }
      (by rintro x hx c s r h c' s' ⟨⟩; exact ⟨x, hx, h⟩)
    obtain ⟨x, hx, hf⟩ := (hall _ _ _ _ hr).1 _ hb c s rfl
    simp only [containersOf, List.mem_flatMap, List.mem_append, List.mem_cons] at hx
    obtain ⟨p, hp | rfl | hp, hs⟩ := hx
    · exact ⟨x, List.mem_flatMap.2 ⟨p, by simp [hp], by simpa using hs⟩, ms', hP, hf⟩
    · rcases hs with rfl | hs
      · exact ⟨t, List.mem_flatMap.2 ⟨t, by simp, by simp⟩, ms', hP, hf⟩
      · exact ⟨x, List.mem_flatMap.2 ⟨t, by simp, List.mem_cons_of_mem _ hs⟩, ms', hP, hf⟩
    · exact ⟨x, List.mem_flatMap.2 ⟨p, by simp [hp], by simpa using hs⟩, ms', hP, hf⟩
  rcases run_shape h with ⟨hs, h⟩ | ⟨hs, ⟨r0, rfl, hr, rfl, -⟩ | ⟨r0, k1, k2, rfl, hr, h1, h2⟩⟩
  · obtain ⟨x, hx, ms, h1, h2⟩ := key (nets := t.networks) (by cases t; exact h) hc
    exact ⟨x, hx, ms, t.networks, h1, .inl rfl, h2⟩
  · simp at hc
  · obtain ⟨-, hrm, -⟩ := runs_removeNetwork h2
    have hc' : (Call.create c s, r) ∈ k1 := by
      rcases List.mem_cons.1 hc with hc | hc
      · cases hc
      · rcases List.mem_append.1 hc with hc | hc
        · exact hc
        · have := hrm _ hc; cases this
    obtain ⟨x, hx, ms, h1, h2⟩ := key (nets := t.networks ++ [networkName n]) h1 hc'
    exact ⟨x, hx, ms, _, h1, .inr ⟨n, r0, by simp, hr, rfl⟩, h2⟩

/-- **C60 (bind mounts).** A host directory is bound into a container (of the task, a pre- or post-task, or a sidecar) only if the
operator allows bind mounts and lists the directory (up to case; an empty list allows every directory), and only where the task asks
for it. -/
theorem C60_bind_policy {cfg : Config} {t : Task} {n n' : Nat} {l : List Ev} {o : Option String} (h : Runs (run cfg t) n l o n')
    {c : Nat} {s : Container} {r : Reply} (hc : (Call.create c s, r) ∈ l) {m : Mount} (hm : m ∈ s.mounts) (hb : m.type = "bind") :
    BindPermitted cfg m.source ∧ ∃ m0 ∈ t.mounts, m0.type = "bind" ∧ m0.source = m.source ∧ m0.target = m.target := by
  obtain ⟨x, -, ms, nets, hP, -, hf⟩ := C60_containers h hc
  obtain ⟨d, hd, -, hd2⟩ := hf.mounts
  rw [hd] at hm
  rcases List.mem_append.1 hm with hm | hm
  · refine ⟨hP.permitted m hm hb, ?_⟩
    obtain ⟨m0, h1, h2, h3, h4⟩ := hP.mounted.origin hm
    exact ⟨m0, h1, by rw [← h2, hb], (h4 (by rw [← h2, hb]; decide)).symm, h3.symm⟩
  · rw [List.mem_singleton.1 hm, hd2] at hb
    exact absurd hb (by decide)

/-- **C60 (privileges).** Containers are privileged exactly when the operator says so, whatever the task asks for. -/
theorem C60_privileged {cfg : Config} {t : Task} {n n' : Nat} {l : List Ev} {o : Option String} (h : Runs (run cfg t) n l o n')
    {c : Nat} {s : Container} {r : Reply} (hc : (Call.create c s, r) ∈ l) : s.privileged = cfg.privileged := by
  obtain ⟨x, -, ms, nets, -, -, hf⟩ := C60_containers h hc
  exact hf.privileged

/-- **C60 (limits).** The CPU and memory limits of the task hold for each of its containers, sidecars included; a limit that
is not asked for is 0 (which the daemon reads as: unlimited). -/
theorem C60_limits {cfg : Config} {t : Task} {n n' : Nat} {l : List Ev} {o : Option String} (h : Runs (run cfg t) n l o n')
    {c : Nat} {s : Container} {r : Reply} (hc : (Call.create c s, r) ∈ l) 
    {lim : TaskLimits} (hl : t.limits = some lim) :
    (lim.cpus ≠ "" → cfg.cpus lim.cpus = some s.cpus) ∧ (lim.memory ≠ "" → cfg.memory lim.memory = some s.memory) ∧
    (lim.cpus = "" → s.cpus = 0) ∧ (lim.memory = "" → s.memory = 0) := by
  obtain ⟨x, -, ms, nets, -, -, hf⟩ := C60_containers h hc
  have h1 := hf.cpus
  have h2 := hf.memory
  simp only [hl, Limit, Option.map_some] at h1 h2
  refine ⟨fun h => ?_, fun h => ?_, fun h => ?_, fun h => ?_⟩ <;> grind

/-- **C60 (no limits).** The containers of a task without limits have none. -/
theorem C60_no_limits {cfg : Config} {t : Task} {n n' : Nat} {l : List Ev} {o : Option String} (h : Runs (run cfg t) n l o n')
    {c : Nat} {s : Container} {r : Reply} (hc : (Call.create c s, r) ∈ l) (hl : t.limits = none) : s.cpus = 0 ∧ s.memory = 0 := by
  obtain ⟨x, -, ms, nets, -, -, hf⟩ := C60_containers h hc
  have h1 := hf.cpus
  have h2 := hf.memory
  simp only [hl, Limit, Option.map_none] at h1 h2
  constructor <;> grind

namespace DockerEx

/-- an operator who allows one directory -/
def strict : Config := { bindAllowed := true, bindSources := ["/data"], fold := fun s => if s = "/DATA" then "/data" else s }

def binds (src : String) : Task :=
  { id := 5, image := "busybox", run := "ls", sidecars := [side], mounts := [{ type := "bind", source := src, target := "/in" }] }

def created (rs : List Reply) (cfg : Config) (t : Task) : List Container :=
  ((play (run cfg t) 1 rs).map fun x => x.1.filterMap fun e => match e.1 with | .create _ s => some s | _ => none).getD []

/-- both containers get the directory; the spelling `/DATA` passes as well -/
example : (created (List.replicate 30 yes) strict (binds "/data")).map (fun s => s.mounts.map (·.source)) =
      [["/data", "volume-3"], ["/data", "volume-6"]] ∧
    (created (List.replicate 30 yes) strict (binds "/DATA")).map (fun s => s.mounts.map (·.source)) =
      [["/DATA", "volume-3"], ["/DATA", "volume-6"]] ∧
    (created (List.replicate 30 yes) strict (binds "/etc")) = [] := by
  decide +kernel

end DockerEx

/-- **C60 (defect).** The policy on bind mounts does not keep host directories out of containers: the options of a `volume` mount are
handed to the daemon's volume driver as they are (`volume.go:30`), and the local driver binds any host directory when asked to
(`o=bind,device=/`), even where bind mounts are not allowed at all. -/
theorem C60_volume_bypass : ∃ cfg t l n' m r c s r', cfg.bindAllowed = false ∧ Runs (run cfg t) 1 l (some "") n' ∧
    (Call.volumeCreate m, r) ∈ l ∧ r.ok = true ∧ m.opts = [("type", "none"), ("o", "bind"), ("device", "/")] ∧
    (Call.create c s, r') ∈ l ∧ r'.ok = true ∧ s.Mounts m.id := by
  let t : Task := { id := 5, image := "busybox", run := "ls", mounts := [{ type := "volume", target := "/host", opts := [("type", "none"), ("o", "bind"), ("device", "/")] }] }
  have h : DockerEx.outcome (List.replicate 12 DockerEx.yes) t = some (some "") := by decide +kernel
  obtain ⟨n', h⟩ := DockerEx.trace_runs _ _ h
  let m : Mount := { id := 1, type := "volume", source := "volume-1", target := "/host", opts := [("type", "none"), ("o", "bind"), ("device", "/")] }
  refine ⟨DockerEx.cfg, t, _, n', m, DockerEx.yes, 3, containerOf DockerEx.cfg { t with mounts := [m] } (torkMount 2) 0 0, DockerEx.yes, rfl, h,
    by decide +kernel, rfl, rfl, by decide +kernel, rfl, ⟨m, by decide +kernel, rfl, rfl⟩⟩

end Tork.Docker

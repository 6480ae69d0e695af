import Verif.Props.DockerRun
/-!
# C59 — order and outcome of a Docker run
-/

namespace Tork.Docker
open Calls

/-! ### Specification -/

/-- The limit `asked` for means `n`: without limits, or with the limit left blank, it is 0 (none), otherwise what the text says. -/
def Limit (parse : String → Option Nat) (asked : Option String) (n : Nat) : Prop :=
  (asked = none ∧ n = 0) ∨ (asked = some "" ∧ n = 0) ∨ ∃ s, asked = some s ∧ s ≠ "" ∧ parse s = some n

/-- The limit asked for cannot be read. -/
def BadLimit (parse : String → Option Nat) (asked : Option String) : Prop := ∃ s, asked = some s ∧ s ≠ "" ∧ parse s = none

/-- The container `s` is set up for task `x`. -/
structure For (cfg : Config) (x : Task) (s : Container) : Prop where
  image : s.image = x.image
  env : ∀ kv ∈ x.env, kv ∈ s.env
  output : ("TORK_OUTPUT", "/tork/stdout") ∈ s.env ∧ ("TORK_PROGRESS", "/tork/progress") ∈ s.env
  cmd : x.cmd ≠ [] → s.cmd = x.cmd
  entrypoint : x.entrypoint ≠ [] → s.entrypoint = x.entrypoint
  script : x.run ≠ "" → x.entrypoint = [] → s.entrypoint = ["sh", "-c"] ∧ (x.cmd = [] → s.cmd = ["/tork/entrypoint"])
  workdir : x.workdir ≠ "" → s.workdir = x.workdir
  mounts : ∃ d, s.mounts = x.mounts ++ [d] ∧ d.target = "/tork" ∧ d.type = "volume"
  networks : s.networks = x.networks
  cpus : Limit cfg.cpus (x.limits.map (·.cpus)) s.cpus
  memory : Limit cfg.memory (x.limits.map (·.memory)) s.memory
  gpus : s.gpus = x.gpus
  privileged : s.privileged = cfg.privileged
  port : s.port = x.probe.map (·.port)
  envExact : s.env = x.env ++ [("TORK_OUTPUT", "/tork/stdout"), ("TORK_PROGRESS", "/tork/progress")]
  cmdDefault : x.cmd = [] → s.cmd = ["/tork/entrypoint"]
  noEntrypoint : x.run = "" → s.entrypoint = x.entrypoint
  workdirDefault : x.workdir = "" → s.workdir = if x.files = [] then "" else "/tork/workdir"

/-- the call failed; a container that exits with a non-zero status counts as a failure, failed removals do not -/
def failed : Ev → Bool
  | (.netRemove _, _) | (.volumeRemove _, _) | (.remove _, _) | (.tail _, _) => false
  | (.wait _, r) => !r.ok || r.code != 0
  | (_, r) => !r.ok

/-- removals, and reading the last log lines of a failed container -/
def cleanup : Ev → Bool
  | (.netRemove _, _) | (.volumeRemove _, _) | (.remove _, _) | (.tail _, _) => true
  | _ => false

/-- the containers waited for -/
def waits (l : List Ev) : List Nat := l.filterMap fun e => match e.1 with | .wait c => some c | _ => none

/-- the probe of task `x` was answered by container `c` -/
def Answered (x : Task) (c : Nat) (l : List Ev) : Prop :=
  ∀ p, x.probe = some p → ∃ p' r, (Call.probe c p', r) ∈ l ∧ r.ok = true ∧ p'.port = p.port ∧
    p'.path = (if p.path = "" then "/" else p.path) ∧ p'.timeout = (if p.timeout = "" then "1m" else p.timeout)

/-- Container `c` of task `x` ran to the end: its sidecars were up before it started and are removed only afterwards; its script and its
files were written into it; it exited with status 0, and `res` is what it left in its output file. -/
structure Success (cfg : Config) (x : Task) (l : List Ev) (res : String) : Prop where
  ran : ∃ c s l1 l2 l3 r1 r2 r3, l = l1 ++ (.start c, r1) :: l2 ++ (.wait c, r2) :: (.output c, r3) :: l3 ∧
    (∃ r, (Call.create c s, r) ∈ l1 ∧ r.ok = true) ∧ For cfg x s ∧ r1.ok = true ∧ Answered x c l2 ∧ r2.ok = true ∧ r2.code = 0 ∧
    r3.ok = true ∧ r3.text = res ∧
    (x.run ≠ "" → ∃ f r, (Call.copy c "/tork" f, r) ∈ l1 ∧ ("entrypoint", x.run) ∈ f) ∧
    (x.files ≠ [] → ∃ r, (Call.copy c s.workdir x.files, r) ∈ l1) ∧
    (∀ y ∈ x.sidecars, ∃ c' s' ra rb, (Call.create c' s', ra) ∈ l1 ∧ ra.ok = true ∧ (Call.start c', rb) ∈ l1 ∧ rb.ok = true ∧
      Answered y c' l1 ∧ For cfg { y with mounts := x.mounts, networks := x.networks, limits := x.limits } s' ∧
      (∃ rc, (Call.remove c', rc) ∈ l3) ∧ ∀ rc, (Call.remove c', rc) ∉ l1 ++ l2)

/-- The calls `l` are one attempt to run task `x`: at most one container is waited for, it is one created for `x`; with
result `res` if it succeeded; and every container created is gone at the end. -/
structure Attempt (cfg : Config) (x : Task) (l : List Ev) (o : Option String) : Prop where
  one : (waits l).length ≤ 1
  own : ∀ c ∈ waits l, ∃ s r, (Call.create c s, r) ∈ l ∧ r.ok = true ∧ For cfg x s
  done : ∀ res, o = some res → Success cfg x l res
  gone : ∀ l1 c s r l2, l = l1 ++ (.create c s, r) :: l2 → r.ok = true → Gone c l2

/-- The tasks are run one after the other, up to the first that fails; `rs` are the results, `b` says if all succeeded. -/
inductive Series (cfg : Config) : List Task → List Ev → List String → Bool → Prop
  | nil : Series cfg [] [] [] true
  | fail (x : Task) (xs : List Task) (l : List Ev) : Attempt cfg x l none → Series cfg (x :: xs) l [] false
  | ok (x : Task) (xs : List Task) (l l' : List Ev) (res : String) (rs : List String) (b : Bool) :
      Attempt cfg x l (some res) → Series cfg xs l' rs b → Series cfg (x :: xs) (l ++ l') (res :: rs) b

/-- pre- and post-tasks run with the mounts, networks and limits of the task -/
def shared (t x : Task) : Task := { x with mounts := t.mounts, networks := t.networks, limits := t.limits }

/-- the task's mounts `ms` were made available as `ms'` -/
inductive Mounted : List Mount → List Mount → Prop
  | nil : Mounted [] []
  | cons (m m' : Mount) (ms ms' : List Mount) (type : m'.type = m.type) (target : m'.target = m.target)
      (source : m.type ≠ "volume" → m'.source = m.source) (rest : Mounted ms ms') : Mounted (m :: ms) (m' :: ms')

/-- the calls that set up or tear down what all containers of the task share -/
def surroundings : Ev → Bool
  | (.netCreate _, _) | (.netRemove _, _) | (.volumeCreate _, _) | (.volumeRemove _, _) | (.hostDir _, _) => true
  | _ => false

/-- the mount can be made under this configuration -/
def Mountable (cfg : Config) (m : Mount) : Prop :=
  (m.type = "bind" ∧ cfg.bindAllowed = true ∧ isSourceAllowed cfg m.source = true ∧ m.target ≠ "" ∧ m.source ≠ "") ∨
  (m.type = "volume" ∧ m.target ≠ "") ∨ (m.type = "tmpfs" ∧ m.target ≠ "" ∧ m.source = "")

/-- the task, its pre- and post-tasks, and all their sidecars -/
def containersOf (t : Task) : List Task := (t.pre ++ t :: t.post).flatMap fun x => x :: x.sidecars

/-- The task itself is at fault: it cannot run under this configuration, whatever the daemon does. -/
def Unacceptable (cfg : Config) (t : Task) : Prop :=
  t.id = 0 ∨ (∃ m ∈ t.mounts, ¬ Mountable cfg m) ∨ BadLimit cfg.cpus (t.limits.map (·.cpus)) ∨
    BadLimit cfg.memory (t.limits.map (·.memory)) ∨ ∃ x ∈ containersOf t, x.gpus ≠ "" ∧ cfg.gpus x.gpus = false

/-! ### Proofs -/

theorem limitOf_ok {parse : String → Option Nat} {f : TaskLimits → String} {l : Option TaskLimits} {n : Nat}
    (h : limitOf parse f l = some n) : Limit parse (l.map f) n := by
  cases l with
  | none => exact .inl ⟨rfl, (Option.some.inj h).symm⟩
  | some x =>
    simp only [limitOf] at h
    by_cases hx : f x = ""
    · rw [if_pos hx] at h
      exact .inr (.inl ⟨congrArg some hx, (Option.some.inj h).symm⟩)
    · rw [if_neg hx] at h
      exact .inr (.inr ⟨_, rfl, hx, h⟩)

theorem limitOf_bad {parse : String → Option Nat} {f : TaskLimits → String} {l : Option TaskLimits}
    (h : limitOf parse f l = none) : BadLimit parse (l.map f) := by
  cases l with
  | none => cases h
  | some x =>
    simp only [limitOf] at h
    by_cases hx : f x = ""
    · rw [if_pos hx] at h; cases h
    · rw [if_neg hx] at h
      exact ⟨_, rfl, hx, h⟩

theorem For.of (cfg : Config) (x : Task) (v cpus mem : Nat) (h1 : limitOf cfg.cpus (·.cpus) x.limits = some cpus)
    (h2 : limitOf cfg.memory (·.memory) x.limits = some mem) : For cfg x (containerOf cfg x (torkMount v) cpus mem) where
  image := rfl
  env := fun kv h => List.mem_append_left _ h
  output := ⟨List.mem_append_right _ (by simp), List.mem_append_right _ (by simp)⟩
  cmd := fun h => by simp [containerOf, h]
  entrypoint := fun h => by simp [containerOf, h]
  script := fun h1 h2 => by simp [containerOf, h1, h2]; intro h; simp [h]
  workdir := fun h => by simp [containerOf, h]
  mounts := ⟨torkMount v, rfl, rfl, rfl⟩
  networks := rfl
  cpus := limitOf_ok h1
  memory := limitOf_ok h2
  gpus := rfl
  privileged := rfl
  port := rfl
  envExact := rfl
  cmdDefault := fun h => by simp [containerOf, h]
  noEntrypoint := fun h => by simp [containerOf, h]
  workdirDefault := fun h => by simp [containerOf, h]

theorem waits_append (l l' : List Ev) : waits (l ++ l') = waits l ++ waits l' := List.filterMap_append ..

theorem waits_none {l : List Ev} (h : ∀ e ∈ l, ∀ c, e.1 ≠ .wait c) : waits l = [] := by
  refine List.filterMap_eq_nil_iff.2 fun e he => ?_
  have := h e he
  cases hc : e.1 <;> simp_all

/-- a created container's calls, up to the point where it can be started -/
theorem Creation.facts {cfg : Config} {t : Task} {n : Nat} {k : Made} {l : List Ev} (h : Creation cfg t n k l) :
    k = ⟨n + 1, torkMount n⟩ ∧ (∃ r, (Call.create (n + 1) h.s, r) ∈ l ∧ r.ok = true) ∧ For cfg t h.s ∧ waits l = [] ∧
    (t.run ≠ "" → ∃ f r, (Call.copy (n + 1) "/tork" f, r) ∈ l ∧ ("entrypoint", t.run) ∈ f) ∧
    (t.files ≠ [] → ∃ r, (Call.copy (n + 1) h.s.workdir t.files, r) ∈ l) ∧ (∀ e ∈ l, failed e = false) ∧
    (∀ c r, (Call.remove c, r) ∉ l) := by
  obtain ⟨r0, r1, r2, s, rest, rfl, ok0, ok1, ok2, copies, script, files, ⟨cpus, mem, rfl, hc, hm⟩, rfl⟩ := h
  refine ⟨rfl, ⟨r2, by simp, ok2⟩, For.of cfg t n cpus mem hc hm, ?_, ?_, ?_, ?_, ?_⟩
  · refine waits_none ?_
    intro e he c hc
    simp only [List.mem_cons] at he
    rcases he with rfl | rfl | rfl | he
    · cases hc
    · cases hc
    · cases hc
    · obtain ⟨d, f, h, -⟩ := copies e he
      rw [h] at hc; cases hc
  · intro h
    obtain ⟨d, f, r, h1, rfl, h2⟩ := script h
    exact ⟨f, r, by simp [h1], h2⟩
  · intro h
    obtain ⟨r, h1⟩ := files h
    exact ⟨r, by simp [h1]⟩
  · intro e he
    simp only [List.mem_cons] at he
    rcases he with rfl | rfl | rfl | he
    · simp [failed, ok0]
    · simp [failed, ok1]
    · simp [failed, ok2]
    · obtain ⟨d, f, h, h'⟩ := copies e he
      obtain ⟨c, r⟩ := e
      cases h
      simpa [failed] using h'
  · intro c r he
    simp only [List.mem_cons, Prod.mk.injEq, reduceCtorEq, false_and, false_or] at he
    obtain ⟨d, f, h, -⟩ := copies _ he
    cases h

/-- the calls that prepare a container -/
def Prepares (e : Ev) : Prop :=
  (∃ i r, e.1 = .pull i r) ∨ (∃ m, e.1 = .volumeCreate m) ∨ (∃ c s, e.1 = .create c s) ∨ ∃ c d f, e.1 = .copy c d f

theorem Prepares.waits {l : List Ev} (h : ∀ e ∈ l, Prepares e) : waits l = [] := by
  refine waits_none fun e he c hc => ?_
  rcases h e he with ⟨_, _, h⟩ | ⟨_, h⟩ | ⟨_, _, h⟩ | ⟨_, _, _, h⟩ <;> rw [h] at hc <;> cases hc

theorem Prepares.noremove {l : List Ev} (h : ∀ e ∈ l, Prepares e) (c : Nat) (r : Reply) : (Call.remove c, r) ∉ l := by
  intro he
  rcases h _ he with ⟨_, _, h⟩ | ⟨_, h⟩ | ⟨_, _, h⟩ | ⟨_, _, _, h⟩ <;> cases h

theorem create_prepares {cfg : Config} {t : Task} {n n' : Nat} {l : List Ev} {o : Option Made}
    (h : Runs (createTaskContainer cfg t) n l o n') : ∀ e ∈ l, Prepares e := by
  unfold createTaskContainer at h
  replace h := runs_ite h
  rcases h with ⟨_, rfl, rfl, rfl⟩ | ⟨_, h⟩
  · simp
  replace h := runs_askBind.1 h
  obtain ⟨r0, l2, rfl, h⟩ := h
  refine List.forall_mem_cons.2 ⟨.inl ⟨_, _, rfl⟩, ?_⟩
  replace h := runs_ite h
  rcases h with ⟨_, rfl, rfl, rfl⟩ | ⟨_, h⟩
  · simp
  replace h := runs_ite h
  rcases h with ⟨_, rfl, rfl, rfl⟩ | ⟨_, h⟩
  · simp
  replace h := runs_idBind.1 h
  replace h := runs_bind.1 h
  obtain ⟨td, l3, l4, m, rfl, h1, h⟩ := h
  obtain ⟨r1, rfl, rfl, rfl⟩ := runs_mountVolume rfl h1
  refine List.forall_mem_cons.2 ⟨.inr (.inl ⟨_, rfl⟩), ?_⟩
  show ∀ e ∈ l4, Prepares e
  split at h
  · obtain ⟨rfl, rfl, rfl⟩ := h; simp
  · split at h
    · replace h := runs_ite h
      rcases h with ⟨_, rfl, rfl, rfl⟩ | ⟨_, h⟩
      · simp
      replace h := runs_idBind.1 h
      replace h := runs_askBind.1 h
      obtain ⟨r2, l5, rfl, h⟩ := h
      refine List.forall_mem_cons.2 ⟨.inr (.inr (.inl ⟨_, _, rfl⟩)), ?_⟩
      replace h := runs_ite h
      rcases h with ⟨_, rfl, rfl, rfl⟩ | ⟨_, h⟩
      · simp
      replace h := runs_askBind.1 h
      obtain ⟨r3, l6, rfl, h⟩ := h
      refine List.forall_mem_cons.2 ⟨.inr (.inr (.inr ⟨_, _, _, rfl⟩)), ?_⟩
      replace h := runs_ite h
      rcases h with ⟨_, rfl, rfl, rfl⟩ | ⟨_, h⟩
      · simp
      replace h := runs_ite h
      rcases h with ⟨_, rfl, rfl, rfl⟩ | ⟨_, h⟩
      · simp
      replace h := runs_askBind.1 h
      obtain ⟨r4, l7, rfl, h⟩ := h
      refine List.forall_mem_cons.2 ⟨.inr (.inr (.inr ⟨_, _, _, rfl⟩)), ?_⟩
      replace h := runs_ite h
      rcases h with ⟨_, rfl, rfl, rfl⟩ | ⟨_, rfl, rfl, rfl⟩ <;> simp
    · obtain ⟨rfl, rfl, rfl⟩ := h; simp

/-- What the sidecars add around the calls `body` of the main container: their creations before, their removals after. -/
structure Sidecars (cfg : Config) (t : Task) (ss : List Task) (n : Nat) (l : List Ev) (o : Option String) (P : Nat → List Ev → Option String → Prop) :
    Prop where
  split : ∃ l1 b l2 m, l = l1 ++ b ++ l2 ∧ waits l1 = [] ∧ waits l2 = [] ∧ n ≤ m ∧ (b = [] ∧ o = none ∨ P m b o) ∧
    (∀ c r, (Call.remove c, r) ∉ l1) ∧
    (o ≠ none → ∀ y ∈ ss, ∃ c' s' ra rb, (Call.create c' s', ra) ∈ l1 ∧ ra.ok = true ∧ (Call.start c', rb) ∈ l1 ∧
      rb.ok = true ∧ Answered y c' l1 ∧ For cfg { y with mounts := t.mounts, networks := t.networks, limits := t.limits } s' ∧
      (∃ rc, (Call.remove c', rc) ∈ l2))

theorem watches_noremove {l : List Ev} (h : ∀ e ∈ l, Watches e) (c : Nat) (r : Reply) : (Call.remove c, r) ∉ l := by
  intro hm
  have := h _ hm
  simp [Watches] at this

theorem start_waits {t : Task} {k : Made} {n n' : Nat} {l : List Ev} {b : Bool} (h : Runs (startContainer t k) n l b n') :
    waits l = [] := by
  obtain ⟨-, r, ⟨-, -, rfl⟩ | ⟨-, -, -, rfl⟩ | ⟨-, p, r', -, -, rfl⟩⟩ := runs_start h
  all_goals rfl

theorem Answered.mono {x : Task} {c : Nat} {l l' : List Ev} (h : Answered x c l) (hl : ∀ e ∈ l, e ∈ l') : Answered x c l' := by
  intro p hp
  obtain ⟨p', r, h1, h2⟩ := h p hp
  exact ⟨p', r, hl _ h1, h2⟩

theorem start_ok {t : Task} {k : Made} {n n' : Nat} {l : List Ev} {b : Bool} (h : Runs (startContainer t k) n l b n')
    (hb : b = true) : ∃ r lp, l = (.start k.id, r) :: lp ∧ r.ok = true ∧ (∀ c r, (Call.remove c, r) ∉ lp) ∧ Answered t k.id lp := by
  obtain ⟨-, r, ⟨-, hb', -⟩ | ⟨hr, hp, -, rfl⟩ | ⟨hr, p, r', hp, hb', rfl⟩⟩ := runs_start h
  · rw [hb'] at hb; cases hb
  · exact ⟨r, [], rfl, hr, by simp, fun p hp' => by rw [hp] at hp'; cases hp'⟩
  · refine ⟨r, _, rfl, hr, by simp, fun q hq => ?_⟩
    rw [hp] at hq
    cases hq
    exact ⟨probeOf p, r', by simp, by rw [← hb', hb], rfl, rfl, rfl⟩

theorem Removal.waits {c v : Nat} {l : List Ev} (h : Removal c v l) : waits l = [] := by
  obtain ⟨r, ⟨_, rfl⟩ | ⟨r', rfl⟩⟩ := h
  all_goals rfl

theorem sidecars_facts {cfg : Config} {t : Task} {body : Prog (Option String)} (ss : List Task) {n n' : Nat} {l : List Ev}
    {o : Option String} (h : Runs (withSidecars cfg t body ss) n l o n') (hA : ∀ a ∈ t.mounts, a.id < n) :
    Sidecars cfg t ss n l o fun m b o => ∃ m', Runs body m b o m' := by
  induction ss generalizing n l o n' with
  | nil =>
    exact ⟨[], l, [], n, by simp, rfl, rfl, Nat.le_refl _, .inr ⟨n', h⟩, by simp, by simp⟩
  | cons s ss ih =>
    unfold withSidecars at h
    replace h := runs_idBind.1 h
    obtain ⟨k, l1, l2, m, rfl, h1, h2⟩ := runs_bind.1 h
    have hA1 : ∀ a ∈ t.mounts, a.id < n + 1 := fun a ha => Nat.lt_succ_of_lt (hA a ha)
    have hprep := create_prepares h1
    rcases create_cases h1 hA1 with ⟨rfl, hp⟩ | ⟨k, rfl, rfl, ⟨hc⟩⟩
    · obtain ⟨rfl, rfl, rfl⟩ := h2
      exact ⟨l1, [], [], n, by simp, Prepares.waits hprep, rfl, Nat.le_refl _, .inl ⟨rfl, rfl⟩, Prepares.noremove hprep, by simp⟩
    · obtain ⟨b, l3, l4, m1, rfl, h3, h4⟩ := runs_bind.1 h2
      obtain ⟨rfl, hw⟩ := start_watches h3
      obtain ⟨x, l5, l6, m2, rfl, h5, h6⟩ := runs_bind.1 h4
      obtain ⟨u, l7, l8, m3, rfl, h7, rfl, rfl, rfl⟩ := runs_bind.1 h6
      obtain ⟨hmade, ⟨rc, hcr, hrc⟩, hfor, hcw, -, -, -, -⟩ := hc.facts
      rw [hmade] at h7 h3
      obtain ⟨rfl, hrm⟩ := runs_remove h7
      have hrm : Removal (n + 1 + 1) (n + 1) l7 := hrm
      obtain ⟨rr, kk, hhead⟩ := hrm.head
      unfold after at h5
      replace h5 := runs_ite h5
      rcases h5 with ⟨hb, h5⟩ | ⟨-, rfl, rfl, rfl⟩
      · obtain ⟨i1, bb, i2, m, rfl, hi1, hi2, hm, hP, hno, hall⟩ := ih h5 fun a ha => by have := hA a ha; omega
        refine ⟨l1 ++ l3 ++ i1, bb, i2 ++ l7, m, by simp, ?_, ?_, by omega, hP, ?_, ?_⟩
        · rw [waits_append, waits_append, Prepares.waits hprep, start_waits h3, hi1]; rfl
        · rw [waits_append, hi2, hrm.waits]; rfl
        · intro c r hmem
          rcases List.mem_append.1 hmem with hmem | hmem
          · rcases List.mem_append.1 hmem with hmem | hmem
            · exact Prepares.noremove hprep c r hmem
            · exact watches_noremove hw c r hmem
          · exact hno c r hmem
        · intro ho y hy
          rcases List.mem_cons.1 hy with rfl | hy
          · obtain ⟨rb, lp, rfl, hrb, -, hans⟩ := start_ok h3 hb
            exact ⟨n + 1 + 1, hc.s, rc, rb, by simp [hcr], hrc, by simp, hrb, (show Answered y _ lp from hans).mono (by simp +contextual),
              ⟨hfor.1, hfor.2, hfor.3, hfor.4, hfor.5, hfor.6, hfor.7, hfor.8, hfor.9, hfor.10, hfor.11, hfor.12, hfor.13, hfor.14,
                hfor.15, hfor.16, hfor.17, hfor.18⟩,
              rr, by rw [hhead]; simp⟩
          · obtain ⟨c', s', ra, rb, g1, g2, g3, g4, g0, g5, rc, g6⟩ := hall ho y hy
            exact ⟨c', s', ra, rb, by simp [g1], g2, by simp [g3], g4, g0.mono (by simp +contextual), g5, rc, by simp [g6]⟩
      · refine ⟨l1 ++ l3, [], l7, n, by simp, ?_, hrm.waits, Nat.le_refl _, .inl ⟨rfl, rfl⟩, ?_, by simp⟩
        · rw [waits_append, Prepares.waits hprep, start_waits h3]; rfl
        · intro c r hmem
          rcases List.mem_append.1 hmem with hmem | hmem
          · exact Prepares.noremove hprep c r hmem
          · exact watches_noremove hw c r hmem

theorem doRun_attempt {cfg : Config} {t : Task} {n n' : Nat} {l : List Ev} {o : Option String} (h : Runs (doRun cfg t) n l o n')
    (hA : ∀ a ∈ t.mounts, a.id < n) : Attempt cfg t l o := by
  have hpiece := doRun_piece h hA
  have hgone : ∀ l1 c s r l2, l = l1 ++ (.create c s, r) :: l2 → r.ok = true → Gone c l2 :=
    fun l1 c s r l2 hl hr => hpiece.gone hl hr
  unfold doRun at h
  obtain ⟨k, l1, l2, m, rfl, h1, h2⟩ := runs_bind.1 h
  have hprep := create_prepares h1
  rcases create_cases h1 hA with ⟨rfl, hp⟩ | ⟨k, rfl, rfl, ⟨hc⟩⟩
  · obtain ⟨rfl, rfl, rfl⟩ := h2
    have hw : waits (l1 ++ []) = [] := by simpa using Prepares.waits hprep
    exact ⟨by rw [hw]; simp, by rw [hw]; simp, by simp, hgone⟩
  · obtain ⟨x, l3, l4, m1, rfl, h3, h4⟩ := runs_bind.1 h2
    obtain ⟨u, l5, l6, m2, rfl, h5, rfl, rfl, rfl⟩ := runs_bind.1 h4
    obtain ⟨hmade, ⟨rc, hcr, hrc⟩, hfor, hcw, hscr, hfil, -, -⟩ := hc.facts
    rw [hmade] at h5 h3
    obtain ⟨rfl, hrm⟩ := runs_remove h5
    have hrm : Removal (n + 1) n l5 := hrm
    obtain ⟨i1, bb, i2, m, rfl, hi1, hi2, hm, hP, hno, hall⟩ := sidecars_facts t.sidecars h3 fun a ha => by have := hA a ha; omega
    have hwaits : waits (l1 ++ (i1 ++ bb ++ i2 ++ (l5 ++ []))) = waits bb := by
      simp only [waits_append, Prepares.waits hprep, hi1, hi2, hrm.waits, List.append_nil, List.nil_append]
    suffices H : (waits bb = [] ∨ waits bb = [n + 1]) ∧ (∀ res, o = some res →
        ∃ ls r1 r2 r3, bb = (.start (n + 1), r1) :: ls ++ (.wait (n + 1), r2) :: [(.output (n + 1), r3)] ∧
          r1.ok = true ∧ Answered t (n + 1) ls ∧ r2.ok = true ∧ r2.code = 0 ∧ r3.ok = true ∧ r3.text = res ∧
          ∀ c r, (Call.remove c, r) ∉ ls) by
      obtain ⟨H1, H2⟩ := H
      refine ⟨?_, ?_, ?_, hgone⟩
      · rw [hwaits]; rcases H1 with h | h <;> simp [h]
      · rw [hwaits]
        intro c hcm
        rcases H1 with h | h
        · rw [h] at hcm; simp at hcm
        · rw [h] at hcm
          rw [List.mem_singleton.1 hcm]
          exact ⟨hc.s, rc, by simp [hcr], hrc, hfor⟩
      · rintro res rfl
        obtain ⟨ls, r1, r2, r3, rfl, g1, g0, g2, g3, g4, g5, g6⟩ := H2 res rfl
        refine ⟨n + 1, hc.s, l1 ++ i1, ls, i2 ++ l5, r1, r2, r3, by simp, ⟨rc, by simp [hcr], hrc⟩, hfor, g1, g0, g2, g3, g4, g5,
          ?_, ?_, ?_⟩
        · intro hr
          obtain ⟨f, r, q1, q2⟩ := hscr hr
          exact ⟨f, r, by simp [q1], q2⟩
        · intro hr
          obtain ⟨r, q1⟩ := hfil hr
          exact ⟨r, by simp [q1]⟩
        · intro y hy
          obtain ⟨c', s', ra, rb, q1, q2, q3, q4, q0, q5, rc', q6⟩ := hall (by simp) y hy
          refine ⟨c', s', ra, rb, by simp [q1], q2, by simp [q3], q4, q0.mono (by simp +contextual), q5, ⟨rc', by simp [q6]⟩, ?_⟩
          intro rx hmem
          rcases List.mem_append.1 hmem with hmem | hmem
          · rcases List.mem_append.1 hmem with hmem | hmem
            · exact Prepares.noremove hprep c' rx hmem
            · exact hno c' rx hmem
          · exact g6 c' rx hmem
    rcases hP with ⟨rfl, rfl⟩ | ⟨m', hb⟩
    · exact ⟨.inl rfl, by simp⟩
    · obtain ⟨b, ls, lw, m3, rfl, hs1, hs2⟩ := runs_bind.1 hb
      have hsw := start_waits hs1
      unfold after at hs2
      replace hs2 := runs_ite hs2
      rcases hs2 with ⟨hbt, hs2⟩ | ⟨-, rfl, rfl, rfl⟩
      · obtain ⟨r0, lp, rfl, hr0, hlp, hans⟩ := start_ok hs1 hbt
        rw [waits_append, hsw, List.nil_append]
        obtain ⟨-, r, ⟨-, rfl, rfl⟩ | ⟨hr, r1, ⟨-, rfl, rfl⟩ | ⟨-, -, rfl, r2, rfl⟩ | ⟨hr1, hc1, r2, rfl, rfl⟩⟩⟩ := runs_wait hs2
        · exact ⟨.inl rfl, by simp⟩
        · exact ⟨.inr rfl, by simp⟩
        · exact ⟨.inr rfl, by simp⟩
        · refine ⟨.inr rfl, ?_⟩
          intro res hres
          cases hr2 : r2.ok with
          | false => rw [hr2] at hres; cases hres
          | true =>
            rw [hr2] at hres
            cases hres
            refine ⟨lp ++ [(.follow (n + 1), r)], r0, r1, r2, by simp, hr0, hans.mono (by simp +contextual), hr1, hc1, hr2, rfl, ?_⟩
            intro c r' hmem
            rcases List.mem_append.1 hmem with hmem | hmem
            · exact hlp c r' hmem
            · simp at hmem
      · exact ⟨.inl (by simpa using hsw), by simp⟩

theorem Attempt.congr {cfg : Config} {x y : Task} {l : List Ev} {o : Option String} (h : Attempt cfg x l o)
    (hxy : ∃ i, x = { y with id := i }) : Attempt cfg y l o := by
  obtain ⟨i, rfl⟩ := hxy
  have hf : ∀ s, For cfg { y with id := i } s → For cfg y s := fun s h =>
    ⟨h.1, h.2, h.3, h.4, h.5, h.6, h.7, h.8, h.9, h.10, h.11, h.12, h.13, h.14, h.15, h.16, h.17, h.18⟩
  refine ⟨h.one, ?_, ?_, h.gone⟩
  · intro c hc
    obtain ⟨s, r, h1, h2, h3⟩ := h.own c hc
    exact ⟨s, r, h1, h2, hf s h3⟩
  · intro res hres
    obtain ⟨c, s, l1, l2, l3, r1, r2, r3, h1, h2, h3, h4⟩ := (h.done res hres).ran
    exact ⟨c, s, l1, l2, l3, r1, r2, r3, h1, h2, hf s h3, h4⟩

theorem Series.append {cfg : Config} {xs ys : List Task} {l l' : List Ev} {rs rs' : List String} {b : Bool}
    (h : Series cfg xs l rs true) (h' : Series cfg ys l' rs' b) : Series cfg (xs ++ ys) (l ++ l') (rs ++ rs') b := by
  generalize hb : true = t at h
  induction h with
  | nil => exact h'
  | fail => cases hb
  | ok x xs l l0 res rs b ha _ ih =>
    rw [List.append_assoc]
    exact .ok x _ l _ res _ _ ha (ih hb)

theorem Series.append_false {cfg : Config} {xs ys : List Task} {l : List Ev} {rs : List String}
    (h : Series cfg xs l rs false) : Series cfg (xs ++ ys) l rs false := by
  generalize hb : false = t at h
  induction h with
  | nil => cases hb
  | fail x xs l ha => exact .fail x _ l ha
  | ok x xs l l0 res rs b ha _ ih => exact .ok x _ l _ res _ _ ha (ih hb)

theorem Series.length {cfg : Config} {xs : List Task} {l : List Ev} {rs : List String} (h : Series cfg xs l rs true) :
    rs.length = xs.length := by
  generalize hb : true = t at h
  induction h with
  | nil => rfl
  | fail => cases hb
  | ok x xs l l0 res rs b ha _ ih => simp [ih hb]

theorem runAll_series {cfg : Config} {t : Task} (ps : List Task) {n n' : Nat} {l : List Ev} {b : Bool}
    (h : Runs (runAll cfg t ps) n l b n') (hA : ∀ a ∈ t.mounts, a.id < n) : ∃ rs, Series cfg (ps.map (shared t)) l rs b := by
  induction ps generalizing n l b n' with
  | nil => obtain ⟨rfl, rfl, rfl⟩ := h; exact ⟨[], .nil⟩
  | cons p ps ih =>
    unfold runAll at h
    replace h := runs_idBind.1 h
    obtain ⟨o, l1, l2, m, rfl, h1, h2⟩ := runs_bind.1 h
    have hA1 : ∀ a ∈ t.mounts, a.id < n + 1 := fun a ha => Nat.lt_succ_of_lt (hA a ha)
    have ha : Attempt cfg (shared t p) l1 o := (doRun_attempt h1 hA1).congr ⟨n, rfl⟩
    have hle := h1.le
    cases o with
    | none =>
      obtain ⟨rfl, rfl, rfl⟩ := h2
      exact ⟨[], by simpa using Series.fail (shared t p) (ps.map (shared t)) l1 ha⟩
    | some r =>
      obtain ⟨rs, hs⟩ := ih h2 fun a ha => by have := hA a ha; omega
      exact ⟨r :: rs, .ok _ _ _ _ _ _ _ ha hs⟩

theorem runSteps_series {cfg : Config} {t : Task} {n n' : Nat} {l : List Ev} {o : Option String}
    (h : Runs (runSteps cfg t) n l o n') (hA : ∀ a ∈ t.mounts, a.id < n) :
    ∃ rs b, Series cfg ((t.pre ++ t :: t.post).map (shared t)) l rs b ∧ (∀ r, o = some r ↔ b = true ∧ rs[t.pre.length]? = some r) := by
  have hself : shared t t = t := by cases t; rfl
  unfold runSteps at h
  obtain ⟨b, l1, l2, m, rfl, h1, h2⟩ := runs_bind.1 h
  obtain ⟨rs, hs⟩ := runAll_series t.pre h1 hA
  have hle := h1.le
  rw [List.map_append, List.map_cons, hself]
  replace h2 := runs_ite h2
  rcases h2 with ⟨hb, rfl, rfl, rfl⟩ | ⟨hb, h2⟩
  · have hb : b = false := by simpa using hb
    subst hb
    exact ⟨rs, false, by simpa using hs.append_false, by simp⟩
  have hb : b = true := by simpa using hb
  subst hb
  have hlen := hs.length
  obtain ⟨o1, l3, l4, m1, rfl, h3, h4⟩ := runs_bind.1 h2
  have hle1 := h3.le
  have ha := doRun_attempt h3 (fun a ha => by have := hA a ha; omega)
  cases o1 with
  | none =>
    obtain ⟨rfl, rfl, rfl⟩ := h4
    rw [List.append_nil]
    exact ⟨rs ++ [], false, hs.append (.fail t _ l3 ha), by simp⟩
  | some r =>
    obtain ⟨b1, l5, l6, m2, rfl, h5, h6⟩ := runs_bind.1 h4
    obtain ⟨rs', hs'⟩ := runAll_series t.post h5 (fun a ha => by have := hA a ha; omega)
    have hl6 : l6 = [] ∧ o = if b1 then some r else none := by
      replace h6 := runs_ite h6
      rcases h6 with ⟨hb, rfl, rfl, rfl⟩ | ⟨hb, rfl, rfl, rfl⟩
      · exact ⟨rfl, by rw [if_pos hb]⟩
      · exact ⟨rfl, by rw [if_neg hb]⟩
    obtain ⟨rfl, rfl⟩ := hl6
    refine ⟨rs ++ r :: rs', b1, ?_, ?_⟩
    · rw [List.append_nil]
      exact hs.append (.ok t _ l3 l5 r rs' b1 ha hs')
    · intro r'
      have : (rs ++ r :: rs')[t.pre.length]? = some r := by
        rw [show t.pre.length = rs.length by rw [hlen, List.length_map]]
        simp
      rw [this]
      cases b1 <;> simp

/-! ### The whole run -/

theorem mounts_inner {cfg : Config} (ms : List Mount) {k : List Mount → Prog (Option String)} {n n' : Nat} {l : List Ev}
    {o : Option String} (h : Runs (withMounts cfg k ms) n l o n') (hA : ∀ ms' n l o n', Runs (k ms') n l o n' → n ≤ n') :
    ∃ l1 b l2, l = l1 ++ b ++ l2 ∧ (∀ e ∈ l1, surroundings e = true) ∧ (∀ e ∈ l2, surroundings e = true) ∧
      ((b = [] ∧ o = none) ∨ ∃ ms' m m', Runs (k ms') m b o m' ∧ Mounted ms ms' ∧ n ≤ m ∧ ∀ a ∈ ms', a.id < m) := by
  induction ms generalizing k n n' l o with
  | nil => exact ⟨[], l, [], by simp, by simp, by simp, .inr ⟨[], n, n', h, .nil, Nat.le_refl _, by simp⟩⟩
  | cons m ms ih =>
    unfold withMounts at h
    replace h := runs_idBind.1 h
    obtain ⟨om, l1, l2, n1, rfl, h1, h2⟩ := runs_bind.1 h
    obtain ⟨rfl, ⟨rfl, hf⟩ | ⟨m', rfl, hid, hty, htg, hm⟩⟩ := mount_cases h1
    · obtain ⟨rfl, rfl, rfl⟩ := h2
      refine ⟨l1, [], [], by simp, ?_, by simp, .inl ⟨rfl, rfl⟩⟩
      rcases hf with hf | ⟨m', r, rfl, -, -⟩
      · rintro ⟨c, r⟩ he
        have := hf _ he
        simp only at this
        subst this
        rfl
      · simp [surroundings]
    · obtain ⟨x, l3, l4, n2, rfl, h3, h4⟩ := runs_bind.1 h2
      obtain ⟨u, l5, l6, n3, rfl, h5, rfl, rfl, rfl⟩ := runs_bind.1 h4
      obtain ⟨-, hun⟩ := runs_unmount h5
      obtain ⟨i1, b, i2, rfl, hi1, hi2, hb⟩ := ih h3 fun ms' n l o n' hr => hA _ n l o n' hr
      have hl1 : ∀ e ∈ l1, surroundings e = true := by
        rcases hm with ⟨-, -, hh⟩ | ⟨-, r, rfl, -⟩
        · rintro ⟨c, r⟩ he
          have := (hh _ he).1
          simp only at this
          subst this
          rfl
        · simp [surroundings]
      have hl5 : ∀ e ∈ l5, surroundings e = true := by
        rcases hun with ⟨-, r, rfl⟩ | ⟨-, rfl⟩ <;> simp [surroundings]
      refine ⟨l1 ++ i1, b, i2 ++ l5, by simp, ?_, ?_, ?_⟩
      · intro e he
        rcases List.mem_append.1 he with he | he
        · exact hl1 e he
        · exact hi1 e he
      · intro e he
        rcases List.mem_append.1 he with he | he
        · exact hi2 e he
        · exact hl5 e he
      · rcases hb with hb | ⟨ms', p, p', hr, hM, hle, hlt⟩
        · exact .inl hb
        · refine .inr ⟨m' :: ms', p, p', hr, ?_, by omega, ?_⟩
          · refine .cons m m' ms ms' hty htg (fun hv => ?_) hM
            rcases hm with ⟨-, rfl, -⟩ | ⟨hv', -⟩
            · rfl
            · exact absurd hv' hv
          · refine List.forall_mem_cons.2 ⟨?_, hlt⟩
            have : m'.id = n := hid
            omega

/-- **C59 (order).** A run sets up the shared mounts (and network), then runs the pre-tasks, the task and the post-tasks one after
the other, each in its own container with the task's mounts, networks and limits, up to the first that fails; then it tears
everything down. It succeeds exactly when all of them succeeded, and its result is the one of the task itself. -/
theorem C59_in_order {cfg : Config} {t : Task} {n n' : Nat} {l : List Ev} {o : Option String} (h : Runs (run cfg t) n l o n') :
    ∃ before steps behind nets ms rs b, l = before ++ steps ++ behind ∧ (∀ e ∈ before, surroundings e = true) ∧
      (∀ e ∈ behind, surroundings e = true) ∧ (t.sidecars = [] → nets = t.networks) ∧
      (t.sidecars ≠ [] → steps ≠ [] → ∃ k r, (Call.netCreate k, r) ∈ before ∧ r.ok = true ∧ nets = t.networks ++ [networkName k]) ∧
      ((steps = [] ∧ o = none) ∨ (Mounted t.mounts ms ∧
        Series cfg ((t.pre ++ t :: t.post).map (shared { t with mounts := ms, networks := nets })) steps rs b ∧
        ∀ r, o = some r ↔ b = true ∧ rs[t.pre.length]? = some r)) := by
  have key : ∀ {t : Task} {n n' : Nat} {l : List Ev} {o : Option String} (_ : Runs (withMounts cfg (fun ms => runSteps cfg { t with mounts := ms }) t.mounts) n l o n'),
      ∃ before steps behind ms rs b, l = before ++ steps ++ behind ∧ (∀ e ∈ before, surroundings e = true) ∧
      (∀ e ∈ behind, surroundings e = true) ∧
      ((steps = [] ∧ o = none) ∨ (Mounted t.mounts ms ∧
        Series cfg ((t.pre ++ t :: t.post).map (shared { t with mounts := ms })) steps rs b ∧
        ∀ r, o = some r ↔ b = true ∧ rs[t.pre.length]? = some r)) := by
    intro t n n' l o h
    obtain ⟨l1, b, l2, rfl, hl1, hl2, hb⟩ := mounts_inner t.mounts h fun ms' n l o n' hr => hr.le
    rcases hb with ⟨rfl, rfl⟩ | ⟨ms', m, m', hr, hM, hle, hlt⟩
    · exact ⟨l1, [], l2, [], [], true, rfl, hl1, hl2, .inl ⟨rfl, rfl⟩⟩
    · obtain ⟨rs, bb, hs, ho⟩ := runSteps_series hr hlt
      refine ⟨l1, b, l2, ms', rs, bb, rfl, hl1, hl2, .inr ⟨hM, ?_, ho⟩⟩
      simpa [shared] using hs
  rcases run_shape h with ⟨hs, h⟩ | ⟨hs, ⟨r, rfl, hr, rfl, -⟩ | ⟨r, k1, k2, rfl, hr, h1, h2⟩⟩
  · obtain ⟨b, st, f, ms, rs, bb, h1, h2, h3, h4⟩ := key h
    exact ⟨b, st, f, t.networks, ms, rs, bb, h1, h2, h3, fun _ => rfl, fun h => absurd hs h, h4⟩
  · exact ⟨[(.netCreate n, r)], [], [], [], [], [], true, rfl, by simp [surroundings], by simp, fun h => absurd h hs,
      fun _ h => absurd rfl h, .inl ⟨rfl, rfl⟩⟩
  · obtain ⟨-, hrm, -⟩ := runs_removeNetwork h2
    obtain ⟨b, st, f, ms, rs, bb, rfl, h5, h3, h4⟩ := key (t := { t with networks := t.networks ++ [networkName n] }) h1
    refine ⟨(.netCreate n, r) :: b, st, f ++ k2, t.networks ++ [networkName n], ms, rs, bb, by simp, ?_, ?_,
      fun h => absurd h hs, fun _ _ => ⟨n, r, by simp, hr, rfl⟩, ?_⟩
    rotate_left
    rotate_left
    · rcases h4 with h4 | ⟨h4, h6, h7⟩
      · exact .inl h4
      · refine .inr ⟨h4, ?_, h7⟩
        simpa [shared] using h6
    · exact List.forall_mem_cons.2 ⟨rfl, h5⟩
    · intro e he
      rcases List.mem_append.1 he with he | he
      · exact h3 e he
      · obtain ⟨c, r'⟩ := e
        have := hrm _ he
        simp only at this
        subst this
        rfl

theorem Series.all {cfg : Config} {xs : List Task} {l : List Ev} {rs : List String} {b : Bool} (h : Series cfg xs l rs b) (hb : b = true)
    (i : Nat) (x : Task) (hx : xs[i]? = some x) : ∃ l1 l2 l3 res, l = l1 ++ l2 ++ l3 ∧ rs[i]? = some res ∧ Success cfg x l2 res := by
  induction h generalizing i with
  | nil => simp at hx
  | fail => cases hb
  | ok y xs l l' res rs b ha _ ih =>
    cases i with
    | zero =>
      simp at hx
      subst hx
      exact ⟨[], l, l', res, rfl, rfl, ha.done res rfl⟩
    | succ i =>
      obtain ⟨l1, l2, l3, r, rfl, h2, h3⟩ := ih hb i (by simpa using hx)
      exact ⟨l ++ l1, l2, l3, r, by simp, h2, h3⟩

/-- **C59 (success).** When a run succeeds with result `res`, the container of the task itself exited with status 0 and left `res` in its
output file, and so did, each with its own result, the containers of every pre- and post-task. -/
theorem C59_success {cfg : Config} {t : Task} {n n' : Nat} {l : List Ev} {res : String} (h : Runs (run cfg t) n l (some res) n') :
    ∃ nets ms, Mounted t.mounts ms ∧
      (∃ l1 l2 l3, l = l1 ++ l2 ++ l3 ∧ Success cfg { t with mounts := ms, networks := nets } l2 res) ∧
      ∀ x ∈ t.pre ++ t.post, ∃ l1 l2 l3 r, l = l1 ++ l2 ++ l3 ∧
        Success cfg (shared { t with mounts := ms, networks := nets } x) l2 r := by
  obtain ⟨before, st, behind, nets, ms, rs, b, rfl, -, -, -, -, ⟨-, h'⟩ | ⟨hM, hs, ho⟩⟩ := C59_in_order h
  · cases h'
  · obtain ⟨hb, hres⟩ := (ho res).1 rfl
    refine ⟨nets, ms, hM, ?_, ?_⟩
    · obtain ⟨l1, l2, l3, r, rfl, h2, h3⟩ := hs.all hb t.pre.length (shared { t with mounts := ms, networks := nets } t) (by simp)
      rw [hres] at h2
      cases h2
      exact ⟨before ++ l1, l2, l3 ++ behind, by simp, h3⟩
    · intro x hx
      have hx' : shared { t with mounts := ms, networks := nets } x ∈
          (t.pre ++ t :: t.post).map (shared { t with mounts := ms, networks := nets }) := by
        refine List.mem_map_of_mem ?_
        rcases List.mem_append.1 hx with hx | hx
        · simp [hx]
        · simp [hx]
      obtain ⟨i, hi⟩ := List.getElem?_of_mem hx'
      obtain ⟨l1, l2, l3, r, rfl, -, h3⟩ := hs.all hb i _ hi
      exact ⟨before ++ l1, l2, l3 ++ behind, r, by simp, h3⟩

/-! ### Failures -/

/-- After a failed call only removals follow, and the part did not succeed; it fails only for such a call, or because of `X`. -/
structure Fate (X : Prop) (l : List Ev) (ok : Prop) : Prop where
  stop : ∀ l1 e l2, l = l1 ++ e :: l2 → failed e = true → ∀ e' ∈ l2, cleanup e' = true
  bad : (∃ e ∈ l, failed e = true) → ¬ ok
  cause : ¬ ok → (∃ e ∈ l, failed e = true) ∨ X

theorem failed_of_cleanup {e : Ev} (h : cleanup e = true) : failed e = false := by
  obtain ⟨c, r⟩ := e
  cases c <;> simp_all [cleanup, failed]

theorem Fate.nil {X ok : Prop} (h : ok ∨ X) : Fate X [] ok :=
  ⟨fun _ _ _ h => by simp at h, fun ⟨_, h, _⟩ => by simp at h, fun hn => .inr (h.resolve_left hn)⟩

theorem Fate.seq {X a b : Prop} {l l' : List Ev} (h : Fate X l a) (h' : a → Fate X l' b)
    (hn : ¬ a → ¬ b ∧ ∀ e ∈ l', cleanup e = true) : Fate X (l ++ l') b := by
  refine ⟨fun l1 e l2 hl hf => ?_, ?_, ?_⟩
  · rcases split_append hl with ⟨k, h1, rfl⟩ | ⟨k, rfl, h2⟩
    · have hna : ¬ a := h.bad ⟨e, by rw [h1]; simp, hf⟩
      intro e' he'
      rcases List.mem_append.1 he' with he' | he'
      · exact h.stop l1 e k h1 hf e' he'
      · exact (hn hna).2 e' he'
    · by_cases ha : a
      · exact (h' ha).stop k e l2 h2 hf
      · have := failed_of_cleanup ((hn ha).2 e (by rw [h2]; simp))
        rw [this] at hf; cases hf
  · rintro ⟨e, he, hf⟩ hb
    by_cases ha : a
    · rcases List.mem_append.1 he with he | he
      · exact h.bad ⟨e, he, hf⟩ ha
      · exact (h' ha).bad ⟨e, he, hf⟩ hb
    · exact (hn ha).1 hb
  · intro hnb
    by_cases ha : a
    · rcases (h' ha).cause hnb with ⟨e, he, hf⟩ | hx
      · exact .inl ⟨e, List.mem_append_right _ he, hf⟩
      · exact .inr hx
    · rcases h.cause ha with ⟨e, he, hf⟩ | hx
      · exact .inl ⟨e, List.mem_append_left _ he, hf⟩
      · exact .inr hx

theorem Fate.clean {X a : Prop} {l l' : List Ev} (h : Fate X l a) (hl : ∀ e ∈ l', cleanup e = true) : Fate X (l ++ l') a := by
  refine h.seq (fun ha => ⟨fun l1 e l2 he hf => ?_, ?_, fun hn => absurd ha hn⟩) fun hn => ⟨hn, hl⟩
  · rw [failed_of_cleanup (hl e (by rw [he]; simp))] at hf; cases hf
  · rintro ⟨e, he, hf⟩
    rw [failed_of_cleanup (hl e he)] at hf; cases hf

theorem Fate.cons {X b : Prop} {l : List Ev} {e : Ev} (h' : failed e = false → Fate X l b)
    (hn : failed e = true → ¬ b ∧ ∀ e ∈ l, cleanup e = true) : Fate X (e :: l) b := by
  have h1 : Fate X [e] (failed e = false) := by
    refine ⟨fun l1 e' l2 hl _ e'' he'' => ?_, ?_, fun h => .inl ⟨e, by simp, by simpa using h⟩⟩
    · cases l1 with
      | nil => obtain ⟨-, rfl⟩ := List.cons.inj hl; simp at he''
      | cons a l1 => simp at hl
    · rintro ⟨e', he', hf⟩ h
      rw [List.mem_singleton.1 he', h] at hf; cases hf
  exact h1.seq h' fun h => hn (by simpa using h)

theorem Fate.of_iff {X a b : Prop} {l : List Ev} (h : Fate X l a) (hab : a ↔ b) : Fate X l b := by
  rwa [propext hab] at h

theorem create_fate {cfg : Config} {t : Task} {X : Prop} (hid : t.id = 0 → X) (hm : t.mounts.all mountOK = false → X)
    (hc : limitOf cfg.cpus (·.cpus) t.limits = none → X) (hmem : limitOf cfg.memory (·.memory) t.limits = none → X)
    (hg : t.gpus ≠ "" → cfg.gpus t.gpus = false → X) {n n' : Nat} {l : List Ev} {o : Option Made}
    (h : Runs (createTaskContainer cfg t) n l o n') : Fate X l (o ≠ none) := by
  unfold createTaskContainer at h
  replace h := runs_ite h
  rcases h with ⟨h0, rfl, rfl, rfl⟩ | ⟨_, h⟩
  · exact .nil (.inr (hid h0))
  replace h := runs_askBind.1 h
  obtain ⟨r0, l2, rfl, h⟩ := h
  replace h := runs_ite h
  rcases h with ⟨hr, rfl, rfl, rfl⟩ | ⟨hr, h⟩
  · exact .cons (fun hf => by simp [failed] at hf; simp [hf] at hr) (by simp)
  refine .cons (fun _ => ?_) (fun hf => by simp [failed] at hf; simp [hf] at hr)
  replace h := runs_ite h
  rcases h with ⟨hmo, rfl, rfl, rfl⟩ | ⟨_, h⟩
  · exact .nil (.inr (hm (by simpa using hmo)))
  replace h := runs_idBind.1 h
  replace h := runs_bind.1 h
  obtain ⟨td, l3, l4, m, rfl, h1, h⟩ := h
  obtain ⟨r1, rfl, rfl, rfl⟩ := runs_mountVolume rfl h1
  cases hr1 : r1.ok with
  | false =>
    rw [hr1] at h
    obtain ⟨rfl, rfl, rfl⟩ := h
    exact .cons (fun hf => by simp [failed, hr1] at hf) (by simp)
  | true =>
  rw [hr1] at h
  refine .cons (fun _ => ?_) (fun hf => by simp [failed, hr1] at hf)
  show Fate X l4 _
  rw [if_pos rfl] at h
  dsimp only at h
  split at h
  · replace h := runs_ite h
    rcases h with ⟨hgp, rfl, rfl, rfl⟩ | ⟨_, h⟩
    · exact .nil (.inr (hg (by simp at hgp; exact hgp.1) (by simp at hgp; exact hgp.2)))
    replace h := runs_idBind.1 h
    replace h := runs_askBind.1 h
    obtain ⟨r2, l5, rfl, h⟩ := h
    replace h := runs_ite h
    rcases h with ⟨hr, rfl, rfl, rfl⟩ | ⟨hr, h⟩
    · exact .cons (fun hf => by simp [failed] at hf; simp [hf] at hr) (by simp)
    refine .cons (fun _ => ?_) (fun hf => by simp [failed] at hf; simp [hf] at hr)
    replace h := runs_askBind.1 h
    obtain ⟨r3, l6, rfl, h⟩ := h
    replace h := runs_ite h
    rcases h with ⟨hr, rfl, rfl, rfl⟩ | ⟨hr, h⟩
    · exact .cons (fun hf => by simp [failed] at hf; simp [hf] at hr) (by simp)
    refine .cons (fun _ => ?_) (fun hf => by simp [failed] at hf; simp [hf] at hr)
    replace h := runs_ite h
    rcases h with ⟨_, rfl, rfl, rfl⟩ | ⟨_, h⟩
    · exact .nil (.inl (by simp))
    replace h := runs_askBind.1 h
    obtain ⟨r4, l7, rfl, h⟩ := h
    replace h := runs_ite h
    rcases h with ⟨hr, rfl, rfl, rfl⟩ | ⟨hr, rfl, rfl, rfl⟩
    · exact .cons (fun hf => by simp [failed] at hf; simp [hf] at hr) (by simp)
    · exact .cons (fun _ => .nil (.inl (by simp))) (fun hf => by simp [failed] at hf; simp [hf] at hr)
  · rename_i hno
    obtain ⟨rfl, rfl, rfl⟩ := h
    refine .nil (.inr ?_)
    cases h1 : limitOf cfg.cpus (·.cpus) t.limits with
    | none => exact hc h1
    | some c =>
      cases h2 : limitOf cfg.memory (·.memory) t.limits with
      | none => exact hmem h2
      | some m => exact absurd h2 (hno c m h1)

theorem start_fate {X : Prop} {t : Task} {k : Made} {n n' : Nat} {l : List Ev} {b : Bool} (h : Runs (startContainer t k) n l b n') :
    Fate X l (b = true) := by
  obtain ⟨-, r, ⟨hr, rfl, rfl⟩ | ⟨hr, -, rfl, rfl⟩ | ⟨hr, p, r', -, rfl, rfl⟩⟩ := runs_start h
  · exact .cons (fun hf => by simp [failed, hr] at hf) (by simp)
  · exact .cons (fun hf => .nil (.inl rfl)) (fun hf => by simp [failed, hr] at hf)
  · refine .cons (fun hf => ?_) (fun hf => by simp [failed, hr] at hf)
    exact .cons (fun hf => .nil (.inl (by simpa [failed] using hf))) (fun hf => ⟨by simpa [failed] using hf, by simp⟩)

theorem wait_fate {X : Prop} {k : Made} {n n' : Nat} {l : List Ev} {o : Option String} (h : Runs (waitContainer k) n l o n') :
    Fate X l (o ≠ none) := by
  obtain ⟨-, r, ⟨hr, rfl, rfl⟩ | ⟨hr, r1, ⟨hr1, rfl, rfl⟩ | ⟨hr1, hc, rfl, r2, rfl⟩ | ⟨hr1, hc1, r2, rfl, rfl⟩⟩⟩ := runs_wait h
  · exact .cons (fun hf => by simp [failed, hr] at hf) (by simp)
  · refine .cons (fun hf => ?_) (fun hf => by simp [failed, hr] at hf)
    exact .cons (fun hf => by simp [failed, hr1] at hf) (by simp)
  · refine .cons (fun hf => ?_) (fun hf => by simp [failed, hr] at hf)
    exact .cons (fun hf => by simp [failed, hr1, hc] at hf) (by simp [cleanup])
  · refine .cons (fun hf => ?_) (fun hf => by simp [failed, hr] at hf)
    refine .cons (fun hf => ?_) (fun hf => by simp [failed, hr1, hc1] at hf)
    cases hr2 : r2.ok
    · exact .cons (fun hf => by simp [failed, hr2] at hf) (by simp)
    · exact .cons (fun hf => .nil (.inl (by simp))) (fun hf => by simp [failed, hr2] at hf)

theorem Removal.cleanup {c v : Nat} {l : List Ev} (h : Removal c v l) : ∀ e ∈ l, cleanup e = true := by
  rintro ⟨e, r⟩ he
  rcases h.calls _ he with h | h
  · simp only at h; subst h; rfl
  · simp only at h; subst h; rfl

theorem remove_cleanup {k : Made} {n n' : Nat} {l : List Ev} {u : Unit} (h : Runs (removeContainer k) n l u n') :
    ∀ e ∈ l, cleanup e = true := by
  unfold removeContainer at h
  replace h := runs_askBind.1 h
  obtain ⟨r, l2, rfl, h⟩ := h
  refine List.forall_mem_cons.2 ⟨rfl, ?_⟩
  replace h := runs_ite h
  rcases h with ⟨-, h⟩ | ⟨-, rfl, rfl, rfl⟩
  · obtain ⟨-, ⟨-, r, rfl⟩ | ⟨-, rfl⟩⟩ := runs_unmount h <;> simp [cleanup]
  · simp

theorem sidecars_fate {cfg : Config} {X : Prop} {t : Task} {body : Prog (Option String)} (ss : List Task)
    (hbody : ∀ n l o n', Runs body n l o n' → Fate X l (o ≠ none)) (hm : t.mounts.all mountOK = false → X)
    (hc : limitOf cfg.cpus (·.cpus) t.limits = none → X) (hmem : limitOf cfg.memory (·.memory) t.limits = none → X)
    (hg : ∀ s ∈ ss, s.gpus ≠ "" → cfg.gpus s.gpus = false → X) {n n' : Nat} (hn : 0 < n) {l : List Ev} {o : Option String}
    (h : Runs (withSidecars cfg t body ss) n l o n') : Fate X l (o ≠ none) := by
  induction ss generalizing n l o n' with
  | nil => exact hbody _ _ _ _ h
  | cons s ss ih =>
    unfold withSidecars at h
    replace h := runs_idBind.1 h
    obtain ⟨k, l1, l2, m, rfl, h1, h2⟩ := runs_bind.1 h
    have hcr := create_fate (X := X) (t := { s with id := n, mounts := t.mounts, networks := t.networks, limits := t.limits })
      (fun h0 => by have h0 : n = 0 := h0; omega) hm hc hmem (hg s (by simp)) h1
    have hle := h1.le
    refine hcr.seq (fun hk => ?_) (fun hk => ?_)
    · cases k with
      | none => exact absurd rfl hk
      | some k =>
        obtain ⟨b, l3, l4, m1, rfl, h3, h4⟩ := runs_bind.1 h2
        obtain ⟨x, l5, l6, m2, rfl, h5, h6⟩ := runs_bind.1 h4
        obtain ⟨u, l7, l8, m3, rfl, h7, rfl, rfl, rfl⟩ := runs_bind.1 h6
        have hcl := remove_cleanup h7
        have hle3 := h3.le
        refine (start_fate h3).seq (fun hb => ?_) (fun hb => ?_)
        · rw [hb] at h5
          refine (ih (fun s hs => hg s (List.mem_cons_of_mem _ hs)) (by omega) h5).clean (by simpa using hcl)
        · have hb : b = false := by simpa using hb
          rw [hb] at h5
          obtain ⟨rfl, rfl, rfl⟩ := h5
          exact ⟨by simp, by simpa using hcl⟩
    · cases k with
      | none => obtain ⟨rfl, rfl, rfl⟩ := h2; simp
      | some k => exact absurd (by simp) hk

theorem doRun_fate {cfg : Config} {X : Prop} {t : Task} (hid : t.id = 0 → X) (hm : t.mounts.all mountOK = false → X)
    (hc : limitOf cfg.cpus (·.cpus) t.limits = none → X) (hmem : limitOf cfg.memory (·.memory) t.limits = none → X)
    (hg : ∀ s ∈ t :: t.sidecars, s.gpus ≠ "" → cfg.gpus s.gpus = false → X) {n n' : Nat} (hn : 0 < n) {l : List Ev} {o : Option String}
    (h : Runs (doRun cfg t) n l o n') : Fate X l (o ≠ none) := by
  unfold doRun at h
  obtain ⟨k, l1, l2, m, rfl, h1, h2⟩ := runs_bind.1 h
  have hle := h1.le
  refine (create_fate (X := X) hid hm hc hmem (hg t (by simp)) h1).seq (fun hk => ?_) (fun hk => ?_)
  · cases k with
    | none => exact absurd rfl hk
    | some k =>
      obtain ⟨x, l3, l4, m1, rfl, h3, h4⟩ := runs_bind.1 h2
      obtain ⟨u, l5, l6, m2, rfl, h5, rfl, rfl, rfl⟩ := runs_bind.1 h4
      have hcl := remove_cleanup h5
      refine Fate.clean ?_ (by simpa using hcl)
      refine sidecars_fate t.sidecars ?_ hm hc hmem (fun s hs => hg s (List.mem_cons_of_mem _ hs)) (by omega) h3
      intro n l o n' hb
      obtain ⟨b, ls, lw, m3, rfl, hs1, hs2⟩ := runs_bind.1 hb
      refine (start_fate hs1).seq (fun hb => ?_) (fun hb => ?_)
      · rw [hb] at hs2
        exact wait_fate hs2
      · have hb : b = false := by simpa using hb
        rw [hb] at hs2
        obtain ⟨rfl, rfl, rfl⟩ := hs2
        simp
  · cases k with
    | none => obtain ⟨rfl, rfl, rfl⟩ := h2; simp
    | some k => exact absurd (by simp) hk

theorem runAll_fate {cfg : Config} {X : Prop} {t : Task} (hm : t.mounts.all mountOK = false → X)
    (hc : limitOf cfg.cpus (·.cpus) t.limits = none → X) (hmem : limitOf cfg.memory (·.memory) t.limits = none → X) (ps : List Task)
    (hg : ∀ p ∈ ps, ∀ s ∈ p :: p.sidecars, s.gpus ≠ "" → cfg.gpus s.gpus = false → X) {n n' : Nat} (hn : 0 < n) {l : List Ev} {b : Bool}
    (h : Runs (runAll cfg t ps) n l b n') : Fate X l (b = true) := by
  induction ps generalizing n l b n' with
  | nil => obtain ⟨rfl, rfl, rfl⟩ := h; exact .nil (.inl rfl)
  | cons p ps ih =>
    unfold runAll at h
    replace h := runs_idBind.1 h
    obtain ⟨o, l1, l2, m, rfl, h1, h2⟩ := runs_bind.1 h
    have hle := h1.le
    have hd := doRun_fate (X := X) (t := { p with id := n, mounts := t.mounts, networks := t.networks, limits := t.limits })
      (fun h0 => by have h0 : n = 0 := h0; omega) hm hc hmem
      (by
        intro s hs
        rcases List.mem_cons.1 hs with rfl | hs
        · exact hg p (by simp) p (by simp)
        · exact hg p (by simp) s (List.mem_cons_of_mem _ hs)) (by omega) h1
    refine hd.seq (fun ho => ?_) (fun ho => ?_)
    · cases o with
      | none => exact absurd rfl ho
      | some r => exact ih (fun p hp => hg p (List.mem_cons_of_mem _ hp)) (by omega) h2
    · cases o with
      | none => obtain ⟨rfl, rfl, rfl⟩ := h2; simp
      | some r => exact absurd (by simp) ho

theorem runSteps_fate {cfg : Config} {X : Prop} {t : Task} (hid : t.id = 0 → X) (hm : t.mounts.all mountOK = false → X)
    (hc : limitOf cfg.cpus (·.cpus) t.limits = none → X) (hmem : limitOf cfg.memory (·.memory) t.limits = none → X)
    (hg : ∀ s ∈ containersOf t, s.gpus ≠ "" → cfg.gpus s.gpus = false → X) {n n' : Nat} (hn : 0 < n) {l : List Ev} {o : Option String}
    (h : Runs (runSteps cfg t) n l o n') : Fate X l (o ≠ none) := by
  have hg' : ∀ p ∈ t.pre ++ t :: t.post, ∀ s ∈ p :: p.sidecars, s.gpus ≠ "" → cfg.gpus s.gpus = false → X :=
    fun p hp s hs => hg s (List.mem_flatMap.2 ⟨p, hp, hs⟩)
  unfold runSteps at h
  obtain ⟨b, l1, l2, m, rfl, h1, h2⟩ := runs_bind.1 h
  have hle := h1.le
  refine (runAll_fate hm hc hmem t.pre (fun p hp => hg' p (by simp [hp])) hn h1).seq (fun hb => ?_) (fun hb => ?_)
  · rw [hb] at h2
    obtain ⟨o1, l3, l4, m1, rfl, h3, h4⟩ := runs_bind.1 h2
    have hle1 := h3.le
    refine (doRun_fate hid hm hc hmem (hg' t (by simp)) (by omega) h3).seq (fun ho => ?_) (fun ho => ?_)
    · cases o1 with
      | none => exact absurd rfl ho
      | some r =>
        obtain ⟨b1, l5, l6, m2, rfl, h5, h6⟩ := runs_bind.1 h4
        have hf := runAll_fate hm hc hmem t.post (fun p hp => hg' p (by simp [hp])) (by omega) h5
        replace h6 := runs_ite h6
        rcases h6 with ⟨hb, rfl, rfl, rfl⟩ | ⟨hb, rfl, rfl, rfl⟩
        · rw [List.append_nil]; exact hf.of_iff (by simp [hb])
        · rw [List.append_nil]; exact hf.of_iff (by simp [hb])
    · cases o1 with
      | none => obtain ⟨rfl, rfl, rfl⟩ := h4; simp
      | some r => exact absurd (by simp) ho
  · have hb : b = false := by simpa using hb
    rw [hb] at h2
    obtain ⟨rfl, rfl, rfl⟩ := h2
    simp

theorem mount_fate {cfg : Config} {m : Mount} {n n' : Nat} {l : List Ev} {o : Option Mount} (h : Runs (mountOne cfg m) n l o n') :
    Fate (¬ Mountable cfg m) l (o ≠ none) ∧ (m.target ≠ "" → (m.type = "bind" → m.source ≠ "") → ∀ m', o = some m' → mountOK m' = true) := by
  by_cases hv : m.type = "volume"
  · obtain ⟨r, rfl, rfl, rfl⟩ := runs_mountVolume hv h
    cases hr : r.ok
    · exact ⟨.cons (fun hf => by simp [failed, hr] at hf) (by simp), by simp⟩
    · refine ⟨.cons (fun hf => .nil (.inl (by simp))) (fun hf => by simp [failed, hr] at hf), ?_⟩
      intro h1 h2 m' hm'
      cases hm'
      simp [mountOK, hv, h1]
  · unfold mountOne at h
    replace h := runs_ite h
    rcases h with ⟨hb, h⟩ | ⟨hb, h⟩
    · replace h := runs_ite h
      rcases h with ⟨ha, h⟩ | ⟨ha, rfl, rfl, rfl⟩
      · replace h := runs_askBind.1 h
        obtain ⟨r, l2, rfl, h⟩ := h
        replace h := runs_ite h
        rcases h with ⟨hr, rfl, rfl, rfl⟩ | ⟨hr, rfl, rfl, rfl⟩
        · refine ⟨.cons (fun hf => .nil (.inl (by simp))) (fun hf => by simp [failed, hr] at hf), ?_⟩
          intro h1 h2 m' hm'
          cases hm'
          simp [mountOK, hb, h1, h2]
        · exact ⟨.cons (fun hf => by simp [failed] at hf; exact absurd hf hr) (by simp), by simp⟩
      · refine ⟨.nil (.inr ?_), by simp⟩
        simp only [Bool.and_eq_true, not_and] at ha
        rintro (⟨-, h1, h2, -⟩ | ⟨h1, -⟩ | ⟨h1, -⟩)
        · exact ha h1 h2
        · exact hv h1
        · rw [hb] at h1; exact absurd h1 (by decide)
    · rw [if_neg hv] at h
      replace h := runs_ite h
      rcases h with ⟨ht, h⟩ | ⟨ht, rfl, rfl, rfl⟩
      · replace h := runs_ite h
        rcases h with ⟨-, rfl, rfl, rfl⟩ | ⟨ha, rfl, rfl, rfl⟩
        · refine ⟨.nil (.inl (by simp)), ?_⟩
          intro h1 h2 m' hm'
          cases hm'
          simp [mountOK, ht]
        · refine ⟨.nil (.inr ?_), by simp⟩
          rintro (⟨h1, -⟩ | ⟨h1, -⟩ | ⟨-, h1, h2⟩)
          · exact hb h1
          · exact hv h1
          · exact ha ⟨h1, h2⟩
      · refine ⟨.nil (.inr ?_), by simp⟩
        rintro (⟨h1, -⟩ | ⟨h1, -⟩ | ⟨h1, -⟩)
        · exact hb h1
        · exact hv h1
        · exact ht h1

theorem Fate.weaken {X Y a : Prop} {l : List Ev} (h : Fate X l a) (hx : X → Y) : Fate Y l a :=
  ⟨h.stop, h.bad, fun hn => (h.cause hn).imp_right hx⟩

theorem mounts_fate {cfg : Config} {X : Prop} (ms : List Mount) {k : List Mount → Prog (Option String)}
    (hX : ∀ m ∈ ms, ¬ Mountable cfg m → X) {n n' : Nat} (hn : 0 < n)
    (hk : ∀ ms' n l o n', 0 < n → (ms'.all mountOK = false → X) → Runs (k ms') n l o n' → Fate X l (o ≠ none))
    {l : List Ev} {o : Option String} (h : Runs (withMounts cfg k ms) n l o n') : Fate X l (o ≠ none) := by
  induction ms generalizing k n n' l o with
  | nil => exact hk [] n l o n' hn (by simp) h
  | cons m ms ih =>
    unfold withMounts at h
    replace h := runs_idBind.1 h
    obtain ⟨om, l1, l2, n1, rfl, h1, h2⟩ := runs_bind.1 h
    obtain ⟨hf, hok⟩ := mount_fate h1
    have hle := h1.le
    have hXm : ¬ Mountable cfg { m with id := n } → X := fun hmm => hX m (by simp) hmm
    refine (hf.weaken hXm).seq (fun ho => ?_) (fun ho => ?_)
    · cases om with
      | none => exact absurd rfl ho
      | some m' =>
        obtain ⟨x, l3, l4, n2, rfl, h3, h4⟩ := runs_bind.1 h2
        obtain ⟨u, l5, l6, n3, rfl, h5, rfl, rfl, rfl⟩ := runs_bind.1 h4
        obtain ⟨-, hun⟩ := runs_unmount h5
        refine Fate.clean ?_ (by rcases hun with ⟨-, r, rfl⟩ | ⟨-, rfl⟩ <;> simp [cleanup])
        refine ih (fun m hm => hX m (List.mem_cons_of_mem _ hm)) (by omega) ?_ h3
        intro ms' p l o p' hp hmo hr
        refine hk (m' :: ms') p l o p' hp ?_ hr
        intro hall
        by_cases hmm : Mountable cfg m
        · refine hmo ?_
          have : mountOK m' = true := by
            refine hok ?_ ?_ m' rfl
            · rcases hmm with ⟨-, -, -, h, -⟩ | ⟨-, h⟩ | ⟨-, h, -⟩ <;> exact h
            · intro hb
              rcases hmm with ⟨-, -, -, -, h⟩ | ⟨h, -⟩ | ⟨h, -⟩
              · exact h
              · rw [show m.type = "bind" from hb] at h; exact absurd h (by decide)
              · rw [show m.type = "bind" from hb] at h; exact absurd h (by decide)
          simpa [this] using hall
        · exact hX m (by simp) hmm
    · cases om with
      | none => obtain ⟨rfl, rfl, rfl⟩ := h2; simp
      | some m' => exact absurd (by simp) ho

theorem run_fate {cfg : Config} {t : Task} {n n' : Nat} (hn : 0 < n) {l : List Ev} {o : Option String}
    (h : Runs (run cfg t) n l o n') : Fate (Unacceptable cfg t) l (o ≠ none) := by
  have key : ∀ {t' : Task} {n n' : Nat} {l : List Ev} {o : Option String} (_ : 0 < n) (_ : ∃ nets, t' = { t with networks := nets })
      (_ : Runs (withMounts cfg (fun ms => runSteps cfg { t' with mounts := ms }) t'.mounts) n l o n'),
      Fate (Unacceptable cfg t) l (o ≠ none) := by
    rintro _ n n' l o hn ⟨nets, rfl⟩ h
    refine mounts_fate t.mounts (fun m hm hmm => .inr (.inl ⟨m, hm, hmm⟩)) hn ?_ h
    intro ms' p l o p' hp hmo hr
    refine runSteps_fate (fun h => .inl h) hmo (fun h => .inr (.inr (.inl (limitOf_bad h)))) (fun h => .inr (.inr (.inr (.inl (limitOf_bad h))))) ?_ hp hr
    intro s hs h1 h2
    refine .inr (.inr (.inr (.inr ?_)))
    simp only [containersOf, List.mem_flatMap, List.mem_append, List.mem_cons] at hs ⊢
    obtain ⟨p, hp | rfl | hp, hs⟩ := hs
    · exact ⟨s, ⟨p, .inl hp, hs⟩, h1, h2⟩
    · rcases hs with rfl | hs
      · exact ⟨t, ⟨t, .inr (.inl rfl), .inl rfl⟩, h1, h2⟩
      · exact ⟨s, ⟨t, .inr (.inl rfl), .inr hs⟩, h1, h2⟩
    · exact ⟨s, ⟨p, .inr (.inr hp), hs⟩, h1, h2⟩
  rcases run_shape h with ⟨hs, h⟩ | ⟨hs, ⟨r, rfl, hr, rfl, -⟩ | ⟨r, k1, k2, rfl, hr, h1, h2⟩⟩
  · exact key hn ⟨t.networks, by cases t; rfl⟩ h
  · exact .cons (fun hf => by simp [failed, hr] at hf) (by simp)
  · obtain ⟨-, hrm, -⟩ := runs_removeNetwork h2
    refine .cons (fun _ => Fate.clean (key (t' := { t with networks := t.networks ++ [networkName n] }) (by omega) ⟨_, rfl⟩ h1) ?_)
      (fun hf => by simp [failed, hr] at hf)
    rintro ⟨c, r'⟩ he
    have := hrm _ he
    simp only at this
    subst this
    rfl

/-- **C59 (stops at the first failure).** Once a call has failed (or a container has exited with a non-zero status) the run fails, and
nothing follows but removals. -/
theorem C59_stops {cfg : Config} {t : Task} {n n' : Nat} (hn : 0 < n) {l : List Ev} {o : Option String} (h : Runs (run cfg t) n l o n')
    {l1 l2 : List Ev} {e : Ev} (hl : l = l1 ++ e :: l2) (hf : failed e = true) : o = none ∧ ∀ e' ∈ l2, cleanup e' = true := by
  have hF := run_fate hn h
  refine ⟨?_, hF.stop l1 e l2 hl hf⟩
  have := hF.bad ⟨e, by rw [hl]; simp, hf⟩
  cases o with
  | none => rfl
  | some r => exact absurd (by simp) this

/-- **C59 (no failure without a cause).** A run fails only because a call failed, a container exited with a non-zero status, or the task
cannot run under the configuration. -/
theorem C59_cause {cfg : Config} {t : Task} {n n' : Nat} (hn : 0 < n) {l : List Ev} (h : Runs (run cfg t) n l none n') :
    (∃ e ∈ l, failed e = true) ∨ Unacceptable cfg t := (run_fate hn h).cause (by simp)

/-- in a part that succeeds, every volume created is used by a container, or removed -/
def Used (l : List Ev) (ok : Prop) : Prop :=
  ∀ l1 m r l2, l = l1 ++ (.volumeCreate m, r) :: l2 → r.ok = true → ok →
    (∃ c s r', (Call.create c s, r') ∈ l2 ∧ r'.ok = true ∧ s.Mounts m.id) ∨ ∃ r', (Call.volumeRemove m.id, r') ∈ l2

theorem Used.nil {ok : Prop} : Used [] ok := fun _ _ _ _ h => by simp at h

theorem Used.none {l : List Ev} {ok : Prop} (h : ∀ e ∈ l, ∀ m, e.1 ≠ .volumeCreate m) : Used l ok := by
  rintro l1 m r l2 rfl - -
  exact absurd rfl (h (.volumeCreate m, r) (by simp) m)

theorem Used.seq {a b : Prop} {l l' : List Ev} (h : Used l a) (h' : a → Used l' b) (hab : b → a) : Used (l ++ l') b := by
  intro l1 m r l2 hl hr hb
  rcases split_append hl with ⟨k, h1, rfl⟩ | ⟨k, rfl, h2⟩
  · rcases h l1 m r k h1 hr (hab hb) with ⟨c, s, r', g1, g2, g3⟩ | ⟨r', g⟩
    · exact .inl ⟨c, s, r', List.mem_append_left _ g1, g2, g3⟩
    · exact .inr ⟨r', List.mem_append_left _ g⟩
  · exact h' (hab hb) k m r l2 h2 hr hb

theorem used_watches {l : List Ev} {ok : Prop} (h : ∀ e ∈ l, Watches e) : Used l ok := by
  refine .none fun e he m hm => ?_
  have := h e he
  unfold Watches at this
  rw [hm] at this
  exact this

theorem used_cleanup {l : List Ev} {ok : Prop} (h : ∀ e ∈ l, cleanup e = true) : Used l ok := by
  refine .none fun e he m hm => ?_
  have := h e he
  obtain ⟨c, r⟩ := e
  cases hm
  cases this

theorem create_used {cfg : Config} {t : Task} {n n' : Nat} {l : List Ev} {o : Option Made}
    (h : Runs (createTaskContainer cfg t) n l o n') (hA : ∀ a ∈ t.mounts, a.id < n) : Used l (o ≠ none) := by
  rcases create_cases h hA with ⟨rfl, hp⟩ | ⟨k, rfl, rfl, ⟨hc⟩⟩
  · exact fun _ _ _ _ _ _ h => absurd rfl h
  · obtain ⟨r0, r1, r2, s, rest, rfl, ok0, ok1, ok2, copies, -, -, ⟨cpus, mem, rfl, -, -⟩, rfl⟩ := hc
    have : (.pull t.image t.registry, r0) :: (.volumeCreate (torkMount n), r1) ::
        (.create (n + 1) (containerOf cfg t (torkMount n) cpus mem), r2) :: rest =
        [((.pull t.image t.registry, r0) : Ev)] ++ ((.volumeCreate (torkMount n), r1) ::
        (.create (n + 1) (containerOf cfg t (torkMount n) cpus mem), r2) :: rest) := rfl
    rw [this]
    refine Used.seq (a := True) (.none fun e he m hm => ?_) (fun _ => ?_) (fun _ => trivial)
    · rw [List.mem_singleton.1 he] at hm; cases hm
    · intro l1 m r l2 hl hr _
      cases l1 with
      | nil =>
        obtain ⟨h1, rfl⟩ := List.cons.inj hl
        cases h1
        exact .inl ⟨n + 1, containerOf cfg t (torkMount n) cpus mem, r2, by simp, ok2, torkMount n, by simp [containerOf], rfl, rfl⟩
      | cons a l1 =>
        exfalso
        have hm : (Call.volumeCreate m, r) ∈
            ((Call.create (n + 1) (containerOf cfg t (torkMount n) cpus mem), r2) : Ev) :: rest := by
          rw [(List.cons.inj hl).2]; simp
        rcases List.mem_cons.1 hm with hm | hm
        · cases hm
        · obtain ⟨d, f, hx, -⟩ := copies _ hm
          cases hx

theorem sidecars_used {cfg : Config} {t : Task} {body : Prog (Option String)} (ss : List Task)
    (hbody : ∀ n l o n', Runs body n l o n' → Used l (o ≠ none)) {n n' : Nat} {l : List Ev} {o : Option String}
    (h : Runs (withSidecars cfg t body ss) n l o n') (hA : ∀ a ∈ t.mounts, a.id < n) : Used l (o ≠ none) := by
  induction ss generalizing n l o n' with
  | nil => exact hbody _ _ _ _ h
  | cons s ss ih =>
    unfold withSidecars at h
    replace h := runs_idBind.1 h
    obtain ⟨k, l1, l2, m, rfl, h1, h2⟩ := runs_bind.1 h
    have hle := h1.le
    refine (create_used h1 fun a ha => Nat.lt_succ_of_lt (hA a ha)).seq (fun hk => ?_) (fun ho => ?_)
    · cases k with
      | none => exact absurd rfl hk
      | some k =>
        obtain ⟨b, l3, l4, m1, rfl, h3, h4⟩ := runs_bind.1 h2
        obtain ⟨x, l5, l6, m2, rfl, h5, h6⟩ := runs_bind.1 h4
        obtain ⟨u, l7, l8, m3, rfl, h7, rfl, rfl, rfl⟩ := runs_bind.1 h6
        have hcl := remove_cleanup h7
        have hle3 := h3.le
        refine Used.seq (a := True) (used_watches (start_watches h3).2) (fun _ => ?_) (fun _ => trivial)
        refine Used.seq (a := o ≠ none) ?_ (fun _ => used_cleanup (by simpa using hcl)) id
        unfold after at h5
        replace h5 := runs_ite h5
        rcases h5 with ⟨-, h5⟩ | ⟨-, rfl, rfl, rfl⟩
        · exact ih h5 fun a ha => by have := hA a ha; omega
        · exact .nil
    · cases k with
      | none => obtain ⟨rfl, rfl, rfl⟩ := h2; exact absurd rfl ho
      | some k => simp

theorem doRun_used {cfg : Config} {t : Task} {n n' : Nat} {l : List Ev} {o : Option String}
    (h : Runs (doRun cfg t) n l o n') (hA : ∀ a ∈ t.mounts, a.id < n) : Used l (o ≠ none) := by
  unfold doRun at h
  obtain ⟨k, l1, l2, m, rfl, h1, h2⟩ := runs_bind.1 h
  have hle := h1.le
  refine (create_used h1 hA).seq (fun hk => ?_) (fun ho => ?_)
  · cases k with
    | none => exact absurd rfl hk
    | some k =>
      obtain ⟨x, l3, l4, m1, rfl, h3, h4⟩ := runs_bind.1 h2
      obtain ⟨u, l5, l6, m2, rfl, h5, rfl, rfl, rfl⟩ := runs_bind.1 h4
      have hcl := remove_cleanup h5
      refine Used.seq (a := o ≠ none) ?_ (fun _ => used_cleanup (by simpa using hcl)) id
      refine sidecars_used t.sidecars ?_ h3 (fun a ha => by have := hA a ha; omega)
      intro n l o n' hb
      obtain ⟨b, ls, lw, m3, rfl, hs1, hs2⟩ := runs_bind.1 hb
      refine Used.seq (a := True) (used_watches (start_watches hs1).2) (fun _ => ?_) (fun _ => trivial)
      unfold after at hs2
      replace hs2 := runs_ite hs2
      rcases hs2 with ⟨-, hs2⟩ | ⟨-, rfl, rfl, rfl⟩
      · exact used_watches (wait_watches hs2).2
      · exact .nil
  · cases k with
    | none => obtain ⟨rfl, rfl, rfl⟩ := h2; exact absurd rfl ho
    | some k => simp

theorem runAll_used {cfg : Config} {t : Task} (ps : List Task) {n n' : Nat} {l : List Ev} {b : Bool}
    (h : Runs (runAll cfg t ps) n l b n') (hA : ∀ a ∈ t.mounts, a.id < n) : Used l (b = true) := by
  induction ps generalizing n l b n' with
  | nil => obtain ⟨rfl, rfl, rfl⟩ := h; exact .nil
  | cons p ps ih =>
    unfold runAll at h
    replace h := runs_idBind.1 h
    obtain ⟨o, l1, l2, m, rfl, h1, h2⟩ := runs_bind.1 h
    have hle := h1.le
    refine (doRun_used h1 (fun a ha => Nat.lt_succ_of_lt (hA a ha))).seq (fun ho => ?_) (fun hb => ?_)
    · cases o with
      | none => exact absurd rfl ho
      | some r => exact ih h2 (fun a ha => by have := hA a ha; omega)
    · cases o with
      | none => obtain ⟨rfl, rfl, rfl⟩ := h2; cases hb
      | some r => simp

theorem runSteps_used {cfg : Config} {t : Task} {n n' : Nat} {l : List Ev} {o : Option String}
    (h : Runs (runSteps cfg t) n l o n') (hA : ∀ a ∈ t.mounts, a.id < n) : Used l (o ≠ none) := by
  unfold runSteps at h
  obtain ⟨b, l1, l2, m, rfl, h1, h2⟩ := runs_bind.1 h
  have hle := h1.le
  refine (runAll_used t.pre h1 hA).seq (fun hb => ?_) (fun ho => ?_)
  · rw [hb] at h2
    obtain ⟨o1, l3, l4, m1, rfl, h3, h4⟩ := runs_bind.1 h2
    have hle1 := h3.le
    refine (doRun_used h3 (fun a ha => by have := hA a ha; omega)).seq (fun ho => ?_) (fun ho => ?_)
    · cases o1 with
      | none => exact absurd rfl ho
      | some r =>
        obtain ⟨b1, l5, l6, m2, rfl, h5, h6⟩ := runs_bind.1 h4
        have hf := runAll_used t.post h5 (fun a ha => by have := hA a ha; omega)
        replace h6 := runs_ite h6
        rcases h6 with ⟨hb, rfl, rfl, rfl⟩ | ⟨hb, rfl, rfl, rfl⟩
        · rw [List.append_nil]; exact fun l1 m r l2 hl hr _ => hf l1 m r l2 hl hr hb
        · exact fun _ _ _ _ _ _ h => absurd rfl h
    · cases o1 with
      | none => obtain ⟨rfl, rfl, rfl⟩ := h4; exact absurd rfl ho
      | some r => simp
  · cases b with
    | false => obtain ⟨rfl, rfl, rfl⟩ := h2; exact absurd rfl ho
    | true => rfl

theorem mounts_used {cfg : Config} (ms : List Mount) {A : List Mount} {k : List Mount → Prog (Option String)}
    (hk : ∀ ms' n l o n', Runs (k ms') n l o n' → (∀ a ∈ A ++ ms', a.id < n) → Used l (o ≠ none)) {n n' : Nat}
    {l : List Ev} {o : Option String} (h : Runs (withMounts cfg k ms) n l o n') (hA : ∀ a ∈ A, a.id < n) : Used l (o ≠ none) := by
  induction ms generalizing A k n n' l o with
  | nil => exact hk [] n l o n' h (by simpa using hA)
  | cons m ms ih =>
    unfold withMounts at h
    replace h := runs_idBind.1 h
    obtain ⟨om, l1, l2, n1, rfl, h1, h2⟩ := runs_bind.1 h
    obtain ⟨rfl, ⟨rfl, hf⟩ | ⟨m', rfl, hid, hty, htg, hm⟩⟩ := mount_cases h1
    · obtain ⟨rfl, rfl, rfl⟩ := h2
      exact fun _ _ _ _ _ _ h => absurd rfl h
    · obtain ⟨x, l3, l4, n2, rfl, h3, h4⟩ := runs_bind.1 h2
      obtain ⟨u, l5, l6, n3, rfl, h5, rfl, rfl, rfl⟩ := runs_bind.1 h4
      obtain ⟨-, hun⟩ := runs_unmount h5
      have hid' : m'.id = n := hid
      have hin : Used l3 (o ≠ none) := by
        refine ih (A := A ++ [m']) ?_ h3 ?_
        · intro ms' p l o p' hr hlt
          exact hk (m' :: ms') p l o p' hr (by simpa using hlt)
        · intro a ha
          rcases List.mem_append.1 ha with ha | ha
          · have := hA a ha; omega
          · rw [List.mem_singleton.1 ha]; omega
      have hend : Used (l3 ++ (l5 ++ [])) (o ≠ none) := by
        refine hin.seq (fun _ => used_cleanup ?_) id
        rcases hun with ⟨-, r, rfl⟩ | ⟨-, rfl⟩ <;> simp [cleanup]
      intro k1 y r k2 hl hr ho
      rcases split_append hl with ⟨k, h6, rfl⟩ | ⟨k, rfl, h6⟩
      · rcases hm with ⟨-, -, hh⟩ | ⟨hv, r0, rfl, -⟩
        · have := (hh (.volumeCreate y, r) (by rw [h6]; simp)).1
          cases this
        · have hy : y = m' := by
            cases k1 with
            | nil => simp at h6; exact h6.1.1.symm
            | cons a k1 => simp at h6
          rcases hun with ⟨-, r1, rfl⟩ | ⟨hv', -⟩
          · exact .inr ⟨r1, by rw [hy]; simp⟩
          · exact absurd (hty.trans hv) hv'
      · exact hend k y r k2 h6 hr ho

theorem run_used {cfg : Config} {t : Task} {n n' : Nat} {l : List Ev} {o : Option String} (h : Runs (run cfg t) n l o n') :
    Used l (o ≠ none) := by
  rcases run_shape h with ⟨hs, h⟩ | ⟨hs, ⟨r, rfl, hr, rfl, -⟩ | ⟨r, k1, k2, rfl, hr, h1, h2⟩⟩
  · exact mounts_used (A := []) t.mounts (fun ms' n l o n' hr hlt => runSteps_used hr hlt) h (by simp)
  · exact fun _ _ _ _ _ _ h => absurd rfl h
  · obtain ⟨-, hrm, -⟩ := runs_removeNetwork h2
    have h1' : Used k1 (o ≠ none) :=
      mounts_used (A := []) t.mounts (fun ms' n l o n' hr hlt => runSteps_used hr hlt) h1 (by simp)
    refine Used.seq (l := [(.netCreate n, r)]) (a := True) (.none fun e he m hm => ?_) (fun _ => h1'.seq (fun _ => .none ?_) id) (fun _ => trivial)
    · rw [List.mem_singleton.1 he] at hm; cases hm
    · intro e he m hm
      rw [hrm e he] at hm; cases hm

/-- **C59 (nothing left behind).** A successful run during which the daemon refused no removal leaves no container, volume or network behind. -/
theorem C59_success_clean {cfg : Config} {t : Task} {n n' : Nat} (hn : 0 < n) {l : List Ev} {res : String}
    (h : Runs (run cfg t) n l (some res) n') (hrem : ∀ e ∈ l, attempted e ≠ none → e.2.ok = true) {l1 l2 : List Ev} {e : Ev}
    (hl : l = l1 ++ e :: l2) {x : Resource} (hx : acquired e = some x) : ∃ e' ∈ l2, attempted e' = some x ∧ e'.2.ok = true := by
  have hcp : ∀ c, ¬ CopyFailed c l2 := by
    rintro c ⟨d, f, r, hm, hr⟩
    exact (run_fate hn h).bad ⟨_, by rw [hl]; exact List.mem_append_right _ (List.mem_cons_of_mem _ hm), by simp [failed, hr]⟩ (by simp)
  have hrf : ∀ c, ¬ RemoveFailed c l2 := by
    rintro c ⟨r, hm, hr⟩
    have := hrem _ (by rw [hl]; exact List.mem_append_right _ (List.mem_cons_of_mem _ hm)) (by simp [attempted])
    rw [hr] at this; cases this
  rcases run_settled h hl x hx with ⟨e', h1, h2⟩ | h1
  · exact ⟨e', h1, h2, hrem e' (by rw [hl]; exact List.mem_append_right _ (List.mem_cons_of_mem _ h1)) (by rw [h2]; simp)⟩
  · obtain ⟨c, r⟩ := e
    cases c <;> simp only [Abandoned] at h1
    case create c s => exact absurd h1 (hcp c)
    case volumeCreate m =>
      have hr : r.ok = true := by cases hr : r.ok <;> simp_all [acquired]
      rcases run_used h l1 m r l2 hl hr (by simp) with ⟨c, s, r', g1, g2, g3⟩ | ⟨r', g⟩
      · rcases h1.2 c s r' g1 g2 g3 with h | h
        · exact absurd h (hcp c)
        · exact absurd h (hrf c)
      · simp only [acquired, hr, if_true, Option.some.injEq] at hx
        exact ⟨(.volumeRemove m.id, r'), g, by rw [← hx]; rfl,
          hrem (.volumeRemove m.id, r') (by rw [hl]; exact List.mem_append_right _ (List.mem_cons_of_mem _ g)) (by simp [attempted])⟩

namespace DockerEx

/-- the hypotheses of `C59_success` and `C59_success_clean` are met by the run of the task with a pre-task, a sidecar and a volume -/
example : (∃ n', Runs (run cfg task) 1 (trace good task) (some "done") n') ∧
    (trace good task).all (fun e => e.2.ok) = true ∧ waits (trace good task) = [5, 7] :=
  ⟨trace_runs _ _ (by decide +kernel), by decide +kernel, by decide +kernel⟩

/-- the pre-task exits with status 3: the task itself is not run -/
def preFails : List Reply := List.replicate 8 yes ++ [{ code := 3 }] ++ List.replicate 10 yes

example : (∃ n', Runs (run cfg task) 1 (trace preFails task) none n') ∧ waits (trace preFails task) = [5] ∧
    ((trace preFails task).filter failed).map (·.1) = [.wait 5] :=
  ⟨trace_runs _ _ (by decide +kernel), by decide +kernel, by decide +kernel⟩

/-- a task with a limit that cannot be parsed fails although every call succeeds -/
example : Unacceptable cfg { id := 1, image := "busybox", limits := some { cpus := "many" } } := by
  exact .inr (.inr (.inl ⟨"many", rfl, by decide, by decide +kernel⟩))

example : ¬ Unacceptable cfg task := by
  have hd : (cfg.cpus "1").isSome ∧ True ∧ task.id ≠ 0 ∧
      (containersOf task).all (fun x => x.gpus = "") := by decide +kernel
  rintro (h | ⟨m, hm, hn⟩ | h | h | ⟨x, hx, h1, h2⟩)
  · exact hd.2.2.1 h
  · refine hn (.inr (.inl ?_))
    simp only [task, List.mem_singleton] at hm
    subst hm
    exact ⟨rfl, by decide⟩
  · obtain ⟨s, h1, h2, h3⟩ := h
    cases h1
    have := hd.1
    rw [show cfg.cpus "1" = none from h3] at this
    cases this
  · obtain ⟨s, h1, h2, -⟩ := h
    cases h1
    exact h2 rfl
  · have := List.all_eq_true.1 hd.2.2.2 x hx
    exact h1 (by simpa using this)

end DockerEx

end Tork.Docker

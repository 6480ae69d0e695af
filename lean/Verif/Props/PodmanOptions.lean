import Verif.Props.PodmanClean
/-!
# C64 — the Podman runtime: results, and what containers are given
-/

namespace Tork.Podman
open Calls

/-! ## Specification: the command line of `podman create`

Options come first; the first argument that is not an option is the image, and everything after it belongs to the container. -/

inductive Opt
  | val (name value : String)
  | flag (name : String)
  deriving DecidableEq

/-- options followed by a value (`-l` is a label), among them all the runtime uses -/
def valued : List String := ["-v", "--entrypoint", "-e", "--network", "--network-alias", "-w", "-l"]

def flags : List String := ["--privileged"]

def dash (a : String) : Bool := a.toList.head? == some '-'

/-- the options, and the image with the arguments of the container; `none`: not understood -/
def parse : List String → Option (List Opt × List String)
  | [] => none
  | a :: rest =>
    if a ∈ flags then (parse rest).map fun x => (.flag a :: x.1, x.2)
    else if a ∈ valued then
      match rest with
      | [] => none
      | v :: rest => (parse rest).map fun x => (.val a v :: x.1, x.2)
    else if dash a then none
    else some ([], a :: rest)

/-- The options are those of task `x`, with the mounts `ms` and the networks `ws`. -/
structure Given (cfg : Config) (x : Task) (ms : List Mount) (ws : List String) (opts : List Opt) : Prop where
  /-- privileges only if the operator gives them -/
  privileged : .flag "--privileged" ∈ opts ↔ cfg.privileged = true
  networks : ∀ w, .val "--network" w ∈ opts ↔ w ∈ ws
  /-- the network of the host only if the operator allows it -/
  host : .val "--network" "host" ∈ opts → cfg.hostNetwork = true
  mounts : ∀ s, .val "-v" s ∈ opts ↔ s = workDir cfg x ++ ":/tork" ∨ ∃ m ∈ ms, s = m.source ++ ":" ++ m.target
  env : ∀ s, .val "-e" s ∈ opts ↔ s = "TORK_OUTPUT=/tork/output" ∨ s = "TORK_PROGRESS=/tork/progress" ∨ ∃ kv ∈ x.env, s = kv.1 ++ "=" ++ kv.2
  workdir : ∀ s, .val "-w" s ∈ opts ↔ (x.workdir ≠ "" ∧ s = x.workdir) ∨ (x.workdir = "" ∧ x.files ≠ [] ∧ s = "/tork/workdir")
  entrypoint : ∀ s, .val "--entrypoint" s ∈ opts ↔ s = (if x.entrypoint = [] then ["sh"] else x.entrypoint).headD ""
  /-- nothing else -/
  only : ∀ o ∈ opts, o = .flag "--privileged" ∨ ∃ n v, o = .val n v ∧ n ∈ ["-v", "--entrypoint", "-e", "--network", "--network-alias", "-w"]

/-! ## Proofs -/

theorem parse_val {a v : String} {rest : List String} (h1 : a ∉ flags) (h2 : a ∈ valued) :
    parse (a :: v :: rest) = (parse rest).map fun x => (.val a v :: x.1, x.2) := by
  rw [parse.eq_def]
  simp only
  rw [if_neg h1, if_pos h2]

theorem parse_flag {a : String} {rest : List String} (h1 : a ∈ flags) : parse (a :: rest) = (parse rest).map fun x => (.flag a :: x.1, x.2) := by
  rw [parse.eq_def]
  simp only
  rw [if_pos h1]

/-- `args` is a sequence of options, read as `opts` whatever follows -/
def Reads (args : List String) (opts : List Opt) : Prop := ∀ rest, parse (args ++ rest) = (parse rest).map fun x => (opts ++ x.1, x.2)

theorem Reads.nil : Reads [] [] := fun rest => by simp

theorem Reads.append {a b : List String} {o p : List Opt} (h : Reads a o) (h' : Reads b p) : Reads (a ++ b) (o ++ p) := fun rest => by
  rw [List.append_assoc, h, h', Option.map_map]
  congr 1
  funext x
  simp

theorem Reads.val {a v : String} (h1 : a ∉ flags) (h2 : a ∈ valued) : Reads [a, v] [.val a v] := fun _ => parse_val h1 h2

theorem reads_v (v : String) : Reads ["-v", v] [.val "-v" v] := .val (by decide +kernel) (by decide +kernel)
theorem reads_ep (v : String) : Reads ["--entrypoint", v] [.val "--entrypoint" v] := .val (by decide +kernel) (by decide +kernel)
theorem reads_e (v : String) : Reads ["-e", v] [.val "-e" v] := .val (by decide +kernel) (by decide +kernel)
theorem reads_net (v : String) : Reads ["--network", v] [.val "--network" v] := .val (by decide +kernel) (by decide +kernel)
theorem reads_alias (v : String) : Reads ["--network-alias", v] [.val "--network-alias" v] := .val (by decide +kernel) (by decide +kernel)
theorem reads_w (v : String) : Reads ["-w", v] [.val "-w" v] := .val (by decide +kernel) (by decide +kernel)
theorem reads_priv : Reads ["--privileged"] [.flag "--privileged"] := fun _ => parse_flag (by decide +kernel)

theorem reads_env : ∀ env : StrMap, Reads (env.flatMap fun kv => ["-e", kv.1 ++ "=" ++ kv.2]) (env.map fun kv => .val "-e" (kv.1 ++ "=" ++ kv.2))
  | [] => .nil
  | kv :: env => by
    rw [List.flatMap_cons, List.map_cons]
    exact (reads_e _).append (reads_env env)

section
variable {cfg : Config}

def netOpts (cfg : Config) (name : String) (ws : List String) : List Opt :=
  ws.flatMap fun w => if w = "host" then [.val "--network" w] else [.val "--network" w, .val "--network-alias" (cfg.slug name)]

theorem reads_netArgs {name : String} : ∀ {ws args : List String}, netArgs cfg name ws = some args →
    Reads args (netOpts cfg name ws) ∧ ("host" ∈ ws → cfg.hostNetwork = true)
  | [], args, h => by cases h; exact ⟨.nil, by simp⟩
  | w :: ws, args, h => by
    unfold netArgs at h
    split at h
    · rename_i hw
      split at h
      · rename_i hh
        obtain ⟨a, ha, rfl⟩ := Option.map_eq_some_iff.1 h
        have ih := reads_netArgs ha
        refine ⟨?_, fun _ => hh⟩
        rw [netOpts, List.flatMap_cons, if_pos hw]
        exact (reads_net w).append ih.1
      · cases h
    · rename_i hw
      obtain ⟨a, ha, rfl⟩ := Option.map_eq_some_iff.1 h
      have ih := reads_netArgs ha
      refine ⟨?_, fun hm => ?_⟩
      · rw [netOpts, List.flatMap_cons, if_neg hw]
        exact ((reads_net w).append (reads_alias _)).append ih.1
      · rcases List.mem_cons.1 hm with h | h
        · exact absurd h.symm hw
        · exact ih.2 h

theorem reads_mountArgs : ∀ {ms : List Mount} {args : List String}, mountArgs ms = some args →
    Reads args (ms.map fun m => .val "-v" (m.source ++ ":" ++ m.target))
  | [], args, h => by cases h; exact .nil
  | m :: ms, args, h => by
    unfold mountArgs at h
    split at h
    · obtain ⟨a, ha, rfl⟩ := Option.map_eq_some_iff.1 h
      exact (reads_v _).append (reads_mountArgs ha)
    · cases h

def workdirOpts (t : Task) : List Opt :=
  if t.workdir ≠ "" then [.val "-w" t.workdir] else if t.files.isEmpty then [] else [.val "-w" "/tork/workdir"]

theorem reads_workdir (t : Task) : Reads (workdirArgs t) (workdirOpts t) := by
  unfold workdirArgs workdirOpts
  split
  · exact reads_w _
  · split
    · exact .nil
    · exact reads_w _

def privOpts (cfg : Config) : List Opt := if cfg.privileged then [.flag "--privileged"] else []

def optsOf (cfg : Config) (x : Task) : List Opt :=
  [.val "-v" (workDir cfg x ++ ":/tork")] ++ [.val "--entrypoint" ((entrypointOf x).headD "")] ++
    (x.env ++ [("TORK_OUTPUT", "/tork/output"), ("TORK_PROGRESS", "/tork/progress")]).map (fun kv => .val "-e" (kv.1 ++ "=" ++ kv.2)) ++
    netOpts cfg x.name x.networks ++ x.mounts.map (fun m => .val "-v" (m.source ++ ":" ++ m.target)) ++ workdirOpts x ++ privOpts cfg

theorem entrypointOf_eq (x : Task) : entrypointOf x = if x.entrypoint = [] then ["sh"] else x.entrypoint := by
  unfold entrypointOf
  cases x.entrypoint <;> simp

theorem mem_netOpts {name : String} {ws : List String} {o : Opt} : o ∈ netOpts cfg name ws ↔
    (∃ w ∈ ws, o = .val "--network" w) ∨ (∃ w ∈ ws, w ≠ "host" ∧ o = .val "--network-alias" (cfg.slug name)) := by
  unfold netOpts
  rw [List.mem_flatMap]
  constructor
  · rintro ⟨w, hw, h⟩
    split at h
    · exact .inl ⟨w, hw, by simpa using h⟩
    · rename_i hne
      simp only [List.mem_cons, List.not_mem_nil, or_false] at h
      rcases h with h | h
      · exact .inl ⟨w, hw, h⟩
      · exact .inr ⟨w, hw, hne, h⟩
  · rintro (⟨w, hw, rfl⟩ | ⟨w, hw, hne, rfl⟩)
    · refine ⟨w, hw, ?_⟩
      split <;> simp
    · refine ⟨w, hw, ?_⟩
      rw [if_neg hne]; simp

theorem mem_workdirOpts {x : Task} {o : Opt} : o ∈ workdirOpts x ↔
    (x.workdir ≠ "" ∧ o = .val "-w" x.workdir) ∨ (x.workdir = "" ∧ x.files ≠ [] ∧ o = .val "-w" "/tork/workdir") := by
  unfold workdirOpts
  by_cases h : x.workdir = ""
  · cases hf : x.files <;> simp [h]
  · simp [h]

theorem mem_privOpts {o : Opt} : o ∈ privOpts cfg ↔ cfg.privileged = true ∧ o = .flag "--privileged" := by
  unfold privOpts
  split <;> simp_all

theorem mem_optsOf {x : Task} {o : Opt} : o ∈ optsOf cfg x ↔
    o = .val "-v" (workDir cfg x ++ ":/tork") ∨ o = .val "--entrypoint" ((entrypointOf x).headD "") ∨
    o = .val "-e" "TORK_OUTPUT=/tork/output" ∨ o = .val "-e" "TORK_PROGRESS=/tork/progress" ∨ (∃ kv ∈ x.env, o = .val "-e" (kv.1 ++ "=" ++ kv.2)) ∨
    (∃ w ∈ x.networks, o = .val "--network" w) ∨ (∃ w ∈ x.networks, w ≠ "host" ∧ o = .val "--network-alias" (cfg.slug x.name)) ∨
    (∃ m ∈ x.mounts, o = .val "-v" (m.source ++ ":" ++ m.target)) ∨
    (x.workdir ≠ "" ∧ o = .val "-w" x.workdir) ∨ (x.workdir = "" ∧ x.files ≠ [] ∧ o = .val "-w" "/tork/workdir") ∨
    (cfg.privileged = true ∧ o = .flag "--privileged") := by
  have e1 : "TORK_OUTPUT" ++ "=" ++ "/tork/output" = "TORK_OUTPUT=/tork/output" := by decide +kernel
  have e2 : "TORK_PROGRESS" ++ "=" ++ "/tork/progress" = "TORK_PROGRESS=/tork/progress" := by decide +kernel
  unfold optsOf
  simp only [List.mem_append, mem_netOpts, mem_workdirOpts, mem_privOpts, List.map_append, List.map_cons, List.map_nil, e1, e2, List.mem_map,
    List.mem_cons, List.not_mem_nil, or_false]
  grind

theorem given_optsOf {x : Task} (hhost : "host" ∈ x.networks → cfg.hostNetwork = true) : Given cfg x x.mounts x.networks (optsOf cfg x) := by
  refine ⟨?_, ?_, ?_, ?_, ?_, ?_, ?_, ?_⟩
  · rw [mem_optsOf]; simp
  · intro w; rw [mem_optsOf]; simp
  · rw [mem_optsOf]; simp; exact hhost
  · intro s; rw [mem_optsOf]; simp
  · intro s; rw [mem_optsOf]; simp
  · intro s; rw [mem_optsOf]; simp
  · intro s; rw [mem_optsOf, entrypointOf_eq]; simp
  · intro o ho
    rw [mem_optsOf] at ho
    rcases ho with rfl | rfl | rfl | rfl | ⟨_, _, rfl⟩ | ⟨_, _, rfl⟩ | ⟨_, _, _, rfl⟩ | ⟨_, _, rfl⟩ | ⟨_, rfl⟩ | ⟨_, _, rfl⟩ | ⟨_, rfl⟩ <;> simp

theorem createArgs_given {x : Task} {args : List String} (h : createArgs cfg x = some args) (hd : dash x.image = false) :
    ∃ opts, parse args = some (opts, x.image :: (if x.entrypoint = [] then ["sh"] else x.entrypoint).tail ++ ["/tork/entrypoint.sh"]) ∧
      Given cfg x x.mounts x.networks opts := by
  unfold createArgs at h
  split at h
  · rename_i ns ms hns hms
    cases h
    obtain ⟨rn, hhost⟩ := reads_netArgs hns
    have rm := reads_mountArgs hms
    have rp : Reads (if cfg.privileged then ["--privileged"] else []) (privOpts cfg) := by
      unfold privOpts
      split
      · exact reads_priv
      · exact .nil
    have r0 : Reads _ (optsOf cfg x) := ((((((reads_v (workDir cfg x ++ ":/tork")).append (reads_ep ((entrypointOf x).headD ""))).append
      (reads_env (x.env ++ [("TORK_OUTPUT", "/tork/output"), ("TORK_PROGRESS", "/tork/progress")]))).append rn).append rm).append
      (reads_workdir x)).append rp
    have hflag : x.image ∉ flags := by
      intro hm
      simp only [flags, List.mem_singleton] at hm
      rw [hm] at hd; exact absurd hd (by decide +kernel)
    have hval : x.image ∉ valued := by
      intro hm
      have : ∀ a ∈ valued, dash a = true := by decide +kernel
      rw [this _ hm] at hd; cases hd
    have hp : ∀ rest, parse (x.image :: rest) = some ([], x.image :: rest) := by
      intro rest
      rw [parse.eq_def]
      simp only
      rw [if_neg hflag, if_neg hval, hd, if_neg (by simp)]
    have := r0 (x.image :: ((entrypointOf x).tail ++ ["/tork/entrypoint.sh"]))
    rw [hp, Option.map_some, List.append_nil] at this
    refine ⟨optsOf cfg x, ?_, given_optsOf hhost⟩
    rw [← entrypointOf_eq]
    refine Eq.trans (congrArg parse ?_) this
    simp [envArgs]
  · cases h

/-! ## All containers of a run -/

/-- this container is given what task `x` asks for -/
def Fits (cfg : Config) (x : Task) (ms : List Mount) (ws : List String) (args : List String) : Prop :=
  dash x.image = false →
    ∃ opts, parse args = some (opts, x.image :: (if x.entrypoint = [] then ["sh"] else x.entrypoint).tail ++ ["/tork/entrypoint.sh"]) ∧
      Given cfg x ms ws opts

/-- The task whose container it is: `t` itself, or one of its pre- and post-tasks, under an id of its own. -/
def Part (t x : Task) : Prop := x = t ∨ ∃ y ∈ t.pre ++ t.post, ∃ i, x = { y with id := i }

def Created (cfg : Config) (t : Task) (ms : List Mount) (e : Ev) : Prop :=
  ∀ args, e.1 = .create args → ∃ x, Part t x ∧ Fits cfg x ms t.networks args

theorem workDir_congr {x y : Task} (h : x.id = y.id) : workDir cfg x = workDir cfg y := by unfold workDir; rw [h]

theorem created_doRun {x : Task} : Each (fun e => ∀ args, e.1 = .create args → createArgs cfg x = some args) (doRun cfg x) := by
  refine .call (by simp) fun r => .ite (fun _ => .pure) fun _ => Each.bind ?_ fun o => .call (by simp) fun _ => .pure
  refine Each.bind' (Φ := fun _ o => ∀ args, o = some args → createArgs cfg x = some args) ?_ ?_ ?_
  · exact (each_prepare x).mono fun e he args ha => absurd ha (he.noCreate args)
  · intro n l o n' hr
    unfold prepare at hr
    replace hr := runs_bind.1 hr
    obtain ⟨ok, l1, l2, k, rfl, h1, h2⟩ := hr
    clear h1
    revert h2
    suffices h : Spec (fun _ o => ∀ args, o = some args → createArgs cfg x = some args)
        (if !ok then (pure none : Prog (Option (List String))) else do
          let ok ← imagePull x.image
          if !ok then pure none else
            match createArgs cfg x with
            | none => pure none
            | some args => do
              let ok ← allOk (fileCalls (workDir cfg x) x)
              if !ok then pure none else pure (some args)) from h k l2 o n'
    refine Spec.ite (fun _ => Spec.pure (by simp)) fun _ => Spec.bind (Φ := fun _ _ => True) (fun _ _ _ _ _ => trivial) fun _ ok _ =>
      Spec.ite (fun _ => Spec.pure (by simp)) fun _ => ?_
    split
    · exact Spec.pure (by simp)
    · rename_i args ha
      exact Spec.bind (Φ := fun _ _ => True) (fun _ _ _ _ _ => trivial) fun _ ok _ =>
        Spec.ite (fun _ => Spec.pure (by simp)) fun _ => Spec.pure (by rintro a ⟨⟩; exact ha)
  · intro _ o ho
    cases o with
    | none => exact .pure
    | some args =>
      refine .call (by rintro r a ⟨⟩; exact ho _ rfl) fun r => .ite (fun _ => .pure) fun _ => .ite (fun _ => .pure) fun _ =>
        .call (by simp) fun _ => Each.bind ((each_watch _ _).mono fun e he a hp => ?_) fun o => Each.bind ?_ fun _ => .pure
      · simp [Watches, hp] at he
      · exact .call (by simp) fun r => .ite (fun _ => .call (by simp) fun _ => .call (by simp) fun _ => .pure) fun _ => .pure

theorem Given.congr {x y : Task} {ms : List Mount} {ws : List String} {opts : List Opt} (h : Given cfg x ms ws opts) (h1 : y.id = x.id)
    (h2 : y.env = x.env) (h3 : y.workdir = x.workdir) (h4 : y.files = x.files) (h5 : y.entrypoint = x.entrypoint) : Given cfg y ms ws opts := by
  obtain ⟨a, b, c, d, e, f, g, i⟩ := h
  exact ⟨a, b, c, by rw [workDir_congr h1]; exact d, by rw [h2]; exact e, by rw [h3, h4]; exact f, by rw [h5]; exact g, i⟩

theorem created_runAll {t : Task} : ∀ {xs : List Task}, (∀ x ∈ xs, x ∈ t.pre ++ t.post) → Each (Created cfg t t.mounts) (runAll cfg t xs)
  | [], _ => .pure
  | x :: xs, h => .fresh fun i => by
    refine Each.bind (created_doRun.mono fun e he args ha => ⟨{ x with id := i }, .inr ⟨x, h x (by simp), i, rfl⟩, fun hd => ?_⟩) fun o => ?_
    · obtain ⟨opts, h1, h2⟩ := createArgs_given (he args ha) hd
      exact ⟨opts, h1, h2.congr rfl rfl rfl rfl rfl⟩
    · cases o with
      | none => exact .pure
      | some r => exact created_runAll fun x hx => h x (by simp [hx])

theorem created_tasks {t : Task} : Each (Created cfg t t.mounts) (tasks cfg t) := by
  refine (created_runAll (by simp +contextual)).bind fun ok => .ite (fun _ => .pure) fun _ => Each.bind (created_doRun.mono fun e he args ha => ?_) fun o => ?_
  · exact ⟨t, .inl rfl, fun hd => createArgs_given (he args ha) hd⟩
  · cases o with
    | none => exact .pure
    | some r => exact (created_runAll (by simp +contextual)).bind fun ok => .ite (fun _ => .pure) fun _ => .pure

theorem Provided.snoc {ms ms' : List Mount} {m m' : Mount} (h : Provided cfg ms ms') (hm : Provides cfg m m') : Provided cfg (ms ++ [m]) (ms' ++ [m']) := by
  induction h with
  | nil => exact .cons hm .nil
  | cons h1 _ ih => exact .cons h1 ih

theorem created_withMounts {t : Task} : ∀ {ms was done : List Mount}, Provided cfg was done →
    Spec (fun l _ => ∃ all, (∀ e ∈ l, Created cfg t all e) ∧ ((∃ e ∈ l, ∃ args, e.1 = Call.create args) → Provided cfg (was ++ ms) all))
      (withMounts cfg t done ms)
  | [], was, done, hd => by
    refine Spec.mono (created_tasks (t := { t with mounts := done })) fun l _ hl => ⟨done, fun e he args ha => ?_, fun _ => by rw [List.append_nil]; exact hd⟩
    obtain ⟨x, hx, hf⟩ := hl e he args ha
    rcases hx with rfl | ⟨y, hy, i, rfl⟩
    · refine ⟨t, .inl rfl, fun hd => ?_⟩
      obtain ⟨opts, h1, h2⟩ := hf hd
      exact ⟨opts, h1, h2.congr rfl rfl rfl rfl rfl⟩
    · exact ⟨_, .inr ⟨y, hy, i, rfl⟩, hf⟩
  | m :: ms, was, done, hd => Spec.fresh fun i => by
    have nc : ∀ {α : Type} {l : List Ev}, (∀ e ∈ l, NoCreate e) → ∀ all, ∀ e ∈ l, Created cfg t all e := fun h all e he args ha => absurd ha (h e he args)
    refine Spec.bind (Spec.and (mountOne_provides m i) (each_mountOne (Q := NoCreate) _ (by simp [NoCreate]) (by simp [NoCreate]) (by simp [NoCreate])))
      fun l1 o h1 => ?_
    cases o with
    | none =>
      refine Spec.pure ⟨[], ?_, ?_⟩
      · rw [List.append_nil]; exact nc (α := Unit) h1.2 []
      · rw [List.append_nil]
        rintro ⟨e, he, args, ha⟩
        exact absurd ha (h1.2 e he args)
    | some m' =>
      refine Spec.bind (created_withMounts (hd.snoc (h1.1 m' rfl))) fun l2 o h2 => ?_
      refine Spec.bind (each_unmount (Q := NoCreate) m' (by simp [NoCreate])) fun l3 _ h3 => Spec.pure ?_
      obtain ⟨all, h4, h5⟩ := h2
      refine ⟨all, ?_, ?_⟩
      · intro e he
        rw [List.append_nil] at he
        rcases List.mem_append.1 he with he | he
        · exact nc (α := Unit) h1.2 all e he
        · rcases List.mem_append.1 he with he | he
          · exact h4 e he
          · exact nc (α := Unit) h3 all e he
      · rintro ⟨e, he, args, ha⟩
        rw [List.append_nil] at he
        rcases List.mem_append.1 he with he | he
        · exact absurd ha (h1.2 e he args)
        · rcases List.mem_append.1 he with he | he
          · have := h5 ⟨e, he, args, ha⟩
            simpa using this
          · exact absurd ha (h3 e he args)

end

/-- **C64 (what containers are given).** Every container made during a run is that of the task or of one of its pre- and post-tasks, with the image
of that task and exactly the environment, working directory, entrypoint, networks and mounts the task asks for (the mounts and networks are always
those of the main task); privileges and the host's network only if the operator allows it; and the only host directories mounted are the task's own
directory, those the operator permits, and the new directories of volumes. This holds for tasks whose image does not begin with a dash. -/
theorem C64_options {cfg : Config} {t : Task} {n n' : Nat} {l : List Ev} {o : Option String} (h : Runs (run cfg t) n l o n')
    {args : List String} {r : Reply} (hm : (Call.create args, r) ∈ l) :
    ∃ x ms, Part t x ∧ Provided cfg t.mounts ms ∧ Fits cfg x ms t.networks args := by
  have key : Spec (fun l _ => ∃ all, (∀ e ∈ l, Created cfg t all e) ∧ ((∃ e ∈ l, ∃ args, e.1 = Call.create args) → Provided cfg ([] ++ t.mounts) all))
      (run cfg t) := Spec.ite (fun _ => Spec.pure ⟨[], by simp, by simp⟩) fun _ => created_withMounts .nil
  obtain ⟨all, h1, h2⟩ := key n l o n' h
  obtain ⟨x, hx, hf⟩ := h1 _ hm args rfl
  exact ⟨x, all, hx, h2 ⟨_, hm, args, rfl⟩, hf⟩

/-- **C64 (policy).** If the image of no task involved begins with a dash, then no container is privileged or on the host's network unless the operator
allows it, and every directory mounted is the container's own directory, one the operator permits, or the new directory of a volume. -/
theorem C64_policy {cfg : Config} {t : Task} {n n' : Nat} {l : List Ev} {o : Option String} (h : Runs (run cfg t) n l o n')
    (hd : ∀ x, Part t x → dash x.image = false) {args : List String} {r : Reply} (hm : (Call.create args, r) ∈ l) :
    ∃ opts rest, parse args = some (opts, rest) ∧ (.flag "--privileged" ∈ opts → cfg.privileged = true) ∧
      (.val "--network" "host" ∈ opts → cfg.hostNetwork = true) ∧
      ∀ s, .val "-v" s ∈ opts → (∃ i, s = "/tmp/tork/" ++ cfg.idText i ++ ":/tork") ∨
        (∃ m ∈ t.mounts, m.type = "bind" ∧ BindPermitted cfg m.source ∧ s = m.source ++ ":" ++ m.target) ∨
        ∃ m ∈ t.mounts, m.type = "volume" ∧ ∃ v, s = cfg.volume v ++ ":" ++ m.target := by
  obtain ⟨x, ms, hx, hp, hf⟩ := C64_options h hm
  obtain ⟨opts, h1, h2⟩ := hf (hd x hx)
  refine ⟨opts, _, h1, fun h => h2.privileged.1 h, h2.host, fun s hs => ?_⟩
  rcases (h2.mounts s).1 hs with rfl | ⟨m', hm', rfl⟩
  · exact .inl ⟨x.id, rfl⟩
  · have : ∃ m ∈ t.mounts, Provides cfg m m' := by
      clear h1 h2 hm hf h hd hx
      generalize t.mounts = l at hp
      induction hp with
      | nil => simp at hm'
      | cons h1 _ ih =>
        rcases List.mem_cons.1 hm' with rfl | hm'
        · exact ⟨_, by simp, h1⟩
        · obtain ⟨m, h2, h3⟩ := ih hm'
          exact ⟨m, by simp [h2], h3⟩
    obtain ⟨m, hm, hpr⟩ := this
    obtain ⟨htgt, hty, h | h⟩ := hpr
    · exact .inr (.inl ⟨m, hm, by grind [Provides]⟩)
    · exact .inr (.inr ⟨m, hm, by grind [Provides]⟩)

end Tork.Podman

import Verif.Calls
/-!
# The Docker runtime — model of `/repo/runtime/docker/docker.go`, `tcontainer.go`, `volume.go`, `bind.go`, `tmpfs.go`

`Run` as a sequential program over the calls it makes to the Docker daemon and the host. The replies are arbitrary, so a
run covers every failure of every call, including those caused by a cancelled or timed-out context
(`/repo/internal/worker/worker.go:184-195`). A call that replies with an error is taken to have had no effect.
-/

namespace Tork.Docker
open Calls

/-- What `ContainerCreate` is given (`tcontainer.go:126-184`); mounts keep the number the runtime gave them. -/
structure Container where
  image : String
  env : List (String × String)
  cmd : List String
  entrypoint : List String
  workdir : String
  mounts : List Mount
  cpus : Nat
  memory : Nat
  gpus : String
  privileged : Bool
  /-- the port of the probe, published on `127.0.0.1` -/
  port : Option Nat
  networks : List String
  deriving DecidableEq

/-- The calls. The number of a network, volume or container stands for the name the daemon knows it by. -/
inductive Call
  /-- `NetworkCreate`, `docker.go:273` -/
  | netCreate (n : Nat)
  /-- `NetworkRemove`, `docker.go:294` -/
  | netRemove (n : Nat)
  /-- `VolumeCreate`, `volume.go:30` -/
  | volumeCreate (m : Mount)
  /-- `VolumeList` and `VolumeRemove`, `volume.go:41-48` -/
  | volumeRemove (n : Nat)
  /-- `os.Stat` and `os.MkdirAll`, `bind.go:49-56` -/
  | hostDir (path : String)
  /-- `imagePull`, `docker.go:353-369`; see `Images.lean` for what it does -/
  | pull (image : String) (reg : Option Registry)
  /-- `ContainerCreate`, `tcontainer.go:193` -/
  | create (c : Nat) (spec : Container)
  /-- `CopyToContainer`, `tcontainer.go:545`, `:574` -/
  | copy (c : Nat) (dir : String) (files : StrMap)
  /-- `ContainerStart`, `tcontainer.go:230` -/
  | start (c : Nat)
  /-- the probe loop, `tcontainer.go:331-428` -/
  | probe (c : Nat) (p : Probe)
  /-- `ContainerLogs` of the run, `tcontainer.go:266` -/
  | follow (c : Nat)
  /-- `ContainerWait`, `tcontainer.go:292` -/
  | wait (c : Nat)
  /-- `ContainerLogs` after a failure, `tcontainer.go:298` -/
  | tail (c : Nat)
  /-- `CopyFromContainer` of `/tork/stdout`, `tcontainer.go:459` -/
  | output (c : Nat)
  /-- `ContainerRemove`, `tcontainer.go:246` -/
  | remove (c : Nat)
  deriving DecidableEq

/-- `ok`: no error; `code`: the exit status reported by `wait`; `text`: the file read by `output`. -/
structure Reply where
  ok : Bool := true
  code : Nat := 0
  text : String := ""
  deriving DecidableEq

instance : Inhabited Reply := ⟨{}⟩

abbrev Prog (α : Type) := P Call Reply α

/-- The configuration (`/repo/engine/worker.go:56-82`). `fold` is Unicode case folding (`strings.EqualFold`), `cpus`,
`memory` and `gpus` are the parsers used at `tcontainer.go:104-124` (`none`/`false`: error). -/
structure Config where
  bindAllowed : Bool := false
  bindSources : List String := []
  privileged : Bool := false
  fold : String → String := fun s => s
  cpus : String → Option Nat := fun _ => some 0
  memory : String → Option Nat := fun _ => some 0
  gpus : String → Bool := fun _ => true

def volumeName (n : Nat) : String := "volume-" ++ toString n
def networkName (n : Nat) : String := "network-" ++ toString n

/-- `bind.go:61-71` -/
def isSourceAllowed (cfg : Config) (src : String) : Bool :=
  cfg.bindSources.isEmpty || cfg.bindSources.any fun a => cfg.fold a == cfg.fold src

/-- `/repo/runtime/multi.go:24-38` with the mounters of `/repo/engine/worker.go:62-74`: `bind.go:33-59`,
`volume.go:27-37` (the volume is named after the mount), `tmpfs.go:17-25`. The directories remembered in `bind.go:40-45` are not
modelled: the host is asked each time. -/
def mountOne (cfg : Config) (m : Mount) : Prog (Option Mount) :=
  if m.type = "bind" then
    if cfg.bindAllowed && isSourceAllowed cfg m.source then do
      let r ← ask (.hostDir m.source)
      if r.ok then pure (some m) else pure none
    else pure none
  else if m.type = "volume" then do
    let r ← ask (.volumeCreate { m with source := volumeName m.id })
    if r.ok then pure (some { m with source := volumeName m.id }) else pure none
  else if m.type = "tmpfs" then
    if m.target ≠ "" ∧ m.source = "" then pure (some m) else pure none
  else pure none

/-- `/repo/runtime/multi.go:40-54`, `volume.go:39-53`, `bind.go:73-75`, `tmpfs.go:27-29`; an error is only logged. -/
def unmountOne (m : Mount) : Prog Unit :=
  if m.type = "volume" then do
    let _ ← ask (.volumeRemove m.id)
    pure ()
  else pure ()

/-- `tcontainer.go:59-79`: what is accepted of the mounts of a task -/
def mountOK (m : Mount) : Bool :=
  if m.type = "volume" then m.target != ""
  else if m.type = "bind" then m.target != "" && m.source != ""
  else m.type = "tmpfs"

/-- `docker.go:311-331`: no limits is 0 -/
def limitOf (parse : String → Option Nat) (field : TaskLimits → String) : Option TaskLimits → Option Nat
  | none => some 0
  | some x => if field x = "" then some 0 else parse (field x)

/-- `tcontainer.go:50-55`, `:97-101`, `:113-184` -/
def containerOf (cfg : Config) (t : Task) (torkdir : Mount) (cpus mem : Nat) : Container :=
  { image := t.image
    env := t.env ++ [("TORK_OUTPUT", "/tork/stdout"), ("TORK_PROGRESS", "/tork/progress")]
    cmd := if t.cmd.isEmpty then ["/tork/entrypoint"] else t.cmd
    entrypoint := if t.entrypoint.isEmpty && t.run ≠ "" then ["sh", "-c"] else t.entrypoint
    workdir := if t.workdir ≠ "" then t.workdir else if t.files.isEmpty then "" else "/tork/workdir"
    mounts := t.mounts ++ [torkdir]
    cpus := cpus
    memory := mem
    gpus := t.gpus
    privileged := cfg.privileged
    port := t.probe.map (·.port)
    networks := t.networks }

/-- `tcontainer.go:532-543` -/
def torkFiles (t : Task) : StrMap :=
  [("stdout", ""), ("progress", "")] ++ (if t.run = "" then [] else [("entrypoint", t.run)])

/-- A container and the volume holding its `/tork` directory. -/
structure Made where
  id : Nat
  torkdir : Mount

/-- `createTaskContainer`, `tcontainer.go:43-225`, `:520-579`. The checks of the limits and of the GPUs are done together. The two
archives are prepared in a temporary file; its failure is the failure of the copy. -/
def createTaskContainer (cfg : Config) (t : Task) : Prog (Option Made) :=
  if t.id = 0 then pure none else do
    let r ← ask (.pull t.image t.registry)
    if !r.ok then pure none
    else if !t.mounts.all mountOK then pure none
    else do
      let v ← newId
      match ← mountOne cfg { id := v, type := "volume", target := "/tork" } with
      | none => pure none
      | some td =>
        match limitOf cfg.cpus (·.cpus) t.limits, limitOf cfg.memory (·.memory) t.limits with
        | some cpus, some mem =>
          if t.gpus ≠ "" && !cfg.gpus t.gpus then pure none else do
            let c ← newId
            let r ← ask (.create c (containerOf cfg t td cpus mem))
            if !r.ok then pure none else do
              let r ← ask (.copy c "/tork" (torkFiles t))
              if !r.ok then pure none
              else if t.files.isEmpty then pure (some ⟨c, td⟩)
              else do
                let r ← ask (.copy c (containerOf cfg t td cpus mem).workdir t.files)
                if !r.ok then pure none else pure (some ⟨c, td⟩)
        | _, _ => pure none

/-- `tcontainer.go:336-342` -/
def probeOf (p : Probe) : Probe :=
  { p with
    path := if p.path = "" then "/" else p.path
    timeout := if p.timeout = "" then "1m" else p.timeout }

/-- `Start`, `tcontainer.go:227-242` -/
def startContainer (t : Task) (c : Made) : Prog Bool := do
  let r ← ask (.start c.id)
  if !r.ok then pure false else
    match t.probe with
    | none => pure true
    | some p => do
      let r ← ask (.probe c.id (probeOf p))
      pure r.ok

/-- `Remove`, `tcontainer.go:244-257`; the caller only logs its error -/
def removeContainer (c : Made) : Prog Unit := do
  let r ← ask (.remove c.id)
  if r.ok then unmountOne c.torkdir else pure ()

/-- `Wait`, `tcontainer.go:259-329`: the contents of the output file, or `none` for an error. The goroutines copying the
logs and reporting progress are not modelled here. -/
def waitContainer (c : Made) : Prog (Option String) := do
  let r ← ask (.follow c.id)
  if !r.ok then pure none else do
    let r ← ask (.wait c.id)
    if !r.ok then pure none
    else if r.code ≠ 0 then do
      let _ ← ask (.tail c.id)
      pure none
    else do
      let r ← ask (.output c.id)
      if !r.ok then pure none else pure (some r.text)

/-- `if err != nil { return err }`, then `p` -/
def after (ok : Bool) (p : Prog (Option String)) : Prog (Option String) := if ok then p else pure none

/-- `docker.go:228-247` the sidecars of a task: started one after the other, removed in the opposite order once `body` is done -/
def withSidecars (cfg : Config) (t : Task) (body : Prog (Option String)) : List Task → Prog (Option String)
  | [] => body
  | s :: ss => do
    let id ← newId
    let s := { s with id := id, mounts := t.mounts, networks := t.networks, limits := t.limits }
    match ← createTaskContainer cfg s with
    | none => pure none
    | some c => do
      let ok ← startContainer s c
      let r ← after ok (withSidecars cfg t body ss)
      removeContainer c
      pure r

/-- `doRun`, `docker.go:214-263`: the result of the task, or `none` for an error -/
def doRun (cfg : Config) (t : Task) : Prog (Option String) := do
  match ← createTaskContainer cfg t with
  | none => pure none
  | some c => do
    let r ← withSidecars cfg t (do
      let ok ← startContainer t c
      after ok (waitContainer c)) t.sidecars
    removeContainer c
    pure r

/-- `docker.go:187-195`, `:201-209` a list of pre- or post-tasks; `true`: no error -/
def runAll (cfg : Config) (t : Task) : List Task → Prog Bool
  | [] => pure true
  | p :: ps => do
    let id ← newId
    let r ← doRun cfg { p with id := id, mounts := t.mounts, networks := t.networks, limits := t.limits }
    match r with
    | none => pure false
    | some _ => runAll cfg t ps

/-- `docker.go:186-211` -/
def runSteps (cfg : Config) (t : Task) : Prog (Option String) := do
  let ok ← runAll cfg t t.pre
  if !ok then pure none else do
    match ← doRun cfg t with
    | none => pure none
    | some r => do
      let ok ← runAll cfg t t.post
      if ok then pure (some r) else pure none

/-- `docker.go:160-176`: mount everything, run, unmount in the opposite order -/
def withMounts (cfg : Config) (k : List Mount → Prog (Option String)) : List Mount → Prog (Option String)
  | [] => k []
  | m :: ms => do
    let id ← newId
    match ← mountOne cfg { m with id := id } with
    | none => pure none
    | some m' => do
      let r ← withMounts cfg (fun ms' => k (m' :: ms')) ms
      unmountOne m'
      pure r

/-- `removeNetwork`, `docker.go:286-308`: up to `attempts` attempts; the delays are not modelled -/
def removeNetwork (n : Nat) : Nat → Prog Unit
  | 0 => pure ()
  | k + 1 => do
    let r ← ask (.netRemove n)
    if r.ok then pure () else removeNetwork n k

/-- `Run`, `docker.go:138-212`, without the counter of running tasks (see `Images.lean`): the result of the task, or `none`
for an error. -/
def run (cfg : Config) (t : Task) : Prog (Option String) :=
  if t.sidecars.isEmpty then
    withMounts cfg (fun ms => runSteps cfg { t with mounts := ms }) t.mounts
  else do
    let n ← newId
    let r ← ask (.netCreate n)
    if !r.ok then pure none else do
      let t := { t with networks := t.networks ++ [networkName n] }
      let r ← withMounts cfg (fun ms => runSteps cfg { t with mounts := ms }) t.mounts
      removeNetwork n 5
      pure r

end Tork.Docker

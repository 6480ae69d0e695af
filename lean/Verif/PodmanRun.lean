import Verif.Calls
/-!
# The Podman runtime — model of `/repo/runtime/podman/podman.go`, `volume.go`

`Run` as a sequential program over the calls it makes: to the operating system, to the `podman` command and to the two tables it shares
with the other tasks of the worker. The replies are arbitrary. A call that replies with an error is taken to have had no effect. The
goroutines that copy the logs and report progress are not modelled; the container has ended when `podman logs --follow` has.
-/

namespace Tork.Podman
open Calls

/-- `/repo/engine/worker.go:89-107`. `fold` is Unicode case folding, `slug` is `slug.Make`. -/
structure Config where
  bindAllowed : Bool := false
  bindSources : List String := []
  privileged : Bool := false
  hostNetwork : Bool := false
  fold : String → String := fun s => s
  slug : String → String := fun s => s
  /-- the text of a task id -/
  idText : Nat → String := fun n => toString n
  /-- the name `os.MkdirTemp` gives to a new directory -/
  volume : Nat → String := fun n => "/tmp/tork-volume-" ++ toString n

/-- The calls. -/
inductive Call
  /-- `os.MkdirTemp`, `volume.go:19` -/
  | mkTemp (v : Nat)
  /-- `os.Chmod`, `volume.go:23` -/
  | chmodTemp (v : Nat)
  /-- `os.RemoveAll`, `volume.go:31` -/
  | rmTemp (path : String)
  /-- `os.Stat` and `os.MkdirAll`, `/repo/runtime/docker/bind.go:49-56` -/
  | hostDir (path : String)
  /-- `os.MkdirAll`, `podman.go:167`, `:270` -/
  | mkdir (path : String)
  /-- `os.RemoveAll`, `podman.go:171` -/
  | rmdir (path : String)
  /-- `os.Create`, `podman.go:178`, `:186` -/
  | touch (path : String)
  /-- `os.Chmod`, `podman.go:181`, `:189` -/
  | chmod (path : String)
  /-- `os.WriteFile`, `podman.go:201`, `:273` -/
  | write (path : String) (contents : String)
  /-- `d.images.Get`, `podman.go:435`: `ok` if found -/
  | known (image : String)
  /-- `d.images.Set`, `podman.go:448` -/
  | remember (image : String)
  /-- `podman inspect`, `podman.go:481`: `ok` if there is such an image -/
  | inspect (image : String)
  /-- `podman pull`, `podman.go:470` -/
  | pull (image : String)
  /-- `podman create`, `podman.go:216-294`, with these arguments -/
  | create (args : List String)
  /-- `d.tasks.Set`, `podman.go:305` -/
  | register (task : Nat) (container : String)
  /-- `podman start`, `podman.go:324` -/
  | start (container : String)
  /-- `podman logs --follow`, `podman.go:333` -/
  | logs (container : String)
  /-- `podman inspect --format {{.State.ExitCode}}`, `podman.go:351` -/
  | exitCode (container : String)
  /-- `os.ReadFile`, `podman.go:363` -/
  | read (path : String)
  /-- `d.tasks.Get`, `podman.go:373`: `ok` if found -/
  | lookup (task : Nat)
  /-- `d.tasks.Delete`, `podman.go:377` -/
  | forget (task : Nat)
  /-- `podman rm -f`, `podman.go:379` -/
  | rm (container : String)
  deriving DecidableEq

/-- `text`: what the command printed (without surrounding white space), the file read, the container found -/
structure Reply where
  ok : Bool := true
  text : String := ""
  deriving DecidableEq

instance : Inhabited Reply := ⟨{}⟩

abbrev Prog (α : Type) := P Call Reply α

/-- `/repo/runtime/docker/bind.go:61-71` -/
def sourceAllowed (cfg : Config) (src : String) : Bool :=
  cfg.bindSources.isEmpty || cfg.bindSources.any fun a => cfg.fold a == cfg.fold src

/-- `/repo/runtime/multi.go:24-38` with the mounters of `/repo/engine/worker.go:93-98`: `/repo/runtime/docker/bind.go:33-59`,
`volume.go:18-28`. The directories remembered in `bind.go:40-45` are not modelled: the host is asked each time. -/
def mountOne (cfg : Config) (m : Mount) : Prog (Option Mount) :=
  if m.type = "bind" then
    if cfg.bindAllowed && sourceAllowed cfg m.source then do
      let r ← ask (.hostDir m.source)
      if r.ok then pure (some m) else pure none
    else pure none
  else if m.type = "volume" then do
    let v ← newId
    let r ← ask (.mkTemp v)
    if !r.ok then pure none else do
      let r ← ask (.chmodTemp v)
      if !r.ok then pure none else pure (some { m with source := cfg.volume v })
  else pure none

/-- `/repo/runtime/multi.go:40-54`, `volume.go:30-32`; an error is only logged -/
def unmountOne (m : Mount) : Prog Unit :=
  if m.type = "volume" then do
    let _ ← ask (.rmTemp m.source)
    pure ()
  else pure ()

/-- `podman.go:166`; `os.TempDir()` is `/tmp` -/
def workDir (cfg : Config) (t : Task) : String := "/tmp/tork/" ++ cfg.idText t.id

/-- makes the calls in order, up to the first that fails; `true`: none did -/
def allOk : List Call → Prog Bool
  | [] => pure true
  | c :: cs => do
    let r ← ask c
    if r.ok then allOk cs else pure false

/-- `podman.go:194-199` -/
def script (t : Task) : String := if t.run ≠ "" then t.run else String.intercalate " " t.cmd

/-- `podman.go:176-203` -/
def setup (dir : String) (t : Task) : List Call :=
  [.touch (dir ++ "/output"), .chmod (dir ++ "/output"), .touch (dir ++ "/progress"), .chmod (dir ++ "/progress"),
   .write (dir ++ "/entrypoint.sh") (script t)]

/-- `imagePull` with `doPullRequest` and `imageExistsLocally`, `podman.go:434-486`. The requests of all tasks are served one at a time
(`:455-459`), which is not modelled. -/
def imagePull (image : String) : Prog Bool := do
  let r ← ask (.known image)
  if r.ok then pure true else do
    let r ← ask (.inspect image)
    if r.ok then do
      let _ ← ask (.remember image)
      pure true
    else do
      let r ← ask (.pull image)
      if r.ok then do
        let _ ← ask (.remember image)
        pure true
      else pure false

/-- `podman.go:222-231` -/
def envArgs (t : Task) : List String :=
  (t.env ++ [("TORK_OUTPUT", "/tork/output"), ("TORK_PROGRESS", "/tork/progress")]).flatMap fun kv => ["-e", kv.1 ++ "=" ++ kv.2]

/-- `podman.go:233-245`; `none`: host networking is not enabled -/
def netArgs (cfg : Config) (name : String) : List String → Option (List String)
  | [] => some []
  | w :: ws =>
    if w = "host" then if cfg.hostNetwork then (netArgs cfg name ws).map (["--network", w] ++ ·) else none
    else (netArgs cfg name ws).map (["--network", w, "--network-alias", cfg.slug name] ++ ·)

/-- `podman.go:247-257`; `none`: unknown type -/
def mountArgs : List Mount → Option (List String)
  | [] => some []
  | m :: ms =>
    if m.type = "volume" ∨ m.type = "bind" then (mountArgs ms).map (["-v", m.source ++ ":" ++ m.target] ++ ·) else none

/-- `podman.go:263-268` -/
def workdirArgs (t : Task) : List String :=
  if t.workdir ≠ "" then ["-w", t.workdir] else if t.files.isEmpty then [] else ["-w", "/tork/workdir"]

/-- `podman.go:213-215` -/
def entrypointOf (t : Task) : List String := if t.entrypoint.isEmpty then ["sh"] else t.entrypoint

/-- `podman.go:216-286`: the arguments after `podman create` -/
def createArgs (cfg : Config) (t : Task) : Option (List String) :=
  match netArgs cfg t.name t.networks, mountArgs t.mounts with
  | some ns, some ms =>
    some (["-v", workDir cfg t ++ ":/tork", "--entrypoint", (entrypointOf t).headD ""] ++ envArgs t ++ ns ++ ms ++ workdirArgs t ++
      (if cfg.privileged then ["--privileged"] else []) ++ [t.image] ++ (entrypointOf t).tail ++ ["/tork/entrypoint.sh"])
  | _, _ => none

/-- `podman.go:269-276`. `path.Join` also resolves `..` in the name; the path here is left as it is, and denotes the same file. -/
def fileCalls (dir : String) (t : Task) : List Call :=
  t.files.flatMap fun f => [.mkdir (dir ++ "/workdir"), .write (dir ++ "/workdir/" ++ f.1) f.2]

/-- `podman.go:176-286`: the arguments for `podman create` -/
def prepare (cfg : Config) (t : Task) : Prog (Option (List String)) := do
  let ok ← allOk (setup (workDir cfg t) t)
  if !ok then pure none else do
    let ok ← imagePull t.image
    if !ok then pure none else
      match createArgs cfg t with
      | none => pure none
      | some args => do
        let ok ← allOk (fileCalls (workDir cfg t) t)
        if !ok then pure none else pure (some args)

/-- `podman.go:322-369`: the result, or `none` for an error -/
def watch (dir c : String) : Prog (Option String) := do
  let r ← ask (.start c)
  if !r.ok then pure none else do
    let r ← ask (.logs c)
    if !r.ok then pure none else do
      let r ← ask (.exitCode c)
      if !r.ok then pure none
      else if r.text ≠ "0" then pure none
      else do
        let r ← ask (.read (dir ++ "/output"))
        if r.ok then pure (some r.text) else pure none

/-- `stop`, `podman.go:372-384`; an error is only logged -/
def stop (t : Task) : Prog Unit := do
  let r ← ask (.lookup t.id)
  if r.ok then do
    let _ ← ask (.forget t.id)
    let _ ← ask (.rm r.text)
    pure ()
  else pure ()

/-- `podman.go:288-369` -/
def contain (cfg : Config) (t : Task) (args : List String) : Prog (Option String) := do
  let r ← ask (.create args)
  if !r.ok then pure none
  else if r.text = "" then pure none
  else do
    let _ ← ask (.register t.id r.text)
    let o ← watch (workDir cfg t) r.text
    stop t
    pure o

/-- `podman.go:176-369` -/
def inDir (cfg : Config) (t : Task) : Prog (Option String) := do
  match ← prepare cfg t with
  | none => pure none
  | some args => contain cfg t args

/-- `doRun`, `podman.go:164-370`: the result, or `none` for an error -/
def doRun (cfg : Config) (t : Task) : Prog (Option String) := do
  let r ← ask (.mkdir (workDir cfg t))
  if !r.ok then pure none else do
    let o ← inDir cfg t
    let _ ← ask (.rmdir (workDir cfg t))
    pure o

/-- `podman.go:139-142`, `:153-156` -/
def subTask (t x : Task) (i : Nat) : Task := { x with id := i, mounts := t.mounts, networks := t.networks, limits := t.limits }

/-- `podman.go:138-146`, `:152-160`; `true`: no error -/
def runAll (cfg : Config) (t : Task) : List Task → Prog Bool
  | [] => pure true
  | x :: xs => do
    let i ← newId
    match ← doRun cfg (subTask t x i) with
    | none => pure false
    | some _ => runAll cfg t xs

/-- `podman.go:137-161` -/
def tasks (cfg : Config) (t : Task) : Prog (Option String) := do
  let ok ← runAll cfg t t.pre
  if !ok then pure none else do
    match ← doRun cfg t with
    | none => pure none
    | some r => do
      let ok ← runAll cfg t t.post
      if ok then pure (some r) else pure none

/-- `podman.go:110-125`: the mounts `ms` are mounted, then the task is run, then they are unmounted in reverse order; `done` are those
already mounted -/
def withMounts (cfg : Config) (t : Task) (done : List Mount) : List Mount → Prog (Option String)
  | [] => tasks cfg { t with mounts := done }
  | m :: ms => do
    let i ← newId
    match ← mountOne cfg { m with id := i } with
    | none => pure none
    | some m' => do
      let o ← withMounts cfg t (done ++ [m']) ms
      unmountOne m'
      pure o

/-- `podman.go:96-107` -/
def valid (t : Task) : Bool := t.id ≠ 0 && t.image ≠ "" && t.name ≠ "" && t.sidecars.isEmpty

/-- `Run`, `podman.go:94-162`: the result of the task, or `none` for an error -/
def run (cfg : Config) (t : Task) : Prog (Option String) :=
  if !valid t then pure none else withMounts cfg t [] t.mounts

end Tork.Podman

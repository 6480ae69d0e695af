import Verif.Calls
/-!
# The shell runtime — model of `/repo/runtime/shell/shell.go`, `setid_unix.go`

`Run` as a sequential program over the calls it makes to the operating system, with arbitrary replies. The goroutines copying the output
and reporting progress are not modelled. The process started is the worker's own program (`reexecRun`), which changes its identity
and environment and then runs the shell: see the second half.
-/

namespace Tork.Shell
open Calls

/-- `shell.go:48-77` -/
structure Config where
  shell : List String := ["bash", "-c"]
  uid : String := "-"
  gid : String := "-"
  /-- the environment of the worker -/
  hostPath : String := ""
  hostHome : String := ""
  /-- the name `os.MkdirTemp` gives to a new directory -/
  dir : Nat → String := fun n => "/tmp/tork" ++ toString n

/-- The calls. -/
inductive Call
  /-- `os.MkdirTemp`, `shell.go:140` -/
  | mkdir (d : Nat)
  /-- `os.WriteFile`, `shell.go:152-165`, `:177` -/
  | write (path : String) (contents : String)
  /-- `cmd.Start`, `shell.go:180-194`; `d` is the current directory of the process -/
  | spawn (d : Nat) (args : List String) (env : List (List Char))
  /-- `cmd.Wait` or the end of the context, `shell.go:236-255` -/
  | wait (d : Nat)
  /-- `cmd.Process.Kill`, `shell.go:250` -/
  | kill (d : Nat)
  /-- `os.ReadFile`, `shell.go:257` -/
  | read (path : String)
  /-- `os.RemoveAll`, `shell.go:144-148` -/
  | rmdir (d : Nat)
  deriving DecidableEq

/-- `ok`: no error; for `wait`: the process ended by itself (otherwise the context is done), with exit status `code`. -/
structure Reply where
  ok : Bool := true
  code : Nat := 0
  text : String := ""
  deriving DecidableEq

instance : Inhabited Reply := ⟨{}⟩

abbrev Prog (α : Type) := P Call Reply α

/-- `name=value` -/
def entry (name value : List Char) : List Char := name ++ '=' :: value

/-- `shell.go:32` -/
def envPrefix : List Char := "REEXEC_".toList

/-- `shell.go:167-175`; a map is a list of its entries in the order of the iteration -/
def wrapperEnv (cfg : Config) (t : Task) (d : Nat) : List (List Char) :=
  t.env.map (fun kv => entry (envPrefix ++ kv.1.toList) kv.2.toList) ++
  [entry (envPrefix ++ "TORK_OUTPUT".toList) (cfg.dir d ++ "/stdout").toList,
   entry (envPrefix ++ "TORK_PROGRESS".toList) (cfg.dir d ++ "/progress").toList,
   entry "WORKDIR".toList (cfg.dir d).toList, entry "PATH".toList cfg.hostPath.toList, entry "HOME".toList cfg.hostHome.toList]

/-- `shell.go:152-165`, `:177`: the files, in the order they are written -/
def filesOf (t : Task) : StrMap := [("stdout", ""), ("progress", "")] ++ t.files ++ [("entrypoint", t.run)]

/-- writes the files; `true`: no error -/
def writeAll (dir : String) : StrMap → Prog Bool
  | [] => pure true
  | f :: fs => do
    let r ← ask (.write (dir ++ "/" ++ f.1) f.2)
    if r.ok then writeAll dir fs else pure false

/-- `shell.go:180-181` -/
def argsOf (cfg : Config) (d : Nat) : List String :=
  ["shell", "-uid", cfg.uid, "-gid", cfg.gid] ++ cfg.shell ++ [cfg.dir d ++ "/entrypoint"]

/-- `shell.go:152-264`, in directory `d` -/
def inDir (cfg : Config) (t : Task) (d : Nat) : Prog (Option String) := do
  let ok ← writeAll (cfg.dir d) (filesOf t)
  if !ok then pure none else do
    let r ← ask (.spawn d (argsOf cfg d) (wrapperEnv cfg t d))
    if !r.ok then pure none else do
      let r ← ask (.wait d)
      if !r.ok then do
        let _ ← ask (.kill d)
        pure none
      else if r.code ≠ 0 then pure none
      else do
        let r ← ask (.read (cfg.dir d ++ "/stdout"))
        if !r.ok then pure none else pure (some r.text)

/-- `doRun`, `shell.go:137-265`: the result, or `none` for an error -/
def doRun (cfg : Config) (t : Task) : Prog (Option String) := do
  let d ← newId
  let r ← ask (.mkdir d)
  if !r.ok then pure none else do
    let o ← inDir cfg t d
    let _ ← ask (.rmdir d)
    pure o

/-- `shell.go:117-122`, `:128-133`; `true`: no error -/
def runAll (cfg : Config) : List Task → Prog Bool
  | [] => pure true
  | t :: ts => do
    let r ← doRun cfg t
    match r with
    | none => pure false
    | some _ => runAll cfg ts

/-- `shell.go:80-106` -/
def supported (t : Task) : Bool :=
  t.id ≠ 0 && t.mounts.isEmpty && t.entrypoint.isEmpty && t.image = "" &&
  (match t.limits with | none => true | some x => x.cpus = "" && x.memory = "") &&
  t.networks.isEmpty && t.registry.isNone && t.cmd.isEmpty && t.sidecars.isEmpty

/-- `Run`, `shell.go:79-135`: the result of the task, or `none` for an error -/
def run (cfg : Config) (t : Task) : Prog (Option String) :=
  if !supported t then pure none else do
    let ok ← runAll cfg t.pre
    if !ok then pure none else do
      match ← doRun cfg t with
      | none => pure none
      | some r => do
        let ok ← runAll cfg t.post
        if ok then pure (some r) else pure none

/-! ## The process -/

/-- `strings.SplitN(_, "=", 2)`; also how Go's `os/exec` and the operating system find the name of an entry -/
def splitEntry (e : List Char) : List Char × List Char :=
  (e.takeWhile (· != '='), (e.dropWhile (· != '=')).drop 1)

/-- Go's `os/exec`: of the entries with the same name only the last is passed on. (Its special treatment of entries beginning with `=` is
not modelled.) -/
def dedup : List (List Char) → List (List Char)
  | [] => []
  | e :: es => if es.any (fun e' => (splitEntry e').1 == (splitEntry e).1) then dedup es else e :: dedup es

/-- `os.Getenv`: the empty string if there is no such variable -/
def getenv (env : List (List Char)) (name : List Char) : List Char :=
  match env.find? (fun e => (splitEntry e).1 == name) with
  | some e => (splitEntry e).2
  | none => []

/-- `buildEnv`, `shell.go:313-327` -/
def buildEnv (env : List (List Char)) : List (List Char) :=
  env.filterMap fun e =>
    if envPrefix.isPrefixOf (splitEntry e).1 then some (entry ((splitEntry e).1.drop envPrefix.length) (splitEntry e).2) else none

/-- the environment given to the shell, `shell.go:289-306`; `env` is the environment of the wrapper -/
def shellEnv (env : List (List Char)) : List (List Char) :=
  dedup (buildEnv env ++ [entry "WORKDIR".toList (getenv env "WORKDIR".toList), entry "PATH".toList (getenv env "PATH".toList),
    entry "HOME".toList (getenv env "HOME".toList)])

/-- user and group of a process -/
structure Cred where
  ruid : Nat
  euid : Nat
  suid : Nat
  rgid : Nat
  egid : Nat
  sgid : Nat
  deriving DecidableEq

/-- `setuid(2)`; `none`: refused -/
def setuid (c : Cred) (u : Nat) : Option Cred :=
  if c.euid = 0 then some { c with ruid := u, euid := u, suid := u }
  else if u = c.ruid ∨ u = c.suid then some { c with euid := u }
  else none

/-- `setgid(2)` -/
def setgid (c : Cred) (g : Nat) : Option Cred :=
  if c.euid = 0 then some { c with rgid := g, egid := g, sgid := g }
  else if g = c.rgid ∨ g = c.sgid then some { c with egid := g }
  else none

/-- `SetUID`, `setid_unix.go:12-22`; `parse` is `strconv.Atoi`; `none`: the process ends with an error -/
def SetUID (parse : String → Option Nat) (c : Cred) (uid : String) : Option Cred :=
  if uid ≠ "-" then (parse uid).bind (setuid c) else some c

/-- `SetGID`, `setid_unix.go:24-34` -/
def SetGID (parse : String → Option Nat) (c : Cred) (gid : String) : Option Cred :=
  if gid ≠ "-" then (parse gid).bind (setgid c) else some c

/-- `shell.go:286-287`: the identity the shell runs under; `none`: it is not run -/
def identity (parse : String → Option Nat) (cfg : Config) (worker : Cred) : Option Cred :=
  (SetUID parse worker cfg.uid).bind fun c => SetGID parse c cfg.gid

end Tork.Shell

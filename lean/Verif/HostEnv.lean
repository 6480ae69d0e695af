import Verif.Types
/-!
# Host environment middleware — model of `/repo/middleware/task/hostenv.go`

A Go map is an association list without duplicate keys; iterating over it is a `foldl` over an arbitrary permutation
of the list.
-/

namespace Tork.HostEnv

/-- `strings.Split(s, ":")` -/
def split : List Char → List (List Char)
  | [] => [[]]
  | c :: cs =>
    if c = ':' then [] :: split cs
    else
      match split cs with
      | [] => [[c]]
      | w :: ws => (c :: w) :: ws

/-- `hostenv.go:18-29 NewHostEnv` -/
def newHostEnv : List String → StrMap → Option StrMap
  | [], vars => some vars
  | v :: vs, vars =>
    match split v.toList with
    | [_] => newHostEnv vs (mset vars v v)
    | [a, b] => newHostEnv vs (mset vars (String.ofList a) (String.ofList b))
    | _ => none

/-- `hostenv.go:45-47`: one pass over the map, in the order `vars` -/
def setVars (getenv : String → String) (vars : StrMap) (env : StrMap) : StrMap :=
  vars.foldl (fun env p => mset env p.2 (getenv p.1)) env

mutual
/-- `hostenv.go:41-55 setHostVars`; `ord t` is the order in which the pass for task `t` visits the map -/
def setHostVars (getenv : String → String) (ord : Task → StrMap) : Task → Task
  | t@{ env := env, pre := pre, post := post, .. } =>
    { t with env := setVars getenv (ord t) env
             pre := setHostVarsL getenv ord pre, post := setHostVarsL getenv ord post }
/-- `hostenv.go:48-54` -/
def setHostVarsL (getenv : String → String) (ord : Task → StrMap) : List Task → List Task
  | [] => []
  | t :: ts => setHostVars getenv ord t :: setHostVarsL getenv ord ts
end

/-- `hostenv.go:32-39 Execute`: the task handed to the next handler -/
def execute (getenv : String → String) (ord : Task → StrMap) (stateChange : Bool) (t : Task) : Task :=
  if stateChange && t.state = .running then setHostVars getenv ord t else t

end Tork.HostEnv

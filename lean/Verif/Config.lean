/-!
# Configuration: `/repo/conf/conf.go`, with the parts of koanf v2 it uses

koanf is not in the repository. What is used of it is modelled after its documentation and source: `maps.Merge`,
`maps.Unflatten`, the env provider, `Get`, `String`, `Strings`, `Bool`, `Int`, `Duration`. Tables are functions from keys
to entries; names of environment variables are ASCII; keys of files contain no dots (koanf identifies a key that contains a
dot with a path).
-/

namespace Tork.Conf

abbrev Key := List Char
abbrev Path := List Key

/-- A scalar or an array. `text`: what environment variables give. `other s`: any TOML value that is neither a string nor an
array of strings, with its `%v` form. -/
inductive Val
  | text (s : List Char)
  | array (l : List (List Char))
  | other (s : List Char)
  deriving DecidableEq

/-- What a path leads to: `map[string]interface{}` with nil for missing keys. -/
inductive Tree
  | absent
  | leaf (v : Val)
  | table (f : Key → Tree)

def Tree.empty : Tree := .table fun _ => .absent

/-- `maps.Search` of koanf: follow the keys. -/
def Tree.at : Tree → Path → Tree
  | t, [] => t
  | .table f, k :: ks => (f k).at ks
  | _, _ :: _ => .absent

/-- `maps.Merge(a, b)` of koanf, the resulting `b`: tables are merged, everything else is replaced. -/
def merge : Tree → Tree → Tree
  | .absent, b => b
  | .leaf v, _ => .leaf v
  | .table f, .table g => .table fun k => merge (f k) (g k)
  | .table f, _ => .table f

/-! ## Environment variables -/

/-- `os.Environ()`, split at the first `=`. -/
abbrev Environ := List (List Char × List Char)

def pfx : List Char := ['T', 'O', 'R', 'K', '_']

/-- One character of the key: `strings.ToLower` and `strings.ReplaceAll(…, "_", ".")`, `/repo/conf/conf.go:55`. -/
def keyChar (c : Char) : Char := if c.toLower = '_' then '.' else c.toLower

/-- The key of a variable, `/repo/conf/conf.go:54-56`. -/
def envKey (name : List Char) : List Char := (if pfx.isPrefixOf name then name.drop pfx.length else name).map keyChar

/-- `strings.Split(s, ".")` -/
def splitDots : List Char → Path
  | [] => [[]]
  | c :: s => if c = '.' then [] :: splitDots s else
    match splitDots s with
    | [] => [[c]]
    | w :: ws => (c :: w) :: ws

/-- `mp[key] = value` -/
def put (m : List (List Char × List Char)) (k v : List Char) : List (List Char × List Char) :=
  match m with
  | [] => [(k, v)]
  | (k', v') :: m => if k' = k then (k, v) :: m else (k', v') :: put m k v

/-- `Env.Read` of koanf's env provider, up to `Unflatten`: the variables with the prefix, under their keys, later ones
replacing earlier ones; empty keys are omitted. `/repo/conf/conf.go:54-56`. -/
def flat (env : Environ) : List (List Char × List Char) :=
  env.foldl (fun m x => if pfx.isPrefixOf x.1 && envKey x.1 ≠ [] then put m (envKey x.1) x.2 else m) []

def upd (f : Key → Tree) (k : Key) (t : Tree) : Key → Tree := fun x => if x = k then t else f x

/-- One step of `maps.Unflatten` of koanf: walk down the keys creating tables (where something else than a table is in the
way, the walk stays where it is), then assign. -/
def plant : Path → Val → (Key → Tree) → (Key → Tree)
  | [], _, f => f
  | [k], v, f => upd f k (.leaf v)
  | k :: ks, v, f =>
    match f k with
    | .absent => upd f k (.table (plant ks v fun _ => .absent))
    | .table g => upd f k (.table (plant ks v g))
    | .leaf _ => plant ks v f

/-- `maps.Unflatten` of koanf over the entries in some order. -/
def unflatten (l : List (List Char × List Char)) : Tree :=
  .table (l.foldl (fun f x => plant (splitDots x.1) (.text x.2) f) fun _ => .absent)

/-- What the environment gives. Go iterates over maps in any order. -/
def EnvGives (env : Environ) (t : Tree) : Prop := ∃ l, l.Perm (flat env) ∧ t = unflatten l

/-! ## Loading -/

/-- What becomes of reading and parsing a file. -/
inductive FileResult
  | missing
  | broken (e : String)
  | ok (f : Key → Tree)

/-- `/repo/conf/conf.go:20-25`; no `~` is expanded. -/
def defaultPaths : List String := ["config.local.toml", "config.toml", "~/tork/config.toml", "/etc/tork/config.toml"]

inductive Err
  | loading (path e : String)
  | notFound (path : String)
  deriving DecidableEq

/-- The loop over the paths, `/repo/conf/conf.go:37-48`: the first file that exists. -/
def firstFile (fs : String → FileResult) : List String → Except Err (Option (Key → Tree))
  | [] => .ok none
  | p :: ps =>
    match fs p with
    | .missing => firstFile fs ps
    | .broken e => .error (.loading p e)
    | .ok f => .ok (some f)

/-- `os.Getenv("TORK_CONFIG")`: the first one. -/
def userConfig (env : Environ) : String :=
  match env.find? fun x => decide (x.1 = pfx ++ ['C', 'O', 'N', 'F', 'I', 'G']) with
  | some x => String.ofList x.2
  | none => ""

/-- `LoadConfig`, `/repo/conf/conf.go:27-60`, into the (global) configuration `old`; `envT` is what the environment gives. -/
def loadConfig (fs : String → FileResult) (env : Environ) (envT old : Tree) : Except Err Tree :=
  match firstFile fs (if userConfig env ≠ "" then [userConfig env] else defaultPaths) with
  | .error e => .error e
  | .ok none => if userConfig env ≠ "" then .error (.notFound (userConfig env)) else .ok (merge envT old)
  | .ok (some f) => .ok (merge envT (merge (.table f) old))

/-! ## Reading values -/

/-- `fmt.Sprintf("%v", v)` of the values `String` is used on; of arrays and tables the form is left open. -/
structure Forms where
  array : List (List Char) → List Char
  table : (Key → Tree) → List Char
  parseBool : List Char → Option Bool
  parseInt : List Char → Option Int

/-- `koanf.String` -/
def getString (F : Forms) (t : Tree) (p : Path) : List Char :=
  match t.at p with
  | .absent => []
  | .leaf (.text s) => s
  | .leaf (.array l) => F.array l
  | .leaf (.other s) => s
  | .table f => F.table f

/-- `koanf.Strings` -/
def koStrings (t : Tree) (p : Path) : List (List Char) :=
  match t.at p with
  | .leaf (.array l) => l
  | _ => []

/-- `strings.Split(s, ",")` -/
def splitCommas : List Char → List (List Char)
  | [] => [[]]
  | c :: s => if c = ',' then [] :: splitCommas s else
    match splitCommas s with
    | [] => [[c]]
    | w :: ws => (c :: w) :: ws

/-- `/repo/conf/conf.go:78-89` -/
def getStrings (F : Forms) (t : Tree) (p : Path) : List (List Char) :=
  if (koStrings t p).length > 0 then koStrings t p
  else if getString F t p = [] then [] else splitCommas (getString F t p)

/-- `konf.Get(key) == nil` -/
def unset (t : Tree) (p : Path) : Bool :=
  match t.at p with
  | .absent => true
  | _ => false

/-- `/repo/conf/conf.go:99-105` -/
def getStringsDefault (F : Forms) (t : Tree) (p : Path) (dv : List (List Char)) : List (List Char) :=
  if unset t p then dv else getStrings F t p

/-- `koanf.Bool` and `koanf.Int` (and likewise `Duration`): zero if the value cannot be converted. -/
def getBool (F : Forms) (t : Tree) (p : Path) : Bool := if unset t p then false else (F.parseBool (getString F t p)).getD false
def getInt (F : Forms) (t : Tree) (p : Path) : Int := if unset t p then 0 else (F.parseInt (getString F t p)).getD 0

/-- `/repo/conf/conf.go:107-113` -/
def getIntDefault (F : Forms) (t : Tree) (p : Path) (dv : Int) : Int := if unset t p then dv else getInt F t p

/-- `/repo/conf/conf.go:119-125` -/
def getStringDefault (F : Forms) (t : Tree) (p : Path) (dv : List Char) : List Char :=
  if getString F t p ≠ [] then getString F t p else dv

/-- `/repo/conf/conf.go:131-137` -/
def getBoolDefault (F : Forms) (t : Tree) (p : Path) (dv : Bool) : Bool := if unset t p then dv else getBool F t p

end Tork.Conf

import Verif.Types
/-!
# Cache — model of `/repo/internal/cache/cache.go`

Every call is one atomic step at a clock reading `now` (nanoseconds, positive). Simplification: `Get`, `Modify` and
`SetExpiration` look the entry up under the map lock and then lock the entry; the window in between, in which the
entry may be replaced, is modelled in `CacheConc`.
-/

namespace Tork.Cache

/-- `cache.go:12-16`; `exp = 0`: never expires. -/
structure Item (V : Type) where
  obj : V
  exp : Int

/-- `cache.go:28-34`; the map as an association list with distinct keys. `evicted` records the calls of the
eviction callback, `hasCb` whether one is installed. -/
structure Cache (V : Type) where
  def_ : Int
  items : List (String × Item V) := []
  hasCb : Bool := true
  evicted : List (String × V) := []

variable {V : Type}

/-- `cache.go:288-297 newCache`: a default expiration of 0 means never (-1). -/
def new (de : Int) (cb : Bool) : Cache V := { def_ := if de = 0 then -1 else de, hasCb := cb }

/-- `cache.go:41-47`, `59-65`, `83-89`: the expiration time for a duration. -/
def expiry (c : Cache V) (now d : Int) : Int :=
  let d := if d = 0 then c.def_ else d
  if d > 0 then now + d else 0

def lookup (items : List (String × Item V)) (k : String) : Option (Item V) :=
  match items with
  | [] => none
  | (k', x) :: r => if k' = k then some x else lookup r k

/-- `m[k] = x` -/
def put (items : List (String × Item V)) (k : String) (x : Item V) : List (String × Item V) :=
  match items with
  | [] => [(k, x)]
  | (k', y) :: r => if k' = k then (k, x) :: r else (k', y) :: put r k x

/-- `cache.go:39-56 SetWithExpiration`, `82-102 Set` (with `d = 0`). -/
def set (c : Cache V) (now : Int) (k : String) (v : V) (d : Int) : Cache V :=
  { c with items := put c.items k { obj := v, exp := expiry c now d } }

/-- `cache.go:58-80 SetExpiration`; `false`: unknown key. -/
def setExpiration (c : Cache V) (now : Int) (k : String) (d : Int) : Cache V × Bool :=
  match lookup c.items k with
  | none => (c, false)
  | some x => ({ c with items := put c.items k { x with exp := expiry c now d } }, true)

/-- `cache.go:104-124 Modify`; `false`: unknown key or the function failed. -/
def modify (c : Cache V) (k : String) (m : V → Option V) : Cache V × Bool :=
  match lookup c.items k with
  | none => (c, false)
  | some x =>
    match m x.obj with
    | none => (c, false)
    | some v => ({ c with items := put c.items k { x with obj := v } }, true)

/-- `v.Expiration > 0 && now > v.Expiration` (`cache.go:139-143, 177, 207-211`). -/
def Item.expired (x : Item V) (now : Int) : Bool := x.exp > 0 && now > x.exp

/-- `cache.go:128-145 Get` -/
def get (c : Cache V) (now : Int) (k : String) : Option V :=
  match lookup c.items k with
  | none => none
  | some x => if x.expired now then none else some x.obj

def remove (items : List (String × Item V)) (k : String) : List (String × Item V) := items.filter (·.1 ≠ k)

/-- `cache.go:148-165 Delete` -/
def delete (c : Cache V) (k : String) : Cache V :=
  match lookup c.items k with
  | none => c
  | some x =>
    { c with items := remove c.items k, evicted := c.evicted ++ if c.hasCb then [(k, x.obj)] else [] }

/-- `cache.go:173-192 deleteExpired` -/
def deleteExpired (c : Cache V) (now : Int) : Cache V :=
  { c with
    items := c.items.filter fun p => !p.2.expired now
    evicted := c.evicted ++ if c.hasCb then (c.items.filter fun p => p.2.expired now).map fun p => (p.1, p.2.obj) else [] }

/-- `cache.go:204-233 List` (without filters) -/
def list (c : Cache V) (now : Int) : List V := (c.items.filter fun p => !p.2.expired now).map (·.2.obj)

/-- `cache.go:254-258 Flush`: no callback. -/
def flush (c : Cache V) : Cache V := { c with items := [] }

/-- One call, with its clock reading. -/
inductive Op (V : Type)
  | set (k : String) (v : V) (d : Int)
  | setExpiration (k : String) (d : Int)
  | modify (k : String) (m : V → Option V)
  | delete (k : String)
  | deleteExpired
  | flush

def step (c : Cache V) (p : Int × Op V) : Cache V :=
  match p.2 with
  | .set k v d => set c p.1 k v d
  | .setExpiration k d => (setExpiration c p.1 k d).1
  | .modify k m => (modify c k m).1
  | .delete k => delete c k
  | .deleteExpired => deleteExpired c p.1
  | .flush => flush c

end Tork.Cache

import Verif.Cache
/-!
# Concurrent calls of the cache — model of the locking in `/repo/internal/cache/cache.go`

Any number of goroutines call the cache; every call has a number. A call is split at its locks: the map lock `c.mu` and the lock of an
entry, `item.mu`. What happens under one of these locks is one step; between two steps anything can happen. The clean-up holds the
map lock over all its steps. Not modelled here: `List`, `Iterate` and the eviction callback.
-/

namespace Tork.CacheConc
open Cache (Item)

variable {V : Type}

/-- The calls. `modify`'s function fails with `none`. `sweep`: `deleteExpired`, called by the janitor (`cache.go:267-279`). -/
inductive Call (V : Type)
  | get (k : String)
  | set (k : String) (v : V) (d : Int)
  | setExp (k : String) (d : Int)
  | modify (k : String) (m : V → Option V)
  | delete (k : String)
  | flush
  | sweep

/-- The answers: a value or nothing (`Get`); success or an error. -/
inductive Answer (V : Type)
  | got (v : Option V)
  | done (ok : Bool)

/-- Number of steps so far, and the clock. -/
structure Moment where
  n : Nat
  clock : Int

/-- Where a call is. -/
inductive Pc (V : Type)
  | fresh
  /-- called at `t` -/
  | called (c : Call V) (t : Moment)
  /-- the clock was read (`cache.go:45-47`, `63-65`, `87-89`, `175`) -/
  | timed (c : Call V) (t : Moment) (now : Int)
  /-- the entry was found under the map lock, which has been given back (`cache.go:66-72`, `105-112`, `129-136`) -/
  | holds (c : Call V) (t : Moment) (now : Int) (i : Nat)
  /-- holds the map lock; the keys still to be looked at -/
  | sweeping (t : Moment) (now : Int) (rest : List String)
  /-- returned at `u`; `now` is the clock reading the call used -/
  | ended (c : Call V) (t u : Moment) (now : Int) (r : Answer V)

/-- `map`: the entry of a key; an entry is named by the number of the `Set` call that made it. `heap`: the entries, also those no longer in
the map (with their key, for the proofs: the code does not store it). `lock`: the clean-up that holds the map lock. -/
structure S (V : Type) where
  n : Nat := 0
  clock : Int := 1
  map : String → Option Nat := fun _ => none
  heap : Nat → Option (String × Item V) := fun _ => none
  lock : Option Nat := none
  pc : Nat → Pc V := fun _ => .fresh

/-- A function changed at one point. -/
def upd {A : Type} {B : Type} [DecidableEq A] (f : A → B) (a : A) (b : B) : A → B := fun x => if x = a then b else f x

/-- `cache.go:41-47`, `59-65`, `83-89`: the expiration time for a duration, with the default `de` of the cache. -/
def due (de now d : Int) : Int :=
  let d := if d = 0 then (if de = 0 then -1 else de) else d
  if d > 0 then now + d else 0

/-- The value of an entry, if it has not expired. -/
def Item.show (x : Item V) (now : Int) : Option V := if x.expired now then none else some x.obj

/-- The calls that read the clock first. -/
def Call.clocked : Call V → Bool
  | .set .. | .setExp .. | .sweep => true
  | _ => false

/-- Next state: one step later, call `p` is at `x`. -/
def S.go (s : S V) (p : Nat) (x : Pc V) : S V := { s with n := s.n + 1, pc := upd s.pc p x }

def S.now (s : S V) : Moment := ⟨s.n, s.clock⟩

inductive Step (de : Int) : S V → S V → Prop
  /-- time passes -/
  | tick (s : S V) (c : Int) : s.clock ≤ c → Step de s { s with n := s.n + 1, clock := c }
  | call (s : S V) (p : Nat) (c : Call V) : s.pc p = .fresh → Step de s (s.go p (.called c s.now))
  | time (s : S V) (p : Nat) (c : Call V) (t : Moment) : s.pc p = .called c t → c.clocked = true → Step de s (s.go p (.timed c t s.clock))
  /-- `cache.go:90-95` (and `48-55`) -/
  | set (s : S V) (p : Nat) (k : String) (v : V) (d : Int) (t : Moment) (now : Int) : s.pc p = .timed (.set k v d) t now → s.lock = none →
      Step de s { s.go p (.ended (.set k v d) t s.now now (.done true)) with
        map := upd s.map k (some p), heap := upd s.heap p (some (k, ⟨v, due de now d⟩)) }
  /-- `cache.go:129-135`: no entry -/
  | getMiss (s : S V) (p : Nat) (k : String) (t : Moment) : s.pc p = .called (.get k) t → s.lock = none → s.map k = none →
      Step de s (s.go p (.ended (.get k) t s.now s.clock (.got none)))
  | getFind (s : S V) (p : Nat) (k : String) (t : Moment) (i : Nat) : s.pc p = .called (.get k) t → s.lock = none → s.map k = some i →
      Step de s (s.go p (.holds (.get k) t s.clock i))
  /-- `cache.go:137-144` -/
  | getRead (s : S V) (p : Nat) (k : String) (t : Moment) (now : Int) (i : Nat) (q : String) (x : Item V) :
      s.pc p = .holds (.get k) t now i → s.heap i = some (q, x) →
      Step de s (s.go p (.ended (.get k) t s.now s.clock (.got (Item.show x s.clock))))
  /-- `cache.go:66-71` -/
  | expMiss (s : S V) (p : Nat) (k : String) (d : Int) (t : Moment) (now : Int) : s.pc p = .timed (.setExp k d) t now → s.lock = none →
      s.map k = none → Step de s (s.go p (.ended (.setExp k d) t s.now now (.done false)))
  | expFind (s : S V) (p : Nat) (k : String) (d : Int) (t : Moment) (now : Int) (i : Nat) : s.pc p = .timed (.setExp k d) t now →
      s.lock = none → s.map k = some i → Step de s (s.go p (.holds (.setExp k d) t now i))
  /-- `cache.go:73-77` -/
  | expWrite (s : S V) (p : Nat) (k : String) (d : Int) (t : Moment) (now : Int) (i : Nat) (q : String) (x : Item V) :
      s.pc p = .holds (.setExp k d) t now i → s.heap i = some (q, x) →
      Step de s { s.go p (.ended (.setExp k d) t s.now now (.done true)) with heap := upd s.heap i (some (q, { x with exp := due de now d })) }
  /-- `cache.go:105-111` -/
  | modMiss (s : S V) (p : Nat) (k : String) (m : V → Option V) (t : Moment) : s.pc p = .called (.modify k m) t → s.lock = none →
      s.map k = none → Step de s (s.go p (.ended (.modify k m) t s.now s.clock (.done false)))
  | modFind (s : S V) (p : Nat) (k : String) (m : V → Option V) (t : Moment) (i : Nat) : s.pc p = .called (.modify k m) t →
      s.lock = none → s.map k = some i → Step de s (s.go p (.holds (.modify k m) t s.clock i))
  /-- `cache.go:113-119`: the function fails -/
  | modFail (s : S V) (p : Nat) (k : String) (m : V → Option V) (t : Moment) (now : Int) (i : Nat) (q : String) (x : Item V) :
      s.pc p = .holds (.modify k m) t now i → s.heap i = some (q, x) → m x.obj = none →
      Step de s (s.go p (.ended (.modify k m) t s.now now (.done false)))
  /-- `cache.go:120-122` -/
  | modWrite (s : S V) (p : Nat) (k : String) (m : V → Option V) (t : Moment) (now : Int) (i : Nat) (q : String) (x : Item V) (v : V) :
      s.pc p = .holds (.modify k m) t now i → s.heap i = some (q, x) → m x.obj = some v →
      Step de s { s.go p (.ended (.modify k m) t s.now now (.done true)) with heap := upd s.heap i (some (q, { x with obj := v })) }
  /-- `cache.go:148-165` -/
  | delete (s : S V) (p : Nat) (k : String) (t : Moment) : s.pc p = .called (.delete k) t → s.lock = none →
      Step de s { s.go p (.ended (.delete k) t s.now s.clock (.done true)) with map := upd s.map k none }
  /-- `cache.go:254-258` -/
  | flush (s : S V) (p : Nat) (t : Moment) : s.pc p = .called .flush t → s.lock = none →
      Step de s { s.go p (.ended .flush t s.now s.clock (.done true)) with map := fun _ => none }
  /-- `cache.go:176-177`: the keys, in some order -/
  | sweepLock (s : S V) (p : Nat) (t : Moment) (now : Int) (l : List String) : s.pc p = .timed .sweep t now → s.lock = none →
      l.Nodup → (∀ k, k ∈ l ↔ s.map k ≠ none) → Step de s { s.go p (.sweeping t now l) with lock := some p }
  /-- `cache.go:178-186`: an entry that has not expired -/
  | sweepKeep (s : S V) (p : Nat) (t : Moment) (now : Int) (k : String) (l : List String) (i : Nat) (q : String) (x : Item V) :
      s.pc p = .sweeping t now (k :: l) → s.map k = some i → s.heap i = some (q, x) → x.expired now = false →
      Step de s (s.go p (.sweeping t now l))
  /-- an entry that has -/
  | sweepDrop (s : S V) (p : Nat) (t : Moment) (now : Int) (k : String) (l : List String) (i : Nat) (q : String) (x : Item V) :
      s.pc p = .sweeping t now (k :: l) → s.map k = some i → s.heap i = some (q, x) → x.expired now = true →
      Step de s { s.go p (.sweeping t now l) with map := upd s.map k none }
  /-- `cache.go:188` -/
  | sweepEnd (s : S V) (p : Nat) (t : Moment) (now : Int) : s.pc p = .sweeping t now [] →
      Step de s { s.go p (.ended .sweep t s.now now (.done true)) with lock := none }

inductive Reach (de : Int) : S V → Prop
  | init : Reach de {}
  | step (s s' : S V) : Reach de s → Step de s s' → Reach de s'

/-! ## Specification: a cache that is called by one goroutine -/

/-- What a cache is to its users. -/
abbrev Abs (V : Type) := String → Option (Item V)

/-- One call after the other: the next content and the answer. (The clean-up removes by `Act.drop`.) -/
def seq (de : Int) (a : Abs V) (c : Call V) (now : Int) : Abs V × Answer V :=
  match c with
  | .get k => (a, .got ((a k).bind (Item.show · now)))
  | .set k v d => (upd a k (some ⟨v, due de now d⟩), .done true)
  | .setExp k d =>
    match a k with
    | none => (a, .done false)
    | some x => (upd a k (some { x with exp := due de now d }), .done true)
  | .modify k m =>
    match a k with
    | none => (a, .done false)
    | some x =>
      match m x.obj with
      | none => (a, .done false)
      | some v => (upd a k (some { x with obj := v }), .done true)
  | .delete k => (upd a k none, .done true)
  | .flush => (fun _ => none, .done true)
  | .sweep => (a, .done true)

/-- What takes effect: a call, with the clock reading it used and its answer, or the removal of an entry by clean-up `p`. -/
inductive Act (V : Type)
  | call (p : Nat) (c : Call V) (now : Int) (r : Answer V)
  | drop (p : Nat) (k : String) (now : Int)

def Act.next (de : Int) (a : Abs V) : Act V → Abs V
  | .call _ c now _ => (seq de a c now).1
  | .drop _ k _ => upd a k none

/-- The answer is the one of the sequential cache. -/
def Act.right (de : Int) (a : Abs V) : Act V → Prop
  | .call _ c now r => r = (seq de a c now).2
  | .drop .. => True

/-- The content after some acts. -/
def content (de : Int) (a : Abs V) : List (Act V) → Abs V
  | [] => a
  | x :: l => content de (x.next de a) l

/-- Every answer is the one of the sequential cache. -/
def Answers (de : Int) (a : Abs V) : List (Act V) → Prop
  | [] => True
  | x :: l => x.right de a ∧ Answers de (x.next de a) l

/-- Clean-up removes expired entries only. -/
def RemovesExpired (de : Int) (a : Abs V) : List (Act V) → Prop
  | [] => True
  | x :: l => (∀ p k now, x = .drop p k now → ∃ y, a k = some y ∧ y.expired now = true) ∧ RemovesExpired de (x.next de a) l

def empty : Abs V := fun _ => none

/-- The content of the cache. -/
def S.abs (s : S V) : Abs V := fun k => (s.map k).bind fun i => (s.heap i).map (·.2)

/-! ### What it means that calls take effect one after the other -/

/-- The goroutine behind an act. -/
def Act.who : Act V → Nat
  | .call p .. | .drop p .. => p

/-- The call of an act, if it is one. -/
def Act.caller : Act V → Option Nat
  | .call p .. => some p
  | .drop .. => none

/-- When the call was made. -/
def Pc.start : Pc V → Option Moment
  | .fresh => none
  | .called _ t | .timed _ t _ | .holds _ t _ _ | .sweeping t _ _ | .ended _ t _ _ _ => some t

/-- When it returned. -/
def Pc.finish : Pc V → Option Moment
  | .ended _ _ u _ _ => some u
  | _ => none

/-- A clean-up that was called at `t` and read the clock as `now`. -/
def Pc.Cleans (x : Pc V) (t : Moment) (now : Int) : Prop :=
  (∃ l, x = .sweeping t now l) ∨ ∃ u r, x = .ended .sweep t u now r

/-- The call. -/
def Pc.callOf : Pc V → Option (Call V)
  | .fresh => none
  | .sweeping .. => some .sweep
  | .called c _ | .timed c _ _ | .holds c _ _ _ | .ended c _ _ _ _ => some c

/-- Nobody calls `SetExpiration`. -/
def S.NoExp (s : S V) : Prop := ∀ p c, (s.pc p).callOf = some c → ∀ k d, c ≠ .setExp k d

/-- Call `p` had returned before `q` was made. -/
def Before (s : S V) (p q : Nat) : Prop := ∃ u t, (s.pc p).finish = some u ∧ (s.pc q).start = some t ∧ u.n < t.n

/-- `L` explains the state `s`: calls take effect one after the other, each once and with the answer of a cache that is called by one
goroutine; together they leave what is in the cache now; a call that had returned before another was made takes effect before it. Apart
from the calls that have returned only clean-ups have effects: each entry that one removes is an act of its own. -/
structure Explains (de : Int) (L : List (Act V)) (s : S V) : Prop where
  right : Answers de empty L
  content : Tork.CacheConc.content de empty L = s.abs
  calls : ∀ p c now r, .call p c now r ∈ L ↔ ∃ t u, s.pc p = .ended c t u now r
  once : (L.filterMap Act.caller).Nodup
  drops : ∀ p k now, .drop p k now ∈ L → ∃ t, (s.pc p).Cleans t now
  order : L.Pairwise fun x y => ¬ Before s y.who x.who

end Tork.CacheConc

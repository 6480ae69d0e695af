/-!
# Log shipper — model of `/repo/broker/log.go`

The writer(s) and the flusher goroutine communicate through a buffered channel. A run is any
interleaving of the three events below.
-/

namespace Tork.LogShipper

/-- A published `tork.TaskLogPart` (`log.go:43-47`). -/
structure Part where
  number : Nat
  contents : List UInt8
  deriving DecidableEq, Repr

structure State where
  /-- the channel `q`, oldest first (`log.go:15,22`) -/
  q : List (List UInt8) := []
  /-- local variable `buffer` of the flusher (`log.go:37`) -/
  buffer : List UInt8 := []
  /-- field `part` (`log.go:14`) -/
  part : Nat := 0
  /-- parts handed to the broker, oldest first, with the broker's answer -/
  published : List (Part × Bool) := []

inductive Event
  /-- `Write(p)` (`log.go:28-33`) gets its bytes into the channel -/
  | write (p : List UInt8)
  /-- the flusher receives from the channel (`log.go:40-41`) -/
  | recv
  /-- the ticker fires (`log.go:42-52`); `ok` = the broker accepts the publish -/
  | tick (ok : Bool)

/-- `log.go:22` channel capacity -/
def capacity : Nat := 1000

/-- One event; an event that is not enabled (full channel, empty channel) leaves the state. -/
def step (s : State) : Event → State
  | .write p => if s.q.length < capacity then { s with q := s.q ++ [p] } else s
  | .recv =>
    match s.q with
    | [] => s
    | p :: q => { s with q := q, buffer := s.buffer ++ p }
  | .tick ok =>
    if s.buffer.length > 0 then
      { s with part := s.part + 1
               published := s.published ++ [(⟨s.part + 1, s.buffer⟩, ok)]
               buffer := [] }
    else s

def run (es : List Event) : State := es.foldl step {}

/-- The bytes accepted by one event. -/
def accepted1 (s : State) : Event → List UInt8
  | .write p => if s.q.length < capacity then p else []
  | _ => []

/-- The bytes accepted by `Write` so far, in order: an unfinished (blocked) `Write` has not been
accepted. -/
def acceptedFrom (s : State) : List Event → List UInt8
  | [] => []
  | e :: es => accepted1 s e ++ acceptedFrom (step s e) es

end Tork.LogShipper

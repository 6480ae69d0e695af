/-!
# Starting the HTTP servers — model of `/repo/internal/httpx/httpx.go:11-29`, `/repo/internal/netx/netx.go:10-26`,
`/repo/internal/worker/api.go:59-80`, `/repo/internal/coordinator/api/api.go:899-919`

`StartAsync` runs the server in a goroutine and returns when the address answers. The ports that other processes hold do not change
meanwhile. An attempt at one port is `Server` and `Pc`; the two `start` functions make one attempt at the configured port, or attempts at the ports
`[lo, hi)` until one succeeds (the worker: 8001 to 8099; both skip a port only if it is in use).
-/

namespace Tork.Serving

/-- What the other processes on the machine do. -/
structure Host where
  /-- another process holds this port: binding fails with `EADDRINUSE` -/
  taken : Nat → Bool
  /-- … and accepts connections -/
  answers : Nat → Bool
  /-- binding fails for another reason -/
  refused : Nat → Bool
  answers_taken : ∀ p, answers p = true → taken p = true

inductive Err
  | inUse
  | other
  /-- "unable to start API server" (`httpx.go:28`) -/
  | unable
  deriving DecidableEq

/-- The goroutine of the server (`httpx.go:13-17`). -/
inductive Server
  /-- has not come to `ListenAndServe` -/
  | idle
  | listening
  /-- `ListenAndServe` has failed; the error waits for a receiver (the channel has no buffer) -/
  | failed (e : Err)
  /-- the error has been received -/
  | gone
  deriving DecidableEq

/-- Where `StartAsync` is. -/
inductive Pc
  /-- in the `select` of the `i`-th turn (`httpx.go:19-23`) -/
  | select (i : Nat)
  /-- in `CanConnect` (`httpx.go:24`) -/
  | dial (i : Nat)
  | returned (e : Option Err)
  deriving DecidableEq

/-- What `start` comes to. -/
inductive Result
  /-- it returns without an error -/
  | started
  /-- it returns this error -/
  | error (e : Err)
  /-- `log.Fatal` (`worker/api.go:74`, `api.go:912`): the process ends -/
  | died
  deriving DecidableEq

/-- Which address is configured. -/
inductive Mode
  /-- `Addr` is set: one attempt (`worker/api.go:61-64`, `api.go:900-903`) -/
  | fixed (p : Nat)
  /-- it is not: these ports (`worker/api.go:65-78`, `api.go:904-916`) -/
  | dynamic (lo hi : Nat)

structure State where
  port : Nat
  server : Server := .idle
  pc : Pc := .select 0
  result : Option Result := none

/-- The port answers: the server listens, or another process does. -/
def State.reachable (H : Host) (s : State) : Prop := s.server = .listening ∨ H.answers s.port = true

/-- A step of the goroutine or of `start`. -/
inductive Step (H : Host) : Mode → State → State → Prop
  /-- `ListenAndServe` binds the port -/
  | bind (m s) : s.server = .idle → H.taken s.port = false → H.refused s.port = false → Step H m s { s with server := .listening }
  | bindInUse (m s) : s.server = .idle → H.taken s.port = true → Step H m s { s with server := .failed .inUse }
  | bindOther (m s) : s.server = .idle → H.refused s.port = true → Step H m s { s with server := .failed .other }
  /-- the error is received (`httpx.go:20-21`) -/
  | receive (m s i e) : s.pc = .select i → s.server = .failed e → Step H m s { s with server := .gone, pc := .returned (some e) }
  /-- 100 ms have passed (`httpx.go:22`) -/
  | tick (m s i) : s.pc = .select i → Step H m s { s with pc := .dial i }
  /-- the port answers (`httpx.go:24-26`) -/
  | connect (m s i) : s.pc = .dial i → s.reachable H → Step H m s { s with pc := .returned none }
  /-- it does not, or not in time; the loop has 100 turns (`httpx.go:18, 28`) -/
  | noConnect (m s i) : s.pc = .dial i →
      Step H m s { s with pc := if i + 1 < 100 then .select (i + 1) else .returned (some .unable) }
  /-- `worker/api.go:62-64` -/
  | fixed (p s e) : s.result = none → s.pc = .returned e →
      Step H (.fixed p) s { s with result := some (match e with | none => .started | some e => .error e) }
  /-- `break` (`worker/api.go:76`) -/
  | found (lo hi s) : s.result = none → s.pc = .returned none → Step H (.dynamic lo hi) s { s with result := some .started }
  /-- `continue` (`worker/api.go:71-73`) with another port left -/
  | next (lo hi s) : s.result = none → s.pc = .returned (some .inUse) → s.port + 1 < hi →
      Step H (.dynamic lo hi) s { port := s.port + 1 }
  /-- … and with none left: the loop ends, and `start` returns without an error -/
  | exhausted (lo hi s) : s.result = none → s.pc = .returned (some .inUse) → ¬s.port + 1 < hi →
      Step H (.dynamic lo hi) s { s with result := some .started }
  /-- another error -/
  | fatal (lo hi s e) : s.result = none → s.pc = .returned (some e) → e ≠ .inUse →
      Step H (.dynamic lo hi) s { s with result := some .died }

/-- Where `start` begins. -/
def Mode.first : Mode → Nat
  | .fixed p => p
  | .dynamic lo _ => lo

inductive Steps (H : Host) (m : Mode) : State → State → Prop
  | refl (s) : Steps H m s s
  | step {s t u} : Steps H m s t → Step H m t u → Steps H m s u

theorem Steps.trans {H : Host} {m : Mode} {s t u : State} (h : Steps H m s t) (h' : Steps H m t u) : Steps H m s u := by
  induction h' with
  | refl => exact h
  | step _ hs ih => exact ih.step hs

/-- The state in which `start` begins. -/
def init (m : Mode) : State := { port := m.first }

structure Inv (H : Host) (m : Mode) (s : State) : Prop where
  listening : s.server = .listening → H.taken s.port = false
  failedInUse : s.server = .failed .inUse → H.taken s.port = true
  failedOther : s.server = .failed .other → H.refused s.port = true
  failedUnable : s.server ≠ .failed .unable
  inUse : s.pc = .returned (some .inUse) → H.taken s.port = true ∧ s.server = .gone
  other : s.pc = .returned (some .other) → H.refused s.port = true ∧ s.server = .gone
  none : s.pc = .returned none → s.reachable H
  turn : ∀ i, s.pc = .select i ∨ s.pc = .dial i → i < 100 ∧ s.result = Option.none
  port : match m with
    | .fixed p => s.port = p
    | .dynamic lo hi => lo ≤ s.port ∧ (lo < hi → s.port < hi) ∧ ∀ p, lo ≤ p → p < s.port → H.taken p = true
  started : s.result = some .started → s.pc = .returned Option.none ∨
    ∃ lo hi, m = .dynamic lo hi ∧ s.pc = .returned (some .inUse) ∧ ¬s.port + 1 < hi
  error : ∀ e, s.result = some (.error e) → s.pc = .returned (some e)
  died : s.result = some .died → ∃ e, s.pc = .returned (some e) ∧ e ≠ .inUse

theorem inv_init (H : Host) (m : Mode) : Inv H m (init m) := by
  constructor <;> cases m <;> simp [init, Mode.first] <;> grind

theorem inv_step {H : Host} {m : Mode} {s t : State} (h : Inv H m s) (hs : Step H m s t) : Inv H m t := by
  obtain ⟨h1, h2, h3, h4, h5, h6, h7, h8, h9, h10, h11, h12⟩ := h
  cases hs <;> constructor <;> (try unfold State.reachable at *) <;> grind

theorem inv_steps {H : Host} {m : Mode} {s t : State} (h : Inv H m s) (hs : Steps H m s t) : Inv H m t := by
  induction hs with
  | refl => exact h
  | step _ hs ih => exact inv_step ih hs

end Tork.Serving

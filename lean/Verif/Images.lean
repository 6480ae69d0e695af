import Verif.BrokerQueue
/-!
# Images of the Docker runtime — model of `/repo/runtime/docker/docker.go:138-147, 353-531`

The goroutines of the running tasks, the one pulling images and the one pruning them, as a transition system: one step is one
critical section or one call to the daemon. `canon` maps the name of an image to the one the daemon stores it under (`busybox` and
`busybox:latest` are the same image). Nobody else removes images. The order of the pull queue is arbitrary, and pruning may stop at
any time.
-/

namespace Tork.Images
open Tork.Queues (upd)

/-- Where a task is. -/
inductive Pc
  | idle
  | running
  /-- blocked in `imagePull`, `:366-367` -/
  | waiting (i : String)
  | done
  deriving DecidableEq

/-- Where the puller is (`:373-454`), serving task `k`, which asked for image `i`. -/
inductive Puller
  | idle
  /-- about to look the image up, `:383-385` -/
  | lookup (k : Nat) (i : String)
  /-- found; about to set its time, `:387-389` -/
  | refresh (k : Nat) (i : String)
  /-- about to ask for the local images, `:393` -/
  | check (k : Nat) (i : String)
  /-- about to pull, `:398-435` -/
  | pull (k : Nat) (i : String)
  /-- about to verify, `:440` -/
  | verify (k : Nat) (i : String)
  /-- about to remove the image after a failed verification, `:442` -/
  | drop (k : Nat) (i : String)
  /-- about to record the image, `:449-451` -/
  | record (k : Nat) (i : String)
  /-- about to answer, `:375` -/
  | answer (k : Nat) (i : String) (ok : Bool)
  deriving DecidableEq

/-- Where the pruner is (`:495-513`). -/
inductive Pruner
  | idle
  /-- holds the mutex, about to look at the number of running tasks -/
  | check
  /-- in the loop -/
  | loop
  deriving DecidableEq

structure St where
  now : Nat
  pc : Nat → Pc
  /-- `tasks` -/
  tasks : Int
  /-- `images` -/
  images : String → Option Nat
  puller : Puller
  /-- the pruner holds the mutex unless it is `idle` -/
  pruner : Pruner
  /-- the images the daemon has, by canonical name -/
  present : String → Bool
  /-- the images a task was told are available -/
  holds : Nat → List String

structure Cfg where
  ttl : Nat
  /-- `imageVerify` -/
  verify : Bool
  canon : String → String

/-- What an observer sees of a step. -/
inductive Lbl
  | tau
  /-- task `k` asks for image `i` -/
  | asked (k : Nat) (i : String) (now : Nat)
  /-- a call to the daemon to pull an image -/
  | pulled (i : String)
  /-- a verification that succeeded -/
  | verified (i : String)
  /-- the answer to task `k`: `i` is available -/
  | served (k : Nat) (i : String) (now : Nat)
  /-- removal after a failed verification -/
  | dropped (i : String)
  /-- removal by the pruner -/
  | pruned (i : String) (now : Nat)
  | finished (k : Nat)
  deriving DecidableEq

/-- after the image is known to be at the daemon, `:439` -/
def afterPull (c : Cfg) (k : Nat) (i : String) : Puller := if c.verify then .verify k i else .record k i

/-- A tag of an image at the daemon is the given name, `:523-527`; the daemon lists canonical names. -/
def listed (c : Cfg) (s : St) (i : String) : Prop := c.canon i = i ∧ s.present i = true

inductive Step (c : Cfg) : St → Lbl → St → Prop
  | tick (s : St) : Step c s .tau { s with now := s.now + 1 }
  /-- `Run`, `:139-141` -/
  | begin (s : St) (k : Nat) : s.pc k = .idle → s.pruner = .idle →
      Step c s .tau { s with pc := upd s.pc k .running, tasks := s.tasks + 1 }
  /-- the deferred function of `Run`, `:143-147` -/
  | finish (s : St) (k : Nat) : s.pc k = .running → s.pruner = .idle →
      Step c s (.finished k) { s with pc := upd s.pc k .done, tasks := s.tasks - 1, holds := upd s.holds k [] }
  /-- `imagePull`, `:353-367` -/
  | ask (s : St) (k : Nat) (i : String) : s.pc k = .running →
      Step c s (.asked k i s.now) { s with pc := upd s.pc k (.waiting i) }
  /-- `:374` -/
  | take (s : St) (k : Nat) (i : String) : s.pc k = .waiting i → s.puller = .idle → Step c s .tau { s with puller := .lookup k i }
  /-- `:383-386` -/
  | hit (s : St) (k : Nat) (i : String) (t : Nat) : s.puller = .lookup k i → s.pruner = .idle → s.images i = some t →
      Step c s .tau { s with puller := .refresh k i }
  | miss (s : St) (k : Nat) (i : String) : s.puller = .lookup k i → s.pruner = .idle → s.images i = none →
      Step c s .tau { s with puller := .check k i }
  /-- `:387-390` -/
  | refresh (s : St) (k : Nat) (i : String) : s.puller = .refresh k i → s.pruner = .idle →
      Step c s .tau { s with puller := .answer k i true, images := upd s.images i (some s.now) }
  /-- `:393-396` -/
  | checkFails (s : St) (k : Nat) (i : String) : s.puller = .check k i → Step c s .tau { s with puller := .answer k i false }
  /-- `:393-397` -/
  | checkYes (s : St) (k : Nat) (i : String) : s.puller = .check k i → listed c s i →
      Step c s .tau { s with puller := afterPull c k i }
  | checkNo (s : St) (k : Nat) (i : String) : s.puller = .check k i → ¬ listed c s i →
      Step c s .tau { s with puller := .pull k i }
  /-- no credentials, or the pull or the copying of its output failed, `:398-435`; the image may be there all the same -/
  | pullFails (s : St) (k : Nat) (i : String) (b : Bool) : s.puller = .pull k i →
      Step c s (.pulled i) { s with puller := .answer k i false, present := upd s.present (c.canon i) (b || s.present (c.canon i)) }
  /-- `:426-435` -/
  | pulls (s : St) (k : Nat) (i : String) : s.puller = .pull k i →
      Step c s (.pulled i) { s with puller := afterPull c k i, present := upd s.present (c.canon i) true }
  /-- `:457-483` -/
  | verifies (s : St) (k : Nat) (i : String) : s.puller = .verify k i → Step c s (.verified i) { s with puller := .record k i }
  /-- `:467-470`, for example because the task that asked was cancelled -/
  | verifyFails (s : St) (k : Nat) (i : String) : s.puller = .verify k i → Step c s .tau { s with puller := .drop k i }
  /-- `:442-445`; `b`: the daemon refuses -/
  | drops (s : St) (k : Nat) (i : String) (b : Bool) : s.puller = .drop k i →
      Step c s (.dropped i) { s with puller := .answer k i false, present := upd s.present (c.canon i) (b && s.present (c.canon i)) }
  /-- `:449-453` -/
  | record (s : St) (k : Nat) (i : String) : s.puller = .record k i → s.pruner = .idle →
      Step c s .tau { s with puller := .answer k i true, images := upd s.images i (some s.now) }
  /-- `:375`, `:367-368` -/
  | answerNo (s : St) (k : Nat) (i : String) : s.puller = .answer k i false →
      Step c s .tau { s with puller := .idle, pc := upd s.pc k .running }
  | answerYes (s : St) (k : Nat) (i : String) : s.puller = .answer k i true →
      Step c s (.served k i s.now) { s with puller := .idle, pc := upd s.pc k .running, holds := upd s.holds k (i :: s.holds k) }
  /-- `:496` -/
  | lock (s : St) : s.pruner = .idle → Step c s .tau { s with pruner := .check }
  /-- `:498-500` -/
  | busy (s : St) : s.pruner = .check → 0 < s.tasks → Step c s .tau { s with pruner := .idle }
  | quiet (s : St) : s.pruner = .check → ¬ 0 < s.tasks → Step c s .tau { s with pruner := .loop }
  /-- `:501-510` -/
  | prunes (s : St) (i : String) (t : Nat) : s.pruner = .loop → s.images i = some t → s.now - t > c.ttl →
      Step c s (.pruned i s.now) { s with images := upd s.images i none, present := upd s.present (c.canon i) false }
  /-- the end of the loop, or an error of the daemon, `:505-507` -/
  | unlock (s : St) : s.pruner = .loop → Step c s .tau { s with pruner := .idle }

/-- `NewDockerRuntime`, `:114-118`; the daemon may have any images -/
def init (present : String → Bool) : St :=
  { now := 0, pc := fun _ => .idle, tasks := 0, images := fun _ => none, puller := .idle, pruner := .idle, present := present,
    holds := fun _ => [] }

/-- the states reachable from the start, with what was seen so far, oldest first -/
inductive Trace (c : Cfg) : List Lbl → St → Prop
  | start (present : String → Bool) : Trace c [] (init present)
  | step (l : List Lbl) (s s' : St) (x : Lbl) : Trace c l s → Step c s x s' → Trace c (l ++ [x]) s'

end Tork.Images

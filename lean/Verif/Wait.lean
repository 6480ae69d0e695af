import Verif.Types
/-!
# Waiting for a job

`POST /jobs` with `wait` (`/repo/internal/coordinator/api/api.go:319-354`) subscribes for job events, submits the job and answers when an event
says that the job has ended. (The listeners given to `Engine.SubmitJob`, `/repo/engine/engine.go:337-360`, are called after the same comparison; they are not modelled.)

The model is a transition system of any number of such requests, in which everything that runs concurrently may interleave: the goroutine of
the request, the goroutine that handles the events for its subscription, publications, and the reuse of echo's request contexts.

Modelled: subscription, the id of the job, which is made up lazily and *without synchronisation* by whichever of the two goroutines asks first
(`/repo/input/job.go:75-80`), submission, the event handler, the `select`, responses. Simplifications: memory is sequentially consistent; the
checks of `Validate`, reading the user, `CreateJob` and `PublishJob` are one step that may be refused; a subscription receives the events published after
it in order, and possibly some published before (in memory an event may be on its way, `/repo/broker/inmemory.go:43-57`); echo (not in the
repository) takes the context of a request from a pool and puts it back when the handler has returned, and what is written to a context goes to
the response of the request it serves at that moment; an error returned by the handler is written unless something was written before.
-/

namespace Tork.Wait

/-- A job event. -/
structure Ev where
  job : Nat
  state : JobState
  deriving DecidableEq

/-- `j.State == Completed || Failed || Cancelled` (`api.go:332`) -/
def Ev.terminal (e : Ev) : Bool := e.state = .completed || e.state = .failed || e.state = .cancelled

/-- What a client reads: the outcome of a job, written by the handler of request `src`, or an error. -/
inductive Item
  | job (src : Nat) (e : Ev)
  | error
  deriving DecidableEq

/-- How a request ends. -/
inductive End
  | answered
  | refused
  | timeout
  | gone
  | shutdown
  deriving DecidableEq

/-- Where the goroutine of the request is. -/
inductive Pc
  /-- not arrived -/
  | none
  /-- body read, not subscribed -/
  | start
  /-- subscribed; next is `ji.ID()` in `ToJob` -/
  | subscribed
  /-- `ji.id == ""` was true -/
  | naming
  /-- about to read `ji.id` -/
  | reading
  /-- has the id, about to create the job -/
  | named
  /-- in the `select` -/
  | waiting
  | done (how : End)
  deriving DecidableEq

/-- Where the goroutine that handles events for the subscription is. -/
inductive H
  | idle
  /-- in `ji.ID()`, `ji.id == ""` was true -/
  | naming (e : Ev)
  /-- about to read `ji.id` and compare -/
  | compare (e : Ev)
  /-- about to write the response -/
  | write (e : Ev)
  /-- about to close the channel -/
  | close (e : Ev)
  deriving DecidableEq

structure Req where
  pc : Pc := .none
  ctx : Nat := 0
  /-- `ji.id` -/
  id : Option Nat := none
  /-- the id of the job that is submitted -/
  job : Option Nat := none
  /-- the broker still calls the handler -/
  sub : Bool := false
  inbox : List Ev := []
  h : H := .idle
  /-- the channel is closed -/
  closed : Bool := false
  /-- what was written to the response of this request -/
  out : List Item := []
  /-- (ghost) an event was handled before the id of the job was fixed -/
  early : Bool := false

structure S where
  req : Nat → Req := fun _ => {}
  /-- which request a context serves -/
  own : Nat → Option Nat := fun _ => none
  /-- (ghost) who made up an id -/
  by_ : Nat → Option Nat := fun _ => none
  submitted : List Nat := []
  published : List Ev := []
  next : Nat := 0
  crashed : Bool := false

/-- The request is being served. -/
def Pc.active : Pc → Bool
  | .none => false
  | .done _ => false
  | _ => true

def upd {α : Type} (f : Nat → α) (i : Nat) (x : α) : Nat → α := fun k => if k = i then x else f k

/-- An event reaches everybody who is subscribed. -/
def deliver (e : Ev) (f : Nat → Req) : Nat → Req := fun r => { f r with inbox := if (f r).sub then (f r).inbox ++ [e] else (f r).inbox }

/-- The handler of request `r` writes the outcome `e` to the response of request `r'`. -/
def say (f : Nat → Req) (r r' : Nat) (e : Ev) : Nat → Req := fun k =>
  { f k with h := if k = r then .close e else (f k).h, out := if k = r' then (f k).out ++ [.job r e] else (f k).out }

inductive Step (s : S) : S → Prop
  /-- a request arrives and gets a context that is not in use -/
  | arrive (r c : Nat) (hp : (s.req r).pc = .none) (hc : s.own c = none) :
      Step s { s with req := upd s.req r { pc := .start, ctx := c }, own := upd s.own c (some r) }
  /-- `api.go:325`; `es`: events published before that still reach it -/
  | subscribe (r : Nat) (es : List Ev) (hp : (s.req r).pc = .start) (he : ∀ e ∈ es, e ∈ s.published) :
      Step s { s with req := upd s.req r { s.req r with pc := .subscribed, sub := true, inbox := es } }
  /-- `input/job.go:76` -/
  | check (r : Nat) (hp : (s.req r).pc = .subscribed) :
      Step s { s with req := upd s.req r { s.req r with pc := if (s.req r).id = none then .naming else .reading } }
  /-- `input/job.go:77` -/
  | name (r : Nat) (hp : (s.req r).pc = .naming) :
      Step s { s with req := upd s.req r { s.req r with pc := .reading, id := some s.next }, by_ := upd s.by_ s.next (some r), next := s.next + 1 }
  /-- `input/job.go:79,92` -/
  | read (r : Nat) (hp : (s.req r).pc = .reading) :
      Step s { s with req := upd s.req r { s.req r with pc := .named, job := (s.req r).id } }
  /-- `api.go:364-388` succeeds: the job exists and is given to the coordinator -/
  | submit (r n : Nat) (hp : (s.req r).pc = .named) (hn : (s.req r).job = some n) :
      Step s { s with req := upd s.req r { s.req r with pc := .waiting }, submitted := n :: s.submitted }
  /-- it fails, `api.go:342`; or subscribing did, `api.go:339` -/
  | refuse (r : Nat) (hp : (s.req r).pc = .start ∨ (s.req r).pc = .subscribed ∨ (s.req r).pc = .named) :
      Step s { s with req := upd s.req r { s.req r with pc := .done .refused, out := if (s.req r).out = [] then [.error] else (s.req r).out }
                      own := upd s.own (s.req r).ctx none }
  /-- the `select` sees the closed channel, `api.go:352` -/
  | answered (r : Nat) (hp : (s.req r).pc = .waiting) (hc : (s.req r).closed = true) :
      Step s { s with req := upd s.req r { s.req r with pc := .done .answered }, own := upd s.own (s.req r).ctx none }
  /-- the `select` sees something else, `api.go:346-351` -/
  | giveUp (r : Nat) (how : End) (hp : (s.req r).pc = .waiting) (hh : how = .timeout ∨ how = .gone ∨ how = .shutdown) :
      Step s { s with req := upd s.req r { s.req r with pc := .done how, out := if (s.req r).out = [] then [.error] else (s.req r).out }
                      own := upd s.own (s.req r).ctx none }
  /-- somebody else submits a job -/
  | other : Step s { s with submitted := s.next :: s.submitted, next := s.next + 1 }
  /-- an event about a job that was submitted is published -/
  | publish (e : Ev) (he : e.job ∈ s.submitted) :
      Step s { s with req := deliver e s.req, published := e :: s.published }
  /-- the handler is called, `api.go:325-332`; `ji.ID()` begins -/
  | take (r : Nat) (e : Ev) (es : List Ev) (hh : (s.req r).h = .idle) (hi : (s.req r).inbox = e :: es) :
      Step s { s with req := upd s.req r { s.req r with
        inbox := es, h := if (s.req r).id = none then .naming e else .compare e
        early := (s.req r).early || (s.req r).job.isNone } }
  | hname (r : Nat) (e : Ev) (hh : (s.req r).h = .naming e) :
      Step s { s with req := upd s.req r { s.req r with h := .compare e, id := some s.next }, by_ := upd s.by_ s.next (some r), next := s.next + 1 }
  /-- `api.go:332` -/
  | compare (r : Nat) (e : Ev) (hh : (s.req r).h = .compare e) :
      Step s { s with req := upd s.req r { s.req r with h := if (s.req r).id = some e.job ∧ e.terminal = true then .write e else .idle } }
  /-- `c.JSON`, `api.go:333`: the context serves request `r'` now -/
  | write (r r' : Nat) (e : Ev) (hh : (s.req r).h = .write e) (ho : s.own (s.req r).ctx = some r') :
      Step s { s with req := say s.req r r' e }
  /-- the same, while the context serves nobody -/
  | writeLost (r : Nat) (e : Ev) (hh : (s.req r).h = .write e) (ho : s.own (s.req r).ctx = none) :
      Step s { s with req := upd s.req r { s.req r with h := .close e } }
  /-- `close(ch)`, `api.go:336`; closing a closed channel panics, and a panic in this goroutine ends the process -/
  | close (r : Nat) (e : Ev) (hh : (s.req r).h = .close e) :
      Step s { s with req := upd s.req r { s.req r with h := .idle, closed := true }, crashed := s.crashed || (s.req r).closed }
  /-- RabbitMQ: the subscription ends with the request, `/repo/broker/rabbitmq.go:633-640` -/
  | drop (r : Nat) (how : End) (hp : (s.req r).pc = .done how) : Step s { s with req := upd s.req r { s.req r with sub := false, inbox := [] } }

inductive Reach : S → Prop
  | init : Reach {}
  | step {s s' : S} : Reach s → s.crashed = false → Step s s' → Reach s'

/-! ## Invariants -/

/-- The event the handler works on. -/
def H.ev : H → Option Ev
  | .idle => none
  | .naming e => some e
  | .compare e => some e
  | .write e => some e
  | .close e => some e

/-- The handler has recognised the event. -/
def H.hit : H → Bool
  | .write _ => true
  | .close _ => true
  | _ => false

def H.closing : H → Bool
  | .close _ => true
  | _ => false

/-- The response has an outcome written by the handler of request `r`. -/
def saidBy (r : Nat) : List Item → Bool
  | [] => false
  | .job src _ :: l => src == r || saidBy r l
  | .error :: l => saidBy r l

theorem saidBy_append (r : Nat) (l m : List Item) : saidBy r (l ++ m) = (saidBy r l || saidBy r m) := by
  induction l with
  | nil => simp [saidBy]
  | cons a l ih => cases a <;> simp [saidBy, ih, Bool.or_assoc]

theorem saidBy_mem {r : Nat} {l : List Item} (h : saidBy r l = true) : ∃ e, Item.job r e ∈ l := by
  induction l with
  | nil => cases h
  | cons a l ih =>
    cases a with
    | error => obtain ⟨e, he⟩ := ih h; exact ⟨e, by simp [he]⟩
    | job src e =>
      by_cases hs : src = r
      · exact ⟨e, by simp [hs]⟩
      · obtain ⟨e', he⟩ := ih (by simpa [saidBy, hs] using h); exact ⟨e', by simp [he]⟩

/-- Names. -/
structure Names (s : S) : Prop where
  sub : ∀ n ∈ s.submitted, n < s.next
  fresh : ∀ n, s.next ≤ n → s.by_ n = none
  id : ∀ r n, (s.req r).id = some n → s.by_ n = some r
  job : ∀ r n, (s.req r).job = some n → s.by_ n = some r
  named : ∀ r, (s.req r).pc = .reading → (s.req r).id ≠ none

/-- Events. -/
structure Events (s : S) : Prop where
  pub : ∀ e ∈ s.published, e.job ∈ s.submitted
  box : ∀ r e, e ∈ (s.req r).inbox → e ∈ s.published
  hev : ∀ r e, (s.req r).h.ev = some e → e ∈ s.published

/-- Phases. -/
structure Phases (s : S) : Prop where
  unnamed : ∀ r, (s.req r).pc = .none ∨ (s.req r).pc = .start ∨ (s.req r).pc = .subscribed ∨ (s.req r).pc = .naming ∨ (s.req r).pc = .reading → (s.req r).job = none
  none_ : ∀ r, (s.req r).pc = .none ∨ (s.req r).pc = .start → (s.req r).h = .idle ∧ (s.req r).inbox = [] ∧ (s.req r).id = none ∧ (s.req r).closed = false ∧ (s.req r).sub = false
  mine : ∀ r n, n ∈ s.submitted → s.by_ n = some r → (s.req r).job = some n ∧ ((s.req r).pc = .waiting ∨ ∃ how, (s.req r).pc = .done how)

/-- Contexts. -/
structure Contexts (s : S) : Prop where
  owns : ∀ r, (s.req r).pc.active = true → s.own (s.req r).ctx = some r
  owned : ∀ c r, s.own c = some r → (s.req r).pc.active = true ∧ (s.req r).ctx = c

theorem names_step {s s' : S} (h : Names s) (hs : Step s s') : Names s' := by
  obtain ⟨h1, h2, h3, h4, h5⟩ := h
  cases hs <;> constructor <;> grind [upd, deliver, say]

theorem events_step {s s' : S} (h : Events s) (hs : Step s s') : Events s' := by
  obtain ⟨h1, h2, h3⟩ := h
  cases hs <;> constructor <;> grind [upd, deliver, say, H.ev]

theorem contexts_step {s s' : S} (h : Contexts s) (hs : Step s s') : Contexts s' := by
  obtain ⟨h1, h2⟩ := h
  cases hs <;> constructor <;> grind [upd, deliver, say, Pc.active]

theorem phases_step {s s' : S} (n : Names s) (h : Phases s) (hs : Step s s') : Phases s' := by
  obtain ⟨h1, h2, h3⟩ := h
  obtain ⟨n1, n2, n3, n4, n5⟩ := n
  cases hs <;> constructor <;> grind [upd, deliver, say]

/-- What the handler writes. -/
structure Hits (s : S) : Prop where
  hit : ∀ r e, (s.req r).h.ev = some e → (s.req r).h.hit = true → s.by_ e.job = some r ∧ e.terminal = true
  closed : ∀ r, (s.req r).closed = true → ∃ n ∈ s.submitted, s.by_ n = some r
  out : ∀ r src e, Item.job src e ∈ (s.req r).out → s.by_ e.job = some src ∧ e.terminal = true ∧ e ∈ s.published ∧
    (src = r ∨ ∃ how, (s.req src).pc = .done how)

/-- What a request that is answered has been told. -/
structure Told (s : S) : Prop where
  told : ∀ r, (s.req r).pc = .waiting → ((s.req r).closed = true ∨ (s.req r).h.closing = true) → saidBy r (s.req r).out = true
  answered : ∀ r, (s.req r).pc = .done .answered → saidBy r (s.req r).out = true

theorem hits_step {s s' : S} (n : Names s) (e : Events s) (c : Contexts s) (p : Phases s) (h : Hits s) (hs : Step s s') : Hits s' := by
  obtain ⟨h1, h2, h3⟩ := h
  obtain ⟨n1, n2, n3, n4, n5⟩ := n
  obtain ⟨e1, e2, e3⟩ := e
  cases hs with
  | name r hp => constructor <;> grind [upd, H.ev, H.hit]
  | hname r e hh => constructor <;> grind [upd, H.ev, H.hit]
  | compare r e hh => constructor <;> grind [upd, H.ev, H.hit]
  | write r r' e hh ho =>
    have hx : r = r' ∨ ∃ how, (s.req r).pc = .done how := by
      by_cases ha : (s.req r).pc.active = true
      · exact .inl (by have := c.owns r ha; grind)
      · have := p.none_ r
        cases hpc : (s.req r).pc <;> grind [Pc.active]
    have := h1 r e (by grind [H.ev]) (by grind [H.hit])
    have := e3 r e (by grind [H.ev])
    constructor <;> grind [say, H.ev, H.hit]
  | close r e hh =>
    have := h1 r e (by grind [H.ev]) (by grind [H.hit])
    have := e3 r e (by grind [H.ev])
    constructor <;> grind [upd, H.ev, H.hit]
  | _ => constructor <;> grind [upd, deliver, say, H.ev, H.hit]

theorem told_step {s s' : S} (c : Contexts s) (ev : Events s) (p : Phases s) (g : Hits s) (h : Told s) (hs : Step s s') : Told s' := by
  obtain ⟨h1, h2⟩ := h
  cases hs with
  | submit r n hp hn =>
    have hc : (s.req r).closed = false := by
      cases hcl : (s.req r).closed with
      | false => rfl
      | true =>
        obtain ⟨n, hn, hb⟩ := g.closed r hcl
        have := p.mine r n hn hb
        grind
    have hh : (s.req r).h.closing = false := by
      cases hcl : (s.req r).h with
      | close e =>
        have a := g.hit r e (by grind [H.ev]) (by grind [H.hit])
        have b := ev.pub e (ev.hev r e (by grind [H.ev]))
        have := p.mine r e.job b a.1
        grind
      | _ => rfl
    constructor <;> grind [upd]
  | write r r' e hh ho =>
    have hx := c.owns r
    constructor <;> grind [say, Pc.active, saidBy, saidBy_append, H.closing]
  | writeLost r e hh ho =>
    have hx := c.owns r
    constructor <;> grind [upd, Pc.active]
  | _ => constructor <;> grind [upd, deliver, say, saidBy, H.closing]

structure Inv (s : S) : Prop where
  names : Names s
  events : Events s
  phases : Phases s
  contexts : Contexts s
  hits : Hits s
  told : Told s

theorem inv_reach {s : S} (h : Reach s) : Inv s := by
  induction h with
  | init => constructor <;> constructor <;> grind [H.ev, H.hit, Pc.active]
  | step _ _ hs ih =>
    exact ⟨names_step ih.names hs, events_step ih.events hs, phases_step ih.names ih.phases hs, contexts_step ih.contexts hs,
      hits_step ih.names ih.events ih.contexts ih.phases ih.hits hs, told_step ih.contexts ih.events ih.phases ih.hits ih.told hs⟩

/-! ## Nothing is missed -/

def H.inName : H → Bool
  | .naming _ => true
  | _ => false

/-- As long as no event is handled before the id is fixed, the id the handler compares is the id of the job. -/
structure Stable (s : S) : Prop where
  early : ∀ r, (s.req r).h.inName = true → (s.req r).early = true
  same : ∀ r, (s.req r).early = false → (s.req r).job ≠ none → (s.req r).id = (s.req r).job
  subd : ∀ r, (s.req r).pc = .subscribed ∨ (s.req r).pc = .naming ∨ (s.req r).pc = .reading ∨ (s.req r).pc = .named ∨ (s.req r).pc = .waiting →
    (s.req r).sub = true

theorem stable_step {s s' : S} (p : Phases s) (h : Stable s) (hs : Step s s') : Stable s' := by
  obtain ⟨h1, h2, h3⟩ := h
  have := p.unnamed
  cases hs with
  | take r e es hh hi =>
    have a := h1 r
    have b := h2 r
    cases hj : (s.req r).job <;> constructor <;> grind [upd, H.inName]
  | _ => constructor <;> grind [upd, deliver, say, H.inName]

/-- The outcome of the job is on its way, or it is known. -/
def Kept (s : S) : Prop :=
  ∀ r e, e ∈ s.published → e.terminal = true → (s.req r).job = some e.job → (s.req r).early = false → (s.req r).sub = true →
    e ∈ (s.req r).inbox ∨ (s.req r).h.ev = some e ∨ (s.req r).closed = true

theorem kept_step {s s' : S} (n : Names s) (ev : Events s) (p : Phases s) (st : Stable s) (h : Kept s) (hs : Step s s') : Kept s' := by
  have h1 := st.early
  have h2 := st.same
  unfold Kept at *
  cases hs with
  | read r hp =>
    intro k e he ht hj hn hsub
    by_cases hk : k = r
    · subst hk
      simp only [upd, if_pos] at hj
      have := p.mine k e.job (ev.pub e he) (n.id k _ hj)
      grind
    · grind [upd]
  | subscribe r es hp he =>
    have := p.unnamed r
    grind [upd]
  | arrive r c hp hc => grind [upd]
  | publish e he => grind [deliver]
  | take r e es hh hi => grind [upd, H.ev]
  | hname r e hh => grind [upd, H.ev, H.inName]
  | compare r e hh => grind [upd, H.ev]
  | write r r' e hh ho => grind [say, H.ev]
  | _ => grind [upd, H.ev]

/-! ## Counting outcomes -/

/-- The event says that job `j` has ended. -/
def ours (j : Option Nat) (e : Ev) : Bool := e.terminal && j == some e.job

def hTok (j : Option Nat) (h : H) : Nat :=
  match h.ev with
  | some e => (ours j e).toNat
  | none => 0

/-- Every outcome on its way to the handler was published. -/
def Tokens (s : S) : Prop :=
  ∀ r, (s.req r).inbox.countP (ours (s.req r).job) + hTok (s.req r).job (s.req r).h + (s.req r).closed.toNat ≤ s.published.countP (ours (s.req r).job)

theorem ours_none (e : Ev) : ours none e = false := by simp [ours]

theorem hTok_none (h : H) : hTok none h = 0 := by cases h <;> simp [hTok, H.ev, ours_none]

theorem hTok_idle (j : Option Nat) : hTok j .idle = 0 := rfl

theorem hits_ours {s : S} (ev : Events s) (p : Phases s) (g : Hits s) {r : Nat} {e : Ev} (he : (s.req r).h.ev = some e) (hh : (s.req r).h.hit = true) :
    ours (s.req r).job e = true := by
  have a := g.hit r e he hh
  have b := (p.mine r e.job (ev.pub e (ev.hev r e he)) a.1).1
  simp [ours, a.2, b]

theorem tokens_step {s s' : S} (n : Names s) (ev : Events s) (p : Phases s) (g : Hits s) (h : Tokens s) (hs : Step s s') : Tokens s' := by
  unfold Tokens at *
  cases hs with
  | arrive r c hp hc =>
    intro k
    have := h k
    by_cases hk : k = r
    · subst hk; simp [upd, hTok_none]
    · simpa [upd, hk] using this
  | subscribe r es hp he =>
    intro k
    have := h k
    by_cases hk : k = r
    · subst hk
      have hj := p.unnamed k (by simp [hp])
      have hc := (p.none_ k (by simp [hp])).2.2.2.1
      have : es.countP (ours none) = 0 := by simp [List.countP_eq_zero, ours_none]
      simp [upd, hj, hc, hTok_none, this]
    · simpa [upd, hk] using this
  | read r hp =>
    intro k
    have := h k
    by_cases hk : k = r
    · subst hk
      have hno : ∀ e ∈ s.published, ours (s.req k).id e = false := fun e he => by
        cases ho : ours (s.req k).id e with
        | false => rfl
        | true =>
          simp [ours] at ho
          have := p.mine k e.job (ev.pub e he) (n.id k _ ho.2)
          grind
      have h1 : (s.req k).inbox.countP (ours (s.req k).id) = 0 := by
        rw [List.countP_eq_zero]; intro e he; simp [hno e (ev.box k e he)]
      have h2 : hTok (s.req k).id (s.req k).h = 0 := by
        cases hh : (s.req k).h.ev with
        | none => simp [hTok, hh]
        | some e => simp [hTok, hh, hno e (ev.hev k e hh)]
      have h3 : (s.req k).closed = false := by
        cases hc : (s.req k).closed with
        | false => rfl
        | true => obtain ⟨m, hm, hb⟩ := g.closed k hc; have := p.mine k m hm hb; grind
      simp [upd, h1, h2, h3]
    · simpa [upd, hk] using this
  | publish e he =>
    intro k
    have := h k
    simp only [deliver, List.countP_cons]
    by_cases hs : (s.req k).sub = true
    · simp only [hs, if_pos, List.countP_append, List.countP_cons, List.countP_nil]; omega
    · simp only [hs]; simp; omega
  | take r e es hh hi =>
    intro k
    have := h k
    by_cases hk : k = r
    · subst hk
      rw [hh, hi] at this
      simp only [List.countP_cons, hTok_idle] at this
      have : hTok (s.req k).job (if (s.req k).id = none then H.naming e else H.compare e) = if ours (s.req k).job e = true then 1 else 0 := by
        split <;> cases ho : ours (s.req k).job e <;> simp [hTok, H.ev, ho]
      simp only [upd, if_pos, this]
      omega
    · simpa [upd, hk] using this
  | hname r e hh =>
    intro k
    have := h k
    by_cases hk : k = r
    · subst hk; simpa [upd, hh, hTok, H.ev] using this
    · simpa [upd, hk] using this
  | compare r e hh =>
    intro k
    have := h k
    by_cases hk : k = r
    · subst hk
      simp only [upd, if_pos]
      split
      · simpa [hh, hTok, H.ev] using this
      · rw [hTok_idle]; omega
    · simpa [upd, hk] using this
  | write r r' e hh ho =>
    intro k
    have := h k
    by_cases hk : k = r
    · subst hk; simpa [say, hh, hTok, H.ev] using this
    · simpa [say, hk] using this
  | writeLost r e hh ho =>
    intro k
    have := h k
    by_cases hk : k = r
    · subst hk; simpa [upd, hh, hTok, H.ev] using this
    · simpa [upd, hk] using this
  | close r e hh =>
    intro k
    have := h k
    by_cases hk : k = r
    · subst hk
      have ho := hits_ours ev p g (r := k) (e := e) (by simp [hh, H.ev]) (by simp [hh, H.hit])
      have h1 : hTok (s.req k).job (s.req k).h = 1 := by simp [hTok, hh, H.ev, ho]
      simp only [upd, if_pos, hTok_idle]
      simp only [h1] at this
      simp; omega
    · simpa [upd, hk] using this
  | drop r how hp =>
    intro k
    have := h k
    by_cases hk : k = r
    · subst hk; simp [upd]; omega
    · simpa [upd, hk] using this
  | other => exact h
  | submit r n hp hn | check r hp | name r hp | refuse r hp | answered r hp hc | giveUp r how hp hh =>
    intro k
    have := h k
    by_cases hk : k = r
    · subst hk; simpa [upd] using this
    · simpa [upd, hk] using this

/-- Two events say that job `n` has ended. -/
def Twice (s : S) (n : Nat) : Prop := 2 ≤ s.published.countP (fun e => e.terminal && e.job == n)

theorem twice_of {s : S} {n : Nat} (h : 2 ≤ s.published.countP (ours (some n))) : Twice s n := by
  unfold Twice
  refine Nat.le_trans h (Nat.le_of_eq (List.countP_congr fun e _ => ?_))
  by_cases he : n = e.job
  · simp [ours, he]
  · have : e.job ≠ n := fun h => he h.symm
    simp [ours, he, this]

theorem twice_step {s s' : S} (hs : Step s s') {n : Nat} (h : Twice s n) : Twice s' n := by
  unfold Twice at *
  cases hs <;> first | exact h | (simp only [List.countP_cons]; omega)

/-- What goes wrong, and why. -/
structure Wrong (s : S) : Prop where
  crash : s.crashed = true → ∃ n, Twice s n
  answered : ∀ r, (s.req r).pc = .done .answered → (s.req r).closed = true
  stray : ∀ r src e, Item.job src e ∈ (s.req r).out → src = r ∨ (s.req src).pc = .done .timeout ∨ (s.req src).pc = .done .gone ∨
    (s.req src).pc = .done .shutdown ∨ Twice s e.job
  refused : ∀ r n, (s.req r).pc = .done .refused → s.by_ n = some r → n ∉ s.submitted

theorem wrong_step {s s' : S} (n : Names s) (ev : Events s) (c : Contexts s) (p : Phases s) (g : Hits s) (tk : Tokens s) (h : Wrong s)
    (hok : s.crashed = false) (hs : Step s s') : Wrong s' := by
  have ht : ∀ n, Twice s n → Twice s' n := fun n => twice_step hs
  obtain ⟨h1, h2, h3, h4⟩ := h
  cases hs with
  | close r e hh =>
    refine ⟨fun hc => ?_, by grind [upd], by grind [upd], by grind [upd]⟩
    have hcl : (s.req r).closed = true := by simpa [hok] using hc
    have ho := hits_ours ev p g (r := r) (e := e) (by simp [hh, H.ev]) (by simp [hh, H.hit])
    have h1 : hTok (s.req r).job (s.req r).h = 1 := by simp [hTok, hh, H.ev, ho]
    have := tk r
    simp [ours] at ho
    rw [h1, hcl, ho.2] at this
    exact ⟨e.job, ht _ (twice_of (by simp at this; omega))⟩
  | write r r' e hh ho =>
    have hx : r = r' ∨ ∃ how, (s.req r).pc = .done how := by
      by_cases ha : (s.req r).pc.active = true
      · exact .inl (by have := c.owns r ha; grind)
      · have := p.none_ r
        cases hpc : (s.req r).pc <;> grind [Pc.active]
    have hb := g.hit r e (by simp [hh, H.ev]) (by simp [hh, H.hit])
    have he := ev.pub e (ev.hev r e (by simp [hh, H.ev]))
    have ho := hits_ours ev p g (r := r) (e := e) (by simp [hh, H.ev]) (by simp [hh, H.hit])
    have hk : r = r' ∨ (s.req r).pc = .done .timeout ∨ (s.req r).pc = .done .gone ∨ (s.req r).pc = .done .shutdown ∨ Twice s e.job := by
      rcases hx with hx | ⟨how, hx⟩
      · exact .inl hx
      · cases how with
        | answered =>
          have h1 : hTok (s.req r).job (s.req r).h = 1 := by simp [hTok, hh, H.ev, ho]
          have := tk r
          simp [ours] at ho
          rw [h1, h2 r hx, ho.2] at this
          exact .inr (.inr (.inr (.inr (twice_of (by simp at this; omega)))))
        | refused => exact absurd he (h4 r _ hx hb.1)
        | timeout => exact .inr (.inl hx)
        | gone => exact .inr (.inr (.inl hx))
        | shutdown => exact .inr (.inr (.inr (.inl hx)))
    constructor <;> grind [say]
  | refuse r hp =>
    have := p.mine r
    constructor <;> grind [upd]
  | submit r m hp hn =>
    have := n.job
    constructor <;> grind [upd]
  | other =>
    have := n.fresh
    constructor <;> grind
  | name r hp | hname r e hh =>
    have := n.sub
    constructor <;> grind [upd]
  | _ => constructor <;> grind [upd, deliver]

structure Inv2 (s : S) : Prop extends Inv s where
  stable : Stable s
  kept : Kept s
  tokens : Tokens s
  wrong : Wrong s

theorem inv2_reach {s : S} (h : Reach s) : Inv2 s := by
  induction h with
  | init =>
    exact { toInv := inv_reach .init, stable := by constructor <;> grind [H.inName], kept := by unfold Kept; grind, tokens := fun r => by simp [hTok, H.ev],
            wrong := by constructor <;> grind }
  | step hr hok hs ih =>
    exact { toInv := inv_reach (.step hr hok hs), stable := stable_step ih.phases ih.stable hs,
            kept := kept_step ih.names ih.events ih.phases ih.stable ih.kept hs,
            tokens := tokens_step ih.names ih.events ih.phases ih.hits ih.tokens hs,
            wrong := wrong_step ih.names ih.events ih.contexts ih.phases ih.hits ih.tokens ih.wrong hok hs }

/-! ## A request whose job got another id -/

/-- The handler compares with an id that is not the id of the job. -/
structure Lost (s : S) (r : Nat) : Prop where
  id : (s.req r).id ≠ (s.req r).job
  some : (s.req r).id ≠ none
  job : (s.req r).job ≠ none
  hit : (s.req r).h.hit = false
  closed : (s.req r).closed = false

theorem lost_step {s s' : S} (n : Names s) (ev : Events s) (p : Phases s) {r : Nat} (h : Lost s r) (hs : Step s s') : Lost s' r := by
  obtain ⟨h1, h2, h3, h4, h5⟩ := h
  have hu := p.unnamed r
  have hno : (s.req r).pc ≠ .none := by intro hp; exact h2 (p.none_ r (.inl hp)).2.2.1
  have hlt : (s.req r).job ≠ some s.next := fun hj => by have := n.job r _ hj; rw [n.fresh _ (Nat.le_refl _)] at this; cases this
  cases hs with
  | compare k e hh =>
    by_cases hk : r = k
    · subst hk
      by_cases hc : (s.req r).id = some e.job ∧ e.terminal = true
      · have := (p.mine r e.job (ev.pub e (ev.hev r e (by simp [hh, H.ev]))) (n.id r _ hc.1)).1
        exact absurd (hc.1.trans this.symm) h1
      · constructor <;> simp only [upd, if_pos, if_neg hc, H.hit] <;> assumption
    · constructor <;> simpa [upd, hk]
  | _ => constructor <;> grind [upd, deliver, say, H.hit]

end Tork.Wait

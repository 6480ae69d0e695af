import Verif.Middleware
/-!
# C37 — middleware order and short-circuit
-/

namespace Tork.Middleware

/-! ## Specification

A middleware, seen from outside: some work before, a decision whether to call `next`, the error it
returns if it does not, some work after (which may change the error). -/

/-- What is observed: which middleware (by number) was entered/left, and handler runs. -/
inductive Ev
  | enter (i : Nat)
  | handler
  | leave (i : Nat)
  deriving DecidableEq, Repr

/-- Observable state: the trace so far and arbitrary application state. -/
structure Obs (α : Type) where
  trace : List Ev
  app : α

/-- An arbitrary middleware: `decide a` = `none` means "calls next", `some r` means "returns `r`
without calling next"; `before`/`after` are its other effects. -/
structure Mw (α : Type) where
  before : α → α
  decide : α → Option (Option String)
  after : Option String → α → Option String × α

/-- The Go function of middleware number `i`, instrumented with trace events. -/
def Mw.toFunc {α : Type} (i : Nat) (m : Mw α) : MiddlewareFunc (Obs α) := fun nx s =>
  let s : Obs α := { trace := s.trace ++ [.enter i], app := m.before s.app }
  match m.decide s.app with
  | some r => (r, { s with trace := s.trace ++ [.leave i] })
  | none =>
    let (r, s) := nx s
    let (r, a) := m.after r s.app
    (r, { trace := s.trace ++ [.leave i], app := a })

/-- Numbering of the chain. -/
def numbered {α : Type} : Nat → List (Mw α) → List (MiddlewareFunc (Obs α))
  | _, [] => []
  | i, m :: ms => m.toFunc i :: numbered (i + 1) ms

/-- The instrumented handler. -/
def instr {α : Type} (h : α → Option String × α) : HandlerFunc (Obs α) := fun s =>
  let (r, a) := h s.app
  (r, { trace := s.trace ++ [.handler], app := a })

/-- Expected run, written directly over the list: middleware `i`, then the rest unless it stops. -/
def expected {α : Type} (h : α → Option String × α) : Nat → List (Mw α) → α → List Ev × Option String × α
  | _, [], a => let (r, a) := h a; ([.handler], r, a)
  | i, m :: ms, a =>
    let a := m.before a
    match m.decide a with
    | some r => ([.enter i, .leave i], r, a)
    | none =>
      let (tr, r, a) := expected h (i + 1) ms a
      let (r, a) := m.after r a
      (.enter i :: tr ++ [.leave i], r, a)

/-- Events of the middleware numbered `i … i+k-1` entered in order. -/
def enters : Nat → Nat → List Ev
  | _, 0 => []
  | i, k + 1 => .enter i :: enters (i + 1) k

theorem next_drop {σ : Type} (mws : List (MiddlewareFunc σ)) (h : HandlerFunc σ) :
    ∀ n i, mws.length - i = n → next i mws h = (mws.drop i).foldr (fun m f => m f) h := by
  intro n
  induction n with
  | zero =>
    intro i hi
    rw [next, dif_neg (by omega), List.drop_eq_nil_of_le (by omega)]; rfl
  | succ n ih =>
    intro i hi
    have hlt : i < mws.length := by omega
    rw [next, dif_pos hlt, ih (i + 1) (by omega), List.drop_eq_getElem_cons hlt]; rfl

/-- **C37 (order).** For every chain of arbitrary middleware `m₁ … mₙ` and every handler, the composed
handler is `m₁ (m₂ (… (mₙ handler)))`. -/
theorem C37_middleware_nesting {σ : Type} (h : HandlerFunc σ) (mws : List (MiddlewareFunc σ)) :
    applyMiddleware h mws = mws.foldr (fun m f => m f) h := by
  funext s; rw [applyMiddleware, next_drop mws h _ 0 rfl]; rfl

theorem apply_cons {σ : Type} (h : HandlerFunc σ) (m : MiddlewareFunc σ) (ms : List (MiddlewareFunc σ)) :
    applyMiddleware h (m :: ms) = m (applyMiddleware h ms) := by
  simp [C37_middleware_nesting]

/-- **C37 (observable run).** For every chain, handler and start state the observed trace, result and
final state are those of running `m₁`, then `m₂`, …, then the handler, stopping inwards at the first
middleware that does not call next. -/
theorem C37_middleware_run {α : Type} (h : α → Option String × α) (ms : List (Mw α)) (i : Nat)
    (tr : List Ev) (a : α) :
    applyMiddleware (instr h) (numbered i ms) ⟨tr, a⟩ =
      ((expected h i ms a).2.1, ⟨tr ++ (expected h i ms a).1, (expected h i ms a).2.2⟩) := by
  induction ms generalizing i tr a with
  | nil => simp [numbered, C37_middleware_nesting, instr, expected]
  | cons m ms ih =>
    rw [numbered, apply_cons, Mw.toFunc, expected]
    dsimp only
    split
    · next h => simp
    · next h => simp only [ih]; simp

/-- **C37 (short circuit).** If the middleware after `ms₁` returns without calling next (whatever the
state), neither the middleware behind it nor the handler can influence the outcome. -/
theorem C37_middleware_short_circuit {σ : Type} (h h' : HandlerFunc σ)
    (ms₁ ms₂ ms₃ : List (MiddlewareFunc σ)) (m : MiddlewareFunc σ)
    (hm : ∀ f g, m f = m g) :
    applyMiddleware h (ms₁ ++ m :: ms₂) = applyMiddleware h' (ms₁ ++ m :: ms₃) := by
  simp only [C37_middleware_nesting, List.foldr_append, List.foldr_cons]
  rw [hm]

theorem expected_handler {α : Type} (h : α → Option String × α) (ms : List (Mw α)) (i : Nat)
    (a : α) :
    ((∀ m ∈ ms, ∀ x, m.decide x = none) → ∃ post, (expected h i ms a).1 =
        enters i ms.length ++ [Ev.handler] ++ post ∧ Ev.handler ∉ post ∧ ∀ j, Ev.enter j ∉ post) ∧
    (∀ ms₁ m ms₂, ms = ms₁ ++ m :: ms₂ → (∀ x, (m.decide x).isSome) →
        (∀ m' ∈ ms₁, ∀ x, m'.decide x = none) →
        ∃ post, (expected h i ms a).1 = enters i (ms₁.length + 1) ++ post ∧
          Ev.handler ∉ post ∧ ∀ j, Ev.enter j ∉ post) := by
  constructor
  · induction ms generalizing i a with
    | nil => intro _; exact ⟨[], by simp [expected, enters]⟩
    | cons m ms ih =>
      intro hall
      obtain ⟨post, he, hp, hp2⟩ := ih (i + 1) (m.before a) (fun m' hm' => hall m' (by simp [hm']))
      refine ⟨post ++ [.leave i], ?_, by simpa using hp, by simpa using hp2⟩
      rw [expected]
      simp only [hall m (by simp)]
      rw [he]; simp [enters]
  · induction ms generalizing i a with
    | nil => intro ms₁ m ms₂ h; simp at h
    | cons m0 ms ih =>
      intro ms₁ m ms₂ heq hstop hall
      cases ms₁ with
      | nil =>
        simp at heq
        obtain ⟨rfl, rfl⟩ := heq
        have := hstop (m0.before a)
        rw [Option.isSome_iff_exists] at this
        obtain ⟨r, hr⟩ := this
        refine ⟨[.leave i], ?_, by simp, by simp⟩
        rw [expected]; simp only [hr]; simp [enters]
      | cons m1 ms₁ =>
        simp at heq
        obtain ⟨rfl, rfl⟩ := heq
        obtain ⟨post, he, hp, hp2⟩ := ih (i + 1) (m0.before a) ms₁ m ms₂ rfl hstop
          (fun m' hm' => hall m' (by simp [hm']))
        refine ⟨post ++ [.leave i], ?_, by simpa using hp, by simpa using hp2⟩
        rw [expected]
        simp only [hall m0 (by simp)]
        rw [he]; simp [enters]

/-- **C37 (handler last, exactly once).** The observed trace is: all middleware entered in order, then
the handler exactly once (and nothing is entered afterwards) if every middleware calls next; and the
middleware up to the first one that does not call next, and no handler run, otherwise. -/
theorem C37_middleware_handler_runs {α : Type} (h : α → Option String × α) (ms : List (Mw α)) (a : α) :
    ((∀ m ∈ ms, ∀ x, m.decide x = none) →
      ∃ post, (applyMiddleware (instr h) (numbered 0 ms) ⟨[], a⟩).2.trace =
        enters 0 ms.length ++ [Ev.handler] ++ post ∧ Ev.handler ∉ post ∧ ∀ j, Ev.enter j ∉ post) ∧
    (∀ ms₁ m ms₂, ms = ms₁ ++ m :: ms₂ → (∀ x, (m.decide x).isSome) →
        (∀ m' ∈ ms₁, ∀ x, m'.decide x = none) →
        ∃ post, (applyMiddleware (instr h) (numbered 0 ms) ⟨[], a⟩).2.trace =
          enters 0 (ms₁.length + 1) ++ post ∧ Ev.handler ∉ post ∧ ∀ j, Ev.enter j ∉ post) := by
  simp only [C37_middleware_run, List.nil_append]
  exact expected_handler h ms 0 a

/-! Concrete case: a logging middleware followed by one that rejects: the handler is not run and the
error is returned through the first one. -/
def passMw : Mw Nat := ⟨(· + 1), fun _ => none, fun r a => (r, a + 10)⟩
def stopMw : Mw Nat := ⟨id, fun _ => some (some "denied"), fun r a => (r, a)⟩
example : applyMiddleware (instr fun a => (none, a * 100)) (numbered 0 [passMw, stopMw, passMw]) ⟨[], 1⟩ =
    (some "denied", ⟨[.enter 0, .enter 1, .leave 1, .leave 0], 12⟩) := by
  rw [C37_middleware_run]; rfl
example : applyMiddleware (instr fun a => (none, a * 100)) (numbered 0 [passMw, passMw]) ⟨[], 1⟩ =
    (none, ⟨[.enter 0, .enter 1, .handler, .leave 1, .leave 0], 320⟩) := by
  rw [C37_middleware_run]; rfl
example : ∀ f g : HandlerFunc (Obs Nat), stopMw.toFunc 0 f = stopMw.toFunc 0 g := by
  intro f g; rfl

end Tork.Middleware

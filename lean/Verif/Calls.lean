import Verif.Types
/-!
# Programs that call out

A sequential Go function that calls an external system (container daemon, operating system), as a tree: every call is
followed by one continuation per possible reply, so that every reply, in every combination, is covered. `fresh` is
`uuid.NewUUID` (`/repo/internal/uuid/uuid.go`): a number not handed out before. Used by the models of the runtimes
(`/repo/runtime/docker`, `/repo/runtime/podman`, `/repo/runtime/shell`). A panic or a crash of the worker process is not
modelled here.
-/

namespace Tork.Calls

/-- A program calling `C` with replies `R`. -/
inductive P (C R α : Type)
  | ret (a : α)
  | call (c : C) (k : R → P C R α)
  | fresh (k : Nat → P C R α)

namespace P
variable {C R α β : Type}

def bind : P C R α → (α → P C R β) → P C R β
  | ret a, f => f a
  | call c k, f => call c fun r => (k r).bind f
  | fresh k, f => fresh fun n => (k n).bind f

instance : Monad (P C R) where
  pure := ret
  bind := bind

end P

/-- one call, returning its reply -/
def ask {C R : Type} (c : C) : P C R R := .call c .ret

/-- `uuid.NewUUID()` -/
def newId {C R : Type} : P C R Nat := .fresh .ret

/-- `Runs p n l a n'`: started when `n` is the next fresh number, `p` can make the calls and receive the replies `l`, in
this order, and return `a`, leaving `n'` as the next fresh number. -/
def Runs {C R α : Type} : P C R α → Nat → List (C × R) → α → Nat → Prop
  | .ret a, n, l, b, n' => l = [] ∧ b = a ∧ n' = n
  | .call c k, n, l, b, n' => ∃ r l', l = (c, r) :: l' ∧ Runs (k r) n l' b n'
  | .fresh k, n, l, b, n' => Runs (k n) (n + 1) l b n'

section
variable {C R α β : Type}

theorem bind_eq (p : P C R α) (f : α → P C R β) : (p >>= f) = p.bind f := rfl
theorem pure_eq (a : α) : (pure a : P C R α) = .ret a := rfl

@[simp] theorem runs_ret {a b : α} {n n' : Nat} {l : List (C × R)} :
    Runs (.ret a) n l b n' ↔ l = [] ∧ b = a ∧ n' = n := Iff.rfl

@[simp] theorem runs_pure {a b : α} {n n' : Nat} {l : List (C × R)} :
    Runs (pure a : P C R α) n l b n' ↔ l = [] ∧ b = a ∧ n' = n := Iff.rfl

theorem runs_bind' {p : P C R α} {f : α → P C R β} {n n' : Nat} {l : List (C × R)} {b : β} :
    Runs (p.bind f) n l b n' ↔ ∃ a l1 l2 m, l = l1 ++ l2 ∧ Runs p n l1 a m ∧ Runs (f a) m l2 b n' := by
  induction p generalizing n l with
  | ret a =>
    constructor
    · intro h; exact ⟨a, [], l, n, rfl, ⟨rfl, rfl, rfl⟩, h⟩
    · rintro ⟨_, _, _, _, rfl, ⟨rfl, rfl, rfl⟩, h⟩; exact h
  | call c k ih =>
    constructor
    · rintro ⟨r, l', rfl, h⟩
      obtain ⟨a, l1, l2, m, rfl, h1, h2⟩ := (ih r).1 h
      exact ⟨a, (c, r) :: l1, l2, m, rfl, ⟨r, l1, rfl, h1⟩, h2⟩
    · rintro ⟨a, _, l2, m, rfl, ⟨r, l1, rfl, h1⟩, h2⟩
      exact ⟨r, l1 ++ l2, rfl, (ih r).2 ⟨a, l1, l2, m, rfl, h1, h2⟩⟩
  | fresh k ih => exact ih n

theorem runs_bind {p : P C R α} {f : α → P C R β} {n n' : Nat} {l : List (C × R)} {b : β} :
    Runs (p >>= f) n l b n' ↔ ∃ a l1 l2 m, l = l1 ++ l2 ∧ Runs p n l1 a m ∧ Runs (f a) m l2 b n' := runs_bind'

@[simp] theorem runs_ask {c : C} {n n' : Nat} {l : List (C × R)} {r : R} :
    Runs (ask c) n l r n' ↔ l = [(c, r)] ∧ n' = n := by
  constructor
  · rintro ⟨r', l', rfl, rfl, rfl, rfl⟩; exact ⟨rfl, rfl⟩
  · rintro ⟨rfl, rfl⟩; exact ⟨r, [], rfl, rfl, rfl, rfl⟩

@[simp] theorem runs_newId {n n' m : Nat} {l : List (C × R)} :
    Runs (newId : P C R Nat) n l m n' ↔ l = [] ∧ m = n ∧ n' = n + 1 := Iff.rfl

theorem runs_askBind {c : C} {f : R → P C R β} {n n' : Nat} {l : List (C × R)} {b : β} :
    Runs (ask c >>= f) n l b n' ↔ ∃ r l', l = (c, r) :: l' ∧ Runs (f r) n l' b n' := Iff.rfl

theorem runs_idBind {f : Nat → P C R β} {n n' : Nat} {l : List (C × R)} {b : β} :
    Runs (newId >>= f) n l b n' ↔ Runs (f n) (n + 1) l b n' := Iff.rfl

theorem runs_ite {c : Prop} [Decidable c] {p q : P C R α} {n n' : Nat} {l : List (C × R)} {a : α}
    (h : Runs (if c then p else q) n l a n') : (c ∧ Runs p n l a n') ∨ (¬ c ∧ Runs q n l a n') := by
  by_cases hc : c
  · rw [if_pos hc] at h; exact .inl ⟨hc, h⟩
  · rw [if_neg hc] at h; exact .inr ⟨hc, h⟩

theorem Runs.le {p : P C R α} {n n' : Nat} {l : List (C × R)} {a : α} (h : Runs p n l a n') : n ≤ n' := by
  induction p generalizing n l with
  | ret b => obtain ⟨_, _, rfl⟩ := h; exact Nat.le_refl _
  | call c k ih => obtain ⟨r, l', _, h⟩ := h; exact ih r h
  | fresh k ih => exact Nat.le_of_succ_le (ih n h)

/-- every program has a run -/
theorem runs_some [Inhabited R] (p : P C R α) (n : Nat) : ∃ l a n', Runs p n l a n' := by
  induction p generalizing n with
  | ret a => exact ⟨[], a, n, rfl, rfl, rfl⟩
  | call c k ih =>
    obtain ⟨l, a, n', h⟩ := ih default n
    exact ⟨_, a, n', default, l, rfl, h⟩
  | fresh k ih => exact ih n (n + 1)

/-- The run in which the replies are those of the list, in order; `none` when there are too few. -/
def play : P C R α → Nat → List R → Option (List (C × R) × α)
  | .ret a, _, _ => some ([], a)
  | .call _ _, _, [] => none
  | .call c k, n, r :: rs => (play (k r) n rs).map fun x => ((c, r) :: x.1, x.2)
  | .fresh k, n, rs => play (k n) (n + 1) rs

theorem play_runs {p : P C R α} {n : Nat} {rs : List R} {l : List (C × R)} {a : α} (h : play p n rs = some (l, a)) :
    ∃ n', Runs p n l a n' := by
  induction p generalizing n rs l with
  | ret b => cases h; exact ⟨n, rfl, rfl, rfl⟩
  | call c k ih =>
    cases rs with
    | nil => cases h
    | cons r rs =>
      simp only [play, Option.map_eq_some_iff] at h
      obtain ⟨⟨l', b⟩, h1, h2⟩ := h
      cases h2
      obtain ⟨n', hr⟩ := ih r h1
      exact ⟨n', r, l', rfl, hr⟩
  | fresh k ih => exact ih n h

end
end Tork.Calls

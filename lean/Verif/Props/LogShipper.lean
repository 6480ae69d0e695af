import Verif.LogShipper
/-!
# C35 — task logs are shipped completely and in order
-/

namespace Tork.LogShipper

/-- Concatenated contents of the parts handed to the broker. -/
def shipped (s : State) : List UInt8 := (s.published.map fun p => p.1.contents).flatten

/-- Part numbers handed to the broker. -/
def numbers (s : State) : List Nat := s.published.map fun p => p.1.number

structure Inv (s : State) (w : List UInt8) : Prop where
  bytes : w = shipped s ++ s.buffer ++ s.q.flatten
  nums : numbers s = List.range' 1 s.part
  nonempty : ∀ p ∈ s.published, p.1.contents ≠ []

theorem step_inv (s : State) (w : List UInt8) (e : Event) (h : Inv s w) :
    Inv (step s e) (w ++ accepted1 s e) := by
  obtain ⟨h1, h2, h3⟩ := h
  cases e with
  | write p =>
    simp only [step, accepted1]
    split
    · exact ⟨by simp [h1, shipped], h2, h3⟩
    · exact ⟨by simpa using h1, h2, h3⟩
  | recv =>
    simp only [step, accepted1, List.append_nil]
    cases hq : s.q with
    | nil => exact ⟨h1, h2, h3⟩
    | cons p q => exact ⟨by simp [h1, shipped, hq], h2, h3⟩
  | tick ok =>
    simp only [step, accepted1, List.append_nil]
    split
    · next hb =>
      refine ⟨by simp [h1, shipped], ?_, ?_⟩
      · simp only [numbers, List.map_append, List.map_cons, List.map_nil] at h2 ⊢
        rw [h2, List.range'_concat]; simp; omega
      · intro p hp
        simp at hp
        rcases hp with hp | rfl
        · exact h3 p hp
        · intro he; simp at he; rw [he] at hb; simp at hb
    · exact ⟨h1, h2, h3⟩

theorem run_inv (es : List Event) (s : State) (w : List UInt8) (h : Inv s w) :
    Inv (es.foldl step s) (w ++ acceptedFrom s es) := by
  induction es generalizing s w with
  | nil => simpa [acceptedFrom] using h
  | cons e es ih =>
    rw [List.foldl_cons, acceptedFrom, ← List.append_assoc]
    exact ih _ _ (step_inv s w e h)

/-- **C35 (safety).** In every interleaving of writers and flusher, what has been handed to the broker,
concatenated in part order, is a prefix of the bytes written (in write order), the missing rest being
exactly the bytes still buffered; part numbers are 1, 2, 3, … ; no part is empty. -/
theorem C35_log_prefix (es : List Event) :
    acceptedFrom {} es = shipped (run es) ++ ((run es).buffer ++ (run es).q.flatten) ∧
    numbers (run es) = List.range' 1 (run es).published.length ∧
    ∀ p ∈ (run es).published, p.1.contents ≠ [] := by
  have h := run_inv es {} [] ⟨by simp [shipped], by simp [numbers], by simp⟩
  refine ⟨by simpa [run] using h.bytes, ?_, h.nonempty⟩
  have hn := h.nums
  have : (numbers (run es)).length = (run es).part := by
    show (numbers (es.foldl step {})).length = _
    rw [hn]; simp [run]
  simp [numbers] at this
  rw [this]; exact hn

/-- Receiving everything that is queued. -/
def drain (s : State) : List Event := List.replicate s.q.length .recv ++ [.tick true]

theorem foldl_recv (n : Nat) (s : State) (hn : s.q.length = n) :
    (List.replicate n Event.recv).foldl step s = { s with q := [], buffer := s.buffer ++ s.q.flatten } := by
  induction n generalizing s with
  | zero => simp at hn; simp [hn]; cases s; simp_all
  | succ n ih =>
    cases hq : s.q with
    | nil => rw [hq] at hn; simp at hn
    | cons p q =>
      rw [List.replicate_succ, List.foldl_cons]
      have : step s .recv = { s with q := q, buffer := s.buffer ++ p } := by simp [step, hq]
      rw [this, ih _ (by rw [hq] at hn; simpa using hn)]
      simp

/-- **C35 (completeness).** From every reachable state, once the flusher has received what is queued
and its timer fires (which it does every second), every accepted byte has been handed to the broker:
the concatenation of all parts in part order is exactly the bytes written. -/
theorem C35_log_complete (es : List Event) :
    shipped (run (es ++ drain (run es))) = acceptedFrom {} es := by
  have h := (C35_log_prefix es).1
  rw [h]
  simp only [run, drain, List.foldl_append, List.foldl_cons, List.foldl_nil]
  rw [foldl_recv _ _ rfl]
  generalize es.foldl step {} = s
  simp only [step]
  split
  · simp [shipped]
  · next hb =>
    have hb' : s.buffer ++ s.q.flatten = [] := by
      rcases hx : s.buffer ++ s.q.flatten with _ | ⟨a, l⟩
      · rfl
      · rw [hx] at hb; simp at hb
    rw [hb']; simp [shipped]

/-- A refused publish is not retried: those bytes are lost while the part number is consumed, so
completeness at the *receiver* needs every publish to be accepted (`all accepted → received = shipped`). -/
theorem C35_log_received (es : List Event) (hok : ∀ p ∈ (run es).published, p.2 = true) :
    (((run es).published.filter (·.2)).map fun p => p.1.contents).flatten = shipped (run es) := by
  rw [List.filter_eq_self.2 hok]; rfl

/-! Concrete run: two writes, a flush in between, a refused part. -/
example : (run [.write [1, 2], .recv, .tick true, .tick true, .write [3], .write [4], .recv, .recv,
    .tick true]).published = [(⟨1, [1, 2]⟩, true), (⟨2, [3, 4]⟩, true)] := by decide
example : acceptedFrom {} [.write [1, 2], .recv, .tick true, .write [3]] = [1, 2, 3] := by decide
example : ∀ p ∈ (run [.write [1, 2], .recv, .tick true]).published, p.2 = true := by decide

end Tork.LogShipper

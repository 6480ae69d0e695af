import Verif.Wildcard
/-!
# C24 — wildcard matching
-/

namespace Tork.Wildcard

/-- Specification: `Matches p s` — `s` is obtained from `p` by replacing every `*` by some (possibly
empty) byte string; every other byte stands for itself. -/
inductive Matches : List UInt8 → List UInt8 → Prop
  | nil : Matches [] []
  | star (w : List UInt8) {p s : List UInt8} : Matches p s → Matches (star :: p) (w ++ s)
  | byte {c : UInt8} {p s : List UInt8} : c ≠ star → Matches p s → Matches (c :: p) (c :: s)

theorem matches_append {p q a b} (h1 : Matches p a) (h2 : Matches q b) :
    Matches (p ++ q) (a ++ b) := by
  induction h1 with
  | nil => exact h2
  | star w _ ih => rw [List.append_assoc]; exact .star w ih
  | byte hc _ ih => exact .byte hc ih

theorem matches_append_inv {p q : List UInt8} : ∀ {s}, Matches (p ++ q) s →
    ∃ a b, s = a ++ b ∧ Matches p a ∧ Matches q b := by
  induction p with
  | nil => intro s h; exact ⟨[], s, rfl, .nil, h⟩
  | cons c p ih =>
    intro s h
    cases h with
    | star w h =>
      obtain ⟨a, b, rfl, ha, hb⟩ := ih h
      exact ⟨w ++ a, b, by simp, .star w ha, hb⟩
    | byte hc h =>
      obtain ⟨a, b, rfl, ha, hb⟩ := ih h
      exact ⟨c :: a, b, by simp, .byte hc ha, hb⟩

theorem matches_nil {s} : Matches [] s ↔ s = [] :=
  ⟨fun h => by cases h; rfl, fun h => h ▸ .nil⟩

theorem matches_star1 (s) : Matches [star] s := by
  have := Matches.star s Matches.nil; simpa using this

/-- last pattern byte is a star -/
theorem matches_snoc_star {p s} :
    Matches (p ++ [star]) s ↔ ∃ a b, s = a ++ b ∧ Matches p a := by
  constructor
  · intro h; obtain ⟨a, b, h1, h2, _⟩ := matches_append_inv h; exact ⟨a, b, h1, h2⟩
  · rintro ⟨a, b, rfl, h⟩; exact matches_append h (matches_star1 b)

theorem matches_snoc_byte {p s} {c : UInt8} (hc : c ≠ star) :
    Matches (p ++ [c]) s ↔ ∃ a, s = a ++ [c] ∧ Matches p a := by
  constructor
  · intro h; obtain ⟨a, b, h1, h2, h3⟩ := matches_append_inv h
    cases h3 with
    | star w h3 => exact absurd rfl hc
    | byte _ h3 => cases h3; exact ⟨a, h1, h2⟩
  · rintro ⟨a, rfl, h⟩; exact matches_append h (.byte hc .nil)

theorem matches_noWild {p : List UInt8} (hp : isWildPattern p = false) {s} : Matches p s ↔ p = s := by
  induction p generalizing s with
  | nil => rw [matches_nil]; exact eq_comm
  | cons c p ih =>
    simp only [isWildPattern, List.any_cons, Bool.or_eq_false_iff, decide_eq_false_iff_not] at hp
    constructor
    · intro h
      cases h with
      | star w h => exact absurd rfl hp.1
      | byte _ h => rw [(ih hp.2).1 h]
    · rintro rfl; exact .byte hp.1 ((ih hp.2).2 rfl)

open Classical in
/-- The row of the table for a pattern prefix `p`: entry `j` says whether `p` matches the prefix of
length `j`. -/
noncomputable def specRow (p pre : List UInt8) : List UInt8 → List Bool
  | [] => []
  | c :: s => decide (Matches p (pre ++ [c])) :: specRow p (pre ++ [c]) s

open Classical in
theorem rowLoop_spec (p : List UInt8) (pc : UInt8) (s pre : List UInt8) :
    rowLoop pc (decide (Matches p pre)) (decide (Matches (p ++ [pc]) pre)) s (specRow p pre s)
      = specRow (p ++ [pc]) pre s := by
  induction s generalizing pre with
  | nil => rfl
  | cons c s ih =>
    have key : (if pc = star then decide (Matches p pre) || decide (Matches p (pre ++ [c])) ||
        decide (Matches (p ++ [pc]) pre) else if pc = c then decide (Matches p pre) else false)
        = decide (Matches (p ++ [pc]) (pre ++ [c])) := by
      by_cases hs : pc = star
      · subst hs
        simp only [if_true, ← Bool.decide_or, decide_eq_decide]
        simp only [matches_snoc_star]
        constructor
        · rintro ((h | h) | ⟨a, b, rfl, h⟩)
          · exact ⟨pre, [c], rfl, h⟩
          · exact ⟨pre ++ [c], [], by simp, h⟩
          · exact ⟨a, b ++ [c], by simp, h⟩
        · rintro ⟨a, b, he, h⟩
          rcases List.eq_nil_or_concat b with rfl | ⟨b', x, rfl⟩
          · left; right; rw [he]; simpa using h
          · right
            rw [List.concat_eq_append, ← List.append_assoc] at he
            have := List.append_inj_left' he rfl
            exact ⟨a, b', this, h⟩
      · rw [if_neg hs]
        by_cases hc : pc = c
        · subst hc
          simp only [if_true, decide_eq_decide]
          rw [matches_snoc_byte hs]
          constructor
          · intro h; exact ⟨pre, rfl, h⟩
          · rintro ⟨a, he, h⟩; rw [List.append_inj_left' he rfl]; exact h
        · rw [if_neg hc]
          symm
          rw [decide_eq_false_iff_not, matches_snoc_byte hs]
          rintro ⟨a, he, _⟩
          have := List.append_inj_right' he rfl
          simp at this
          exact hc this.symm
    simp only [specRow, rowLoop]
    rw [key, ih]

open Classical in
theorem nextRow_spec (p : List UInt8) (pc : UInt8) (s : List UInt8) :
    nextRow pc s (decide (Matches p []) :: specRow p [] s)
      = decide (Matches (p ++ [pc]) []) :: specRow (p ++ [pc]) [] s := by
  have key : (if pc = star then decide (Matches p []) else false) = decide (Matches (p ++ [pc]) []) := by
    by_cases hs : pc = star
    · subst hs
      simp only [if_true, decide_eq_decide, matches_snoc_star]
      constructor
      · intro h; exact ⟨[], [], rfl, h⟩
      · rintro ⟨a, b, he, h⟩
        have := List.append_eq_nil_iff.1 he.symm
        rw [this.1] at h; exact h
    · rw [if_neg hs]
      symm
      rw [decide_eq_false_iff_not, matches_snoc_byte hs]
      rintro ⟨a, he, _⟩
      simp at he
  simp only [nextRow]
  rw [key, rowLoop_spec]

open Classical in
theorem firstRow_spec (s : List UInt8) : firstRow s = decide (Matches [] []) :: specRow [] [] s := by
  have h : ∀ (s pre : List UInt8), s.map (fun _ => false) = specRow [] pre s := by
    intro s
    induction s with
    | nil => intro _; rfl
    | cons c s ih =>
      intro pre
      simp only [List.map_cons, specRow, matches_nil]
      rw [← ih]; simp
  simp [firstRow, ← h s [], Matches.nil]

open Classical in
theorem lastRow_spec (q p s : List UInt8) :
    p.foldl (fun row pc => nextRow pc s row) (decide (Matches q []) :: specRow q [] s)
      = decide (Matches (q ++ p) []) :: specRow (q ++ p) [] s := by
  induction p generalizing q with
  | nil => simp
  | cons c p ih =>
    rw [List.foldl_cons, nextRow_spec, ih]; simp

open Classical in
theorem specRow_last (p s pre : List UInt8) :
    (decide (Matches p pre) :: specRow p pre s)[s.length]?.getD false = decide (Matches p (pre ++ s)) := by
  induction s generalizing pre with
  | nil => simp
  | cons c s ih =>
    simp only [List.length_cons, List.getElem?_cons_succ, specRow]
    rw [ih]; simp

/-- **C24.** For every pattern and every topic, the matcher answers yes exactly when the topic can be
obtained by replacing each `*` of the pattern by some byte string. -/
theorem C24_wildcard_match_iff (pattern s : List UInt8) :
    «match» pattern s = true ↔ Matches pattern s := by
  unfold «match»
  split
  · next h => subst h; simp [matches_star1]
  · split
    · next h => subst h; simp [matches_nil]
    · split
      · next h => simp at h; rw [matches_noWild h]; simp
      · rw [lastRow, firstRow_spec, lastRow_spec, specRow_last]; simp

/-! Concrete instances: `job.*` matches `job.completed`, not `jobs`; `a*c*e` matches `abcde`. -/
example : «match» "job.*".toUTF8.data.toList "job.completed".toUTF8.data.toList = true := by decide +kernel
example : «match» "job.*".toUTF8.data.toList "jobs".toUTF8.data.toList = false := by decide +kernel
example : «match» "a*c*e".toUTF8.data.toList "abcde".toUTF8.data.toList = true := by decide +kernel

end Tork.Wildcard

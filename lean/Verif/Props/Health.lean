import Verif.Health
/-!
# C47 — health report
-/

namespace Tork.Health

/-- **C47.** Whatever the indicators and whatever order they are consulted in, the report is UP exactly
when every registered indicator succeeds, and DOWN otherwise. -/
theorem C47_health_up_iff (m : Indicators) :
    (check m = .up ↔ ∀ p ∈ m, p.2 = none) ∧ (check m = .down ↔ ∃ p ∈ m, p.2 ≠ none) := by
  induction m with
  | nil => simp [check]
  | cons p m ih =>
    obtain ⟨n, r⟩ := p
    cases r with
    | none => simpa [check] using ih
    | some e => simp [check]

/-- **C47 (order).** The report does not depend on the iteration order of the indicator map. -/
theorem C47_health_order_irrelevant (m m' : Indicators) (h : m.Perm m') : check m = check m' := by
  have h1 := (C47_health_up_iff m).1
  have h2 := (C47_health_up_iff m').1
  cases hc : check m with
  | up => exact ((h2.2 fun p hp => h1.1 hc p (h.mem_iff.2 hp))).symm
  | down =>
    obtain ⟨p, hp, hn⟩ := (C47_health_up_iff m).2.1 hc
    exact ((C47_health_up_iff m').2.2 ⟨p, h.mem_iff.1 hp, hn⟩).symm

/-- **C47 (registration).** An accepted registration keeps all earlier indicators (none is silently
replaced) and adds the new one; names are non-empty and unique. -/
theorem C47_health_registration (trim : String → String) (name : String) (ind) (m m' : Indicators)
    (h : withIndicator trim name ind m = some m') :
    trim name ≠ "" ∧ (∀ p ∈ m, p.1 ≠ trim name) ∧ ∀ p, p ∈ m' ↔ p ∈ m ∨ p = (trim name, ind) := by
  unfold withIndicator at h
  split at h
  · simp at h
  · split at h
    · simp at h
    · next h1 h2 =>
      simp at h; subst h
      refine ⟨h1, fun p hp he => h2 ?_, by simp⟩
      rw [List.any_eq_true]; exact ⟨p, hp, by simpa using he⟩

example : check [("datastore", none), ("broker", some "down"), ("runtime", none)] = .down := by decide
example : check [("datastore", none), ("broker", none)] = .up := by decide
example : withIndicator id "runtime" none [("broker", none)] = some [("broker", none), ("runtime", none)] := by
  decide

end Tork.Health

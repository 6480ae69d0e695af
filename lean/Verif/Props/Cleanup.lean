import Verif.Cleanup
/-!
# C46 — the cleanup interval adapts within bounds
-/

namespace Tork.Cleanup

def oneMinute : Nat := 60000000000
def oneHour : Nat := 3600000000000

theorem cleanup_bounds (i : Nat) (r) (h : oneMinute ≤ i ∧ i ≤ oneHour) :
    oneMinute ≤ cleanup i r ∧ cleanup i r ≤ oneHour := by
  have e1 : minCleanupInterval = oneMinute := by decide
  have e2 : maxCleanupInterval = oneHour := by decide
  have e3 : oneMinute ≤ oneHour := by decide
  unfold cleanup
  rw [e1, e2]
  generalize oneMinute = a at *
  generalize oneHour = b at *
  split
  · exact h
  · split <;> dsimp only <;> split <;> omega

/-- **C46.** After any sequence of cleanup rounds (successful or not, whatever they removed) the
interval is between one minute and one hour; a round that removed something halves it and a round that
removed nothing doubles it, up to those bounds; a failed round leaves it. -/
theorem C46_interval_bounded (rs : List (Option (Nat × Nat))) :
    (oneMinute ≤ intervalAfter rs ∧ intervalAfter rs ≤ oneHour) ∧
    (∀ n1 n2, n1 + n2 > 0 →
      intervalAfter (rs ++ [some (n1, n2)]) = max oneMinute (intervalAfter rs / 2)) ∧
    intervalAfter (rs ++ [some (0, 0)]) = min oneHour (intervalAfter rs * 2) ∧
    intervalAfter (rs ++ [none]) = intervalAfter rs := by
  have hb : ∀ (rs : List (Option (Nat × Nat))) (i : Nat), oneMinute ≤ i ∧ i ≤ oneHour →
      oneMinute ≤ rs.foldl cleanup i ∧ rs.foldl cleanup i ≤ oneHour := by
    intro rs
    induction rs with
    | nil => intro i h; exact h
    | cons r rs ih => intro i h; exact ih _ (cleanup_bounds i r h)
  have h0 := hb rs initialCleanupInterval (by decide)
  refine ⟨h0, ?_, ?_, ?_⟩
  · intro n1 n2 hn
    simp only [intervalAfter, List.foldl_append, List.foldl_cons, List.foldl_nil, cleanup, hn, if_true]
    have e1 : minCleanupInterval = oneMinute := by decide
    rw [e1]
    generalize oneMinute = a
    split <;> omega
  · simp only [intervalAfter, List.foldl_append, List.foldl_cons, List.foldl_nil, cleanup]
    have e1 : maxCleanupInterval = oneHour := by decide
    rw [e1]
    generalize oneHour = a
    split
    · omega
    · split <;> omega
  · simp [intervalAfter, cleanup]

/-- **C46 (delay).** The actual delay before each round is the interval plus 1 to 60 seconds of jitter:
always within [1 min + 1 s, 1 h + 1 min]. -/
theorem C46_delay_bounded (rs : List (Option (Nat × Nat))) (rnd : Nat) :
    intervalAfter rs + 1000000000 ≤ delay (intervalAfter rs) rnd ∧
    delay (intervalAfter rs) rnd ≤ intervalAfter rs + oneMinute := by
  have : rnd % 60 < 60 := Nat.mod_lt _ (by decide)
  simp only [delay, oneMinute]
  omega

example : intervalAfter [some (0, 0), some (0, 0), some (0, 3)] = 2 * oneMinute := by decide
example : intervalAfter (List.replicate 9 (some (0, 0))) = oneHour := by decide

end Tork.Cleanup

import Verif.CpuLimit

/-!
# C89 — CPU limits of the Docker runtime
-/

namespace Tork.CpuLimit

variable (setString : String → Option Rat)

/-- **C89.** A limit that is a whole number `n` of billionths of a CPU, within 64 bits, is what the container gets, exactly. -/
theorem C89_exact (l : TaskLimits) (hc : l.cpus ≠ "") (q : Rat) (hq : setString l.cpus = some q) (n : Int) (hn : q * 1000000000 = n)
    (h1 : -2 ^ 63 ≤ n) (h2 : n < 2 ^ 63) : parseCPUs setString (some l) = some n := by
  unfold parseCPUs
  simp only [if_neg hc, hq, hn]
  rw [if_neg (by simp)]
  unfold toInt64
  rw [Rat.num_intCast]
  exact congrArg some (by rw [Int.bmod_eq_of_le (by omega) (by omega)])

/-- **C89.** A limit that is not a whole number of billionths, or not a number, is refused. -/
theorem C89_refused (l : TaskLimits) (hc : l.cpus ≠ "") (h : ∀ q, setString l.cpus = some q → ∀ n : Int, q * 1000000000 ≠ n) :
    parseCPUs setString (some l) = none := by
  unfold parseCPUs
  simp only [if_neg hc]
  cases hq : setString l.cpus with
  | none => rfl
  | some q =>
    dsimp only
    refine if_pos fun e => h q hq (q * 1000000000).num ?_
    exact Rat.ext (by rw [Rat.num_intCast]) (by rw [Rat.den_intCast]; exact e)

/-- **C89.** Without a limit there is none. -/
theorem C89_unlimited (limits : Option TaskLimits) (h : ∀ l, limits = some l → l.cpus = "") : parseCPUs setString limits = some 0 := by
  cases limits with
  | none => rfl
  | some l => simp only [parseCPUs, if_pos (h l rfl)]

/-- **C89.** Of two limits that are accepted and within 64 bits, the containers get different ones if they are different: nothing is rounded. -/
theorem C89_injective (l l' : TaskLimits) (hc : l.cpus ≠ "") (hc' : l'.cpus ≠ "") (q q' : Rat) (hq : setString l.cpus = some q)
    (hq' : setString l'.cpus = some q') (n n' : Int) (hn : q * 1000000000 = n) (hn' : q' * 1000000000 = n')
    (h1 : -2 ^ 63 ≤ n) (h2 : n < 2 ^ 63) (h1' : -2 ^ 63 ≤ n') (h2' : n' < 2 ^ 63)
    (he : parseCPUs setString (some l) = parseCPUs setString (some l')) : q = q' := by
  rw [C89_exact setString l hc q hq n hn h1 h2, C89_exact setString l' hc' q' hq' n' hn' h1' h2'] at he
  injection he with he
  rw [← he, ← hn] at hn'
  grind

/-- **C89.** The defect: a limit beyond 64 bits is not refused, but taken modulo 2^64: any multiple of it is no limit at all. -/
theorem C89_overflow_defect (l : TaskLimits) (hc : l.cpus ≠ "") (q : Rat) (hq : setString l.cpus = some q) (k : Int)
    (hk : q * 1000000000 = ((2 ^ 64 * k : Int) : Rat)) : parseCPUs setString (some l) = some 0 := by
  unfold parseCPUs
  simp only [if_neg hc, hq, hk]
  rw [if_neg (by rw [Rat.den_intCast]; exact fun h => h rfl), Rat.num_intCast]
  unfold toInt64
  refine congrArg some ?_
  rw [Int.bmod_def]
  have : (2 ^ 64 * k) % ((2 ^ 64 : Nat) : Int) = 0 := Int.mul_emod_right ..
  rw [this]
  decide

/-! ## Examples -/

def sample (s : String) : Option Rat :=
  if s = "1.5" then some (3 / 2) else if s = "1/3" then some (1 / 3)
  else if s = "18446744073.709551616" then some (18446744073709551616 / 1000000000) else none

example : parseCPUs sample (some { cpus := "1.5" }) = some 1500000000 := by decide +kernel
example : parseCPUs sample (some { cpus := "1/3" }) = none := by decide +kernel
example : parseCPUs sample (some { cpus := "18446744073.709551616" }) = some 0 := 
  C89_overflow_defect sample _ (by decide) (18446744073709551616 / 1000000000) (by decide +kernel) 1 (by decide +kernel)

end Tork.CpuLimit

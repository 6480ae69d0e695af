/-!
# Cleanup interval — model of `/repo/datastore/postgres/postgres.go:41-52,141-203`

Durations in nanoseconds (Go `time.Duration`, an int64; the values stay far below overflow).
-/

namespace Tork.Cleanup

def minute : Nat := 60 * 1000000000
/-- `postgres.go:48` -/
def minCleanupInterval : Nat := minute
/-- `postgres.go:49` -/
def maxCleanupInterval : Nat := 60 * minute
/-- `postgres.go:47` -/
def initialCleanupInterval : Nat := minute

/-- `postgres.go:173-203 cleanup`: `r` is the outcome of the two expunge statements: `none` an error,
`some (n1, n2)` the numbers of removed rows. -/
def cleanup (interval : Nat) (r : Option (Nat × Nat)) : Nat :=
  match r with
  | none => interval
  | some (n1, n2) =>
    if n1 + n2 > 0 then
      let new := interval / 2
      if new < minCleanupInterval then minCleanupInterval else new
    else
      let new := interval * 2
      if new > maxCleanupInterval then maxCleanupInterval else new

/-- `postgres.go:163-171 cleanupProcess`: the interval after a sequence of rounds. -/
def intervalAfter (rs : List (Option (Nat × Nat))) : Nat := rs.foldl cleanup initialCleanupInterval

/-- `postgres.go:165-166`: the sleep before a round: interval plus `rand.Intn(60)+1` seconds. -/
def delay (interval rnd : Nat) : Nat := interval + (rnd % 60 + 1) * 1000000000

end Tork.Cleanup

import Verif.Types

/-!
# CPU limits — model of `/repo/runtime/docker/docker.go:311-324`
-/

namespace Tork.CpuLimit

/-- `big.Int.Int64`: the low 64 bits, in two's complement. -/
def toInt64 (n : Int) : Int := Int.bmod n (2 ^ 64)

/-- `docker.go:311-324 parseCPUs`; `setString` is `big.Rat.SetString`. The result is in billionths of a CPU (`NanoCPUs`), 0 for no limit; `none`: an
error, for which the task fails (`tcontainer.go:104-107`). -/
def parseCPUs (setString : String → Option Rat) (limits : Option TaskLimits) : Option Int :=
  match limits with
  | none => some 0
  | some l =>
    if l.cpus = "" then some 0
    else
      match setString l.cpus with
      | none => none
      | some cpu =>
        let nano := cpu * 1000000000
        if nano.den ≠ 1 then none else some (toInt64 nano.num)

end Tork.CpuLimit

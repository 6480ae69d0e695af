/-!
# Wildcard matcher — model of `/repo/internal/wildcard/wildcard.go`

Go strings are byte sequences: `List UInt8`.
-/

namespace Tork.Wildcard

/-- `wildcard.go:5` `const C = '*'` -/
def star : UInt8 := 42

/-- `wildcard.go:7-16 isWildPattern`. (`range` visits rune starts; the byte `*` is ASCII and hence
always a rune start, so this is "some byte is `*`".) -/
def isWildPattern (pattern : List UInt8) : Bool := pattern.any (· = star)

/-- The inner loop `wildcard.go:57-71` for one pattern byte `pc`: `diag` = `dp[i][j]`,
`left` = `dp[i+1][j]`, the list arguments are the remaining `s[j:]` and `dp[i][j+1:]`. -/
def rowLoop (pc : UInt8) : Bool → Bool → List UInt8 → List Bool → List Bool
  | diag, left, sc :: s, up :: prev =>
    let v := if pc = star then diag || up || left else if pc = sc then diag else false
    v :: rowLoop pc up v s prev
  | _, _, _, _ => []

/-- Row `i+1` of the table from row `i`: first column `wildcard.go:44-50`, the rest
`wildcard.go:57-71`. -/
def nextRow (pc : UInt8) (s : List UInt8) : List Bool → List Bool
  | [] => []
  | d0 :: prev =>
    let first := if pc = star then d0 else false
    first :: rowLoop pc d0 first s prev

/-- Row 0: `wildcard.go:42,52-54`. -/
def firstRow (s : List UInt8) : List Bool := true :: s.map fun _ => false

/-- The outer loop `wildcard.go:57`. -/
def lastRow (pattern s : List UInt8) : List Bool :=
  pattern.foldl (fun row pc => nextRow pc s row) (firstRow s)

/-- `wildcard.go:18-75 Match` (the table is kept row by row). -/
def «match» (pattern s : List UInt8) : Bool :=
  if pattern = [star] then true
  else if pattern = [] then s = []
  else if !isWildPattern pattern then pattern = s
  else (lastRow pattern s)[s.length]?.getD false

end Tork.Wildcard

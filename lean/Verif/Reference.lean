/-!
# Image references — model of `/repo/runtime/docker/reference.go`

Go's `regexp` returns the match that a backtracking matcher with greedy repetition would find first
("leftmost-first"). The model is that matcher, on lists of characters: `ms r s` is the list, in order of preference,
of the ways `r` can match a prefix of `s`, each with the rest of the input and the captured groups. Repetition bodies
in this file never match the empty string, so the treatment of empty iterations is irrelevant.
-/

namespace Tork.Refs

/-- The constructs of `regexp/syntax` used by `reference.go`. -/
inductive Rx
  | eps
  /-- one character of a class -/
  | cls (p : Char → Bool)
  | seq (a b : Rx)
  /-- `a|b` -/
  | alt (a b : Rx)
  /-- `a?` -/
  | opt (a : Rx)
  /-- `a*` -/
  | star (a : Rx)
  /-- capturing group number `n` -/
  | cap (n : Nat) (a : Rx)

abbrev Caps := List (Nat × List Char)

/-- Greedy repetition: one more iteration first, then none. -/
def starM (m : List Char → List (List Char × Caps)) : Nat → List Char → List (List Char × Caps)
  | 0, s => [(s, [])]
  | n + 1, s =>
    ((m s).filter fun x => x.1.length < s.length).flatMap
      (fun x => (starM m n x.1).map fun y => (y.1, x.2 ++ y.2)) ++ [(s, [])]

def ms : Rx → List Char → List (List Char × Caps)
  | .eps, s => [(s, [])]
  | .cls _, [] => []
  | .cls p, c :: s => if p c then [(s, [])] else []
  | .seq a b, s => (ms a s).flatMap fun x => (ms b x.1).map fun y => (y.1, x.2 ++ y.2)
  | .alt a b, s => ms a s ++ ms b s
  | .opt a, s => ms a s ++ [(s, [])]
  | .star a, s => starM (ms a) s.length s
  | .cap n a, s => (ms a s).map fun x => (x.1, x.2 ++ [(n, s.take (s.length - x.1.length))])

/-- `FindStringSubmatch` of an expression anchored by `^…$` (`reference.go:158-160`). -/
def find (r : Rx) (s : List Char) : Option Caps := ((ms r s).find? (fun x => x.1.isEmpty)).map (·.2)

/-- `matches[n]`, the empty string for a group that did not take part. -/
def group (n : Nat) (c : Caps) : List Char :=
  match (c.filter (·.1 = n)).getLast? with
  | some x => x.2
  | none => []

/-! ## Building blocks (`reference.go:120-160`) -/

/-- `literal` -/
def lit (c : Char) : Rx := .cls (· = c)
/-- `a+`; also `repeated`, `reference.go:143-147` -/
def plus (a : Rx) : Rx := .seq a (.star a)
/-- `a{0,n}`, which Go compiles to nested optional expressions -/
def upTo (a : Rx) : Nat → Rx
  | 0 => .eps
  | n + 1 => .opt (.seq a (upTo a n))
/-- `a{n,}`: `n - 1` copies and `a+` -/
def atLeast (a : Rx) : Nat → Rx
  | 0 => .star a
  | 1 => plus a
  | n + 2 => .seq a (atLeast a (n + 1))

def isLower (c : Char) : Bool := 'a' ≤ c && c ≤ 'z'
def isUpper (c : Char) : Bool := 'A' ≤ c && c ≤ 'Z'
def isDigit (c : Char) : Bool := '0' ≤ c && c ≤ '9'
/-- `[a-z0-9]` -/
def isLowNum (c : Char) : Bool := isLower c || isDigit c
/-- `[a-zA-Z]` -/
def isAlpha (c : Char) : Bool := isLower c || isUpper c
/-- `[a-zA-Z0-9]` -/
def isAlnum (c : Char) : Bool := isAlpha c || isDigit c
/-- `\w` -/
def isWord (c : Char) : Bool := isAlnum c || c = '_'
/-- `[[:xdigit:]]` -/
def isHex (c : Char) : Bool := isDigit c || ('a' ≤ c && c ≤ 'f') || ('A' ≤ c && c ≤ 'F')

/-- `reference.go:18` `[a-z0-9]+` -/
def alphaNumericRx : Rx := plus (.cls isLowNum)
/-- `reference.go:23` `(?:[._]|__|[-]*)` -/
def separatorRx : Rx :=
  .alt (.cls fun c => c = '.' || c = '_') (.alt (.seq (lit '_') (lit '_')) (.star (lit '-')))
/-- `reference.go:28-30` -/
def nameComponentRx : Rx := .seq alphaNumericRx (.opt (plus (.seq separatorRx alphaNumericRx)))
/-- `reference.go:35` `(?:[a-zA-Z0-9]|[a-zA-Z0-9][a-zA-Z0-9-]*[a-zA-Z0-9])` -/
def domainComponentRx : Rx :=
  .alt (.cls isAlnum) (.seq (.cls isAlnum) (.seq (.star (.cls fun c => isAlnum c || c = '-')) (.cls isAlnum)))
/-- `reference.go:41-44` -/
def domainRx : Rx :=
  .seq domainComponentRx (.seq (.opt (plus (.seq (lit '.') domainComponentRx)))
    (.opt (.seq (lit ':') (plus (.cls isDigit)))))
/-- `reference.go:47` `[\w][\w.-]{0,127}` -/
def tagRx : Rx := .seq (.cls isWord) (upTo (.cls fun c => isWord c || c = '.' || c = '-') 127)
/-- `[A-Za-z][A-Za-z0-9]*` of `reference.go:50` -/
def algoRx : Rx := .seq (.cls isAlpha) (.star (.cls isAlnum))
/-- `reference.go:50` `[A-Za-z][A-Za-z0-9]*(?:[-_+.][A-Za-z][A-Za-z0-9]*)*[:][[:xdigit:]]{32,}` -/
def digestRx : Rx :=
  .seq algoRx (.seq (.star (.seq (.cls fun c => c = '-' || c = '_' || c = '+' || c = '.') algoRx))
    (.seq (lit ':') (atLeast (.cls isHex) 32)))
/-- The part of `reference.go:55-58, 62-65` after the domain. -/
def pathRx : Rx := .seq nameComponentRx (.opt (plus (.seq (lit '/') nameComponentRx)))
/-- `reference.go:55-58` -/
def nameRx : Rx := .seq (.opt (.seq domainRx (lit '/'))) pathRx
/-- `reference.go:62-65` -/
def anchoredNameRx : Rx := .seq (.opt (.seq (.cap 1 domainRx) (lit '/'))) (.cap 2 pathRx)
/-- `reference.go:70-72` -/
def referenceRx : Rx :=
  .seq (.cap 1 nameRx) (.seq (.opt (.seq (lit ':') (.cap 2 tagRx))) (.opt (.seq (lit '@') (.cap 3 digestRx))))

/-- `reference.go:92-96` -/
structure Reference where
  domain : List Char := []
  path : List Char := []
  tag : List Char := []
  deriving DecidableEq

/-- `reference.go:75-87` -/
inductive RefErr
  | empty | uppercase | invalid | tooLong
  deriving DecidableEq

/-- `reference.go:99-129 parseRef`; `lower` is `strings.ToLower`. -/
def parseRef (lower : List Char → List Char) (s : List Char) : Except RefErr Reference :=
  match find referenceRx s with
  | none =>
    if s = [] then .error .empty
    else if (find referenceRx (lower s)).isSome then .error .uppercase
    else .error .invalid
  | some m =>
    if (group 1 m).length > 255 then .error .tooLong
    else
      match find anchoredNameRx (group 1 m) with
      | some nm => .ok { domain := group 1 nm, path := group 2 nm, tag := group 2 m }
      | none => .ok { domain := [], path := group 1 m, tag := group 2 m }

end Tork.Refs

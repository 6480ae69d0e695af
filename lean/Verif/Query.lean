import Verif.Handlers
/-!
# Search query parsing — model of `/repo/datastore/postgres/postgres.go:1661-1676`

Strings are lists of characters here.
-/

namespace Tork

/-- `strings.Fields`: `cur` is the current word (reversed). -/
def fieldsAux : List Char → List Char → List (List Char)
  | cur, [] => if cur = [] then [] else [cur.reverse]
  | cur, c :: s =>
    if isSpace c then (if cur = [] then fieldsAux [] s else cur.reverse :: fieldsAux [] s)
    else fieldsAux (c :: cur) s

def fields (s : List Char) : List (List Char) := fieldsAux [] s

/-- `strings.Split(s, ",")`: `cur` is the current piece (reversed). -/
def splitCommaAux : List Char → List Char → List (List Char)
  | cur, [] => [cur.reverse]
  | cur, c :: s => if c = ',' then cur.reverse :: splitCommaAux [] s else splitCommaAux (c :: cur) s

def splitComma (s : List Char) : List (List Char) := splitCommaAux [] s

/-- `strings.Join(l, " ")` -/
def joinSpace : List (List Char) → List Char
  | [] => []
  | [w] => w
  | w :: ws => w ++ ' ' :: joinSpace ws

/-- `strings.HasPrefix` + `strings.TrimPrefix`: the rest after the prefix. -/
def dropPrefix? : List Char → List Char → Option (List Char)
  | [], s => some s
  | _ :: _, [] => none
  | p :: ps, c :: s => if p = c then dropPrefix? ps s else none

/-- `postgres.go:1665-1674`: what one word contributes to (terms, tags). -/
def classify (w : List Char) : List (List Char) × List (List Char) :=
  match dropPrefix? "tag:".toList w with
  | some x => ([], [x])
  | none =>
    match dropPrefix? "tags:".toList w with
    | some x => ([], splitComma x)
    | none => ([w], [])

/-- `postgres.go:1661-1676 parseQuery` -/
def parseQuery (q : List Char) : List Char × List (List Char) :=
  let ws := fields q
  (joinSpace (ws.flatMap fun w => (classify w).1), ws.flatMap fun w => (classify w).2)

end Tork

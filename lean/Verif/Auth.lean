import Verif.Rel
/-!
# Authentication of requests — model of `/repo/engine/coordinator.go:83-155`, `/repo/internal/coordinator/api/api.go:84-130`

Which requests reach an end point of the coordinator's API, and on whose behalf. The echo middleware used (`middleware.BasicAuth`,
`middleware.KeyAuthWithConfig` of echo v4.13) is not part of the repository; it is modelled as documented: basic authentication looks at the
first `Authorization` header, key authentication at all of them (at most 20); schemes are compared ignoring case. Rate and body
limits, CORS and logging, which may refuse a request but never admit one, and user-supplied web middleware are not modelled. Base64 and
bcrypt are parameters.
-/

namespace Tork.Auth

/-- Configuration (`middleware.web.basicauth.enabled`, `middleware.web.keyauth`). -/
structure Config where
  basic : Bool
  /-- the key, if key authentication is enabled (`coordinator.go:140-144`: a random one if none is configured) -/
  key : Option (List Char)

structure Request where
  path : String
  /-- the `Authorization` headers -/
  auth : List (List Char)

structure Params where
  /-- `base64.StdEncoding.DecodeString` -/
  decode : List Char → Option (List Char)
  /-- `hash.CheckPasswordHash(password, hash)` (bcrypt) -/
  check : String → String → Bool
  /-- a user's id as a string -/
  idText : Nat → String

/-- Comparison ignoring the case of ASCII letters. -/
def sameFold (a b : List Char) : Bool := a.map Char.toLower = b.map Char.toLower

/-- echo: what follows the scheme and one byte, in `Authorization: <scheme> …`, if there is something -/
def afterScheme (scheme : List Char) (h : List Char) : Option (List Char) :=
  if h.length > scheme.length + 1 ∧ sameFold (h.take scheme.length) scheme = true then some (h.drop (scheme.length + 1)) else none

/-- echo: user and password, separated by the first colon -/
def userPass : List Char → Option (List Char × List Char)
  | [] => none
  | c :: s => if c = ':' then some ([], s) else (userPass s).map fun p => (c :: p.1, p.2)

/-- The validator, `coordinator.go:125-138`. The user is looked up by name or id; the name must be the one given. -/
def validUser (P : Params) (db : Rel) (user pass : List Char) : Bool :=
  match getUser P.idText db (.ofList user) with
  | none => false
  | some u => decide (String.ofList user = u.username) && P.check (.ofList pass) u.passwordHash

/-- `middleware.BasicAuth`: the user's name (put into the request's context, `coordinator.go:133`), `none` if refused. -/
def basicAuth (P : Params) (db : Rel) (r : Request) : Option String := do
  let h ← r.auth.head?
  let text ← afterScheme "basic".toList h
  let cred ← P.decode text
  let (user, pass) ← userPass cred
  if validUser P db user pass then some (.ofList user) else none

/-- echo: the keys of the `Authorization: Bearer …` headers; the prefix `Bearer ` includes the blank -/
def bearers (r : Request) : List (List Char) :=
  (r.auth.take 20).filterMap fun h =>
    if h.length > 7 ∧ sameFold (h.take 7) "Bearer ".toList = true then some (h.drop 7) else none

/-- `keyAuth`, `coordinator.go:140-155`: no key is needed for `/health`. -/
def keyAuth (key : List Char) (r : Request) : Bool := decide (r.path = "/health") || (bearers r).any fun k => decide (k = key)

/-- The chain of `echoMiddleware` (`coordinator.go:82-123`), installed for all end points (`api.go:118-126`): `none` if the request is refused, otherwise
the name of the user, if any. -/
def admit (P : Params) (c : Config) (db : Rel) (r : Request) : Option (Option String) :=
  let next (user : Option String) : Option (Option String) :=
    match c.key with
    | none => some user
    | some key => if keyAuth key r then some user else none
  if c.basic then
    match basicAuth P db r with
    | none => none
    | some u => next (some u)
  else next none

end Tork.Auth

import Verif.Reference
import Verif.Types
/-!
# Registry credentials — model of `/repo/runtime/docker/auth.go`, `/repo/runtime/docker/docker.go:398-419`

What is sent to the daemon as `RegistryAuth` when an image is pulled. The credential helper programs are an arbitrary function,
decoding base64 and lower-casing are arbitrary functions.
-/

namespace Tork.Creds
open Tork.Refs

/-- `/repo/runtime/docker/config.go:42-60` (the fields used) -/
structure AuthEntry where
  username : String := ""
  password : String := ""
  auth : String := ""
  identityToken : String := ""
  deriving DecidableEq

/-- `/repo/runtime/docker/config.go:4-31` (the fields used) -/
structure File where
  auths : String → Option AuthEntry := fun _ => none
  credsStore : String := ""
  credHelpers : String → Option String := fun _ => none

/-- what reading the configuration file gives, `auth.go:200-223` -/
inductive Loaded
  | ok (f : File)
  | absent
  | failed

/-- what running a credential helper gives, `auth.go:121-151` -/
inductive HelperReply
  /-- there is no such program, `:121-124` -/
  | absent
  /-- it does not know the registry, `:134-135` -/
  | notFound
  | failed
  | found (username secret : String)

/-- The surroundings of the worker. -/
structure Host where
  file : Loaded
  /-- the helper of the platform, `auth.go:162-176`; empty: none -/
  platformHelper : String
  helper : (name registry : String) → HelperReply
  /-- base64 -/
  decode : String → Option String
  lower : List Char → List Char

/-- `none`: error; otherwise user name and password -/
abbrev Result := Option (String × String)

/-- `getCredentialsFromHelper`, `auth.go:113-159` -/
def fromHelper (h : Host) (name registry : String) : Result :=
  let name := if name = "" then h.platformHelper else name
  if name = "" then some ("", "")
  else match h.helper name registry with
    | .absent | .notFound => some ("", "")
    | .failed => none
    | .found u s => some (if u = "<token>" then "" else u, s)

/-- `strings.Trim(s, "\x00")` -/
def trimNul (s : List Char) : List Char :=
  ((s.dropWhile (· == '\x00')).reverse.dropWhile (· == '\x00')).reverse

/-- `decodeBase64Auth`, `auth.go:79-101`; `SplitN(_, ":", 2)` cuts at the first colon. The check at `:91` never fails. -/
def decodeAuth (h : Host) (a : AuthEntry) : Result :=
  if a.auth = "" then some ("", "")
  else match h.decode a.auth with
    | none => none
    | some d =>
      match d.toList.dropWhile (· != ':') with
      | [] => none
      | _ :: rest => some (String.ofList (d.toList.takeWhile (· != ':')), String.ofList (trimNul rest))

/-- `(c *config) getRegistryCredentials`, `auth.go:49-73` -/
def fromFile (h : Host) (f : File) (registry : String) : Result :=
  match f.credHelpers registry with
  | some name => fromHelper h name registry
  | none =>
    if f.credsStore ≠ "" then fromHelper h f.credsStore registry
    else match f.auths registry with
      | none => fromHelper h "" registry
      | some a =>
        if a.identityToken ≠ "" then some ("", a.identityToken)
        else if a.username ≠ "" && a.password ≠ "" then some (a.username, a.password)
        else decodeAuth h a

/-- `getRegistryCredentials`, `auth.go:33-42` -/
def registryCredentials (h : Host) (registry : String) : Result :=
  match h.file with
  | .ok f => fromFile h f registry
  | .absent => fromHelper h "" registry
  | .failed => none

/-- The user name and password sent when `image` is pulled for a task with the given registry login, `docker.go:360-365`, `:398-419`. -/
def authFor (h : Host) (login : Option Registry) (image : String) : Result :=
  let (u, p) := match login with | some r => (r.username, r.password) | none => ("", "")
  if u ≠ "" then some (u, p)
  else match parseRef h.lower image.toList with
    | .error _ => none
    | .ok ref => if ref.domain = [] then some ("", "") else registryCredentials h (String.ofList ref.domain)

end Tork.Creds

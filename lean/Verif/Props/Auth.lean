import Verif.Auth
import Verif.Props.Listing
/-!
# C69 — only authenticated requests are served

Specification: `Basic user pass h` says that a header carries these credentials.
-/

namespace Tork.Auth

variable {P : Params} {c : Config} {db : Rel} {r : Request}

/-- The header is `Basic `, in any case, and an encoding of `user:pass`; the user's name contains no colon. -/
def Basic (P : Params) (user pass : List Char) (h : List Char) : Prop :=
  ∃ scheme blank text, h = scheme ++ blank :: text ∧ scheme.map Char.toLower = "basic".toList ∧ text ≠ [] ∧ ':' ∉ user ∧
    P.decode text = some (user ++ ':' :: pass)

/-- The header is `Bearer `, in any case, and the key. -/
def Bearer (key : List Char) (h : List Char) : Prop := ∃ scheme, h = scheme ++ key ∧ scheme.map Char.toLower = "bearer ".toList

theorem userPass_iff {s u p : List Char} : userPass s = some (u, p) ↔ s = u ++ ':' :: p ∧ ':' ∉ u := by
  induction s generalizing u with
  | nil => simp [userPass]
  | cons c s ih =>
    unfold userPass
    by_cases h : c = ':'
    · rw [if_pos h]
      subst h
      cases u with
      | nil => simp
      | cons d u => simp; rintro rfl; simp
    · rw [if_neg h]
      cases u with
      | nil => simp [h]
      | cons d u =>
        simp only [Option.map_eq_some_iff, Prod.mk.injEq, Prod.exists, List.cons.injEq, List.cons_append, List.mem_cons, not_or]
        constructor
        · rintro ⟨a, b, h1, ⟨rfl, rfl⟩, rfl⟩
          have := ih.1 h1
          exact ⟨⟨rfl, this.1⟩, Ne.symm h, this.2⟩
        · rintro ⟨⟨rfl, h1⟩, h2, h3⟩
          exact ⟨u, p, ih.2 ⟨h1, h3⟩, ⟨rfl, rfl⟩, rfl⟩

theorem afterScheme_iff {k h t : List Char} : afterScheme k h = some t ↔
    ∃ s b, h = s ++ b :: t ∧ s.map Char.toLower = k.map Char.toLower ∧ t ≠ [] := by
  unfold afterScheme
  constructor
  · intro e
    split at e
    · rename_i hc
      injection e with e
      obtain ⟨h1, h2⟩ := hc
      have hl : k.length < h.length := by omega
      refine ⟨h.take k.length, h[k.length], ?_, by simpa [sameFold] using h2, ?_⟩
      · rw [← e, List.getElem_cons_drop, List.take_append_drop]
      · intro ht
        rw [← e, List.drop_eq_nil_iff] at ht
        omega
    · cases e
  · rintro ⟨s, b, rfl, h2, h3⟩
    have hl : s.length = k.length := by simpa using congrArg List.length h2
    have ht : 0 < t.length := List.length_pos_iff.2 h3
    rw [if_pos]
    · rw [← hl]
      simp [List.drop_append]
    · rw [← hl]
      refine ⟨by simp; omega, ?_⟩
      simp [sameFold, h2]

theorem validUser_iff {user pass : List Char} : validUser P db user pass = true ↔
    ∃ u, getUser P.idText db (.ofList user) = some u ∧ u.username = String.ofList user ∧ P.check (.ofList pass) u.passwordHash = true := by
  unfold validUser
  split
  · rename_i h; simp [h]
  · rename_i u h
    rw [h]
    simp only [Bool.and_eq_true, decide_eq_true_eq, Option.some.injEq, exists_eq_left']
    exact and_congr_left fun _ => eq_comm

theorem basicAuth_iff {name : String} : basicAuth P db r = some name ↔
    ∃ h rest user pass, r.auth = h :: rest ∧ Basic P user pass h ∧ validUser P db user pass = true ∧ name = .ofList user := by
  have hlow : ("basic".toList).map Char.toLower = "basic".toList := by decide
  unfold basicAuth
  constructor
  · intro e
    simp only [Option.bind_eq_bind, Option.bind_eq_some_iff] at e
    obtain ⟨h, h1, text, h2, cred, h3, ⟨user, pass⟩, h4, h5⟩ := e
    simp only at h5
    split at h5
    · rename_i hv
      injection h5 with h5
      obtain ⟨s, b, rfl, h6, h7⟩ := afterScheme_iff.1 h2
      obtain ⟨rfl, h8⟩ := userPass_iff.1 h4
      obtain ⟨rest, hr⟩ : ∃ rest, r.auth = (s ++ b :: text) :: rest := by
        cases ha : r.auth with
        | nil => rw [ha] at h1; cases h1
        | cons x xs => rw [ha] at h1; injection h1 with h1; exact ⟨xs, by rw [h1]⟩
      exact ⟨_, rest, user, pass, hr, ⟨s, b, text, rfl, h6.trans hlow, h7, h8, h3⟩, hv, h5.symm⟩
    · cases h5
  · rintro ⟨h, rest, user, pass, hr, ⟨s, b, text, rfl, h6, h7, h8, h3⟩, hv, rfl⟩
    have h2 := afterScheme_iff.2 ⟨s, b, rfl, h6.trans hlow.symm, h7⟩
    simp only [hr, List.head?_cons, Option.bind_eq_bind, Option.bind_some, h2, h3, userPass_iff.2 ⟨rfl, h8⟩, hv, if_pos]

theorem keyAuth_iff {key : List Char} (hk : key ≠ []) : keyAuth key r = true ↔
    r.path = "/health" ∨ ∃ h ∈ r.auth.take 20, Bearer key h := by
  have hlow : ("Bearer ".toList).map Char.toLower = "bearer ".toList := by decide
  have hlen : "Bearer ".toList.length = 7 := by decide
  unfold keyAuth bearers
  rw [Bool.or_eq_true, decide_eq_true_eq, List.any_eq_true]
  simp only [List.mem_filterMap, decide_eq_true_eq]
  refine or_congr .rfl ?_
  constructor
  · rintro ⟨k, ⟨h, hm, hc⟩, rfl⟩
    split at hc
    · rename_i hh
      injection hc with hc
      refine ⟨h, hm, h.take 7, ?_, ?_⟩
      · rw [← hc, List.take_append_drop]
      · have := hh.2
        unfold sameFold at this
        rw [decide_eq_true_eq] at this
        rw [this, hlow]
    · cases hc
  · rintro ⟨h, hm, s, rfl, hs⟩
    have hl : s.length = 7 := by
      have := congrArg List.length (hs.trans hlow.symm)
      simpa [hlen] using this
    have hkl : 0 < key.length := List.length_pos_iff.2 hk
    refine ⟨key, ⟨_, hm, ?_⟩, rfl⟩
    rw [if_pos]
    · rw [← hl]; simp
    · refine ⟨by simp; omega, ?_⟩
      unfold sameFold
      rw [decide_eq_true_eq, ← hl]
      simp [hs]

/-- C69: with basic authentication a request is served only on behalf of a user that exists, whose name and password the request gives; it is that
user's name that the end points see. -/
theorem C69_basic {who : Option String} (hb : c.basic = true) (h : admit P c db r = some who) :
    ∃ hd rest user pass, ∃ u ∈ db.users, r.auth = hd :: rest ∧ Basic P user pass hd ∧ who = some u.username ∧
      u.username = String.ofList user ∧ P.check (String.ofList pass) u.passwordHash = true := by
  unfold admit at h
  simp only at h
  rw [if_pos hb] at h
  cases ha : basicAuth P db r with
  | none => rw [ha] at h; cases h
  | some name =>
    rw [ha] at h
    have hw : who = some name := by
      simp only at h
      split at h
      · injection h with h; exact h.symm
      · split at h
        · injection h with h; exact h.symm
        · cases h
    obtain ⟨hd, rest, user, pass, h1, h2, h3, rfl⟩ := basicAuth_iff.1 ha
    obtain ⟨u, h4, h5, h6⟩ := validUser_iff.1 h3
    exact ⟨hd, rest, user, pass, u, List.mem_of_find?_eq_some h4, h1, h2, by rw [hw, h5], h5, h6⟩

/-- C69: with key authentication a request for anything but `/health` is served only if it carries the key. -/
theorem C69_key {key : List Char} {who : Option String} (hk : c.key = some key) (hne : key ≠ []) (hp : r.path ≠ "/health")
    (h : admit P c db r = some who) : ∃ hd ∈ r.auth, Bearer key hd := by
  have hkey : keyAuth key r = true := by
    unfold admit at h
    simp only [hk] at h
    split at h
    · split at h
      · cases h
      · split at h
        · assumption
        · cases h
    · split at h
      · assumption
      · cases h
  rcases (keyAuth_iff hne).1 hkey with h1 | ⟨hd, h1, h2⟩
  · exact absurd h1 hp
  · exact ⟨hd, List.mem_of_mem_take h1, h2⟩

/-- C69, the converse: right credentials are accepted. (Names are unique, and no user has the id of another as its name.) -/
theorem C69_accepted {user pass hd : List Char} {rest : List (List Char)} {u : User} (hb : c.basic = true) (hk : c.key = none)
    (ha : r.auth = hd :: rest) (h : Basic P user pass hd) (hu : u ∈ db.users) (hn : u.username = String.ofList user)
    (hpw : P.check (String.ofList pass) u.passwordHash = true)
    (huniq : ∀ v ∈ db.users, v.username = u.username ∨ P.idText v.id = u.username → v = u) : admit P c db r = some (some u.username) := by
  have hg : getUser P.idText db (.ofList user) = some u := by
    unfold getUser
    rw [← hn]
    cases hf : db.users.find? (fun v => decide (v.username = u.username) || decide (P.idText v.id = u.username)) with
    | none =>
      have := List.find?_eq_none.1 hf u hu
      simp at this
    | some v =>
      have h1 := List.find?_some hf
      simp only [Bool.or_eq_true, decide_eq_true_eq] at h1
      rw [huniq v (List.mem_of_find?_eq_some hf) h1]
  have := basicAuth_iff.2 ⟨hd, rest, user, pass, ha, h, validUser_iff.2 ⟨u, hg, hn, hpw⟩, rfl⟩
  unfold admit
  simp only [hb, if_true, this, hk, hn]

/-- C69: without authentication everything is served, on nobody's behalf; with a key alone, too, to those who have the key. -/
theorem C69_open (hb : c.basic = false) :
    admit P c db r = match c.key with
      | none => some none
      | some key => if keyAuth key r then some none else none := by
  unfold admit
  simp only [hb]
  rfl

/-- C69: `/health` is served without credentials, unless basic authentication is enabled. -/
theorem C69_health (hp : r.path = "/health") (ha : r.auth = []) : (admit P c db r).isSome = !c.basic := by
  cases hb : c.basic with
  | false =>
    rw [C69_open hb]
    cases c.key with
    | none => rfl
    | some key => simp [keyAuth, hp]
  | true =>
    unfold admit basicAuth
    simp [hb, ha]

/-- C69, a defect: with basic and key authentication both enabled, both expect their credentials in the header `Authorization`, and a request
with one such header, like that of every ordinary client, is refused, whatever it contains; `/health` excepted. -/
theorem C69_both_lock_out {key hd : List Char} (hb : c.basic = true) (hk : c.key = some key) (hne : key ≠ []) (hp : r.path ≠ "/health")
    (ha : r.auth = [hd]) : admit P c db r = none := by
  cases h : admit P c db r with
  | none => rfl
  | some who =>
    exfalso
    obtain ⟨hd1, rest, user, pass, u, -, h1, ⟨s, b, text, h2, h3, -⟩, -⟩ := C69_basic hb h
    obtain ⟨hd2, h4, s', h5, h6⟩ := C69_key hk hne hp h
    rw [ha] at h1 h4
    injection h1 with h1
    rw [List.mem_singleton] at h4
    have e : s ++ b :: text = s' ++ key := by rw [← h2, ← h5, h4, h1]
    have e2 : (s ++ b :: text).map Char.toLower = (s' ++ key).map Char.toLower := by rw [e]
    rw [List.map_append, List.map_append, h3, h6] at e2
    have := congrArg (fun l => l[1]?) e2
    simp at this

/-- C69, a defect: whether a user is disabled makes no difference. -/
theorem C69_disabled_ignored (users : List User) (f : User → Bool) :
    admit P c { db with users := users.map fun u => { u with disabled := f u } } r = admit P c { db with users := users } r := by
  have hg : ∀ name, getUser P.idText { db with users := users.map fun u => { u with disabled := f u } } name =
      (getUser P.idText { db with users := users } name).map fun u => { u with disabled := f u } := by
    intro name
    unfold getUser
    simp only [List.find?_map]
    rfl
  have hv : ∀ user pass, validUser P { db with users := users.map fun u => { u with disabled := f u } } user pass =
      validUser P { db with users := users } user pass := by
    intro user pass
    unfold validUser
    rw [hg]
    cases getUser P.idText { db with users := users } (.ofList user) <;> rfl
  unfold admit basicAuth
  simp only [hv]

/-- C69, a defect: a user whose name contains a colon, which can be created, can never log in. -/
theorem C69_colon {who : String} (hb : c.basic = true) (hc : ':' ∈ who.toList) : admit P c db r ≠ some (some who) := by
  intro h
  obtain ⟨hd, rest, user, pass, u, -, -, ⟨_, _, _, -, -, -, h1, -⟩, h2, h3, -⟩ := C69_basic hb h
  injection h2 with h2
  rw [h2, h3, String.toList_ofList] at hc
  exact h1 hc

/-- C69: who has been created through the API can log in with that name and password (without surrounding white space, which is removed), provided that the name contains no
colon. `hash` and `check` belong together. -/
theorem C69_created_user {hash : String → Option String} {id now : Nat} {req shown : User} {db' : Rel} {hd : List Char}
    {rest : List (List Char)} (hcreate : apiCreateUser P.idText hash id now req db = (.ok shown, db'))
    (hcheck : ∀ p h, hash p = some h → P.check p h = true) (hb : c.basic = true) (hk : c.key = none)
    (ha : r.auth = hd :: rest) (h : Basic P (trimSpace req.username).toList (trimSpace req.password).toList hd) :
    admit P c db' r = some (some (trimSpace req.username)) := by
  rcases C54_create P.idText hash id now req db with ⟨e, he⟩ | ⟨hh, row, shown', he, h1, -, -, h2, h3, h4, -, -, h5, -⟩
  · rw [hcreate] at he; cases he
  · rw [hcreate] at he
    injection he with he1 he2
    subst he2
    have := C69_accepted (P := P) (c := c) (db := { db with users := db.users ++ [row] }) (r := r) (u := row) hb hk ha h (by simp) (by rw [h1, String.ofList_toList])
      (by rw [String.ofList_toList, h4]; exact hcheck _ _ h3)
      (by
        intro v hv hc
        simp only [List.mem_append, List.mem_singleton] at hv
        rcases hv with hv | rfl
        · have := h2 v hv
          rcases hc with hc | hc
          · exact absurd hc this.1
          · exact absurd hc this.2.1
        · rfl)
    rw [this, h1]

end Tork.Auth

/-! ## Examples -/

namespace Tork.Auth.Ex

/-- Passwords are stored in clear, the encoding is the identity. -/
def P : Params := ⟨some, fun p h => decide (p = h), fun n => toString n⟩
def db : Rel := { users := [{ id := 1, username := "guest" }, { id := 2, username := "ann", passwordHash := "x:y" }] }

/-- Ann logs in, with a password that contains a colon; somebody else does not; the assumptions of the theorems. -/
example : admit P ⟨true, none⟩ db ⟨"/jobs", ["BASIC ann:x:y".toList]⟩ = some (some "ann") ∧
    admit P ⟨true, none⟩ db ⟨"/jobs", ["Basic ann:x".toList]⟩ = none ∧
    admit P ⟨true, none⟩ db ⟨"/jobs", ["Basic 2:x:y".toList]⟩ = none ∧
    admit P ⟨false, some "k".toList⟩ db ⟨"/jobs", ["bearer k".toList]⟩ = some none ∧
    admit P ⟨false, some "k".toList⟩ db ⟨"/jobs", ["Bearer l".toList]⟩ = none ∧
    admit P ⟨true, some "k".toList⟩ db ⟨"/jobs", ["Basic ann:x:y".toList, "Bearer k".toList]⟩ = some (some "ann") := by
  decide +kernel

end Tork.Auth.Ex

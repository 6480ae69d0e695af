import Verif.Credentials
import Verif.Props.Reference
/-!
# C61 — which credentials are sent with which image
-/

namespace Tork.Creds
open Tork.Refs

/-! ## Specification -/

/-- The text before the first slash, if there is a slash. -/
def Prefixed (d image : List Char) : Prop := ∃ rest, image = d ++ '/' :: rest ∧ '/' ∉ d

/-- Docker's rule for the registry an image is pulled from (not part of this code base): the text before the first slash if it
looks like a host (a dot, a colon or an upper-case letter in it, or `localhost`), otherwise Docker Hub. -/
def Contacts (image d : List Char) : Prop :=
  Prefixed d image ∧ ('.' ∈ d ∨ ':' ∈ d ∨ (∃ c ∈ d, isUpper c = true) ∨ d = "localhost".toList)

/-- The image is pulled from Docker Hub. -/
def FromHub (image : List Char) : Prop := ¬ ∃ d, Contacts image d

/-- The task brings no user name of its own. -/
def NoLogin (login : Option Registry) : Prop := ∀ r, login = some r → r.username = ""

/-- Both workers have the same to say about registry `d`; anything else may differ, in particular what they know about other
registries. -/
structure SameFor (d : String) (h h' : Host) : Prop where
  file : match h.file, h'.file with
    | .ok f, .ok f' => f.credHelpers d = f'.credHelpers d ∧ f.credsStore = f'.credsStore ∧ f.auths d = f'.auths d
    | .absent, .absent => True
    | .failed, .failed => True
    | _, _ => False
  platform : h.platformHelper = h'.platformHelper
  helper : ∀ name, h.helper name d = h'.helper name d
  decode : h.decode = h'.decode

/-! ## Lemmas -/

theorem authFor_noLogin {h : Host} {login : Option Registry} (hl : NoLogin login) (image : String) :
    authFor h login image =
      match parseRef h.lower image.toList with
      | .error _ => none
      | .ok ref => if ref.domain = [] then some ("", "") else registryCredentials h (String.ofList ref.domain) := by
  unfold authFor
  generalize parseRef h.lower image.toList = x
  cases login with
  | none => cases x <;> simp
  | some r => cases x <;> simp [hl r rfl]

theorem fromHelper_same {d : String} {h h' : Host} (hs : SameFor d h h') (n : String) : fromHelper h n d = fromHelper h' n d := by
  simp only [fromHelper, hs.platform, hs.helper]

theorem registry_same {d : String} {h h' : Host} (hs : SameFor d h h') : registryCredentials h d = registryCredentials h' d := by
  have hf := hs.file
  unfold registryCredentials
  cases h1 : h.file <;> cases h2 : h'.file <;> simp only [h1, h2] at hf ⊢
  · obtain ⟨e1, e2, e3⟩ := hf
    simp only [fromFile, e1, e2, e3, fromHelper_same hs, decodeAuth, hs.decode]
  · exact fromHelper_same hs _

theorem digest_slash {g : List Char} (h : Digest g) : '/' ∉ g := by
  obtain ⟨a, x, rfl, ha, -, hx⟩ := h
  intro hm
  have hA : ∀ w, AlgoPart w → '/' ∉ w := by
    rintro w ⟨a, m, rfl, h1, h2⟩ hm
    rcases List.mem_cons.1 hm with e | e
    · subst e; exact absurd h1 (by decide)
    · exact absurd (h2 _ e) (by decide)
  rcases List.mem_append.1 hm with e | e
  · clear hm hx
    induction ha with
    | one h => exact hA _ h e
    | more h1 h2 h3 ih =>
      rcases List.mem_append.1 e with e | e
      · exact hA _ h1 e
      · rcases List.mem_cons.1 e with e | e
        · subst e; revert h2; decide
        · exact ih e
  · rcases List.mem_cons.1 e with e | e
    · exact absurd e (by decide)
    · exact absurd (hx _ e) (by decide)

theorem prefixed_unique {d d' image : List Char} (h : Prefixed d image) (h' : Prefixed d' image) : d = d' := by
  obtain ⟨r, rfl, h1⟩ := h
  obtain ⟨r', e, h2⟩ := h'
  exact (cut_unique h1 h2 e).1

/-- An accepted reference with a domain begins with it. -/
theorem prefixed_domain {r : Reference} {g s : List Char} (hv : Valid r.domain r.path r.tag g)
    (hs : s = refText r.domain r.path r.tag g) (hd : r.domain ≠ []) : Prefixed r.domain s := by
  rcases hv.domain with h | h
  · exact absurd h hd
  · refine ⟨r.path ++ (if r.tag = [] then [] else ':' :: r.tag) ++ (if g = [] then [] else '@' :: g), ?_,
      fun hm => (domain_chars h _ hm).1 rfl⟩
    rw [hs, refText, nameText, if_neg hd]
    simp only [List.append_assoc, List.cons_append]

theorem path_cut {p : List Char} (h : Path p) {a b : List Char} (e : p = a ++ '/' :: b) (ha : '/' ∉ a) : Path b := by
  cases h with
  | one hc => subst e; exact absurd rfl (component_chars hc '/' (by simp)).1
  | more hc hp =>
    have := cut_unique (fun hm => (component_chars hc _ hm).1 rfl) ha e
    rw [← this.2]; exact hp

/-- If what precedes the first slash is the text of a registry, it is the domain of the reference. -/
theorem domain_of_prefix {r : Reference} {g s d : List Char} (hv : Valid r.domain r.path r.tag g)
    (hs : s = refText r.domain r.path r.tag g) (hp : Prefixed d s) (hd : Domain d) : r.domain = d := by
  by_cases h0 : r.domain = []
  · exfalso
    obtain ⟨rest, e, hn⟩ := hp
    rw [hs, refText, nameText, if_pos h0] at e
    have hin : '/' ∈ r.path := by
      have : '/' ∈ r.path ++ (if r.tag = [] then [] else ':' :: r.tag) ++ (if g = [] then [] else '@' :: g) := by
        rw [e]; simp
      rcases List.mem_append.1 this with hm | hm
      · rcases List.mem_append.1 hm with hm | hm
        · exact hm
        · rcases hv.tag with ht | ht
          · simp [ht] at hm
          · rw [if_neg (tag_ne ht)] at hm
            rcases List.mem_cons.1 hm with hm | hm
            · exact absurd hm (by decide)
            · exact absurd rfl (tag_chars ht _ hm).1
      · rcases hv.digest with hg | hg
        · simp [hg] at hm
        · rw [if_neg (digest_ne hg)] at hm
          rcases List.mem_cons.1 hm with hm | hm
          · exact absurd hm (by decide)
          · exact absurd hm (digest_slash hg)
    obtain ⟨a, b, hab, ha⟩ : ∃ a b, r.path = a ++ '/' :: b ∧ '/' ∉ a := by
      clear e hs hv h0
      generalize r.path = p at hin
      induction p with
      | nil => simp at hin
      | cons c p ih =>
        by_cases hc : c = '/'
        · exact ⟨[], p, by simp [hc], by simp⟩
        · rcases List.mem_cons.1 hin with e | e
          · exact absurd e.symm hc
          · obtain ⟨a, b, e1, e2⟩ := ih e
            exact ⟨c :: a, b, by simp [e1], by simp [e2, Ne.symm hc]⟩
    rw [hab] at e
    have ead : a = d := (cut_unique ha hn (by simpa only [List.append_assoc, List.cons_append] using e)).1
    exact hv.prefer h0 a b hab (ead ▸ hd) (path_cut hv.path hab ha)
  · exact prefixed_unique (prefixed_domain hv hs h0) hp

/-! ## Theorems -/

/-- **C61 (the task's own login).** A user name given with the task is sent, with its password, whatever else is configured. -/
theorem C61_own_login (h : Host) (r : Registry) (image : String) (hu : r.username ≠ "") :
    authFor h (some r) image = some (r.username, r.password) := by
  simp [authFor, hu]

/-- **C61 (nothing of other registries).** Without a login in the task, what is sent depends only on what the worker knows about the
registry named before the first slash of the image: it is the same for any other worker that knows the same about that one. -/
theorem C61_only_its_registry (h h' : Host) (login login' : Option Registry) (image : String) (d : List Char)
    (hl : NoLogin login) (hl' : NoLogin login') (hlow : h.lower = h'.lower)
    (hd : Prefixed d image.toList) (hs : SameFor (String.ofList d) h h') :
    authFor h login image = authFor h' login' image := by
  rw [authFor_noLogin hl, authFor_noLogin hl', ← hlow]
  cases hp : parseRef h.lower image.toList with
  | error e => rfl
  | ok r =>
    obtain ⟨g, hv, he, -⟩ := (C53_parse _ _ r).1 hp
    by_cases h0 : r.domain = []
    · simp [h0]
    · have := prefixed_unique (prefixed_domain hv he h0) hd
      simp only [if_neg h0]
      rw [this]
      exact registry_same hs

/-- **C61 (no registry, no credentials).** Without a login in the task, an image whose name has no slash is pulled anonymously. -/
theorem C61_anonymous (h : Host) (login : Option Registry) (image : String) (hl : NoLogin login) (hd : '/' ∉ image.toList)
    (u p : String) (ha : authFor h login image = some (u, p)) : u = "" ∧ p = "" := by
  rw [authFor_noLogin hl] at ha
  cases hp : parseRef h.lower image.toList with
  | error e => simp [hp] at ha
  | ok r =>
    obtain ⟨g, hv, he, -⟩ := (C53_parse _ _ r).1 hp
    by_cases h0 : r.domain = []
    · simp [hp, h0] at ha; exact ha
    · obtain ⟨rest, e, -⟩ := prefixed_domain hv he h0
      rw [e] at hd; simp at hd

/-- The name is refused. -/
theorem authFor_refused {h : Host} {login : Option Registry} {image : String} (hl : NoLogin login)
    (hr : ¬ IsRef image.toList) : authFor h login image = none := by
  rw [authFor_noLogin hl]
  cases hp : parseRef h.lower image.toList with
  | error e => rfl
  | ok r =>
    obtain ⟨g, hv, he, -⟩ := (C53_parse _ _ r).1 hp
    exact absurd ⟨_, _, _, _, hv, he⟩ hr

/-- **C61 (the right registry).** For an image that Docker pulls from registry `d`, what is sent is what the worker has for `d`. -/
theorem authFor_registry {h : Host} {login : Option Registry} {image : String} {d : List Char} (hl : NoLogin login)
    (hc : Prefixed d image.toList) (hd : Domain d) (hok : IsRef image.toList) (hlen : image.toList.length ≤ 255) :
    authFor h login image = registryCredentials h (String.ofList d) := by
  obtain ⟨d', p, t, g, hv, he⟩ := hok
  have hp : parseRef h.lower image.toList = .ok ⟨d', p, t⟩ := by
    refine (C53_parse _ _ _).2 ⟨g, hv, he, ?_⟩
    rw [he, refText] at hlen
    simp only [List.length_append] at hlen
    show (nameText d' p).length ≤ 255
    omega
  have e : d' = d := domain_of_prefix (r := ⟨d', p, t⟩) hv he hc hd
  subst e
  rw [authFor_noLogin hl, hp]
  simp [domain_ne hd]

/-- An image Docker pulls from registry `d`, with an acceptable name. -/
structure PulledFrom (image : String) (d : List Char) : Prop where
  contacts : Contacts image.toList d
  domain : Domain d
  ref : IsRef image.toList
  short : image.toList.length ≤ 255

/-- **C61 (user name and password in the file).** If the configuration file has a user name and a password for the registry the image is
pulled from, and names no helper for it, exactly these are sent. -/
theorem C61_file_entry (h : Host) (login : Option Registry) (image : String) (d : List Char) (f : File) (a : AuthEntry)
    (hl : NoLogin login) (hp : PulledFrom image d) (hf : h.file = .ok f) (hh : f.credHelpers (String.ofList d) = none)
    (hs : f.credsStore = "") (ha : f.auths (String.ofList d) = some a) (hu : a.username ≠ "") (hw : a.password ≠ "")
    (ht : a.identityToken = "") : authFor h login image = some (a.username, a.password) := by
  rw [authFor_registry hl hp.contacts.1 hp.domain hp.ref hp.short]
  simp [registryCredentials, hf, fromFile, hh, hs, ha, ht, hu, hw]

/-- **C61 (encoded entry).** The same if the entry has only the encoded form of `user:password` (decoded into a buffer that may be longer,
filled up with zero bytes): the user name ends at the first colon, the password may contain colons. -/
theorem C61_encoded_entry (h : Host) (login : Option Registry) (image : String) (d : List Char) (f : File) (a : AuthEntry)
    (u p : List Char) (n : Nat)
    (hl : NoLogin login) (hp : PulledFrom image d) (hf : h.file = .ok f) (hh : f.credHelpers (String.ofList d) = none)
    (hs : f.credsStore = "") (ha : f.auths (String.ofList d) = some a) (hn : a.username = "" ∨ a.password = "")
    (ht : a.identityToken = "") (hne : a.auth ≠ "")
    (hdec : h.decode a.auth = some (String.ofList (u ++ ':' :: p ++ List.replicate n '\x00')))
    (hu : ':' ∉ u) (hz : '\x00' ∉ p) :
    authFor h login image = some (String.ofList u, String.ofList p) := by
  rw [authFor_registry hl hp.contacts.1 hp.domain hp.ref hp.short]
  have hnb : ¬ (a.username ≠ "" ∧ a.password ≠ "") := by rcases hn with e | e <;> simp [e]
  have h1 : ∀ (u r : List Char), ':' ∉ u → (u ++ ':' :: r).dropWhile (· != ':') = ':' :: r := by
    intro u r hu
    induction u with
    | nil => simp
    | cons c u ih => simp at hu; simp [Ne.symm hu.1, ih (by simpa using hu.2)]
  have h2 : ∀ (u r : List Char), ':' ∉ u → (u ++ ':' :: r).takeWhile (· != ':') = u := by
    intro u r hu
    induction u with
    | nil => simp
    | cons c u ih => simp at hu; simp [Ne.symm hu.1, ih (by simpa using hu.2)]
  have hdrop : ∀ (q s : List Char), '\x00' ∉ q → q ≠ [] → (q ++ s).dropWhile (· == '\x00') = q ++ s := by
    intro q s hq hne
    cases q with
    | nil => exact absurd rfl hne
    | cons c q => simp at hq; simp [Ne.symm hq.1]
  have hrep : ∀ (n : Nat) (q : List Char), (List.replicate n '\x00' ++ q).dropWhile (· == '\x00') = q.dropWhile (· == '\x00') := by
    intro n q; induction n with
    | zero => simp
    | succ n ih => simp [List.replicate_succ, ih]
  have h3 : trimNul (p ++ List.replicate n '\x00') = p := by
    unfold trimNul
    by_cases hpe : p = []
    · subst hpe
      have := hrep n []
      simp only [List.append_nil, List.dropWhile_nil] at this
      simp [this]
    · rw [hdrop p _ hz hpe, List.reverse_append, List.reverse_replicate, hrep]
      have := hdrop p.reverse [] (by simpa using hz) (by simpa using hpe)
      rw [List.append_nil] at this
      rw [this, List.reverse_reverse]
  have e : (u ++ ':' :: p ++ List.replicate n '\x00') = u ++ ':' :: (p ++ List.replicate n '\x00') := by simp
  rw [e] at hdec
  have hcond : (a.username ≠ "" && a.password ≠ "") = false := by
    rcases hn with e | e <;> simp [e]
  simp only [registryCredentials, hf, fromFile, hh, hs, ha, ht, decodeAuth, hdec, String.toList_ofList, h1 u _ hu, h2 u _ hu, h3,
    hne, hcond]
  simp

/-- **C61 (helpers).** If the configuration file names a credential helper for the registry the image is pulled from, that helper is
asked, for that registry, and what it answers is sent, whatever else the file says; the pull does not take place if the helper fails. -/
theorem C61_helper (h : Host) (login : Option Registry) (image : String) (d : List Char) (f : File) (name : String)
    (hl : NoLogin login) (hp : PulledFrom image d) (hf : h.file = .ok f)
    (hh : f.credHelpers (String.ofList d) = some name ∨ (f.credHelpers (String.ofList d) = none ∧ f.credsStore = name))
    (hn : name ≠ "") :
    (∀ u s, h.helper name (String.ofList d) = .found u s → u ≠ "<token>" → authFor h login image = some (u, s)) ∧
    (h.helper name (String.ofList d) = .notFound → authFor h login image = some ("", "")) ∧
    (h.helper name (String.ofList d) = .failed → authFor h login image = none) := by
  have e : authFor h login image = fromHelper h name (String.ofList d) := by
    rw [authFor_registry hl hp.contacts.1 hp.domain hp.ref hp.short]
    rcases hh with hh | ⟨hh, hs⟩
    · simp [registryCredentials, hf, fromFile, hh]
    · simp [registryCredentials, hf, fromFile, hh, hs, hn]
  rw [e]
  refine ⟨fun u s hr hu => ?_, fun hr => ?_, fun hr => ?_⟩ <;> simp [fromHelper, hn, hr]
  exact fun h' => absurd h' hu

/-- **C61 (nothing configured).** A worker without configuration file whose platform has no helper program pulls anonymously. -/
theorem C61_unconfigured (h : Host) (login : Option Registry) (image : String) (hl : NoLogin login)
    (hf : h.file = .absent) (hh : ∀ d, h.helper h.platformHelper d = .absent)
    (u p : String) (ha : authFor h login image = some (u, p)) : u = "" ∧ p = "" := by
  rw [authFor_noLogin hl] at ha
  cases hp : parseRef h.lower image.toList with
  | error e => simp [hp] at ha
  | ok r =>
    simp only [hp, registryCredentials, hf, fromHelper, ↓reduceIte, hh] at ha
    repeat' split at ha
    all_goals simp at ha; exact ha

/-! ## Examples and defects -/

/-- a worker with credentials for one registry -/
def exHost (registry : String) (a : AuthEntry) : Host :=
  { file := .ok { auths := fun r => if r = registry then some a else none }, platformHelper := "",
    helper := fun _ _ => .absent, decode := fun _ => none, lower := id }

theorem exHost_domain : Domain "reg.io:5000".toList := by
  refine .inr ⟨"reg.io".toList, "5000".toList, rfl, ?_, by decide, by decide⟩
  exact Host.more (w := "reg".toList) (v := "io".toList) (.inr ⟨'r', ['e'], 'g', rfl, rfl, rfl, by simp; decide⟩)
    (.one (.inr ⟨'i', [], 'o', rfl, rfl, rfl, by simp⟩))

theorem exHost_pulled : PulledFrom "reg.io:5000/team/app" "reg.io:5000".toList where
  contacts := ⟨⟨"team/app".toList, by decide, by decide⟩, .inl (by decide)⟩
  domain := exHost_domain
  ref := ⟨"reg.io:5000".toList, "team/app".toList, [], [], ⟨.inr exHost_domain,
    Path.more (w := "team".toList) (v := "app".toList) (exRef_chars (by decide) (by decide))
      (.one (exRef_chars (by decide) (by decide))), .inl rfl, .inl rfl, fun h => absurd h (by decide)⟩, by decide⟩
  short := by decide

example : authFor (exHost "reg.io:5000" { username := "u", password := "p" }) none "reg.io:5000/team/app" = some ("u", "p") :=
  C61_file_entry _ none _ _ _ { username := "u", password := "p" } (fun _ h => nomatch h) exHost_pulled rfl rfl rfl (by decide)
    (by decide) (by decide) rfl

example : authFor { exHost "reg.io:5000" { auth := "x" } with decode := fun _ => some "u:p:q\x00\x00" } none "reg.io:5000/team/app" =
    some ("u", "p:q") :=
  C61_encoded_entry _ none _ _ _ { auth := "x" } "u".toList "p:q".toList 2 (fun _ h => nomatch h) exHost_pulled rfl rfl rfl (by decide)
    (.inl rfl) rfl (by decide) (by decide) (by decide) (by decide)

example : authFor { exHost "" {} with file := .ok { credsStore := "pass" }, helper := fun _ r => .found r "secret" } none
    "reg.io:5000/team/app" = some ("reg.io:5000", "secret") :=
  (C61_helper _ none _ _ _ "pass" (fun _ h => nomatch h) exHost_pulled rfl (.inr ⟨rfl, rfl⟩) (by decide)).1 _ _ (by simp) (by decide)

/-- Knowing more registries makes no difference. -/
example : authFor (exHost "reg.io:5000" { username := "u", password := "p" }) none "reg.io:5000/team/app" =
    authFor { exHost "" {} with file := .ok { auths := fun _ => some { username := "u", password := "p" } } } none
      "reg.io:5000/team/app" :=
  C61_only_its_registry _ _ none none _ "reg.io:5000".toList (fun _ h => nomatch h) (fun _ h => nomatch h) rfl exHost_pulled.contacts.1
    ⟨⟨rfl, rfl, by decide⟩, rfl, fun _ => rfl, rfl⟩

theorem exLibrary : parseRef id "library/ubuntu".toList = .ok { domain := "library".toList, path := "ubuntu".toList } := by
  refine (C53_parse _ _ _).2 ⟨[], ⟨.inr (.inl (.one ?_)), .one (exRef_chars (by decide) (by decide)), .inl rfl,
    .inl rfl, fun h => absurd h (by decide)⟩, by decide, by decide⟩
  exact .inr ⟨'l', "ibrar".toList, 'y', rfl, rfl, rfl, by simp; decide⟩

/-- **C61 (defect).** The first part of an image name is always taken for a registry: an image of Docker Hub can be pulled with the
credentials of a private registry, which are thereby disclosed to Docker Hub. -/
theorem C61_sent_to_hub :
    ∃ (h : Host) (image : String) (f : File) (a : AuthEntry), FromHub image.toList ∧ h.file = .ok f ∧
      (∀ d, f.auths d ≠ none → d = "library") ∧ f.auths "library" = some a ∧ a.username ≠ "" ∧ a.password ≠ "" ∧
      authFor h none image = some (a.username, a.password) := by
  refine ⟨exHost "library" { username := "u", password := "p" }, "library/ubuntu",
    { auths := fun r => if r = "library" then some { username := "u", password := "p" } else none }, { username := "u", password := "p" },
    ?_, rfl, ?_, rfl, by decide, by decide, ?_⟩
  · rintro ⟨d, hp, hc⟩
    have : Prefixed "library".toList "library/ubuntu".toList := ⟨"ubuntu".toList, by decide, by decide⟩
    have e := prefixed_unique hp this
    subst e
    revert hc; decide
  · intro d hd
    by_cases h : d = "library"
    · exact h
    · simp [h] at hd
  · rw [authFor_noLogin (login := none) (fun _ h => nomatch h)]
    simp only [exHost, exLibrary]
    decide

/-- **C61 (defect).** The token of a registry that hands out identity tokens is sent as the password of a user without name. -/
theorem C61_identity_token (h : Host) (login : Option Registry) (image : String) (d : List Char) (f : File) (a : AuthEntry)
    (hl : NoLogin login) (hp : PulledFrom image d) (hf : h.file = .ok f) (hh : f.credHelpers (String.ofList d) = none)
    (hs : f.credsStore = "") (ha : f.auths (String.ofList d) = some a) (ht : a.identityToken ≠ "") :
    authFor h login image = some ("", a.identityToken) := by
  rw [authFor_registry hl hp.contacts.1 hp.domain hp.ref hp.short]
  simp [registryCredentials, hf, fromFile, hh, hs, ha, ht]

end Tork.Creds

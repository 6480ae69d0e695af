import Verif.Encrypt
/-!
# C26 — secrets at rest
-/

namespace Tork.Secrets

theorem toList_tag (s : String) : (tag s).toList = "enc:".toList ++ s.toList := by
  unfold tag; rw [String.toList_ofList]

theorem isTagged_tag (s : String) : isTagged (tag s) = true := by
  unfold isTagged; rw [toList_tag, List.isPrefixOf_iff_prefix]; exact ⟨_, rfl⟩

theorem untag_tag (s : String) : untag (tag s) = s := by
  unfold untag
  rw [toList_tag]
  show String.ofList ("enc:".toList ++ s.toList |>.drop ("enc:".toList.length)) = s
  rw [List.drop_left, String.ofList_toList]

theorem decrypt_encrypt {c : Crypto} (hc : c.Lawful) {v key e : String} {n : Option Bytes}
    (hn : ∀ b, n = some b → b.length = nonceSize) (h : encrypt c v key n = some e) : decrypt c e key = some v := by
  cases n with
  | none => cases h
  | some b =>
    simp only [encrypt, Option.some.injEq] at h
    subst h
    unfold decrypt
    rw [hc.unb64_b64]
    have hb := hn b rfl
    simp only
    rw [if_neg (by rw [List.length_append]; omega), ← hb, List.take_left, List.drop_left]
    exact hc.open_seal ..

/-- Every random nonce has the size AES-GCM asks for (`make([]byte, gcm.NonceSize())`). -/
def NonceSized (rand : Nat → Option Bytes) : Prop := ∀ i b, rand i = some b → b.length = 12

theorem round_trip_loop {c : Crypto} (hc : c.Lawful) {rand} (hr : NonceSized rand) (key : String) :
    ∀ (m : StrMap) (i : Nat) (r : StrMap), encryptLoop c key rand i m = some r → decryptSecrets c r (some key) = some m
  | [], i, r, h => by simp only [encryptLoop, Option.some.injEq] at h; subst h; rfl
  | (k, v) :: m, i, r, h => by
    unfold encryptLoop at h
    cases he : encrypt c v key (rand i) with
    | none => rw [he] at h; cases h
    | some e =>
      rw [he] at h
      simp only at h
      cases hl : encryptLoop c key rand (i + 1) m with
      | none => rw [hl] at h; cases h
      | some r' =>
        rw [hl] at h
        simp only [Option.some.injEq] at h
        subst h
        unfold decryptSecrets
        simp only [isTagged_tag, Bool.true_eq_false, if_false, untag_tag]
        rw [decrypt_encrypt hc (hr i) he]
        simp only
        rw [round_trip_loop hc hr key m (i + 1) r' hl]

/-- **C26 (round trip).** Whatever nonces are drawn, secrets stored with a key are read back unchanged with the same
key. -/
theorem C26_round_trip (c : Crypto) (hc : c.Lawful) (rand : Nat → Option Bytes) (hr : NonceSized rand)
    (key : String) (secrets stored : StrMap) (h : encryptSecrets c rand secrets (some key) = some stored) :
    decryptSecrets c stored (some key) = some secrets :=
  round_trip_loop hc hr key secrets 0 stored h

theorem stored_loop (c : Crypto) (rand) (key : String) : ∀ (m : StrMap) (i0 : Nat) (r : StrMap),
    encryptLoop c key rand i0 m = some r →
    r.map Prod.fst = m.map Prod.fst ∧ ∀ (i : Nat) k v k' v', m[i]? = some (k, v) → r[i]? = some (k', v') →
      k' = k ∧ ∃ n, rand (i0 + i) = some n ∧ v'.toList = "enc:".toList ++ (c.b64 (n ++ c.gcmSeal (c.derive key) n v)).toList
  | [], i0, r, h => by
    simp only [encryptLoop, Option.some.injEq] at h; subst h
    exact ⟨rfl, fun i k v k' v' h => by simp at h⟩
  | (k, v) :: m, i0, r, h => by
    unfold encryptLoop at h
    cases hn : rand i0 with
    | none => rw [hn] at h; simp only [encrypt] at h; cases h
    | some n =>
      rw [hn] at h
      simp only [encrypt] at h
      cases hl : encryptLoop c key rand (i0 + 1) m with
      | none => rw [hl] at h; cases h
      | some r' =>
        rw [hl] at h
        simp only [Option.some.injEq] at h
        subst h
        obtain ⟨h1, h2⟩ := stored_loop c rand key m (i0 + 1) r' hl
        refine ⟨by simp [h1], ?_⟩
        intro i k1 v1 k' v' hm hr
        cases i with
        | zero =>
          simp only [List.getElem?_cons_zero, Option.some.injEq, Prod.mk.injEq] at hm hr
          obtain ⟨rfl, rfl⟩ := hm
          obtain ⟨rfl, rfl⟩ := hr
          exact ⟨rfl, n, hn, toList_tag _⟩
        | succ i =>
          simp only [List.getElem?_cons_succ] at hm hr
          have := h2 i k1 v1 k' v' hm hr
          rw [show i0 + (i + 1) = i0 + 1 + i by omega]
          exact this

/-- **C26 (at rest).** With a key, the secrets column has the same names, and each value is `enc:` followed by the
base64 of the nonce and the sealed value, each value with its own nonce. -/
theorem C26_stored (c : Crypto) (rand : Nat → Option Bytes) (key : String) (secrets stored : StrMap)
    (h : encryptSecrets c rand secrets (some key) = some stored) :
    stored.map Prod.fst = secrets.map Prod.fst ∧
    ∀ (i : Nat) k v k' v', secrets[i]? = some (k, v) → stored[i]? = some (k', v') →
      k' = k ∧ ∃ n, rand i = some n ∧ v'.toList = "enc:".toList ++ (c.b64 (n ++ c.gcmSeal (c.derive key) n v)).toList := by
  have := stored_loop c rand key secrets 0 stored h
  simpa only [Nat.zero_add] using this

theorem same_loop (c : Crypto) (rand) (key : String) : ∀ (m m' : StrMap) (i0 : Nat),
    m'.map Prod.fst = m.map Prod.fst →
    (∀ (i : Nat) k v k' v' n, m[i]? = some (k, v) → m'[i]? = some (k', v') → rand (i0 + i) = some n →
      c.gcmSeal (c.derive key) n v = c.gcmSeal (c.derive key) n v') →
    encryptLoop c key rand i0 m = encryptLoop c key rand i0 m'
  | [], [], _, _, _ => rfl
  | [], _ :: _, _, h, _ => by simp at h
  | _ :: _, [], _, h, _ => by simp at h
  | (k, v) :: m, (k', v') :: m', i0, hk, h => by
    simp only [List.map_cons, List.cons.injEq] at hk
    obtain ⟨rfl, hk⟩ := hk
    unfold encryptLoop
    rw [same_loop c rand key m m' (i0 + 1) hk fun i k v k' v' n h1 h2 h3 => h (i + 1) k v k' v' n
      (by simpa using h1) (by simpa using h2) (by rw [show i0 + (i + 1) = i0 + 1 + i by omega]; exact h3)]
    cases hn : rand i0 with
    | none => rfl
    | some n =>
      have := h 0 k' v k' v' n rfl rfl hn
      simp only [encrypt, this]

/-- **C26 (no clear text).** The secrets column depends on the secret values only through their sealed form: two
secret maps with the same names whose values gcmSeal to the same bytes are stored identically. -/
theorem C26_only_sealed_form (c : Crypto) (rand : Nat → Option Bytes) (key : String) (m m' : StrMap)
    (hk : m'.map Prod.fst = m.map Prod.fst)
    (h : ∀ (i : Nat) k v k' v' n, m[i]? = some (k, v) → m'[i]? = some (k', v') → rand i = some n →
      c.gcmSeal (c.derive key) n v = c.gcmSeal (c.derive key) n v') :
    encryptSecrets c rand m (some key) = encryptSecrets c rand m' (some key) :=
  same_loop c rand key m m' 0 hk (by simpa only [Nat.zero_add] using h)

theorem no_key_loop (c : Crypto) : ∀ (m : StrMap), (∀ kv ∈ m, isTagged kv.2 = true) →
    decryptSecrets c m none = some (m.map fun kv => (kv.1, "[encrypted]"))
  | [], _ => rfl
  | (k, v) :: m, h => by
    unfold decryptSecrets
    have hv : isTagged v = true := h (k, v) (List.mem_cons_self ..)
    simp only [hv, Bool.true_eq_false, if_false]
    rw [no_key_loop c m fun kv hm => h kv (List.mem_cons_of_mem _ hm)]
    rfl

theorem tagged_loop (c : Crypto) (rand) (key : String) : ∀ (m : StrMap) (i : Nat) (r : StrMap),
    encryptLoop c key rand i m = some r → (∀ kv ∈ r, isTagged kv.2 = true) ∧ r.map Prod.fst = m.map Prod.fst
  | [], i, r, h => by simp only [encryptLoop, Option.some.injEq] at h; subst h; simp
  | (k, v) :: m, i, r, h => by
    unfold encryptLoop at h
    cases he : encrypt c v key (rand i) with
    | none => rw [he] at h; cases h
    | some e =>
      rw [he] at h
      simp only at h
      cases hl : encryptLoop c key rand (i + 1) m with
      | none => rw [hl] at h; cases h
      | some r' =>
        rw [hl] at h
        simp only [Option.some.injEq] at h
        subst h
        obtain ⟨h1, h2⟩ := tagged_loop c rand key m (i + 1) r' hl
        refine ⟨?_, by simp [h2]⟩
        intro kv hm
        rcases List.mem_cons.1 hm with rfl | hm
        · exact isTagged_tag _
        · exact h1 kv hm

/-- **C26 (no key).** Without a key every encrypted secret is read as `[encrypted]`: the same names and none of the
values. -/
theorem C26_not_disclosed_without_key (c : Crypto) (rand : Nat → Option Bytes) (key : String) (secrets stored : StrMap)
    (h : encryptSecrets c rand secrets (some key) = some stored) :
    decryptSecrets c stored none = some (secrets.map fun kv => (kv.1, "[encrypted]")) := by
  obtain ⟨h1, h2⟩ := tagged_loop c rand key secrets 0 stored h
  rw [no_key_loop c stored h1]
  have : ∀ m : StrMap, (m.map fun kv => (kv.1, "[encrypted]")) = (m.map Prod.fst).map fun k => (k, "[encrypted]") := by
    intro m; simp [Function.comp_def]
  rw [this, this, h2]

theorem plain_loop (c : Crypto) (key : Option String) : ∀ (m : StrMap), (∀ kv ∈ m, isTagged kv.2 = false) →
    decryptSecrets c m key = some m
  | [], _ => rfl
  | (k, v) :: m, h => by
    unfold decryptSecrets
    have hv : isTagged v = false := h (k, v) (List.mem_cons_self ..)
    simp only [hv, if_true]
    rw [plain_loop c key m fun kv hm => h kv (List.mem_cons_of_mem _ hm)]

/-- **C26 (plain storage).** With no (or an empty) configured key secrets are stored as they are; they are read back
unchanged, with or without a key, provided no value starts with `enc:`. -/
theorem C26_plain_round_trip (c : Crypto) (rand : Nat → Option Bytes) (secrets : StrMap) (key : Option String)
    (h : ∀ kv ∈ secrets, ¬ "enc:".toList <+: kv.2.toList) :
    encryptSecrets c rand secrets (keyOf "") = some secrets ∧ decryptSecrets c secrets key = some secrets := by
  refine ⟨rfl, plain_loop c key secrets ?_⟩
  intro kv hm
  have := h kv hm
  unfold isTagged
  rwa [← List.isPrefixOf_iff_prefix, Bool.not_eq_true] at this

/-- A plain secret that happens to start with `enc:` is not read back (without a key it reads `[encrypted]`). -/
theorem C26_plain_prefix_lost : ∃ secrets : StrMap, ∀ (c : Crypto) (rand : Nat → Option Bytes),
    encryptSecrets c rand secrets none = some secrets ∧ decryptSecrets c secrets none ≠ some secrets := by
  refine ⟨[("a", "enc:x")], fun c rand => ⟨rfl, ?_⟩⟩
  have : decryptSecrets c [("a", "enc:x")] none = some [("a", "[encrypted]")] := by
    have h := no_key_loop c [("a", "enc:x")] (by simp only [List.mem_singleton]; rintro _ rfl; decide +kernel)
    exact h
  rw [this]
  decide +kernel

/-- **Finding.** The other column, `context`, keeps the context of the job as it is: with a key configured, whatever
secrets the job context carries are stored in clear and read back by anyone without the key. -/
theorem C26_context_stored_in_clear (c : Crypto) (rand : Nat → Option Bytes) (key key' : Option String) (j : Job)
    (row : SecretColumns) (h : storeSecrets c rand key j = some row) :
    row.context.secrets = j.context.secrets ∧
    ∀ x, readSecrets c key' row = some x → x.2.secrets = j.context.secrets := by
  unfold storeSecrets at h
  cases he : encryptSecrets c rand j.secrets key with
  | none => rw [he] at h; cases h
  | some s =>
    rw [he] at h
    simp only [Option.some.injEq] at h
    subst h
    refine ⟨rfl, ?_⟩
    intro x hx
    unfold readSecrets at hx
    simp only at hx
    cases hd : decryptSecrets c s key' with
    | none => rw [hd] at hx; cases hx
    | some d => rw [hd] at hx; simp only [Option.some.injEq] at hx; subst hx; rfl

/-! ### Non-vacuity: a lawful instance -/

def nonces : Nat → Option Bytes := fun i => some (List.replicate 12 (UInt8.ofNat i))

example : NonceSized nonces := by
  intro i b h
  simp only [nonces, Option.some.injEq] at h
  subst h; simp

def dec : Bytes → List Char
    | a :: b :: c :: r => Char.ofNat (a.toNat + 256 * b.toNat + 65536 * c.toNat) :: dec r
    | _ => []
theorem dec_enc : ∀ l : List Char, dec (l.flatMap fun ch =>
      [UInt8.ofNat (ch.toNat % 256), UInt8.ofNat (ch.toNat / 256 % 256), UInt8.ofNat (ch.toNat / 65536)]) = l
    | [] => by rw [List.flatMap_nil]; unfold dec; rfl
    | ch :: l => by
      rw [List.flatMap_cons]
      simp only [List.cons_append, List.nil_append]
      rw [dec, dec_enc l]
      congr 1
      have hb : ch.toNat < 1114112 := by
        rcases ch.valid with h | h
        · have : ch.toNat < 55296 := h; omega
        · have : ch.toNat < 1114112 := h.2; exact this
      rw [UInt8.toNat_ofNat', UInt8.toNat_ofNat', UInt8.toNat_ofNat']
      rw [show ch.toNat % 256 % 2 ^ 8 + 256 * (ch.toNat / 256 % 256 % 2 ^ 8) + 65536 * (ch.toNat / 65536 % 2 ^ 8)
        = ch.toNat by omega]
      exact Char.ofNat_toNat ch

/-- Existence of a lawful crypto: secrets are sealed as characters (a `Crypto` need not be secret). -/
theorem lawful_exists : ∃ c : Crypto, c.Lawful := by
  refine ⟨{ derive := fun _ => [], gcmSeal := fun _ _ p => p.toList.flatMap fun ch =>
              [UInt8.ofNat (ch.toNat % 256), UInt8.ofNat (ch.toNat / 256 % 256), UInt8.ofNat (ch.toNat / 65536)],
            gcmOpen := fun _ _ b => some (String.ofList (dec b)),
            b64 := fun b => String.ofList (b.map fun x => Char.ofNat x.toNat),
            unb64 := fun s => some (s.toList.map fun ch => UInt8.ofNat ch.toNat) }, ?_, ?_⟩
  · intro k n p
    simp only [Option.some.injEq]
    rw [dec_enc, String.ofList_toList]
  · intro b
    simp only [String.toList_ofList, List.map_map, Option.some.injEq]
    rw [List.map_congr_left (g := id)]
    · simp
    · intro x _
      simp only [Function.comp, id]
      have hx : x.toNat < 256 := x.toNat_lt
      have hv : x.toNat.isValidChar := .inl (by omega)
      rw [show (Char.ofNat x.toNat).toNat = x.toNat by
        unfold Char.ofNat; rw [dif_pos hv]; rfl]
      exact UInt8.ofNat_toNat

example (c : Crypto) : encryptSecrets c nonces [("pw", "x")] (keyOf "k") ≠ none := by
  rw [show keyOf "k" = some "k" by decide +kernel]
  simp [encryptSecrets, encryptLoop, encrypt, nonces]

end Tork.Secrets

import Verif.DS
/-!
# Secret encryption — model of `/repo/internal/encrypt/encrypt.go`, `encryptSecrets` / `decryptSecrets`
(`/repo/datastore/postgres/postgres.go:67-74, 696-731`) and the secrets column of `toJob`
(`/repo/datastore/postgres/record.go:348-359`)

SHA-256, AES-GCM and base64 are an arbitrary `Crypto`; the only laws used are stated in `Crypto.Lawful`
(opening what was sealed, decoding what was encoded). Secrecy of AES-GCM itself is outside the model: what is
proved is that stored rows depend on the secrets only through the sealed bytes.
-/

namespace Tork.Secrets

abbrev Bytes := List UInt8

/-- The primitives `encrypt.go` calls. -/
structure Crypto where
  /-- `sha256.Sum256` (`encrypt.go:13-16 deriveKey`) -/
  derive : String → Bytes
  /-- `gcm.Seal(nil, nonce, plaintext, nil)` -/
  gcmSeal : Bytes → Bytes → String → Bytes
  /-- `gcm.Open(nil, nonce, ciphertext, nil)` -/
  gcmOpen : Bytes → Bytes → Bytes → Option String
  /-- `base64.StdEncoding.EncodeToString` -/
  b64 : Bytes → String
  /-- `base64.StdEncoding.DecodeString` -/
  unb64 : String → Option Bytes

/-- Correctness of the primitives (nothing about secrecy). -/
structure Crypto.Lawful (c : Crypto) : Prop where
  open_seal : ∀ k n p, c.gcmOpen k n (c.gcmSeal k n p) = some p
  unb64_b64 : ∀ b, c.unb64 (c.b64 b) = some b

/-- `gcm.NonceSize()`. -/
def nonceSize : Nat := 12

/-- `encrypt.go:18-33 Encrypt`; `nonce` is what `rand.Reader` delivered, `none` when it failed. -/
def encrypt (c : Crypto) (plaintext key : String) (nonce : Option Bytes) : Option String :=
  match nonce with
  | none => none
  | some n => some (c.b64 (n ++ c.gcmSeal (c.derive key) n plaintext))

/-- `encrypt.go:35-58 Decrypt` -/
def decrypt (c : Crypto) (ciphertext key : String) : Option String :=
  match c.unb64 ciphertext with
  | none => none
  | some data =>
    if data.length < nonceSize then none
    else c.gcmOpen (c.derive key) (data.take nonceSize) (data.drop nonceSize)

/-- `postgres.go:67-74 WithEncryptionKey` -/
def keyOf (configured : String) : Option String := if configured = "" then none else some configured

/-- `fmt.Sprintf("enc:%s", enc)` -/
def tag (s : String) : String := String.ofList ("enc:".toList ++ s.toList)

/-- the loop of `encryptSecrets`, drawing a nonce per entry (`rand i` for the i-th). -/
def encryptLoop (c : Crypto) (key : String) (rand : Nat → Option Bytes) : Nat → StrMap → Option StrMap
  | _, [] => some []
  | i, (k, v) :: m =>
    match encrypt c v key (rand i) with
    | none => none
    | some e =>
      match encryptLoop c key rand (i + 1) m with
      | none => none
      | some r => some ((k, tag e) :: r)

/-- `postgres.go:696-709 encryptSecrets` -/
def encryptSecrets (c : Crypto) (rand : Nat → Option Bytes) (secrets : StrMap) (key : Option String) : Option StrMap :=
  match key with
  | none => some secrets
  | some key => encryptLoop c key rand 0 secrets

/-- `strings.HasPrefix(v, "enc:")` -/
def isTagged (v : String) : Bool := "enc:".toList.isPrefixOf v.toList

/-- `strings.TrimPrefix(v, "enc:")` of a tagged value -/
def untag (v : String) : String := String.ofList (v.toList.drop 4)

/-- `postgres.go:711-731 decryptSecrets` -/
def decryptSecrets (c : Crypto) (secrets : StrMap) (key : Option String) : Option StrMap :=
  match secrets with
  | [] => some []
  | (k, v) :: m =>
    let one : Option String :=
      if isTagged v = false then some v
      else match key with
        | none => some "[encrypted]"
        | some key => decrypt c (untag v) key
    match one with
    | none => none
    | some d =>
      match decryptSecrets c m key with
      | none => none
      | some r => some ((k, d) :: r)

/-- The two columns of table `jobs` in which `CreateJob` (`postgres.go:642-654` and `:600-604`) puts secrets: the
`secrets` column (encrypted) and the `context` column (plain JSON of `j.Context`). -/
structure SecretColumns where
  secrets : StrMap
  context : JobContext

/-- `CreateJob`, the parts concerning secrets. -/
def storeSecrets (c : Crypto) (rand : Nat → Option Bytes) (key : Option String) (j : Job) : Option SecretColumns :=
  match encryptSecrets c rand j.secrets key with
  | none => none
  | some s => some { secrets := s, context := j.context }

/-- `toJob` (`record.go:315-396`), the parts concerning secrets. -/
def readSecrets (c : Crypto) (key : Option String) (r : SecretColumns) : Option (StrMap × JobContext) :=
  match decryptSecrets c r.secrets key with
  | none => none
  | some s => some (s, r.context)

end Tork.Secrets

import Verif.Model.Constants
import Verif.Model.Crypto
import Verif.Model.BufWriter
namespace Pkstl

/-- src/encryption/chacha20_poly1305_aead.rs:28-32 `SecretKey`; the only variant of
`EncryptAlgoWithSecretKey` (src/encryption.rs:46-48). -/
structure SecretKey where
  key : Bytes
  nonce : Bytes
  aad : Bytes
  deriving DecidableEq, Repr

/-- src/encryption.rs:26-29 -/
inductive EncryptAlgo where
  | chacha20Poly1305Aead
  deriving DecidableEq, Repr

/-- src/agreement.rs:26-30 -/
inductive SharedSecretLen where
  | b32
  | b48
  | b64
  deriving DecidableEq, Repr

/-- src/agreement.rs:42-46; the seeds are fixed-size arrays (src/seeds.rs). -/
inductive SharedSecret where
  | b32 (seed : Bytes)
  | b48 (seed : Bytes)
  | b64 (seed : Bytes)
  deriving DecidableEq, Repr

/-- src/encryption.rs:38-42 -/
def EncryptAlgo.sharedSecretLen : EncryptAlgo → SharedSecretLen
  | .chacha20Poly1305Aead => .b48

/-- src/encryption/chacha20_poly1305_aead.rs:36-44 `SecretKey::new` (the seed is a 48-byte array). -/
def SecretKey.new (seed : Bytes) : SecretKey where
  key := seed.take 32
  nonce := (seed.drop 32).take 12
  aad := (seed.drop 44).take 4

/-- src/encryption.rs:51-61 `EncryptAlgoWithSecretKey::build`. -/
def buildSecretKey (algo : EncryptAlgo) (s : SharedSecret) : Res SecretKey :=
  match algo with
  | .chacha20Poly1305Aead =>
    match s with
    | .b48 seed => .ok (SecretKey.new seed)
    | _ => .panic .wrongSharedSecretLen

/-- XOR of bytes with a keystream starting at position `i` (ChaCha20 encryption and decryption). -/
def xorFrom (ks : Nat → UInt8) : Nat → Bytes → Bytes
  | _, [] => []
  | i, b :: bs => (b ^^^ ks i) :: xorFrom ks (i + 1) bs

/-- Ciphertext without tag, as produced by `chacha20_poly1305_aead::encrypt_read` (external crate). -/
def SecretKey.cipher (cr : Crypto) (k : SecretKey) (plain : Bytes) : Bytes :=
  xorFrom (cr.keystream k.key k.nonce) 0 plain

/-- Tag of a ciphertext. -/
def SecretKey.tag (cr : Crypto) (k : SecretKey) (ct : Bytes) : Bytes :=
  cr.polyTag k.key k.nonce k.aad ct

/-- src/encryption.rs:65-75 and src/encryption/chacha20_poly1305_aead.rs:48-66 `decrypt`.
`encrypted_data.len() - 16` underflows for short inputs: with overflow checks that panics, without it
yields a huge index and the slice expression panics; both are panics. -/
def decrypt (env : Env) (k : SecretKey) (encrypted : Bytes) : Res Bytes :=
  if encrypted.length < CHACHA20_TAG_SIZE then
    .panic (if env.overflowChecks then .overflow else .sliceIndex)
  else
    let payloadLen := encrypted.length - CHACHA20_TAG_SIZE
    let ct := encrypted.take payloadLen
    let tag := encrypted.drop payloadLen
    if tag = k.tag env.cr ct then .ok (k.cipher env.cr ct)
    else .err .failToDecryptData

/-- src/encryption.rs:79-89 and src/encryption/chacha20_poly1305_aead.rs:69-88 `encrypt`: the external
crate hands the ciphertext to `write_all` chunk by chunk, then the tag goes through one `write` call
whose returned length is ignored. -/
def encrypt (env : Env) (k : SecretKey) (plain : Bytes) (w : BufW) : BufW × Res Unit :=
  let ct := k.cipher env.cr plain
  match w.writeAllList (env.cr.chunks ct) with
  | (w, .error e) => (w, .err (.failToEncryptData e))
  | (w, .ok ()) =>
    match w.write (k.tag env.cr ct) with
    | (w, .error e) => (w, .err (.failToEncryptData e))
    | (w, .ok _) => (w, .ok ())

end Pkstl

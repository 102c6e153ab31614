import Verif.Model.Base
/-
The external primitives.  They are parameters of the whole model; nothing about them is assumed except
where a theorem takes a `Crypto.Lawful` hypothesis.
-/
namespace Pkstl

/-- `ring::pbkdf2` algorithms, src/agreement.rs:33-39. -/
inductive PbkdfAlgo where
  | hmacSha256
  | hmacSha384
  | hmacSha512
  deriving DecidableEq, Repr

/-- External functions the crate calls. -/
structure Crypto where
  /-- `ring::digest::digest(&SHA256, _)`, src/digest.rs:18-20 -/
  sha256 : Bytes → Bytes
  /-- `Ed25519KeyPair::from_seed_unchecked(seed)` then `public_key()`; src/complete.rs:105, writer.rs:36 -/
  edPublic : Bytes → Bytes
  /-- `Ed25519KeyPair::sign`, seed then message; src/complete/writer.rs:95 -/
  edSign : Bytes → Bytes → Bytes
  /-- `UnparsedPublicKey::verify(..).is_ok()`, key, message, signature; src/signature.rs:26-30 -/
  edVerify : Bytes → Bytes → Bytes → Bool
  /-- `EphemeralPrivateKey::compute_public_key` (X25519); src/agreement.rs:91-95 -/
  xPublic : Bytes → Bytes
  /-- `agree_ephemeral` (X25519), private key then peer public key; `none` is the error case
  (bad length or low-order point); src/agreement.rs:115-120 -/
  xAgree : Bytes → Bytes → Option Bytes
  /-- `pbkdf2::derive` algorithm, iterations, salt, secret, output length; src/agreement.rs:124-134 -/
  pbkdf2 : PbkdfAlgo → Nat → Bytes → Bytes → Nat → Bytes
  /-- ChaCha20 keystream byte at a position, for key and nonce (RFC 7539 section 2.8: blocks from counter 1).
  The key point is what it does *not* depend on: the message and the associated data. -/
  keystream : Bytes → Bytes → Nat → UInt8
  /-- Poly1305 tag for key, nonce, associated data, ciphertext (RFC 7539 section 2.8) -/
  polyTag : Bytes → Bytes → Bytes → Bytes → Bytes
  /-- `flate2::write::DeflateEncoder` at a compression level; src/complete.rs:75-89 -/
  deflate : Nat → Bytes → Bytes
  /-- `flate2::write::DeflateDecoder`; `none` is an error; src/complete.rs:187-193 -/
  inflate : Bytes → Option Bytes
  /-- How `chacha20_poly1305_aead::encrypt_read` cuts the ciphertext into `write_all` calls -/
  chunks : Bytes → List Bytes

/-- The laws of the primitives that theorems may assume.  These are statements of *correctness*, none of
them is a hardness assumption. -/
structure Crypto.Lawful (cr : Crypto) : Prop where
  sha256_length : ∀ b, (cr.sha256 b).length = 32
  edPublic_length : ∀ s, (cr.edPublic s).length = 32
  edSign_length : ∀ s m, (cr.edSign s m).length = 64
  /-- `ring` refuses signatures that are not 64 bytes long. -/
  edVerify_length : ∀ k m s, cr.edVerify k m s = true → s.length = 64
  edVerify_sign : ∀ s m, cr.edVerify (cr.edPublic s) m (cr.edSign s m) = true
  xPublic_length : ∀ k, (cr.xPublic k).length = 32
  /-- Diffie-Hellman commutes. -/
  xAgree_comm : ∀ a b, cr.xAgree a (cr.xPublic b) = cr.xAgree b (cr.xPublic a)
  /-- `ring` refuses public keys that are not 32 bytes long. -/
  xAgree_length : ∀ a p s, cr.xAgree a p = some s → p.length = 32
  pbkdf2_length : ∀ alg n salt sec len, (cr.pbkdf2 alg n salt sec len).length = len
  polyTag_length : ∀ k n a c, (cr.polyTag k n a c).length = 16
  inflate_deflate : ∀ l b, cr.inflate (cr.deflate l b) = some b
  /-- A DEFLATE stream has at least one byte, even for empty data. -/
  deflate_ne_nil : ∀ l b, cr.deflate l b ≠ []
  chunks_flatten : ∀ b, (cr.chunks b).flatten = b

/-- The build: primitives and whether integer overflow panics (debug profile) or wraps (release). -/
structure Env where
  cr : Crypto
  overflowChecks : Bool

end Pkstl

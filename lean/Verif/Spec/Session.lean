import Verif.Model.Agreement
/- The session key and the encryption of user messages, from README.md and RFC 7539. -/
namespace Pkstl.Spec

/-- The larger of two byte strings in lexicographic order. -/
def lexMax (a b : Bytes) : Bytes := if a < b then b else a

/-- The session key: 48 bytes of PBKDF2-HMAC-SHA384 (3 iterations) over the X25519 shared secret, salted
with the larger of both public keys; 32 bytes key, 12 bytes nonce, 4 bytes associated data. -/
def sessionKey (cr : Crypto) (ownPriv ownPub peerPub : Bytes) : Option SecretKey :=
  (cr.xAgree ownPriv peerPub).map fun z =>
    let seed := cr.pbkdf2 .hmacSha384 3 (lexMax ownPub peerPub) z 48
    { key := seed.take 32, nonce := (seed.drop 32).take 12, aad := (seed.drop 44).take 4 }

/-- XOR with the keystream of a session key. -/
def xorKeystream (cr : Crypto) (k : SecretKey) (b : Bytes) : Bytes :=
  b.mapIdx fun i x => x ^^^ cr.keystream k.key k.nonce i

/-- ChaCha20Poly1305: ciphertext followed by the tag over associated data and ciphertext. -/
def aeadSeal (cr : Crypto) (k : SecretKey) (plain : Bytes) : Bytes :=
  xorKeystream cr k plain ++ cr.polyTag k.key k.nonce k.aad (xorKeystream cr k plain)

end Pkstl.Spec

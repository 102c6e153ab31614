import Verif.Model.Encryption
namespace Pkstl

/-- src/agreement.rs:80-83 -/
structure EphemeralKeyPair where
  privkey : Bytes
  pubkey : Bytes
  deriving DecidableEq, Repr

/-- src/agreement.rs:87-98 `EphemeralKeyPair::generate`.  The randomness is an argument (`none`: the
system generator failed).  `compute_public_key` cannot fail for X25519 and is total here. -/
def EphemeralKeyPair.generate (cr : Crypto) (random : Option Bytes) : Res EphemeralKeyPair :=
  match random with
  | none => .err .failToGenEphemerKeyPair
  | some sk => .ok ⟨sk, cr.xPublic sk⟩

/-- src/agreement.rs:33-39 -/
def SharedSecretLen.algo : SharedSecretLen → PbkdfAlgo
  | .b32 => .hmacSha256
  | .b48 => .hmacSha384
  | .b64 => .hmacSha512

/-- src/agreement.rs:59-65 and 124-134 `derive`: fills a seed of the requested size. -/
def deriveSecret (cr : Crypto) (seed salt : Bytes) (len : SharedSecretLen) : SharedSecret :=
  match len with
  | .b32 => .b32 (cr.pbkdf2 len.algo ITERATIONS salt seed 32)
  | .b48 => .b48 (cr.pbkdf2 len.algo ITERATIONS salt seed 48)
  | .b64 => .b64 (cr.pbkdf2 len.algo ITERATIONS salt seed 64)

/-- src/agreement.rs:104-121 `compute_shared_secret`; `>` on slices is lexicographic. -/
def EphemeralKeyPair.computeSharedSecret (cr : Crypto) (kp : EphemeralKeyPair) (other : Bytes)
    (len : SharedSecretLen) : Res SharedSecret :=
  let salt := if other < kp.pubkey then kp.pubkey else other                       -- 109-113
  match cr.xAgree kp.privkey other with                                            -- 115-120
  | none => .err .failToComputeAgreement
  | some keyMaterial => .ok (deriveSecret cr keyMaterial salt len)

end Pkstl

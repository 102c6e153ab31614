import Verif.Model.Crypto
/-
Poly1305 and its use in the AEAD construction, RFC 7539 sections 2.5 and 2.8 (what the external crate
`chacha20-poly1305-aead` implements).  The model of the code keeps the tag abstract (`Crypto.polyTag`); this is what the tag
really is.
-/
namespace Pkstl.Spec

/-- Bytes as a number, least significant byte first. -/
def leNat : Bytes → Nat
  | [] => 0
  | b :: bs => b.toNat + 256 * leNat bs

/-- A number as `n` bytes, least significant byte first. -/
def leBytes : Nat → Nat → Bytes
  | 0, _ => []
  | n + 1, x => UInt8.ofNat (x % 256) :: leBytes n (x / 256)

/-- 2.5.1: the message is cut into blocks of 16 bytes; each is read as a number with one more byte of value 1. -/
def polyBlocks (b : Bytes) : List Nat :=
  (List.range ((b.length + 15) / 16)).map fun i =>
    leNat ((b.drop (16 * i)).take 16) + 256 ^ ((b.drop (16 * i)).take 16).length

/-- 2.5: the prime. -/
abbrev p1305 : Nat := 2 ^ 130 - 5

/-- 2.5.1: the accumulator. -/
def polyAcc (r : Nat) (blocks : List Nat) : Nat :=
  blocks.foldl (fun acc c => (acc + c) * r % p1305) 0

/-- 2.5: some bits of `r` are cleared. -/
def clampMask : Nat := 0x0ffffffc0ffffffc0ffffffc0fffffff

/-- 2.5.1: the tag, for the one-time key `(r, s)`. -/
def poly1305 (r s : Nat) (m : Bytes) : Bytes :=
  leBytes 16 ((polyAcc (r &&& clampMask) (polyBlocks m) + s) % 2 ^ 128)

/-- 2.8: zeros up to a multiple of 16 bytes. -/
def pad16 (b : Bytes) : Bytes := b ++ List.replicate ((16 - b.length % 16) % 16) 0

/-- 2.8: what the tag of the AEAD construction is computed of. -/
def aeadText (aad ct : Bytes) : Bytes :=
  pad16 aad ++ pad16 ct ++ (leBytes 8 aad.length ++ leBytes 8 ct.length)

/-- 2.6 and 2.8: the tag depends on key and nonce only through a one-time key `(r, s)`, made of the first 32 bytes of a block of
ChaCha20. -/
def UsesPoly1305 (cr : Crypto) : Prop :=
  ∃ oneTime : Bytes → Bytes → Nat × Nat, ∀ key nonce aad ct,
    cr.polyTag key nonce aad ct = poly1305 (oneTime key nonce).1 (oneTime key nonce).2 (aeadText aad ct)

/-- Test vector of section 2.5.2. -/
example : poly1305 (leNat [0x85, 0xd6, 0xbe, 0x78, 0x57, 0x55, 0x6d, 0x33, 0x7f, 0x44, 0x52, 0xfe, 0x42, 0xd5, 0x06, 0xa8])
    (leNat [0x01, 0x03, 0x80, 0x8a, 0xfb, 0x0d, 0xb2, 0xfd, 0x4a, 0xbf, 0xf6, 0xaf, 0x41, 0x49, 0xf5, 0x1b])
    ("Cryptographic Forum Research Group".toList.map fun c => UInt8.ofNat c.toNat) =
    [0xa8, 0x06, 0x1d, 0xc1, 0x30, 0x51, 0x36, 0xc6, 0xc2, 0x2b, 0x8b, 0xaf, 0x0c, 0x01, 0x27, 0xa9] := by
  decide +kernel

/-- Test vector of section 2.8.2. -/
example : poly1305 (leNat [0x7b, 0xac, 0x2b, 0x25, 0x2d, 0xb4, 0x47, 0xaf, 0x09, 0xb6, 0x7a, 0x55, 0xa4, 0xe9, 0x55, 0x84])
    (leNat [0x0a, 0xe1, 0xd6, 0x73, 0x10, 0x75, 0xd9, 0xeb, 0x2a, 0x93, 0x75, 0x78, 0x3e, 0xd5, 0x53, 0xff])
    (aeadText [0x50, 0x51, 0x52, 0x53, 0xc0, 0xc1, 0xc2, 0xc3, 0xc4, 0xc5, 0xc6, 0xc7]
      [0xd3, 0x1a, 0x8d, 0x34, 0x64, 0x8e, 0x60, 0xdb, 0x7b, 0x86, 0xaf, 0xbc, 0x53, 0xef, 0x7e, 0xc2,
       0xa4, 0xad, 0xed, 0x51, 0x29, 0x6e, 0x08, 0xfe, 0xa9, 0xe2, 0xb5, 0xa7, 0x36, 0xee, 0x62, 0xd6,
       0x3d, 0xbe, 0xa4, 0x5e, 0x8c, 0xa9, 0x67, 0x12, 0x82, 0xfa, 0xfb, 0x69, 0xda, 0x92, 0x72, 0x8b,
       0x1a, 0x71, 0xde, 0x0a, 0x9e, 0x06, 0x0b, 0x29, 0x05, 0xd6, 0xa5, 0xb6, 0x7e, 0xcd, 0x3b, 0x36,
       0x92, 0xdd, 0xbd, 0x7f, 0x2d, 0x77, 0x8b, 0x8c, 0x98, 0x03, 0xae, 0xe3, 0x28, 0x09, 0x1b, 0x58,
       0xfa, 0xb3, 0x24, 0xe4, 0xfa, 0xd6, 0x75, 0x94, 0x55, 0x85, 0x80, 0x8b, 0x48, 0x31, 0xd7, 0xbc,
       0x3f, 0xf4, 0xde, 0xf0, 0x8e, 0x4b, 0x7a, 0x9d, 0xe5, 0x76, 0xd2, 0x65, 0x86, 0xce, 0xc6, 0x4b,
       0x61, 0x16]) =
    [0x1a, 0xe1, 0x0b, 0x59, 0x4f, 0x09, 0xe2, 0x6a, 0x7e, 0x90, 0x2e, 0xcb, 0xd0, 0x60, 0x06, 0x91] := by
  decide +kernel

end Pkstl.Spec

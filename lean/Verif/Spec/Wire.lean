import Verif.Model.Base
/-
The wire format, written down from README.md ("Messages format") independently of the model's encoder
and parser.  One deviation of the code from the README is followed: SIG_ALGO of Ed25519 is 0, not 1.
-/
namespace Pkstl.Spec

/-- A number as 8 bytes, most significant first. -/
def be64 (n : Nat) : Bytes :=
  [7, 6, 5, 4, 3, 2, 1, 0].map fun i => UInt8.ofNat (n / 256 ^ i)

/-- MAGIC_VALUE, VERSION, ENCAPSULED_MSG_LEN, then the encapsuled message. -/
def frame (body : Bytes) : Bytes :=
  [0xE2, 0xC2, 0xE2, 0xD2] ++ [0, 0, 0, 1] ++ be64 body.length ++ body

/-- CONNECT: type 1, ephemeral key, signature algorithm 0, signature key, payload. -/
def connectFrame (epk sigPubkey payload : Bytes) : Bytes :=
  frame ([0, 1] ++ epk ++ [0, 0, 0, 0] ++ sigPubkey ++ payload)

/-- ACK: type 2, challenge, payload. -/
def ackFrame (challenge payload : Bytes) : Bytes :=
  frame ([0, 2] ++ challenge ++ payload)

/-- USER: type 0, sequence number, payload. -/
def userFrame (nonce : Nat) (payload : Bytes) : Bytes :=
  frame ([0, 0] ++ be64 nonce ++ payload)

/-- How a payload is reported to the application: an empty payload is "no custom data". -/
def present (payload : Bytes) : Option Bytes :=
  match payload with
  | [] => none
  | _ => some payload

end Pkstl.Spec

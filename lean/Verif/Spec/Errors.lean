import Verif.Model.Base
/- Which errors of `read` leave the layer usable, from the documentation of the error type. -/
namespace Pkstl.Spec

/-- Unexpected remote key, invalid hash or signature, invalid challenge, replayed number, no key
agreement. -/
def nonFatal : Error → Bool
  | .unexpectedRemoteSigPubKey => true
  | .failToComputeAgreement => true
  | .recvInvalidMsg .invalidHashOrSig => true
  | .recvInvalidMsg .invalidChallenge => true
  | .recvInvalidMsg .invalidNonce => true
  | _ => false

/-- A clear message of type CONNECT. -/
def ClearConnect (inc : Bytes) : Prop :=
  inc.take 4 = [0xE2, 0xC2, 0xE2, 0xD2] ∧ (inc.drop 16).take 2 = [0, 1]

end Pkstl.Spec

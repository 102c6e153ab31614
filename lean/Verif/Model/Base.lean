/-
Base vocabulary of the model: bytes, results with explicit panics, errors, slices, machine integers.
-/
namespace Pkstl

/-- `Vec<u8>`, `&[u8]` and `[u8; n]` of the Rust code. -/
abbrev Bytes := List UInt8

/-- Errors an arbitrary `std::io::Write` implementation can return (their text is not modelled). -/
inductive IoError where
  | writeZero
  | interrupted
  | other
  deriving DecidableEq, Repr

/-- src/errors.rs:82-112 `IncomingMsgErr`. -/
inductive IncomingMsgErr where
  | invalidChallenge
  | invalidHashOrSig
  | invalidMagicValue
  | invalidNonce
  | messageTooShort
  | unexpectedAckMsg
  | unexpectedConnectMsg
  | unexpectedMessage
  | unexpectedEncryptionState
  | unknownMessageFormat
  | unknownMessageType
  | unsupportedSigAlgo
  | unsupportedVersion
  deriving DecidableEq, Repr

/-- src/complete/serde.rs:48-63 `SerdeError` (payloads of the external errors dropped). -/
inductive SerdeError where
  | bincodeError
  | cborError
  | jsonError
  | useSuffixedBinFunctions
  deriving DecidableEq, Repr

/-- src/errors.rs:18-74 `Error`.  `FailToDecryptData` carries only `TagMismatch` here because the
decryption output is always a `Vec` (reader.rs:47), which cannot fail.  `WrittenLenError`,
`SerializationError`, `MessageMustBeSigned`, `TryToGenConnectMsgTooLate` and
`TryToWriteMsgWhenNegoNotSuccessful` are declared in the Rust code but never constructed. -/
inductive Error where
  | bufferFlushError
  | connectionHadFail
  | connectMsgAlreadyWritten
  | failToComputeAgreement
  | failToDecryptData
  | failToEncryptData (e : IoError)
  | failToGenEphemerKeyPair
  | failToGenEphemerPubKey
  | failtoGenSigKeyPair
  | forbidChangeConfAfterClone
  | forbidWriteAckMsgNow
  | negoMustHaveBeenSuccessful
  | serdeError (e : SerdeError)
  | recvInvalidMsg (e : IncomingMsgErr)
  | tooManyUnorderedMsgs
  | unexpectedRemoteSigPubKey
  | writeError (e : IoError)
  | zipError
  deriving DecidableEq, Repr

/-- Reasons for which the Rust code panics. -/
inductive Panic where
  /-- slice index out of range -/
  | sliceIndex
  /-- `Vec::drain` range out of bounds -/
  | drainRange
  /-- arithmetic overflow (only with overflow checks) -/
  | overflow
  /-- message.rs:190 -/
  | ackWithoutPeerEpk
  /-- minimal.rs:129 -/
  | secretWithoutKeyPair
  /-- minimal.rs:300 -/
  | encryptWithoutSecret
  /-- encryption.rs:57 -/
  | wrongSharedSecretLen
  /-- serializer.rs:119, deserializer.rs:104 `unimplemented!()` -/
  | notImplemented
  /-- seeds.rs:50 -/
  | noRandomness
  deriving DecidableEq, Repr

/-- `Result<α, Error>` plus the possibility of a panic. -/
inductive Res (α : Type) where
  | ok (a : α)
  | err (e : Error)
  | panic (p : Panic)
  deriving DecidableEq, Repr

namespace Res

/-- The `?` operator. -/
def bind {α β : Type} (r : Res α) (f : α → Res β) : Res β :=
  match r with
  | .ok a => f a
  | .err e => .err e
  | .panic p => .panic p

instance : Monad Res where
  pure := .ok
  bind := Res.bind

variable {α β : Type}

@[simp] theorem bind_ok (a : α) (f : α → Res β) : (Res.ok a >>= f) = f a := rfl
@[simp] theorem bind_err (e : Error) (f : α → Res β) : ((Res.err e : Res α) >>= f) = .err e := rfl
@[simp] theorem bind_panic (p : Panic) (f : α → Res β) : ((Res.panic p : Res α) >>= f) = .panic p := rfl
@[simp] theorem pure_eq (a : α) : (pure a : Res α) = .ok a := rfl

/-- The call returned `Ok(_)`. -/
def isOk : Res α → Bool
  | .ok _ => true
  | _ => false

end Res

/-- `IncomingMsgErr::X.into()`, src/errors.rs:76-80. -/
abbrev invalidMsg {α : Type} (e : IncomingMsgErr) : Res α := .err (.recvInvalidMsg e)

/-- `&d[a..b]`. -/
def slice (d : Bytes) (a b : Nat) : Res Bytes :=
  if a ≤ b ∧ b ≤ d.length then .ok ((d.drop a).take (b - a)) else .panic .sliceIndex

/-- `&d[..b]`. -/
def sliceTo (d : Bytes) (b : Nat) : Res Bytes :=
  if b ≤ d.length then .ok (d.take b) else .panic .sliceIndex

/-- `&d[a..]`. -/
def sliceFrom (d : Bytes) (a : Nat) : Res Bytes :=
  if a ≤ d.length then .ok (d.drop a) else .panic .sliceIndex

/-- Number of values of `u64` and, on the modelled 64-bit targets, of `usize`. -/
def u64Size : Nat := 2 ^ 64

/-- `a + b` on `u64`/`usize`: `none` is the overflow panic of builds with overflow checks, other
builds wrap around. -/
def addU64 (overflowChecks : Bool) (a b : Nat) : Option Nat :=
  if a + b < u64Size then some (a + b)
  else if overflowChecks then none else some ((a + b) % u64Size)

/-- `n.to_be_bytes()` for an unsigned integer type of `k` bytes (values are reduced mod `256^k`). -/
def beBytes : Nat → Nat → Bytes
  | 0, _ => []
  | k + 1, n => UInt8.ofNat (n / 256 ^ k) :: beBytes k n

/-- `uN::from_be_bytes(b)`. -/
def beNat (b : Bytes) : Nat := b.foldl (fun a x => a * 256 + x.toNat) 0

end Pkstl

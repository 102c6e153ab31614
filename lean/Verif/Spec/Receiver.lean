import Verif.Spec.Window
import Verif.Spec.Complete
/- What becomes of every user message that a network delivers to a negotiated layer: lost, repeated or in any order. -/
namespace Pkstl.Spec

/-- What becomes of one delivered user message. -/
inductive Verdict where
  /-- handed over -/
  | delivered
  /-- its number was handed over before -/
  | repeated
  /-- too many numbers wait for a smaller one; this ends the session -/
  | overflow
  /-- the session has ended -/
  | dead
  deriving DecidableEq, Repr

/-- The verdicts on messages with the numbers given, in the order of their arrival, after the numbers `D` were handed over;
`ended` tells whether the session has ended. -/
def verdicts (D : List Nat) (ended : Bool) : List Nat → List Verdict
  | [] => []
  | n :: l =>
    if n ∈ D then .repeated :: verdicts D ended l
    else if ended then .dead :: verdicts D ended l
    else if Deliverable D n then .delivered :: verdicts (D ++ [n]) ended l
    else .overflow :: verdicts D true l

/-- The answer of `read_bin` to a user message with the content `d`. -/
def Verdict.answer (d : Bytes) : Verdict → Res (List BinMessage)
  | .delivered => .ok [.message (some d)]
  | .repeated => .err (.recvInvalidMsg .invalidNonce)
  | .overflow => .err .tooManyUnorderedMsgs
  | .dead => .err .connectionHadFail

/-- A user message on its way: its number, the compression level its sender chose, and its content. -/
structure Parcel where
  num : Nat
  level : Nat
  data : Bytes

/-- The payload of the message as it travels. -/
def Parcel.packed (cr : Crypto) (x : Parcel) : Bytes := cr.deflate x.level x.data

/-- The bytes of the message, sealed with the session key `k`. -/
def Parcel.bytes (cr : Crypto) (k : SecretKey) (x : Parcel) : Bytes := cipherOf cr k x.num (x.packed cr)

/-- The message is one that this protocol can represent: its number and its length fit into 64 bits. -/
def Parcel.Fits (cr : Crypto) (x : Parcel) : Prop := x.num < 2 ^ 64 ∧ 26 + (x.packed cr).length < 2 ^ 64

/-- Present several inputs to `read_bin`; the answers in order. -/
def readBins (env : Env) (sl : SecureLayer) : List Bytes → SecureLayer × List (Res (List BinMessage))
  | [] => (sl, [])
  | b :: l =>
    let r := sl.readBin env b
    let rs := readBins env r.1 l
    (rs.1, r.2 :: rs.2)

variable {M : Type}

/-- A message that the peer wrote in this history: the index of the call among its successful writes, the bytes that went
into the writer, and the content. -/
structure Posted where
  index : Nat
  bytes : Bytes
  data : Bytes

/-- In the history `h` the message was written by `write_bin`, through a buffer of more than 16 bytes. -/
def Posted.In (h : List (CEvent M)) (x : Posted) : Prop :=
  ∃ h1 h2 w w', h = h1 ++ .writeBin x.data w w' (.ok ()) :: h2 ∧ h1.countP CEvent.writesUser = x.index ∧ 16 < w.cap ∧
    w'.stream = w.stream ++ x.bytes

end Pkstl.Spec

import Verif.Spec.Complete
import Verif.Spec.Session
import Verif.Spec.Wire
/-
What a user of the complete mode sees of the messages handed over, and what makes them genuine.
-/
namespace Pkstl.Spec

variable {M : Type}

/-- The kinds of messages handed to the application. -/
inductive Kind where
  | connect
  | ack
  | user
  deriving DecidableEq

/-- The kind of a message of the binary API. -/
def BinMessage.kind : BinMessage → Kind
  | .connect .. => .connect
  | .ack .. => .ack
  | .message .. => .user

/-- The kind of a message of the serde API. -/
def SerMessage.kind : SerMessage M → Kind
  | .connect .. => .connect
  | .ack .. => .ack
  | .message .. => .user

/-- The kinds of the messages that the call handed to the application, in order. -/
def CEvent.kinds : CEvent M → List Kind
  | .readBin _ (.ok ms) => ms.map BinMessage.kind
  | .readSer _ _ (.ok ms) => ms.map SerMessage.kind
  | _ => []

/-- The kinds of all messages handed to the application, in order. -/
def ckinds (h : List (CEvent M)) : List Kind := h.flatMap CEvent.kinds

/-- `seen` contains a CONNECT signed by `k` for the ephemeral key `epk` and an ACK signed by `k` for the ephemeral key of
the layer created as `st`; if the layer was told which key to expect, it is `k`; and `sec` is the key derived from the
layer's own ephemeral key and `epk`. -/
def Vouched (cr : Crypto) (st : Start) (seen : List Bytes) (sec : Option SecretKey) (k epk : Bytes) : Prop :=
  (∃ inc ∈ seen, SignedConnect cr inc epk k) ∧
  (∃ inc ∈ seen, SignedAck cr inc (cr.sha256 (cr.xPublic st.random)) k) ∧
  (∀ x, st.expected = some x → k = x) ∧
  sec = sessionKey cr st.random (cr.xPublic st.random) epk

end Pkstl.Spec

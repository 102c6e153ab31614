import Verif.Model.Constants
import Verif.Model.Crypto
namespace Pkstl

/-- src/message.rs:29-51 `Message`. -/
inductive Message where
  | connect (sigAlgo sigPubkey : Bytes) (customData : Option Bytes)
  | ack (customData : Option Bytes)
  | message (customData : Option Bytes)
  deriving DecidableEq, Repr

/-- src/message.rs:53-77 `MessageRef`. -/
inductive MessageRef where
  | connect (sigAlgo sigPubkey : Bytes) (customData : Option Bytes)
  | ack (customData : Option Bytes)
  | message (customData : Option Bytes) (nonce : Nat)
  deriving DecidableEq, Repr

/-- src/message.rs:91-104 `MsgTypeHeaders`. -/
inductive MsgTypeHeaders where
  | connect (peerEphemeralPk sigAlgo sigPubkey : Bytes)
  | ack (challenge : Bytes)
  | userMsg (nonce : Nat)
  deriving DecidableEq, Repr

/-- src/message.rs:106-114 -/
def MsgTypeHeaders.mustBeEncrypted : MsgTypeHeaders → Bool
  | .userMsg _ => true
  | _ => false

/-- src/message.rs:122-144 `Message::from_bytes` (never fails). -/
def Message.fromBytes (msgBytes : Bytes) (h : MsgTypeHeaders) : Message :=
  let customData := if msgBytes ≠ [] then some msgBytes else none
  match h with
  | .userMsg _ => .message customData
  | .connect _ sigAlgo sigPubkey => .connect sigAlgo sigPubkey customData
  | .ack _ => .ack customData

/-- src/message.rs:147-217 `prepare_message`: the payload and the type headers.  Writes go to a `Vec`
and cannot fail. -/
def MessageRef.prepare (cr : Crypto) (m : MessageRef) (selfEpk : Bytes) (peerEpk : Option Bytes) :
    Res (Option Bytes × Bytes) :=
  match m with
  | .connect sigAlgo sigPubkey customData =>                                       -- 155-179
    .ok (customData, CONNECT_MSG_TYPE ++ selfEpk ++ sigAlgo ++ sigPubkey)
  | .ack customData =>                                                             -- 180-197
    match peerEpk with
    | some peerEpk => .ok (customData, ACK_MSG_TYPE ++ cr.sha256 peerEpk)          -- 187-188, 275-280
    | none => .panic .ackWithoutPeerEpk                                            -- 190
  | .message customData nonce =>                                                   -- 198-215
    .ok (customData, USER_MSG_TYPE ++ beBytes 8 nonce)

/-- src/message.rs:219-273 `to_bytes`. -/
def MessageRef.toBytes (cr : Crypto) (m : MessageRef) (selfEpk : Bytes) (peerEpk : Option Bytes) :
    Res Bytes := do
  let (binUserMsg, typeMsgHeaders) ← m.prepare cr selfEpk peerEpk
  let encapsuledMsgSize := typeMsgHeaders.length + (binUserMsg.getD []).length       -- 247
  .ok (MAGIC_VALUE ++ CURRENT_VERSION ++ beBytes 8 encapsuledMsgSize
        ++ typeMsgHeaders ++ binUserMsg.getD [])

end Pkstl

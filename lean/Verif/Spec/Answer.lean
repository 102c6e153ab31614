import Verif.Spec.Malformed
import Verif.Spec.Complete
/- C73: the answer of `read` to every input, from the bytes and what the layer knows. -/
namespace Pkstl.Spec

/-- What clear bytes look like from their beginning. -/
inductive Frame where
  /-- the headers are not complete -/
  | truncated
  /-- wrong magic value -/
  | magic
  /-- wrong version -/
  | version
  /-- unknown type -/
  | type
  /-- unknown signature algorithm -/
  | algo
  /-- CONNECT: length field, ephemeral key, signature key -/
  | connect (n : Nat) (epk k : Bytes)
  /-- ACK: length field, challenge -/
  | ack (n : Nat) (challenge : Bytes)
  /-- USER: length field, sequence number -/
  | user (n num : Nat)

/-- The length field can be used. -/
def Measurable (oc : Bool) (n : Nat) : Prop := n < 2 ^ 64 ∧ (oc = true → 16 + n < 2 ^ 64)

/-- `x` looks like this. -/
def IsFrame (oc : Bool) (x : Bytes) : Frame → Prop
  | .truncated => Truncated oc x
  | .magic => 4 ≤ x.length ∧ x.take 4 ≠ [0xE2, 0xC2, 0xE2, 0xD2]
  | .version => ∃ v rest, v.length = 4 ∧ v ≠ [0, 0, 0, 1] ∧ x = [0xE2, 0xC2, 0xE2, 0xD2] ++ v ++ rest
  | .type => ∃ n t rest, Measurable oc n ∧ t.length = 2 ∧ t ≠ [0, 0] ∧ t ≠ [0, 1] ∧ t ≠ [0, 2] ∧ x = wire n t rest
  | .algo => ∃ n epk a rest, Measurable oc n ∧ epk.length = 32 ∧ a.length = 4 ∧ a ≠ [0, 0, 0, 0] ∧
      x = wire n ([0, 1] ++ epk ++ a) rest
  | .connect n epk k => Measurable oc n ∧ epk.length = 32 ∧ k.length = 32 ∧
      ∃ rest, x = wire n ([0, 1] ++ epk ++ [0, 0, 0, 0] ++ k) rest
  | .ack n c => Measurable oc n ∧ c.length = 32 ∧ ∃ rest, x = wire n ([0, 2] ++ c) rest
  | .user n num => Measurable oc n ∧ num < 2 ^ 64 ∧ ∃ rest, x = wire n ([0, 0] ++ be64 num) rest

/-- The answer of a call of `read`; `none`: it panics. -/
abbrev Reply := Option (Except Error (Option Message))

/-- The answer that was given. -/
def replyOf : Res (Option Message) → Reply
  | .ok m => some (.ok m)
  | .err e => some (.error e)
  | .panic _ => none

/-- The input is refused. -/
def refused (i : IncomingMsgErr) : Reply := some (.error (.recvInvalidMsg i))

/-- A genuine message that is not due now. -/
def undue (s : Layer) (i : IncomingMsgErr) : Reply :=
  if s.status = .fail then some (.error .connectionHadFail) else refused i

/-- Hand over what lies between `b` and `e`; an end before the beginning panics. -/
def handOver (x : Bytes) (b e : Nat) (m : Option Bytes → Message) : Reply :=
  if e < b then none else some (.ok (some (m (present ((x.take e).drop b)))))

/-- Bytes that start with the magic value. -/
def replyClear (env : Env) (st : Start) (s : Layer) (x : Bytes) : Frame → Reply
  | .truncated => none
  | .magic => refused .invalidMagicValue
  | .version => refused .unsupportedVersion
  | .type => refused .unknownMessageType
  | .algo => refused .unsupportedSigAlgo
  | .user _ _ => refused .unexpectedEncryptionState
  | .connect n epk k =>
    if s.peerSigPubkey ≠ none ∧ s.peerSigPubkey ≠ some k then some (.error .unexpectedRemoteSigPubKey)
    else if x.length < endOf n then none
    else if env.cr.edVerify k (x.take (endOf n)) (x.drop (endOf n)) = false then refused .invalidHashOrSig
    else
      match s.status with
      | .ongoing _ .waitConnectMsg =>
        if sessionKey env.cr st.random (env.cr.xPublic st.random) epk = none then some (.error .failToComputeAgreement)
        else handOver x 86 (endOf n) (.connect [0, 0, 0, 0] k)
      | _ => undue s .unexpectedConnectMsg
  | .ack n c =>
    if c ≠ env.cr.sha256 (env.cr.xPublic st.random) then refused .invalidChallenge
    else
      match s.peerSigPubkey with
      | none => if s.ackMsgRecvTooEarly = none then some (.ok none) else refused .unexpectedAckMsg
      | some k =>
        if x.length < endOf n then none
        else if env.cr.edVerify k (x.take (endOf n)) (x.drop (endOf n)) = false then refused .invalidHashOrSig
        else
          match s.status with
          | .ongoing .connectMsgSent _ => handOver x 50 (endOf n) .ack
          | _ => undue s .unexpectedAckMsg

/-- Bytes that were encrypted with the session key. -/
def replySealed (env : Env) (s : Layer) (x : Bytes) : Frame → Reply
  | .truncated => none
  | .magic => refused .invalidMagicValue
  | .version => refused .unsupportedVersion
  | .type => refused .unknownMessageType
  | .algo => refused .unsupportedSigAlgo
  | .connect _ _ _ => refused .unexpectedEncryptionState
  | .ack _ _ => refused .unexpectedEncryptionState
  | .user n num =>
    if num < s.nextNonceExpected ∨ num ∈ s.orphanNonces then refused .invalidNonce
    else
      match s.status with
      | .ongoing .connectMsgSent .ackMsgSent => some (.ok none)
      | .success =>
        if x.length < endOf n then none
        else if x.drop (endOf n) ≠ env.cr.sha256 (x.take (endOf n)) then refused .invalidHashOrSig
        else if num = s.nextNonceExpected then
          if env.overflowChecks = true ∧ s.nextNonceExpected + s.orphanNonces.card + 1 = 2 ^ 64 then none
          else handOver x 26 (endOf n) .message
        else if 10000 ≤ s.orphanNonces.card then some (.error .tooManyUnorderedMsgs)
        else handOver x 26 (endOf n) .message
      | _ => undue s .unexpectedMessage

/-- The answer of a layer created as `st` and now in state `s` to `inc`. -/
inductive Replies (env : Env) (st : Start) (s : Layer) (inc : Bytes) : Reply → Prop where
  | short (hl : inc.length < 4) : Replies env st s inc none
  | clear {F : Frame} (hm : inc.take 4 = [0xE2, 0xC2, 0xE2, 0xD2]) (hF : IsFrame env.overflowChecks inc F) :
      Replies env st s inc (replyClear env st s inc F)
  | noKey (hk : s.secret = none) (hl : 4 ≤ inc.length) (hm : inc.take 4 ≠ [0xE2, 0xC2, 0xE2, 0xD2]) :
      Replies env st s inc (refused .unexpectedMessage)
  | noTag {k : SecretKey} (hk : s.secret = some k) (hl : inc.length < 16) (hm : inc.take 4 ≠ [0xE2, 0xC2, 0xE2, 0xD2]) :
      Replies env st s inc none
  | forged {k : SecretKey} (hk : s.secret = some k) (hl : 16 ≤ inc.length) (hm : inc.take 4 ≠ [0xE2, 0xC2, 0xE2, 0xD2])
      (hx : ∀ x, inc ≠ aeadSeal env.cr k x) : Replies env st s inc (some (.error .failToDecryptData))
  | sealed {k : SecretKey} {x : Bytes} {F : Frame} (hk : s.secret = some k)
      (hm : inc.take 4 ≠ [0xE2, 0xC2, 0xE2, 0xD2]) (hx : inc = aeadSeal env.cr k x)
      (hF : IsFrame env.overflowChecks x F) : Replies env st s inc (replySealed env s x F)

/-- Decompressed custom data; `none`: they cannot be decompressed. -/
def inflated (cr : Crypto) : Option Bytes → Option (Option Bytes)
  | none => some none
  | some b => (cr.inflate b).map some

/-- How `read_bin` passes on the answer `r` of the layer below: `l` is its own answer. -/
def PassedOn (cr : Crypto) (r : Reply) (l : Res (List BinMessage)) : Prop :=
  match r with
  | none => ∃ p, l = .panic p
  | some (.error e) => l = .err e
  | some (.ok none) => l = .ok []
  | some (.ok (some (.message d))) =>
    l = match inflated cr d with
      | none => .err .zipError
      | some d => .ok [.message d]
  | some (.ok (some (.connect _ k d))) =>
    match inflated cr d with
    | none => l = .err .zipError
    | some d => ∀ ms, l = .ok ms → ms = [.connect d k] ∨ ∃ a, ms = [.connect d k, .ack a]
  | some (.ok (some (.ack d))) =>
    match inflated cr d with
    | none => l = .err .zipError
    | some d => ∀ ms, l = .ok ms → ∃ us : List (Option Bytes), ms = .ack d :: us.map .message

end Pkstl.Spec

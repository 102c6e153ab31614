import Verif.Model.Reader
import Verif.Model.Agreement
import Verif.Model.Status
import Mathlib.Data.Finset.Card
namespace Pkstl

/-- src/format.rs:34-49; the last three exist only with the corresponding cargo feature. -/
inductive MessageFormat where
  | rawBinary
  | utf8PlainText
  | utf8Json
  | cbor
  | bincode
  deriving DecidableEq, Repr

/-- src/config.rs:29-41; `flate2::Compression` is its numeric level. -/
structure Config where
  compression : Nat
  compressionMinSize : Nat
  messageFormat : MessageFormat
  encryptAlgo : EncryptAlgo
  deriving DecidableEq, Repr

/-- src/config.rs:43-55; `Compression::fast()` is level 1. -/
def Config.default : Config where
  compression := 1
  compressionMinSize := DEFAULT_COMPRESSION_MIN_SIZE
  messageFormat := .rawBinary
  encryptAlgo := .chacha20Poly1305Aead

/-- src/minimal.rs:34-51 `MinimalSecureLayer`.  `BTreeSet<u64>` is a finite set of numbers. -/
structure Layer where
  ackMsgRecvTooEarly : Option Bytes
  cloned : Bool
  config : Config
  secret : Option SecretKey
  ephemeralKp : Option EphemeralKeyPair
  ephemeralPubkey : Bytes
  nextNonceExpected : Nat
  nextNonceSent : Nat
  orphanNonces : Finset Nat
  peerEpk : Option Bytes
  peerSigPubkey : Option Bytes
  status : Status
  tmpStack : List Bytes
  deriving DecidableEq

namespace Layer

/-- src/minimal.rs:55-76 `try_clone`: the updated original and the clone. -/
def tryClone (s : Layer) : Layer × Res Layer :=
  if s.status = .success then
    ({ s with cloned := true },
     .ok { ackMsgRecvTooEarly := none
           cloned := true
           config := s.config
           secret := s.secret
           ephemeralKp := none
           ephemeralPubkey := s.ephemeralPubkey
           orphanNonces := s.orphanNonces
           peerEpk := none
           peerSigPubkey := none
           nextNonceExpected := s.nextNonceExpected
           nextNonceSent := s.nextNonceSent
           status := .success
           tmpStack := s.tmpStack })
  else (s, .err .negoMustHaveBeenSuccessful)

/-- src/minimal.rs:78-85 `change_config`. -/
def changeConfig (s : Layer) (newConfig : Config) : Layer × Res Unit :=
  if s.cloned = false then ({ s with config := newConfig }, .ok ())
  else (s, .err .forbidChangeConfAfterClone)

/-- src/minimal.rs:87-111 `create`. -/
def create (cr : Crypto) (config : Config) (expectedRemoteSigPublicKey : Option Bytes)
    (random : Option Bytes) : Res Layer := do
  let kp ← EphemeralKeyPair.generate cr random
  .ok { ackMsgRecvTooEarly := none
        cloned := false
        config := config
        secret := none
        ephemeralPubkey := kp.pubkey
        ephemeralKp := some kp
        orphanNonces := ∅
        peerEpk := none
        peerSigPubkey := expectedRemoteSigPublicKey
        nextNonceExpected := 0
        nextNonceSent := 0
        status := Status.init
        tmpStack := [] }

/-- src/minimal.rs:112-131 `compute_shared_secret`. -/
def computeSharedSecret (cr : Crypto) (s : Layer) (peerEphemeralPublicKey : Bytes) :
    Layer × Res Unit :=
  match s.ephemeralKp with
  | some kp =>
    let s := { s with ephemeralKp := none }                                        -- 114
    match kp.computeSharedSecret cr peerEphemeralPublicKey s.config.encryptAlgo.sharedSecretLen with
    | .err e => (s, .err e)
    | .panic p => (s, .panic p)
    | .ok sharedSecret =>
      match buildSecretKey s.config.encryptAlgo sharedSecret with                  -- 121-122
      | .ok k => ({ s with secret := some k }, .ok ())
      | .err e => (s, .err e)
      | .panic p => (s, .panic p)
  | none =>
    if s.secret.isSome then (s, .ok ())                                            -- 125-127
    else (s, .panic .secretWithoutKeyPair)                                         -- 129

/-- src/minimal.rs:404-408 `verify_sig`. -/
def verifySig (cr : Crypto) (data sigPubkey : Bytes) (userMsgEnd : Nat) : Res Bool := do
  let dataSigned ← sliceTo data userMsgEnd
  let sig ← sliceFrom data userMsgEnd
  .ok (cr.edVerify sigPubkey dataSigned sig)

/-- src/minimal.rs:281-287: take the payload out of the data and build the message. -/
def getMessage (d : DecryptedIncomingData) : Res (Option Message) :=
  if d.userMsgBegin ≤ d.userMsgEnd ∧ d.userMsgEnd ≤ d.data.length then
    .ok (some (Message.fromBytes ((d.data.drop d.userMsgBegin).take (d.userMsgEnd - d.userMsgBegin))
      d.msgTypeHeaders))
  else .panic .drainRange

/-- src/minimal.rs:187-215, the CONNECT branch of `read_inner`, after the key check of lines 193-199. -/
def readConnectVerified (env : Env) (s : Layer) (d : DecryptedIncomingData) (peerEpk sigPubkey : Bytes) :
    Layer × Res (Option Message) :=
  match verifySig env.cr d.data sigPubkey d.userMsgEnd with                         -- 204
  | .panic p => (s, .panic p)
  | .err e => (s, .err e)
  | .ok false => (s, invalidMsg .invalidHashOrSig)                                 -- 205
  | .ok true =>
    match s.status.applyAction (.receive .connect) with                            -- 209-210
    | (st, .err e) => ({ s with status := st }, .err e)
    | (st, .panic p) => ({ s with status := st }, .panic p)
    | (st, .ok _) =>
      let s := { s with status := st, peerEpk := some peerEpk }                    -- 213
      match s.computeSharedSecret env.cr peerEpk with                              -- 214
      | (s, .err e) => (s, .err e)
      | (s, .panic p) => (s, .panic p)
      | (s, .ok ()) => (s, getMessage d)

/-- src/minimal.rs:187-215, the CONNECT branch of `read_inner`. -/
def readConnect (env : Env) (s : Layer) (d : DecryptedIncomingData) (peerEpk sigPubkey : Bytes) :
    Layer × Res (Option Message) :=
  match s.peerSigPubkey with                                                       -- 193-199
  | some k =>
    if sigPubkey ≠ k then (s, .err .unexpectedRemoteSigPubKey)
    else s.readConnectVerified env d peerEpk sigPubkey
  | none => { s with peerSigPubkey := some sigPubkey }.readConnectVerified env d peerEpk sigPubkey

/-- src/minimal.rs:216-241, the ACK branch of `read_inner`. -/
def readAck (env : Env) (s : Layer) (incoming : Bytes) (d : DecryptedIncomingData) (challenge : Bytes) :
    Layer × Res (Option Message) :=
  if challenge ≠ env.cr.sha256 s.ephemeralPubkey then (s, invalidMsg .invalidChallenge)   -- 218
  else
    match s.peerSigPubkey with                                                     -- 222-230
    | none =>
      match s.ackMsgRecvTooEarly with
      | none => ({ s with ackMsgRecvTooEarly := some incoming }, .ok none)
      | some _ => ({ s with status := .fail }, invalidMsg .unexpectedAckMsg)
    | some k =>
      match verifySig env.cr d.data k d.userMsgEnd with                            -- 235
      | .panic p => (s, .panic p)
      | .err e => (s, .err e)
      | .ok false => (s, invalidMsg .invalidHashOrSig)
      | .ok true =>
        match s.status.applyAction (.receive .ack) with                            -- 240
        | (st, .err e) => ({ s with status := st }, .err e)
        | (st, .panic p) => ({ s with status := st }, .panic p)
        | (st, .ok _) => ({ s with status := st }, getMessage d)

/-- src/minimal.rs:267-269: `while orphans.remove(&next) { next += 1 }`. -/
def advance (overflowChecks : Bool) (orphans : Finset Nat) (next : Nat) : Finset Nat × Nat × Res Unit :=
  if h : next ∈ orphans then
    match addU64 overflowChecks next 1 with
    | none => (orphans.erase next, next, .panic .overflow)
    | some n => advance overflowChecks (orphans.erase next) n
  else (orphans, next, .ok ())
  termination_by orphans.card
  decreasing_by exact Finset.card_erase_lt_of_mem h

/-- src/minimal.rs:264-277: bookkeeping of sequence numbers. -/
def updateNonces (env : Env) (s : Layer) (nonce : Nat) : Layer × Res Unit :=
  if nonce = s.nextNonceExpected then                                              -- 265-269
    match addU64 env.overflowChecks s.nextNonceExpected 1 with
    | none => (s, .panic .overflow)
    | some n =>
      match advance env.overflowChecks s.orphanNonces n with
      | (o, n, r) => ({ s with nextNonceExpected := n, orphanNonces := o }, r)
  else if s.orphanNonces.card ≥ MAX_ORPHAN_NONCES then                             -- 271-274
    ({ s with status := .fail }, .err .tooManyUnorderedMsgs)
  else ({ s with orphanNonces := insert nonce s.orphanNonces }, .ok ())            -- 276

/-- src/minimal.rs:242-278, the USER branch of `read_inner`. -/
def readUser (env : Env) (s : Layer) (d : DecryptedIncomingData) (nonce : Nat) :
    Layer × Res (Option Message) :=
  if nonce < s.nextNonceExpected ∨ nonce ∈ s.orphanNonces then                     -- 244
    (s, invalidMsg .invalidNonce)
  else
    match s.status.applyAction (.receive .userMsg) with                            -- 249-255
    | (st, .err e) => ({ s with status := st }, .err e)
    | (st, .panic p) => ({ s with status := st }, .panic p)
    | (st, .ok (some .pushUserMsgIntoTmpStack)) =>
      ({ s with status := st, tmpStack := s.tmpStack ++ [d.data] }, .ok none)
    | (st, .ok none) =>
      let s := { s with status := st }
      match sliceTo d.data d.userMsgEnd, sliceFrom d.data d.userMsgEnd with        -- 258-259
      | .ok dataHashed, .ok hash =>
        if hash ≠ env.cr.sha256 dataHashed then (s, invalidMsg .invalidHashOrSig)  -- 260-262
        else
          match s.updateNonces env nonce with
          | (s, .err e) => (s, .err e)
          | (s, .panic p) => (s, .panic p)
          | (s, .ok ()) => (s, getMessage d)
      | _, _ => (s, .panic .sliceIndex)

/-- src/minimal.rs:162-288 `read_inner`. -/
def readInner (env : Env) (s : Layer) (incoming : Bytes) (checkEncryptState : Bool) :
    Layer × Res (Option Message) :=
  match readerRead env s.secret incoming checkEncryptState with                    -- 173-183
  | .panic p => (s, .panic p)
  | .err e => ({ s with status := .fail }, .err e)
  | .ok d =>
    match d.msgTypeHeaders with
    | .connect peerEpk _ sigPubkey => s.readConnect env d peerEpk sigPubkey
    | .ack challenge => s.readAck env incoming d challenge
    | .userMsg nonce => s.readUser env d nonce

/-- src/minimal.rs:159-161 `read`. -/
def read (env : Env) (s : Layer) (incoming : Bytes) : Layer × Res (Option Message) :=
  s.readInner env incoming true

/-- src/minimal.rs:136-141, the loop of `drain_tmp_stack_user_msgs`; `?` abandons the rest. -/
def drainLoop (env : Env) (s : Layer) : List Bytes → List Message → Layer × Res (List Message)
  | [], msgs => (s, .ok msgs)
  | b :: bs, msgs =>
    match s.readInner env b false with
    | (s, .ok (some m)) => drainLoop env s bs (msgs ++ [m])
    | (s, .ok none) => drainLoop env s bs msgs
    | (s, .err e) => (s, .err e)
    | (s, .panic p) => (s, .panic p)

/-- src/minimal.rs:133-142 `drain_tmp_stack_user_msgs`. -/
def drainTmpStack (env : Env) (s : Layer) : Layer × Res (List Message) :=
  { s with tmpStack := [] }.drainLoop env s.tmpStack []

/-- src/minimal.rs:150-156 `take_ack_msg_recv_too_early`. -/
def takeAck (env : Env) (s : Layer) : Layer × Res (Option Message) :=
  match s.ackMsgRecvTooEarly with
  | some b => { s with ackMsgRecvTooEarly := none }.read env b
  | none => (s, .ok none)

/-- src/minimal.rs:332-352 `create_connect_message` (with 145-147 `encapsulate_message`). -/
def createConnect (env : Env) (s : Layer) (publicKey : Bytes) (customData : Option Bytes) :
    Layer × Res Bytes :=
  match s.status.applyAction (.create .connect) with
  | (st, .err e) => ({ s with status := st }, .err e)
  | (st, .panic p) => ({ s with status := st }, .panic p)
  | (st, .ok _) =>
    match (MessageRef.connect SIG_ALGO_ED25519 publicKey customData).toBytes env.cr
        s.ephemeralPubkey s.peerEpk with
    | .ok b => ({ s with status := st }, .ok b)
    | .err e => ({ s with status := .fail }, .err e)
    | .panic p => ({ s with status := st }, .panic p)

/-- src/minimal.rs:355-367 `create_ack_message`. -/
def createAck (env : Env) (s : Layer) (customData : Option Bytes) : Layer × Res Bytes :=
  match s.status.applyAction (.create .ack) with
  | (st, .err e) => ({ s with status := st }, .err e)
  | (st, .panic p) => ({ s with status := st }, .panic p)
  | (st, .ok _) =>
    match (MessageRef.ack customData).toBytes env.cr s.ephemeralPubkey s.peerEpk with
    | .ok b => ({ s with status := st }, .ok b)
    | .err e => ({ s with status := .fail }, .err e)
    | .panic p => ({ s with status := st }, .panic p)

/-- src/minimal.rs:291-329 `encrypt_and_write`. -/
def encryptAndWrite (env : Env) (s : Layer) (encapsuled : Bytes) (w : BufW) : BufW × Res Unit :=
  match s.secret with
  | none => (w, .panic .encryptWithoutSecret)                                      -- 300
  | some k => encrypt env k (encapsuled ++ env.cr.sha256 encapsuled) w             -- 303-326

/-- src/minimal.rs:392-402 `encapsulate_and_encrypt_and_write_message`. -/
def encapsulateEncryptWrite (env : Env) (s : Layer) (data : Bytes) (w : BufW) : BufW × Res Unit :=
  match (MessageRef.message (some data) s.nextNonceSent).toBytes env.cr s.ephemeralPubkey s.peerEpk with
  | .ok b => s.encryptAndWrite env b w
  | .err e => (w, .err e)
  | .panic p => (w, .panic p)

/-- src/minimal.rs:370-390 `write_message`. -/
def writeMessage (env : Env) (s : Layer) (data : Bytes) (w : BufW) : Layer × BufW × Res Unit :=
  match s.status.applyAction (.create .userMsg) with                               -- 376
  | (st, .err e) => ({ s with status := st }, w, .err e)
  | (st, .panic p) => ({ s with status := st }, w, .panic p)
  | (st, .ok _) =>
    let s := { s with status := st }
    match s.encapsulateEncryptWrite env data w with                                -- 378
    | (w, .ok ()) =>
      let s := { s with status := .success }                                       -- 380
      match addU64 env.overflowChecks s.nextNonceSent 1 with                       -- 382
      | some n => ({ s with nextNonceSent := n }, w, .ok ())
      | none => (s, w, .panic .overflow)
    | (w, .err e) => ({ s with status := .fail }, w, .err e)                       -- 385-388
    | (w, .panic p) => (s, w, .panic p)

end Layer
end Pkstl

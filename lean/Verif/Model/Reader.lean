import Verif.Model.Message
import Verif.Model.Encryption
namespace Pkstl

/-- src/reader.rs:32-37 -/
structure DecryptedIncomingData where
  data : Bytes
  userMsgBegin : Nat
  userMsgEnd : Nat
  msgTypeHeaders : MsgTypeHeaders
  deriving DecidableEq, Repr

/-- src/reader.rs:97-146 `read_type_headers`. -/
def readTypeHeaders (th : Bytes) : Res (MsgTypeHeaders × Nat) := do
  let ty ← sliceTo th MSG_TYPE_LEN                                                   -- 99
  if ty = USER_MSG_TYPE then                                                         -- 100-109
    let nonce ← slice th MSG_TYPE_LEN (MSG_TYPE_LEN + NONCE_SIZE)
    .ok (.userMsg (beNat nonce), MSG_TYPE_LEN + NONCE_SIZE)
  else if ty = CONNECT_MSG_TYPE then                                                 -- 110-134
    let epk ← slice th MSG_TYPE_LEN (MSG_TYPE_LEN + EPK_SIZE)
    let algo ← slice th (MSG_TYPE_LEN + EPK_SIZE) SIG_PUBKEY_BEGIN
    if algo = SIG_ALGO_ED25519 then
      let sigAlgo ← slice th (MSG_TYPE_LEN + EPK_SIZE) (MSG_TYPE_LEN + EPK_SIZE + SIG_ALGO_LEN)
      let sigPubkey ← slice th SIG_PUBKEY_BEGIN (SIG_PUBKEY_BEGIN + 32)
      .ok (.connect epk sigAlgo sigPubkey, SIG_PUBKEY_BEGIN + 32)
    else invalidMsg .unsupportedSigAlgo
  else if ty = ACK_MSG_TYPE then                                                     -- 135-143
    let challenge ← slice th MSG_TYPE_LEN (MSG_TYPE_LEN + CHALLENGE_SIZE)
    .ok (.ack challenge, MSG_TYPE_LEN + CHALLENGE_SIZE)
  else invalidMsg .unknownMessageType                                                -- 144

/-- src/reader.rs:48-60: clear data is kept, anything else is decrypted.  Result: was it encrypted, and
the clear data. -/
def openIncoming (env : Env) (secret : Option SecretKey) (incoming : Bytes) : Res (Bool × Bytes) := do
  let head ← sliceTo incoming MAGIC_VALUE_END                                        -- 48
  if head = MAGIC_VALUE then .ok (false, incoming)
  else
    match secret with
    | some k => do
      let d ← decrypt env k incoming                                                 -- 56
      .ok (true, d)
    | none => invalidMsg .unexpectedMessage                                          -- 58

/-- src/reader.rs:63-94: checks and header parsing of the clear data. -/
def parseClear (env : Env) (dataEncrypted : Bool) (d : Bytes) (checkEncryptState : Bool) :
    Res DecryptedIncomingData := do
  let magic ← sliceTo d MAGIC_VALUE_END                                              -- 64
  if magic ≠ MAGIC_VALUE then invalidMsg .invalidMagicValue
  else
    let version ← slice d MAGIC_VALUE_END VERSION_END                                -- 69
    if version ≠ CURRENT_VERSION then invalidMsg .unsupportedVersion
    else
      let sizeBytes ← slice d VERSION_END ENCAPSULED_MSG_BEGIN                       -- 75
      match addU64 env.overflowChecks ENCAPSULED_MSG_BEGIN (beNat sizeBytes) with    -- 76-77
      | none => .panic .overflow
      | some userMsgEnd => do
        let th ← sliceFrom d ENCAPSULED_MSG_BEGIN                                    -- 81
        let (hdrs, hdrsLen) ← readTypeHeaders th
        if checkEncryptState = true ∧ dataEncrypted ≠ hdrs.mustBeEncrypted then      -- 83-86
          invalidMsg .unexpectedEncryptionState
        else                                                                         -- 88-93
          .ok { data := d
                userMsgBegin := ENCAPSULED_MSG_BEGIN + hdrsLen
                userMsgEnd := userMsgEnd
                msgTypeHeaders := hdrs }

/-- src/reader.rs:40-95 `reader::read`. -/
def readerRead (env : Env) (secret : Option SecretKey) (incoming : Bytes) (checkEncryptState : Bool) :
    Res DecryptedIncomingData := do
  let (dataEncrypted, d) ← openIncoming env secret incoming
  parseClear env dataEncrypted d checkEncryptState

end Pkstl

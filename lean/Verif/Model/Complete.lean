import Verif.Model.Minimal
namespace Pkstl

/-- src/complete/message.rs:19-39 `IncomingBinaryMessage`. -/
inductive BinMessage where
  | connect (customData : Option Bytes) (peerSigPublicKey : Bytes)
  | ack (customData : Option Bytes)
  | message (data : Option Bytes)
  deriving DecidableEq, Repr

/-- src/complete.rs:41-44 `SecureLayer`; an `Ed25519KeyPair` is represented by its seed. -/
structure SecureLayer where
  minimal : Layer
  sigSeed : Option Bytes
  deriving DecidableEq

namespace SecureLayer

/-- src/complete.rs:48-55 `try_clone`. -/
def tryClone (sl : SecureLayer) : SecureLayer × Res SecureLayer :=
  match sl.minimal.tryClone with
  | (m, .ok c) => ({ sl with minimal := m }, .ok { minimal := c, sigSeed := none })
  | (m, .err e) => ({ sl with minimal := m }, .err e)
  | (m, .panic p) => ({ sl with minimal := m }, .panic p)

/-- src/complete.rs:58-61 `change_config`. -/
def changeConfig (sl : SecureLayer) (c : Config) : SecureLayer × Res Unit :=
  match sl.minimal.changeConfig c with
  | (m, r) => ({ sl with minimal := m }, r)

/-- src/complete.rs:62-92 `compress`.  All writes go to a `Vec` and cannot fail. -/
def compress (cr : Crypto) (sl : SecureLayer) (b : Bytes) : Bytes :=
  let level :=
    if b.length < sl.minimal.config.compressionMinSize then 0                      -- 67-72
    else sl.minimal.config.compression
  cr.deflate level b

/-- src/complete.rs:187-193 `uncompress`. -/
def uncompress (cr : Crypto) (b : Bytes) : Res Bytes :=
  match cr.inflate b with
  | some d => .ok d
  | none => .err .zipError

/-- src/complete.rs:126-130 and similar: decompress optional custom data. -/
def uncompressOpt (cr : Crypto) : Option Bytes → Res (Option Bytes)
  | none => .ok none
  | some b =>
    match uncompress cr b with
    | .ok d => .ok (some d)
    | .err e => .err e
    | .panic p => .panic p

/-- src/complete.rs:95-111 `create`; `seedRandom` is what `Seed32::random` yields (src/seeds.rs:45-52,
`none` = panic), `random` is used for the ephemeral key.  `from_seed_unchecked` fails only for seeds that
are not 32 bytes long, which `Seed32` excludes. -/
def create (cr : Crypto) (config : Config) (sigKeyPairSeed expectedRemoteSigPubkey : Option Bytes)
    (seedRandom random : Option Bytes) : Res SecureLayer := do
  let seed ← match sigKeyPairSeed with                                             -- 100
    | some s => .ok s
    | none =>
      match seedRandom with
      | some s => .ok s
      | none => .panic .noRandomness
  let m ← Layer.create cr config expectedRemoteSigPubkey random                    -- 103
  .ok { minimal := m, sigSeed := some seed }

/-- src/complete.rs:153-163: user messages drained behind an ACK. -/
def uncompressUserMsgs (cr : Crypto) : List Message → List BinMessage → Res (List BinMessage)
  | [], acc => .ok acc
  | .message d :: ms, acc =>
    match uncompressOpt cr d with
    | .ok d => uncompressUserMsgs cr ms (acc ++ [.message d])
    | .err e => .err e
    | .panic p => .panic p
  | _ :: ms, acc => uncompressUserMsgs cr ms acc

/-- src/complete.rs:113-177 `read_bin`. -/
def readBin (env : Env) (sl : SecureLayer) (incoming : Bytes) : SecureLayer × Res (List BinMessage) :=
  match sl.minimal.read env incoming with                                          -- 116
  | (m, .err e) => ({ sl with minimal := m }, .err e)
  | (m, .panic p) => ({ sl with minimal := m }, .panic p)
  | (m, .ok none) => ({ sl with minimal := m }, .ok [])
  | (m, .ok (some (.connect _ sigPubkey customData))) =>                           -- 120-144
    match uncompressOpt env.cr customData with
    | .err e => ({ sl with minimal := m }, .err e)
    | .panic p => ({ sl with minimal := m }, .panic p)
    | .ok cd =>
      match m.takeAck env with                                                     -- 133-143
      | (m, .err e) => ({ sl with minimal := m }, .err e)
      | (m, .panic p) => ({ sl with minimal := m }, .panic p)
      | (m, .ok (some (.ack ackData))) =>
        match uncompressOpt env.cr ackData with
        | .err e => ({ sl with minimal := m }, .err e)
        | .panic p => ({ sl with minimal := m }, .panic p)
        | .ok ad => ({ sl with minimal := m }, .ok [.connect cd sigPubkey, .ack ad])
      | (m, .ok _) => ({ sl with minimal := m }, .ok [.connect cd sigPubkey])
  | (m, .ok (some (.ack customData))) =>                                           -- 145-164
    match uncompressOpt env.cr customData with
    | .err e => ({ sl with minimal := m }, .err e)
    | .panic p => ({ sl with minimal := m }, .panic p)
    | .ok cd =>
      match m.drainTmpStack env with                                               -- 153
      | (m, .err e) => ({ sl with minimal := m }, .err e)
      | (m, .panic p) => ({ sl with minimal := m }, .panic p)
      | (m, .ok msgs) => ({ sl with minimal := m }, uncompressUserMsgs env.cr msgs [.ack cd])
  | (m, .ok (some (.message customData))) =>                                       -- 165-173
    match uncompressOpt env.cr customData with
    | .err e => ({ sl with minimal := m }, .err e)
    | .panic p => ({ sl with minimal := m }, .panic p)
    | .ok cd => ({ sl with minimal := m }, .ok [.message cd])

/-- src/complete/writer.rs:86-98 `sign_bin_msg_and_write_sig`; the length returned by `write` is
ignored. -/
def signAndWriteSig (cr : Crypto) (seed binMsg : Bytes) (w : BufW) : BufW × Res Unit :=
  match w.write (cr.edSign seed binMsg) with
  | (w, .ok _) => (w, .ok ())
  | (w, .error _) => (w, .err .bufferFlushError)

/-- src/complete/writer.rs:43-49 and 73-79: write a clear message and its signature; the lengths
returned by `write` are ignored. -/
def writeSigned (cr : Crypto) (seed binMsg : Bytes) (w : BufW) : BufW × Res Unit :=
  match w.write binMsg with
  | (w, .error _) => (w, .err .bufferFlushError)
  | (w, .ok _) => signAndWriteSig cr seed binMsg w

/-- src/complete/writer.rs:25-53 `write_connect_msg` (custom data already compressed). -/
def writeConnectRaw (env : Env) (sl : SecureLayer) (customData : Option Bytes) (w : BufW) :
    SecureLayer × BufW × Res Unit :=
  match sl.sigSeed with
  | none => (sl, w, .err .connectMsgAlreadyWritten)                                -- 51
  | some seed =>
    match sl.minimal.createConnect env (env.cr.edPublic seed) customData with
    | (m, .err e) => ({ sl with minimal := m }, w, .err e)
    | (m, .panic p) => ({ sl with minimal := m }, w, .panic p)
    | (m, .ok b) =>
      match writeSigned env.cr seed b w with
      | (w, r) => ({ sl with minimal := m }, w, r)

/-- src/complete/writer.rs:56-83 `write_ack_msg` (custom data already compressed). -/
def writeAckRaw (env : Env) (sl : SecureLayer) (customData : Option Bytes) (w : BufW) :
    SecureLayer × BufW × Res Unit :=
  match sl.sigSeed with
  | none => (sl, w, .err .connectMsgAlreadyWritten)                                -- 81
  | some seed =>
    match sl.minimal.createAck env customData with
    | (m, .err e) => ({ sl with minimal := m }, w, .err e)
    | (m, .panic p) => ({ sl with minimal := m }, w, .panic p)
    | (m, .ok b) =>
      match writeSigned env.cr seed b w with
      | (w, r) => ({ sl with minimal := m }, w, r)

/-- src/complete.rs:227-243 `write_connect_msg_bin`. -/
def writeConnectBin (env : Env) (sl : SecureLayer) (customData : Option Bytes) (w : BufW) :
    SecureLayer × BufW × Res Unit :=
  sl.writeConnectRaw env (customData.map (sl.compress env.cr)) w

/-- src/complete.rs:195-211 `write_ack_msg_bin`. -/
def writeAckBin (env : Env) (sl : SecureLayer) (customData : Option Bytes) (w : BufW) :
    SecureLayer × BufW × Res Unit :=
  sl.writeAckRaw env (customData.map (sl.compress env.cr)) w

/-- src/complete/writer.rs:101-110 `write_bin_message`. -/
def writeBinRaw (env : Env) (sl : SecureLayer) (message : Bytes) (w : BufW) :
    SecureLayer × BufW × Res Unit :=
  match sl.minimal.writeMessage env message w with
  | (m, w, r) => ({ sl with minimal := m }, w, r)

/-- src/complete.rs:273-281 `write_bin`. -/
def writeBin (env : Env) (sl : SecureLayer) (binaryMessage : Bytes) (w : BufW) :
    SecureLayer × BufW × Res Unit :=
  sl.writeBinRaw env (sl.compress env.cr binaryMessage) w

end SecureLayer
end Pkstl

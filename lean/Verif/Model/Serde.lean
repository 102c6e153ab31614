import Verif.Model.Complete
namespace Pkstl

/-- Cargo features of Cargo.toml:36-42 that change the set of formats. -/
structure Features where
  bin : Bool
  cbor : Bool
  json : Bool
  deriving DecidableEq, Repr

/-- Which variants of `MessageFormat` exist in a build, src/format.rs:34-49. -/
def MessageFormat.enabled (f : Features) : MessageFormat → Bool
  | .rawBinary => true
  | .utf8PlainText => true
  | .utf8Json => f.json
  | .cbor => f.cbor
  | .bincode => f.bin

/-- src/format.rs:21-31 and 75-87 `as_ref`. -/
def MessageFormat.tag : MessageFormat → Bytes
  | .bincode => [0, 0, 0, 4]
  | .cbor => [0, 0, 0, 3]
  | .rawBinary => [0, 0, 0, 0]
  | .utf8Json => [0, 0, 0, 2]
  | .utf8PlainText => [0, 0, 0, 1]

/-- src/format.rs:57-73 `try_from`. -/
def MessageFormat.tryFrom (f : Features) (b : Bytes) : Res MessageFormat :=
  if f.bin = true ∧ b = [0, 0, 0, 4] then .ok .bincode
  else if f.cbor = true ∧ b = [0, 0, 0, 3] then .ok .cbor
  else if b = [0, 0, 0, 0] then .ok .rawBinary
  else if f.json = true ∧ b = [0, 0, 0, 2] then .ok .utf8Json
  else if b = [0, 0, 0, 1] then .ok .utf8PlainText
  else invalidMsg .unknownMessageFormat

/-- A type with serde implementations, as seen through the three external codecs
(`bincode`, `serde_cbor`, `serde_json`). -/
structure Codec (M : Type) where
  binSer : M → Option Bytes
  binDe : Bytes → Option M
  cborSer : M → Option Bytes
  cborDe : Bytes → Option M
  jsonSer : M → Option Bytes
  jsonDe : Bytes → Option M

/-- Round-trip laws of the external codecs. -/
structure Codec.Lawful {M : Type} (c : Codec M) : Prop where
  bin : ∀ m b, c.binSer m = some b → c.binDe b = some m
  cbor : ∀ m b, c.cborSer m = some b → c.cborDe b = some m
  json : ∀ m b, c.jsonSer m = some b → c.jsonDe b = some m

/-- `map_err` on an external codec result. -/
def codecRes {α : Type} (e : SerdeError) : Option α → Res α
  | some a => .ok a
  | none => .err (.serdeError e)

/-- src/complete/serde/serializer.rs:97-121 `serialize_inner`, with the `map_err` of line 93. -/
def serializeInner {M : Type} (c : Codec M) (m : M) (fmt : MessageFormat) : Res Bytes :=
  match fmt with
  | .rawBinary => .err (.serdeError .useSuffixedBinFunctions)
  | .bincode => codecRes .bincodeError (c.binSer m)
  | .cbor => codecRes .cborError (c.cborSer m)
  | .utf8Json => codecRes .jsonError (c.jsonSer m)
  | .utf8PlainText => .panic .notImplemented

/-- src/complete/serde/serializer.rs:85-95 `serialize`. -/
def serialize {M : Type} (c : Codec M) (m : M) (fmt : MessageFormat) : Res Bytes := do
  let body ← serializeInner c m fmt
  .ok (fmt.tag ++ body)

/-- src/complete/serde/deserializer.rs:84-106 `deserialize_inner`, with the `map_err` of line 81. -/
def deserializeInner {M : Type} (c : Codec M) (b : Bytes) (fmt : MessageFormat) : Res M :=
  match fmt with
  | .rawBinary => .err (.serdeError .useSuffixedBinFunctions)
  | .bincode => codecRes .bincodeError (c.binDe b)
  | .cbor => codecRes .cborError (c.cborDe b)
  | .utf8Json => codecRes .jsonError (c.jsonDe b)
  | .utf8PlainText => .panic .notImplemented

/-- src/complete/serde/deserializer.rs:70-82 `deserialize`. -/
def deserialize {M : Type} (f : Features) (c : Codec M) (b : Bytes) : Res M := do
  if b.length < HEADER_FORMAT_LEN then invalidMsg .messageTooShort
  else
    let fmt ← MessageFormat.tryFrom f (b.take HEADER_FORMAT_LEN)
    deserializeInner c (b.drop HEADER_FORMAT_LEN) fmt

/-- src/complete/serde.rs:26-46 `IncomingMessage<M>`. -/
inductive SerMessage (M : Type) where
  | connect (customData : Option M) (peerSigPublicKey : Bytes)
  | ack (customData : Option M)
  | message (data : Option M)
  deriving DecidableEq, Repr

/-- `if let Some(d) = d { Some(deserialize(&d)?) } else { None }`, deserializer.rs:43-47, 51-55, 58-62. -/
def deserializeOpt {M : Type} (f : Features) (c : Codec M) : Option Bytes → Res (Option M)
  | none => .ok none
  | some b => do
    let m ← deserialize f c b
    .ok (some m)

/-- src/complete/serde/deserializer.rs:38-64, one message. -/
def deserializeMsg {M : Type} (f : Features) (c : Codec M) : BinMessage → Res (SerMessage M)
  | .connect d k => do
    let d ← deserializeOpt f c d
    .ok (.connect d k)
  | .ack d => do
    let d ← deserializeOpt f c d
    .ok (.ack d)
  | .message d => do
    let d ← deserializeOpt f c d
    .ok (.message d)

/-- src/complete/serde/deserializer.rs:35-66, the loop. -/
def deserializeMsgs {M : Type} (f : Features) (c : Codec M) : List BinMessage → Res (List (SerMessage M))
  | [] => .ok []
  | m :: ms => do
    let m ← deserializeMsg f c m
    let ms ← deserializeMsgs f c ms
    .ok (m :: ms)

namespace SecureLayer

/-- src/complete/serde/deserializer.rs:26-67 `read` (src/complete.rs:181-186). -/
def readSer {M : Type} (env : Env) (f : Features) (c : Codec M) (sl : SecureLayer) (incoming : Bytes) :
    SecureLayer × Res (List (SerMessage M)) :=
  match sl.readBin env incoming with
  | (sl, .err e) => (sl, .err e)
  | (sl, .panic p) => (sl, .panic p)
  | (sl, .ok ms) => (sl, deserializeMsgs f c ms)

/-- src/complete/serde/serializer.rs:34-39 and 55-60: serialise and compress optional custom data. -/
def serializeOpt {M : Type} (cr : Crypto) (c : Codec M) (sl : SecureLayer) :
    Option M → Res (Option Bytes)
  | none => .ok none
  | some m => do
    let b ← serialize c m sl.minimal.config.messageFormat
    .ok (some (sl.compress cr b))

/-- src/complete/serde/serializer.rs:24-43 `write_connect_msg`. -/
def writeConnectSer {M : Type} (env : Env) (c : Codec M) (sl : SecureLayer) (customData : Option M)
    (w : BufW) : SecureLayer × BufW × Res Unit :=
  match serializeOpt env.cr c sl customData with
  | .ok d => sl.writeConnectRaw env d w
  | .err e => (sl, w, .err e)
  | .panic p => (sl, w, .panic p)

/-- src/complete/serde/serializer.rs:45-64 `write_ack_msg`. -/
def writeAckSer {M : Type} (env : Env) (c : Codec M) (sl : SecureLayer) (customData : Option M)
    (w : BufW) : SecureLayer × BufW × Res Unit :=
  match serializeOpt env.cr c sl customData with
  | .ok d => sl.writeAckRaw env d w
  | .err e => (sl, w, .err e)
  | .panic p => (sl, w, .panic p)

/-- src/complete/serde/serializer.rs:66-83 `write_message`. -/
def writeSer {M : Type} (env : Env) (c : Codec M) (sl : SecureLayer) (message : M) (w : BufW) :
    SecureLayer × BufW × Res Unit :=
  match serialize c message sl.minimal.config.messageFormat with
  | .ok b => sl.writeBinRaw env (sl.compress env.cr b) w
  | .err e => (sl, w, .err e)
  | .panic p => (sl, w, .panic p)

end SecureLayer
end Pkstl

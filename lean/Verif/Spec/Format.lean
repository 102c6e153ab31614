import Verif.Model.Serde
/- Message formats and serialised values, written down independently of the model's serialiser. -/
namespace Pkstl.Spec

variable {M : Type}

/-- The number of a format. -/
def formatCode : MessageFormat → Nat
  | .rawBinary => 0
  | .utf8PlainText => 1
  | .utf8Json => 2
  | .cbor => 3
  | .bincode => 4

/-- The formats a build knows. -/
def Knows? (f : Features) : MessageFormat → Prop
  | .rawBinary => True
  | .utf8PlainText => True
  | .utf8Json => f.json = true
  | .cbor => f.cbor = true
  | .bincode => f.bin = true

/-- A format number as 4 bytes, most significant first. -/
def formatTag (fmt : MessageFormat) : Bytes :=
  [3, 2, 1, 0].map fun i => UInt8.ofNat (formatCode fmt / 256 ^ i)

/-- `Encodes c fmt m body`: the external encoder of the format turns the value into `body`. -/
inductive Encodes (c : Codec M) : MessageFormat → M → Bytes → Prop where
  | json {m : M} {b : Bytes} (h : c.jsonSer m = some b) : Encodes c .utf8Json m b
  | cbor {m : M} {b : Bytes} (h : c.cborSer m = some b) : Encodes c .cbor m b
  | bincode {m : M} {b : Bytes} (h : c.binSer m = some b) : Encodes c .bincode m b

/-- `Decodes c fmt body m`: the external decoder of the format turns `body` into the value. -/
inductive Decodes (c : Codec M) : MessageFormat → Bytes → M → Prop where
  | json {m : M} {b : Bytes} (h : c.jsonDe b = some m) : Decodes c .utf8Json b m
  | cbor {m : M} {b : Bytes} (h : c.cborDe b = some m) : Decodes c .cbor b m
  | bincode {m : M} {b : Bytes} (h : c.binDe b = some m) : Decodes c .bincode b m

/-- What is handed to compression for optional data: nothing, or the format's tag and the encoded value. -/
inductive Packs (c : Codec M) (fmt : MessageFormat) : Option M → Option Bytes → Prop where
  | none : Packs c fmt none none
  | some {m : M} {b : Bytes} (h : Encodes c fmt m b) : Packs c fmt (some m) (some (formatTag fmt ++ b))

/-- Bytes that a receiver decodes to a value: the tag of a format its build knows and bytes that the decoder of that format
turns into the value. -/
def Reads (f : Features) (c : Codec M) (b : Bytes) (m : M) : Prop :=
  ∃ fmt body, Knows? f fmt ∧ b = formatTag fmt ++ body ∧ Decodes c fmt body m

/-- The same for optional data: no data are no value. -/
inductive ReadsOpt (f : Features) (c : Codec M) : Option Bytes → Option M → Prop where
  | none : ReadsOpt f c none none
  | some {b : Bytes} {m : M} (h : Reads f c b m) : ReadsOpt f c (some b) (some m)

/-- A message of the binary API and the same message of the serde API. -/
inductive ReadsMsg (f : Features) (c : Codec M) : BinMessage → SerMessage M → Prop where
  | connect {d : Option Bytes} {e : Option M} {k : Bytes} (h : ReadsOpt f c d e) : ReadsMsg f c (.connect d k) (.connect e k)
  | ack {d : Option Bytes} {e : Option M} (h : ReadsOpt f c d e) : ReadsMsg f c (.ack d) (.ack e)
  | message {d : Option Bytes} {e : Option M} (h : ReadsOpt f c d e) : ReadsMsg f c (.message d) (.message e)

/-- The data of a message. -/
def BinMessage.data : BinMessage → Option Bytes
  | .connect d _ => d
  | .ack d => d
  | .message d => d

end Pkstl.Spec

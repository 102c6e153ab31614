import Verif.Spec.Format
import Verif.Spec.InForce
/- Calls of the serde API and the calls of the binary API that they amount to. -/
namespace Pkstl.Spec

variable {M : Type}

/-- `Unreadable f c d r`: the data `d` of a message are no value for a build with the features `f`, and the call ends as
`r`. -/
inductive Unreadable {α : Type} (f : Features) (c : Codec M) : Bytes → Res α → Prop where
  | short {d : Bytes} (h : d.length < 4) : Unreadable f c d (.err (.recvInvalidMsg .messageTooShort))
  | unknown {d : Bytes} (h : 4 ≤ d.length) (hk : ∀ fmt, Knows? f fmt → d.take 4 ≠ formatTag fmt) :
      Unreadable f c d (.err (.recvInvalidMsg .unknownMessageFormat))
  | raw {b : Bytes} : Unreadable f c (formatTag .rawBinary ++ b) (.err (.serdeError .useSuffixedBinFunctions))
  | text {b : Bytes} : Unreadable f c (formatTag .utf8PlainText ++ b) (.panic .notImplemented)
  | json {b : Bytes} (hk : f.json = true) (h : c.jsonDe b = none) :
      Unreadable f c (formatTag .utf8Json ++ b) (.err (.serdeError .jsonError))
  | cbor {b : Bytes} (hk : f.cbor = true) (h : c.cborDe b = none) :
      Unreadable f c (formatTag .cbor ++ b) (.err (.serdeError .cborError))
  | bincode {b : Bytes} (hk : f.bin = true) (h : c.binDe b = none) :
      Unreadable f c (formatTag .bincode ++ b) (.err (.serdeError .bincodeError))

/-- `Unencodable c fmt m r`: the value cannot be encoded in the format, and the call ends as `r`. -/
inductive Unencodable {α : Type} (c : Codec M) : MessageFormat → M → Res α → Prop where
  | raw {m : M} : Unencodable c .rawBinary m (.err (.serdeError .useSuffixedBinFunctions))
  | text {m : M} : Unencodable c .utf8PlainText m (.panic .notImplemented)
  | json {m : M} (h : c.jsonSer m = none) : Unencodable c .utf8Json m (.err (.serdeError .jsonError))
  | cbor {m : M} (h : c.cborSer m = none) : Unencodable c .cbor m (.err (.serdeError .cborError))
  | bincode {m : M} (h : c.binSer m = none) : Unencodable c .bincode m (.err (.serdeError .bincodeError))

/-- `Views f c r r'`: where `read_bin` returns `r`, `read` returns `r'`. -/
inductive Views (f : Features) (c : Codec M) : Res (List BinMessage) → Res (List (SerMessage M)) → Prop where
  | err (e : Error) : Views f c (.err e) (.err e)
  | panic (p : Panic) : Views f c (.panic p) (.panic p)
  | ok {xs : List BinMessage} {ys : List (SerMessage M)} (h : List.Forall₂ (ReadsMsg f c) xs ys) : Views f c (.ok xs) (.ok ys)
  /-- one message is unreadable, those before it are not: none is handed over -/
  | lost {xs : List BinMessage} {ys : List (SerMessage M)} {x : BinMessage} {xs' : List BinMessage} {d : Bytes}
      {r : Res (List (SerMessage M))} (h : List.Forall₂ (ReadsMsg f c) xs ys) (hd : BinMessage.data x = some d)
      (hr : Unreadable f c d r) : Views f c (.ok (xs ++ x :: xs')) r

/-- A call of the serde API. -/
def CEvent.serde : CEvent M → Bool
  | .readSer .. => true
  | .connectSer .. => true
  | .ackSer .. => true
  | .writeSer .. => true
  | _ => false

/-- `Renders f fmt e es`: with the format `fmt` configured, the call `e` amounts to the calls `es` of the binary API, with the
same bytes read, the same bytes written and the same outcome. -/
inductive Renders (f : Features) (fmt : MessageFormat) : CEvent M → List (CEvent M) → Prop where
  | other {e : CEvent M} (h : e.serde = false) : Renders f fmt e [e]
  | read {c : Codec M} {b : Bytes} {r : Res (List BinMessage)} {r' : Res (List (SerMessage M))} (h : Views f c r r') :
      Renders f fmt (.readSer c b r') [.readBin b r]
  | connect {c : Codec M} {d : Option M} {d' : Option Bytes} {w w' : BufW} {r : Res Unit} (h : Packs c fmt d d') :
      Renders f fmt (.connectSer c d w w' r) [.connectBin d' w w' r]
  | ack {c : Codec M} {d : Option M} {d' : Option Bytes} {w w' : BufW} {r : Res Unit} (h : Packs c fmt d d') :
      Renders f fmt (.ackSer c d w w' r) [.ackBin d' w w' r]
  | write {c : Codec M} {m : M} {b : Bytes} {w w' : BufW} {r : Res Unit} (h : Encodes c fmt m b) :
      Renders f fmt (.writeSer c m w w' r) [.writeBin (formatTag fmt ++ b) w w' r]
  | noConnect {c : Codec M} {m : M} {w : BufW} {r : Res Unit} (h : Unencodable c fmt m r) :
      Renders f fmt (.connectSer c (some m) w w r) []
  | noAck {c : Codec M} {m : M} {w : BufW} {r : Res Unit} (h : Unencodable c fmt m r) :
      Renders f fmt (.ackSer c (some m) w w r) []
  | noWrite {c : Codec M} {m : M} {w : BufW} {r : Res Unit} (h : Unencodable c fmt m r) :
      Renders f fmt (.writeSer c m w w r) []

/-- The same for a history of a layer created with the configuration `c`, in which the format may change. -/
inductive Rendering (f : Features) (c : Config) : List (CEvent M) → List (CEvent M) → Prop where
  | nil : Rendering f c [] []
  | snoc {h h' es : List (CEvent M)} {e : CEvent M} (hh : Rendering f c h h')
      (he : Renders f (inForce c h).messageFormat e es) : Rendering f c (h ++ [e]) (h' ++ es)

end Pkstl.Spec

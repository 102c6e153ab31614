import Verif.Spec.Format
import Verif.Spec.InForce
import Verif.Spec.Receiver
/- The serde API over a network that loses, repeats and reorders messages. -/
namespace Pkstl.Spec

variable {M : Type}

/-- Present several inputs to `read`; the answers in order. -/
def readSers (env : Env) (f : Features) (c : Codec M) (sl : SecureLayer) :
    List Bytes → SecureLayer × List (Res (List (SerMessage M)))
  | [] => (sl, [])
  | b :: l =>
    let r := sl.readSer env f c b
    let rs := readSers env f c r.1 l
    (rs.1, r.2 :: rs.2)

/-- A value that the peer wrote: the index of the call among its successful writes, the bytes that went into the writer, and
the value. -/
structure PostedValue (M : Type) where
  index : Nat
  bytes : Bytes
  value : M

/-- In the history `h` of a layer created as `st` the value was written by `write`, through a buffer of more than 16 bytes and
in a format that a build with the features `f` knows. -/
def PostedValue.In (f : Features) (c : Codec M) (st : CStart) (h : List (CEvent M)) (x : PostedValue M) : Prop :=
  ∃ h1 h2 w w', h = h1 ++ .writeSer c x.value w w' (.ok ()) :: h2 ∧ h1.countP CEvent.writesUser = x.index ∧ 16 < w.cap ∧
    w'.stream = w.stream ++ x.bytes ∧ Knows? f (inForce st.config h1).messageFormat

end Pkstl.Spec

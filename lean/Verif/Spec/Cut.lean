import Verif.Model.BufWriter
/- C47: what of a message and its signature gets into the stream. -/
namespace Pkstl.Spec

/-- `Cut cap m sig r q`: through a buffer of `cap` bytes the bytes `q` of the message `m` and its signature `sig` get into
the stream, and the call answers `r`. -/
inductive Cut (cap : Nat) (m sig : Bytes) : Res Unit → Bytes → Prop where
  /-- `Ok`: the first `i` bytes of the message and the first `j` bytes of the signature; what is shorter than the buffer is
  not cut -/
  | ok {i j : Nat} (hi : i ≤ m.length) (hj : j ≤ sig.length) (hm : m.length < cap → i = m.length)
      (hs : sig.length < cap → j = sig.length) : Cut cap m sig (.ok ()) (m.take i ++ sig.take j)
  /-- the writer fails before anything of the message is taken -/
  | nothing : Cut cap m sig (.err .bufferFlushError) []
  /-- the writer fails after (a part of) the message; this needs a message that is shorter than the buffer or a signature
  that is not -/
  | unsigned {i : Nat} (hi : i ≤ m.length) (hm : m.length < cap → i = m.length) (h : m.length < cap ∨ cap ≤ sig.length) :
      Cut cap m sig (.err .bufferFlushError) (m.take i)

end Pkstl.Spec

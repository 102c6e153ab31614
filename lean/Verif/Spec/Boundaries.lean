import Verif.Spec.Unforged
import Verif.Spec.Window
/-
Message boundaries: what one message looks like on the wire, and what a history of writes puts there.
-/
namespace Pkstl.Spec

variable {M : Type}

/-- One complete message as it travels: a signed CONNECT or ACK, or a user message sealed with the session key. -/
inductive WireMsg (cr : Crypto) (sec : Option SecretKey) : Bytes → Prop where
  | connect {epk pk p sig : Bytes} (h1 : epk.length = 32) (h2 : pk.length = 32) (h3 : sig.length = 64) :
      WireMsg cr sec (connectFrame epk pk p ++ sig)
  | ack {c p sig : Bytes} (h1 : c.length = 32) (h3 : sig.length = 64) : WireMsg cr sec (ackFrame c p ++ sig)
  | user {k : SecretKey} {n : Nat} {p : Bytes} (hk : sec = some k) : WireMsg cr sec (cipherOf cr k n p)

/-- The keystream of the session key does not start with four zero bytes, so that a user message does not look like a
clear one (finding F4). -/
def Veiled (cr : Crypto) (sec : Option SecretKey) : Prop :=
  ∀ k, sec = some k → ¬ ∀ i < 4, cr.keystream k.key k.nonce i = 0

/-- The stream before and after a successful write of a CONNECT, an ACK or a user message. -/
def CEvent.wrote : CEvent M → Option (BufW × BufW)
  | .connectBin _ w w' (.ok ()) => some (w, w')
  | .connectSer _ _ w w' (.ok ()) => some (w, w')
  | .ackBin _ w w' (.ok ()) => some (w, w')
  | .ackSer _ _ w w' (.ok ()) => some (w, w')
  | .writeBin _ w w' (.ok ()) => some (w, w')
  | .writeSer _ _ w w' (.ok ()) => some (w, w')
  | _ => none

/-- The call `e` succeeded in writing, to a writer that takes everything through a buffer of more than 16 bytes, and added
`m` to the stream. -/
def Emits (e : CEvent M) (m : Bytes) : Prop :=
  ∃ w w', e.wrote = some (w, w') ∧ w.sink.script = [] ∧ 16 < w.cap ∧ w'.stream = w.stream ++ m ∧ m.length < 2 ^ 64

/-- The input `inc` is the message `x` cut short or with something behind it. -/
def Misread (x inc : Bytes) : Prop := (inc <+: x ∨ x <+: inc) ∧ inc ≠ x

end Pkstl.Spec

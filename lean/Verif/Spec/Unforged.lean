import Verif.Spec.CHistory
import Verif.Spec.Format
import Verif.Spec.Window
/-
What an unforgeable signature scheme gives: whatever verifies under an honest party's key was written by one of its
layers.  What an unforgeable cipher gives: whatever is sealed with the session key was written by a layer that has it.
-/
namespace Pkstl.Spec

variable {M : Type}

/-- The writer before and after a call of `write_connect_msg*` or `write_ack_msg*` that returned `Ok`. -/
def CEvent.wroteSigned : CEvent M → Option (BufW × BufW)
  | .connectBin _ w w' (.ok ()) => some (w, w')
  | .connectSer _ _ w w' (.ok ()) => some (w, w')
  | .ackBin _ w w' (.ok ()) => some (w, w')
  | .ackSer _ _ w w' (.ok ()) => some (w, w')
  | _ => none

/-- In the history `h` the message `body` was written with a 64-byte signature behind it, to a writer that takes
everything. -/
def WroteSigned (h : List (CEvent M)) (body : Bytes) : Prop :=
  ∃ e ∈ h, ∃ w w', e.wroteSigned = some (w, w') ∧ w.sink.script = [] ∧
    ∃ sig, sig.length = 64 ∧ w'.stream = w.stream ++ (body ++ sig)

/-- Every part of the byte strings `seen` that verifies under `pk` was written by one of the layers `B`. -/
def Unforged (cr : Crypto) (pk : Bytes) (seen : List Bytes) (B : CStart → List (CEvent M) → SecureLayer → Prop) : Prop :=
  ∀ inc ∈ seen, ∀ body sig, inc = body ++ sig → cr.edVerify pk body sig = true →
    ∃ st h sl, B st h sl ∧ WroteSigned h body

/-- The writer before and after a call of `write_bin` or `write` that returned `Ok`. -/
def CEvent.wroteUser : CEvent M → Option (BufW × BufW)
  | .writeBin _ w w' (.ok ()) => some (w, w')
  | .writeSer _ _ w w' (.ok ()) => some (w, w')
  | _ => none

/-- In the history `h` the byte string `inc` was written as a user message, through a buffer of more than 16 bytes. -/
def WroteUser (h : List (CEvent M)) (inc : Bytes) : Prop :=
  ∃ e ∈ h, ∃ w w', e.wroteUser = some (w, w') ∧ 16 < w.cap ∧ w'.stream = w.stream ++ inc

/-- Everything among the byte strings `seen` that is sealed with the key `sec` was written as a user message in one of the
histories `Ws`. -/
def Sealed (cr : Crypto) (sec : Option SecretKey) (seen : List Bytes) (Ws : List (List (CEvent M))) : Prop :=
  ∀ k n q, sec = some k → n < 2 ^ 64 → cipherOf cr k n q ∈ seen → ∃ h ∈ Ws, WroteUser h (cipherOf cr k n q)

/-- The data of a user message that was written: the argument of `write_bin`, or for `write` the tag of a format and the
encoded value. -/
inductive Content : CEvent M → Bytes → Prop where
  | bin {d : Bytes} {w w' : BufW} : Content (.writeBin d w w' (.ok ())) d
  | ser {c : Codec M} {m : M} {w w' : BufW} {fmt : MessageFormat} {body : Bytes} (h : Encodes c fmt m body) :
      Content (.writeSer c m w w' (.ok ())) (formatTag fmt ++ body)

/-- The call transports user messages by the serde API with the codec `c` only. -/
def CEvent.SerOnly (c : Codec M) : CEvent M → Prop
  | .readBin b r => Kind.user ∉ (CEvent.readBin b r : CEvent M).kinds
  | .writeBin _ _ _ r => r ≠ .ok ()
  | .readSer c' _ _ => c' = c
  | .writeSer c' _ _ _ _ => c' = c
  | _ => True

/-- The values of the user messages that a call of `read` hands over. -/
def CEvent.values : CEvent M → List (Option M)
  | .readSer _ _ (.ok ms) => ms.filterMap fun m => match m with
    | .message d => some d
    | _ => none
  | _ => []

/-- The value that a call of `write` has written. -/
def CEvent.wroteValue : CEvent M → Option M
  | .writeSer _ m _ _ (.ok ()) => some m
  | _ => none

end Pkstl.Spec

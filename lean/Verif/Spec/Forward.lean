import Verif.Spec.CHistory
/- C72: two histories that differ in the long-term signature key only. -/
namespace Pkstl.Spec
variable {M : Type}

/-- The two writers took equally many bytes, hold back equally many and will behave alike. -/
structure SameShape (w w' : BufW) : Prop where
  cap : w'.cap = w.cap
  buf : w'.buf.length = w.buf.length
  taken : w'.sink.taken.length = w.sink.taken.length
  script : w'.sink.script = w.sink.script

/-- The same call with the same outcome.  Only a call that writes a CONNECT or an ACK may have written other bytes, and
then as many as before. -/
def CEvent.Resigned : CEvent M → CEvent M → Prop
  | .connectBin d w a r, .connectBin d' w' a' r' => d' = d ∧ w' = w ∧ r' = r ∧ SameShape a a'
  | .connectSer c d w a r, .connectSer c' d' w' a' r' => c' = c ∧ d' = d ∧ w' = w ∧ r' = r ∧ SameShape a a'
  | .ackBin d w a r, .ackBin d' w' a' r' => d' = d ∧ w' = w ∧ r' = r ∧ SameShape a a'
  | .ackSer c d w a r, .ackSer c' d' w' a' r' => c' = c ∧ d' = d ∧ w' = w ∧ r' = r ∧ SameShape a a'
  | e, e' => e' = e

/-- The layer is created with another signature key. -/
def CStart.withKey (st : CStart) (seed : Option Bytes) (seedRandom : Bytes) : CStart :=
  { st with seed := seed, seedRandom := seedRandom }

end Pkstl.Spec

import Verif.Spec.Net
/- Two systems that look the same from outside. -/
namespace Pkstl.Spec

/-- The same parties; only which of them expects the other's signature key may differ. -/
def SameButExpected (st st' : Bool → CStart) : Prop :=
  ∀ p, st' p = { st p with expected := (st' p).expected }

/-- The same bytes are under way, the same has been written and the same bytes have arrived, in the same order.  The
applications have been handed the same, apart from the ACK of a peer whose CONNECT has not arrived; and a layer that has
been handed a CONNECT is in the same state. -/
structure Net.Alike (n n' : Net) : Prop where
  wire : n'.wire = n.wire
  wrote : n'.wrote = n.wrote
  arrived : ∀ p, (n'.log p).map Prod.fst = (n.log p).map Prod.fst
  connects : ∀ p, connectsIn (n'.delivered p) = connectsIn (n.delivered p)
  users : ∀ p, usersIn (n'.delivered p) = usersIn (n.delivered p)
  acks : ∀ p, connectsIn (n.delivered p) ≠ [] → acksIn (n'.delivered p) = acksIn (n.delivered p)
  layer : ∀ p, connectsIn (n.delivered p) ≠ [] → n'.layer p = n.layer p

end Pkstl.Spec

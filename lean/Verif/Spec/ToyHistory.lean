import Verif.Spec.ToySession
import Verif.Spec.Window
/- The histories of the toy session with the facts the examples need. -/
namespace Pkstl.Toy
open Spec

/-- B's side of the negotiation. -/
theorem hist_b4 (oc : Bool) : ∃ h, Run (env oc) stB h b4 ∧ (∀ e ∈ h, e.regular) ∧
    userPayloads (deliveries h) = [] ∧ (inputs h).length = 2 ∧ h.countP Event.writes = 0 := by
  have r := ((((run0 oc [2] none).call (.read (sign seedA conA))).call (.connect pkB none)).call (.ack none)).call
    (.read (sign seedA ackA))
  refine ⟨_, Eq.mp (congrArg _ ?_) r, ?_, ?_, ?_, ?_⟩ <;> cases oc <;> decide +kernel

/-- A's side of the negotiation. -/
theorem hist_a4 (oc : Bool) : ∃ h, Run (env oc) stA h a4 ∧ h.countP Event.writes = 0 := by
  have r := ((((run0 oc [1] none).call (.connect pkA (some [7, 8]))).call (.read (sign seedB conB))).call
    (.read (sign seedB ackB))).call (.ack (some [9]))
  refine ⟨_, Eq.mp (congrArg _ ?_) r, ?_⟩ <;> cases oc <;> decide +kernel

/-- B between its own ACK and A's. -/
theorem hist_b3 (oc : Bool) : ∃ h, Run (env oc) stB h b3 ∧ early h = [] := by
  have r := ((((run0 oc [2] none).call (.read (sign seedA conA))).call (.connect pkB none)).call (.ack none))
  refine ⟨_, Eq.mp (congrArg _ ?_) r, ?_⟩ <;> cases oc <;> decide +kernel

end Pkstl.Toy

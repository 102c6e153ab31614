import Verif.Spec.Complete
import Verif.Spec.ToySession
/- A concrete session of two complete toy layers, stage by stage. -/
namespace Pkstl.Toy
open Spec

variable {M : Type}

/-- Some history leads to this state. -/
def CReach (M : Type) (env : Env) (f : Features) (st : CStart) (sl : SecureLayer) : Prop :=
  ∃ h : List (CEvent M), CRun env f st h sl

theorem CReach.step {env : Env} {f : Features} {st : CStart} {s s' : SecureLayer} (hr : CReach M env f st s) (op : COp M)
    (h : (Spec.cstep env f s op).1 = s') : CReach M env f st s' := by
  obtain ⟨l, hr⟩ := hr
  exact ⟨_, h ▸ CRun.call hr op⟩

theorem CReach.read {env : Env} {f : Features} {st : CStart} {s s' : SecureLayer} {b : Bytes} (hr : CReach M env f st s)
    (h : (s.readBin env b).1 = s') : CReach M env f st s' := hr.step (.readBin b) h

/-- A complete toy layer of party A and of party B. -/
def csA (s : Layer) : SecureLayer := ⟨s, some seedA⟩
def csB (s : Layer) : SecureLayer := ⟨s, some seedB⟩
def cstA : CStart := ⟨Config.default, none, [1], some seedA, []⟩
def cstB : CStart := ⟨Config.default, none, [2], some seedB, []⟩

/-- The signed negotiation messages. -/
def cconA : Bytes := sign seedA (connectFrame (xpub [1]) pkA [0, 7, 8])
def cconB : Bytes := sign seedB (connectFrame (xpub [2]) pkB [])
def cackA : Bytes := sign seedA (ackFrame (cr.sha256 (xpub [2])) [0])
def cackB : Bytes := sign seedB (ackFrame (cr.sha256 (xpub [1])) [])

section
variable (M) (f : Features) (oc : Bool)

theorem creach_a0 : CReach M (env oc) f cstA (csA (layer0 [1] none)) := ⟨_, .init rfl⟩
theorem creach_b0 : CReach M (env oc) f cstB (csB (layer0 [2] none)) := ⟨_, .init rfl⟩
theorem creach_a1 : CReach M (env oc) f cstA (csA a1) := (creach_a0 M f oc).step (.connectBin (some [7, 8]) sink) rfl
theorem creach_b1 : CReach M (env oc) f cstB (csB b1) :=
  (creach_b0 M f oc).read (by cases oc <;> decide +kernel : (SecureLayer.readBin (env oc) _ cconA).1 = _)
theorem creach_b2 : CReach M (env oc) f cstB (csB b2) := (creach_b1 M f oc).step (.connectBin none sink) rfl
theorem creach_b3 : CReach M (env oc) f cstB (csB b3) := (creach_b2 M f oc).step (.ackBin none sink) rfl
theorem creach_a2 : CReach M (env oc) f cstA (csA a2) :=
  (creach_a1 M f oc).read (by cases oc <;> decide +kernel : (SecureLayer.readBin (env oc) _ cconB).1 = _)
theorem creach_a3 : CReach M (env oc) f cstA (csA a3) :=
  (creach_a2 M f oc).read (by cases oc <;> decide +kernel : (SecureLayer.readBin (env oc) _ cackB).1 = _)
theorem creach_a4 : CReach M (env oc) f cstA (csA a4) := (creach_a3 M f oc).step (.ackBin (some []) sink) rfl
theorem creach_b4 : CReach M (env oc) f cstB (csB b4) :=
  (creach_b3 M f oc).read (by cases oc <;> decide +kernel : (SecureLayer.readBin (env oc) _ cackA).1 = _)

end
end Pkstl.Toy

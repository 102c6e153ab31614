import Verif.Spec.Toy
import Verif.Spec.Session
import Verif.Spec.Wire
/-
A concrete session between two toy parties, stage by stage.  It provides reachable states for the
examples beside the theorems.
-/
namespace Pkstl.Toy
open Spec

/-- Some history leads to this state. -/
def Reach (env : Env) (st : Start) (s : Layer) : Prop := ∃ h, Run env st h s

theorem Reach.step {env : Env} {st : Start} {s s' : Layer} (hr : Reach env st s) (op : Op)
    (h : (Spec.step env s op).1 = s') : Reach env st s' := by
  obtain ⟨l, hr⟩ := hr
  exact ⟨_, h ▸ Run.call hr op⟩

def pkA : Bytes := pad 32 seedA
def pkB : Bytes := pad 32 seedB

/-- The session secret of the toy parties. -/
def key : SecretKey :=
  match sessionKey cr [1] (xpub [1]) (xpub [2]) with
  | some k => k
  | none => ⟨[], [], []⟩

/-- The signed negotiation messages. -/
def conA : Bytes := connectFrame (xpub [1]) pkA [7, 8]
def conB : Bytes := connectFrame (xpub [2]) pkB []
def ackA : Bytes := ackFrame (cr.sha256 (xpub [2])) [9]
def ackB : Bytes := ackFrame (cr.sha256 (xpub [1])) []
def sign (seed m : Bytes) : Bytes := m ++ cr.edSign seed m

/-- A party that has the peer's CONNECT. -/
def met (own peer peerSig : Bytes) (st : Status) : Layer :=
  { layer0 own none with
    status := st, ephemeralKp := none, peerEpk := some (xpub peer), peerSigPubkey := some peerSig
    secret := some key }

def stA : Start := start [1] none
def stB : Start := start [2] none

/-- Party A after its CONNECT. -/
def a1 : Layer := { layer0 [1] none with status := .ongoing .connectMsgSent .waitConnectMsg }
/-- Party B after A's CONNECT. -/
def b1 : Layer := met [2] [1] pkA (.ongoing .created .validConnectMsgReceived)
/-- Party B after its own CONNECT. -/
def b2 : Layer := met [2] [1] pkA (.ongoing .connectMsgSent .validConnectMsgReceived)
/-- Party B after its ACK: it may receive early user messages. -/
def b3 : Layer := met [2] [1] pkA (.ongoing .connectMsgSent .ackMsgSent)
/-- Party A after B's CONNECT. -/
def a2 : Layer := met [1] [2] pkB (.ongoing .connectMsgSent .validConnectMsgReceived)
/-- Party A after B's ACK. -/
def a3 : Layer := met [1] [2] pkB (.ongoing .validAckMsgReceived .validConnectMsgReceived)
/-- Party A negotiated. -/
def a4 : Layer := met [1] [2] pkB .success
/-- Party B negotiated. -/
def b4 : Layer := met [2] [1] pkA .success

section
variable (oc : Bool)

theorem reach_a1 : Reach (env oc) stA a1 :=
  Reach.step ⟨[], run0 oc _ _⟩ (.connect pkA (some [7, 8])) (by rfl)

theorem reach_b1 : Reach (env oc) stB b1 :=
  Reach.step ⟨[], run0 oc _ _⟩ (.read (sign seedA conA)) (by cases oc <;> decide +kernel)

theorem reach_b2 : Reach (env oc) stB b2 := (reach_b1 oc).step (.connect pkB none) (by rfl)
theorem reach_b3 : Reach (env oc) stB b3 := (reach_b2 oc).step (.ack none) (by rfl)
theorem reach_a2 : Reach (env oc) stA a2 :=
  (reach_a1 oc).step (.read (sign seedB conB)) (by cases oc <;> decide +kernel)
theorem reach_a3 : Reach (env oc) stA a3 :=
  (reach_a2 oc).step (.read (sign seedB ackB)) (by cases oc <;> decide +kernel)
theorem reach_a4 : Reach (env oc) stA a4 := (reach_a3 oc).step (.ack (some [9])) (by rfl)
theorem reach_b4 : Reach (env oc) stB b4 :=
  (reach_b3 oc).step (.read (sign seedA ackA)) (by cases oc <;> decide +kernel)

theorem key_ok : sessionKey cr [1] (xpub [1]) (xpub [2]) = some key := by decide +kernel
theorem key_stream : ¬ ∀ i < 4, cr.keystream key.key key.nonce i = 0 := by
  intro h; exact absurd (h 0 (by omega)) (by decide)

end
end Pkstl.Toy

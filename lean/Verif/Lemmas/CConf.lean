import Verif.Lemmas.CFrame
import Verif.Lemmas.Conf
/- The configuration of a `SecureLayer` is changed by `change_config` only. -/
namespace Pkstl
open Spec

variable {M : Type} {env : Env} {f : Features} {st : Start}

/-- Configuration and clone mark are those given. -/
def SameConf (a b : Layer) : Prop := b.config = a.config ∧ b.cloned = a.cloned

theorem step_sameConf {s : Layer} (h : Wf env st s) (op : Op) (h1 : ∀ c, op ≠ .config c) (h2 : op ≠ .clone) :
    SameConf s (step env s op).1 := ⟨(step_conf h op).2.1 h1, (step_conf h op).2.2 h2⟩

theorem SameConf.trans {a b c : Layer} (h1 : SameConf a b) (h2 : SameConf b c) : SameConf a c :=
  ⟨h2.1.trans h1.1, h2.2.trans h1.2⟩

theorem readBin_sameConf {sl : SecureLayer} (hw : Wf env st sl.minimal) (b : Bytes) :
    SameConf sl.minimal (sl.readBin env b).1.minimal := by
  have h1 : SameConf sl.minimal (sl.minimal.read env b).1 := step_sameConf hw (.read b) (by simp) (by simp)
  have hw1 := hw.read b
  unfold SecureLayer.readBin
  revert h1 hw1
  rcases sl.minimal.read env b with ⟨m, r⟩
  intro h1 hw1
  dsimp only at h1 hw1
  have h2 : SameConf m (m.takeAck env).1 := step_sameConf hw1 .takeAck (by simp) (by simp)
  have h3 : SameConf m (m.drainTmpStack env).1 := step_sameConf hw1 .drain (by simp) (by simp)
  have h2 := h1.trans h2
  have h3 := h1.trans h3
  rcases r with ⟨_ | msg⟩ | e | p
  · exact h1
  · cases msg with
    | connect _ k d =>
      dsimp only
      rcases SecureLayer.uncompressOpt env.cr d with cd | e | p
      · dsimp only
        revert h2
        rcases m.takeAck env with ⟨m', ⟨_ | msg⟩ | e | p⟩ <;> intro h2
        · exact h2
        · cases msg with
          | ack ad => dsimp only; rcases SecureLayer.uncompressOpt env.cr ad with cd | e | p <;> exact h2
          | connect _ _ _ => exact h2
          | message _ => exact h2
        · exact h2
        · exact h2
      · exact h1
      · exact h1
    | ack d =>
      dsimp only
      rcases SecureLayer.uncompressOpt env.cr d with cd | e | p
      · dsimp only
        revert h3
        rcases m.drainTmpStack env with ⟨m', ms | e | p⟩ <;> exact id
      · exact h1
      · exact h1
    | message d =>
      dsimp only
      rcases SecureLayer.uncompressOpt env.cr d with cd | e | p <;> exact h1
  · exact h1
  · exact h1

theorem writeConnectRaw_sameConf {sl : SecureLayer} (hw : Wf env st sl.minimal) (d : Option Bytes) (w : BufW) :
    SameConf sl.minimal (sl.writeConnectRaw env d w).1.minimal := by
  unfold SecureLayer.writeConnectRaw
  cases sl.sigSeed with
  | none => exact ⟨rfl, rfl⟩
  | some seed =>
    have h1 : SameConf sl.minimal (sl.minimal.createConnect env (env.cr.edPublic seed) d).1 :=
      step_sameConf hw (.connect _ d) (by simp) (by simp)
    dsimp only
    revert h1
    rcases sl.minimal.createConnect env (env.cr.edPublic seed) d with ⟨m, r | e | p⟩ <;> exact id

theorem writeAckRaw_sameConf {sl : SecureLayer} (hw : Wf env st sl.minimal) (d : Option Bytes) (w : BufW) :
    SameConf sl.minimal (sl.writeAckRaw env d w).1.minimal := by
  unfold SecureLayer.writeAckRaw
  cases sl.sigSeed with
  | none => exact ⟨rfl, rfl⟩
  | some seed =>
    have h1 : SameConf sl.minimal (sl.minimal.createAck env d).1 := step_sameConf hw (.ack d) (by simp) (by simp)
    dsimp only
    revert h1
    rcases sl.minimal.createAck env d with ⟨m, r | e | p⟩ <;> exact id

theorem writeBinRaw_sameConf {sl : SecureLayer} (hw : Wf env st sl.minimal) (d : Bytes) (w : BufW) :
    SameConf sl.minimal (sl.writeBinRaw env d w).1.minimal :=
  step_sameConf hw (.write d w) (by simp) (by simp)

theorem cstep_sameConf {sl : SecureLayer} (hw : Wf env st sl.minimal) (op : COp M) (h1 : ∀ c, op ≠ .config c)
    (h2 : op ≠ .clone) : SameConf sl.minimal (cstep env f sl op).1.minimal := by
  cases op with
  | readBin b => exact readBin_sameConf hw b
  | readSer c b =>
    have : (sl.readSer env f c b).1 = (sl.readBin env b).1 := by
      unfold SecureLayer.readSer
      rcases sl.readBin env b with ⟨_, _ | _ | _⟩ <;> rfl
    simp only [cstep, this]
    exact readBin_sameConf hw b
  | connectBin d w => exact writeConnectRaw_sameConf hw _ w
  | connectSer c d w =>
    simp only [cstep, SecureLayer.writeConnectSer]
    rcases sl.serializeOpt env.cr c d with d' | e | p
    · exact writeConnectRaw_sameConf hw _ w
    · exact ⟨rfl, rfl⟩
    · exact ⟨rfl, rfl⟩
  | ackBin d w => exact writeAckRaw_sameConf hw _ w
  | ackSer c d w =>
    simp only [cstep, SecureLayer.writeAckSer]
    rcases sl.serializeOpt env.cr c d with d' | e | p
    · exact writeAckRaw_sameConf hw _ w
    · exact ⟨rfl, rfl⟩
    · exact ⟨rfl, rfl⟩
  | writeBin d w => exact writeBinRaw_sameConf hw _ w
  | writeSer c m w =>
    simp only [cstep, SecureLayer.writeSer]
    rcases serialize c m sl.minimal.config.messageFormat with d' | e | p
    · exact writeBinRaw_sameConf hw _ w
    · exact ⟨rfl, rfl⟩
    · exact ⟨rfl, rfl⟩
  | clone => exact absurd rfl h2
  | config c => exact absurd rfl (h1 c)

end Pkstl

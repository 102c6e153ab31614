import Verif.Lemmas.CFrame
import Verif.Lemmas.Clone
/- What the calls of the complete mode leave alone. -/
namespace Pkstl
open Spec

variable {M : Type} {env : Env} {f : Features} {st : Start}

/-- Everything but status, configuration and the number of the next message is the same. -/
structure Keeps (s s' : Layer) : Prop where
  ack : s'.ackMsgRecvTooEarly = s.ackMsgRecvTooEarly
  secret : s'.secret = s.secret
  kp : s'.ephemeralKp = s.ephemeralKp
  epub : s'.ephemeralPubkey = s.ephemeralPubkey
  next : s'.nextNonceExpected = s.nextNonceExpected
  orphans : s'.orphanNonces = s.orphanNonces
  epk : s'.peerEpk = s.peerEpk
  psk : s'.peerSigPubkey = s.peerSigPubkey
  stack : s'.tmpStack = s.tmpStack

theorem Keeps.refl (s : Layer) : Keeps s s := ⟨rfl, rfl, rfl, rfl, rfl, rfl, rfl, rfl, rfl⟩

/-- The input of a call that reads. -/
def Spec.COp.input? : COp M → Option Bytes
  | .readBin b => some b
  | .readSer _ b => some b
  | _ => none

theorem readSer_fst (sl : SecureLayer) (c : Codec M) (b : Bytes) :
    (sl.readSer env f c b).1 = (sl.readBin env b).1 := by
  unfold SecureLayer.readSer
  rcases sl.readBin env b with ⟨sl', ms | e | p⟩ <;> rfl

theorem cstep_read {sl : SecureLayer} {op : COp M} {b : Bytes} (h : op.input? = some b) :
    (cstep env f sl op).1 = (sl.readBin env b).1 := by
  cases op <;> simp [COp.input?] at h
  · subst h; rfl
  · subst h; exact readSer_fst _ _ _

/-- Calls that do not read. -/
theorem cstep_keeps {sl : SecureLayer} (hw : Wf env st sl.minimal) {op : COp M} (h : op.input? = none) :
    Keeps sl.minimal (cstep env f sl op).1.minimal := by
  have con : ∀ d w, Keeps sl.minimal (sl.writeConnectRaw env d w).1.minimal := by
    intro d w
    rcases writeConnectRaw_cases env sl d w with ⟨-, he⟩ | ⟨seed, -, -, he⟩ | ⟨seed, rem, hs, h1, he⟩ <;> rw [he]
    · exact .refl _
    · exact .refl _
    · exact ⟨rfl, rfl, rfl, rfl, rfl, rfl, rfl, rfl, rfl⟩
  have ack : ∀ d w, Keeps sl.minimal (sl.writeAckRaw env d w).1.minimal := by
    intro d w
    rcases writeAckRaw_cases hw d w with ⟨-, he⟩ | ⟨seed, -, -, he⟩ | ⟨seed, loc, epk, hs, h1, hp, he⟩ <;> rw [he]
    · exact .refl _
    · exact .refl _
    · exact ⟨rfl, rfl, rfl, rfl, rfl, rfl, rfl, rfl, rfl⟩
  have wr : ∀ d w, Keeps sl.minimal (sl.writeBinRaw env d w).1.minimal := by
    intro d w
    show Keeps sl.minimal (sl.minimal.writeMessage env d w).1
    rcases writeMessage_cases env sl.minimal d w with ⟨-, he⟩ | ⟨l, r, -, he⟩ | ⟨-, -, he⟩ |
      ⟨-, k, -, ⟨w', e, -, he⟩ | ⟨w', -, ⟨n, -, he⟩ | ⟨-, he⟩⟩⟩ <;> rw [he] <;>
      exact ⟨rfl, rfl, rfl, rfl, rfl, rfl, rfl, rfl, rfl⟩
  cases op with
  | readBin b => simp [COp.input?] at h
  | readSer c b => simp [COp.input?] at h
  | connectBin d w => exact con _ _
  | ackBin d w => exact ack _ _
  | writeBin d w => exact wr _ _
  | connectSer c d w =>
    simp only [cstep, SecureLayer.writeConnectSer]
    cases hs : SecureLayer.serializeOpt env.cr c sl d with
    | ok d' => exact con _ _
    | err e => exact .refl _
    | panic p => exact .refl _
  | ackSer c d w =>
    simp only [cstep, SecureLayer.writeAckSer]
    cases hs : SecureLayer.serializeOpt env.cr c sl d with
    | ok d' => exact ack _ _
    | err e => exact .refl _
    | panic p => exact .refl _
  | writeSer c m w =>
    simp only [cstep, SecureLayer.writeSer]
    cases hs : serialize c m sl.minimal.config.messageFormat with
    | ok b => exact wr _ _
    | err e => exact .refl _
    | panic p => exact .refl _
  | clone =>
    have e1 : sl.tryClone.1 = { sl with minimal := sl.minimal.tryClone.1 } := by
      unfold SecureLayer.tryClone
      rcases sl.minimal.tryClone with ⟨m, c | e | p⟩ <;> rfl
    simp only [cstep, e1]
    unfold Layer.tryClone
    split <;> exact ⟨rfl, rfl, rfl, rfl, rfl, rfl, rfl, rfl, rfl⟩
  | config c =>
    simp only [cstep, SecureLayer.changeConfig, Layer.changeConfig]
    split <;> exact ⟨rfl, rfl, rfl, rfl, rfl, rfl, rfl, rfl, rfl⟩

/-- The state after `read_bin`. -/
theorem readBin_state (sl : SecureLayer) (b : Bytes) :
    (sl.readBin env b).1.minimal = (sl.minimal.read env b).1 ∨
    (∃ a k d, (sl.minimal.read env b).2 = .ok (some (.connect a k d)) ∧
      (sl.readBin env b).1.minimal = ((sl.minimal.read env b).1.takeAck env).1) ∨
    (∃ d, (sl.minimal.read env b).2 = .ok (some (.ack d)) ∧
      (sl.readBin env b).1.minimal = ((sl.minimal.read env b).1.drainTmpStack env).1) := by
  unfold SecureLayer.readBin
  rcases sl.minimal.read env b with ⟨m, (_ | mm) | e | p⟩
  · exact .inl rfl
  · cases mm with
    | connect a k d =>
      dsimp only
      cases SecureLayer.uncompressOpt env.cr d with
      | err e => exact .inl rfl
      | panic p => exact .inl rfl
      | ok cd =>
        right; left
        refine ⟨_, _, _, rfl, ?_⟩
        dsimp only
        rcases m.takeAck env with ⟨m2, (_ | mm) | e | p⟩
        · rfl
        · cases mm with
          | ack d2 => dsimp only; cases SecureLayer.uncompressOpt env.cr d2 <;> rfl
          | connect _ _ _ => rfl
          | message _ => rfl
        · rfl
        · rfl
    | ack d =>
      dsimp only
      cases SecureLayer.uncompressOpt env.cr d with
      | err e => exact .inl rfl
      | panic p => exact .inl rfl
      | ok cd =>
        right; right
        refine ⟨_, rfl, ?_⟩
        dsimp only
        rcases m.drainTmpStack env with ⟨m2, ms | e | p⟩ <;> rfl
    | message d =>
      dsimp only
      cases SecureLayer.uncompressOpt env.cr d <;> exact .inl rfl
  · exact .inl rfl
  · exact .inl rfl

theorem Wf.steps {s s' : Layer} {es : List Event} (h : Wf env st s) (hs : Steps env s es s') : Wf env st s' := by
  induction hs with
  | refl => exact h
  | call _ op ih => exact ih.step op
  | cloned _ hc ih => exact ih.clone hc

/-- A layer that waits for a CONNECT has been waiting all the time. -/
theorem step_wait {s : Layer} (h : Wf env st s) {op : Op} {loc : LocalNego}
    (hs : (step env s op).1.status = .ongoing loc .waitConnectMsg) : ∃ loc', s.status = .ongoing loc' .waitConnectMsg := by
  have heff := step_effect h op
  rw [hs] at heff
  generalize (step env s op).2 = e at heff
  generalize s.status = a at heff
  generalize hb : Status.ongoing loc .waitConnectMsg = b at heff
  cases heff with
  | quiet h' =>
    rcases h' with h' | h'
    · rw [h'] at hb; exact ⟨_, hb.symm⟩
    · rw [h'] at hb; simp at hb
  | createsConnect => simp at hb; exact ⟨_, by rw [hb.2]⟩
  | createsAck => split at hb <;> simp at hb
  | acceptsConnect => simp at hb
  | acceptsAck => split at hb <;> simp at hb; exact ⟨_, by rw [hb.2]⟩

theorem steps_wait {s s' : Layer} {es : List Event} (h : Wf env st s) (hs : Steps env s es s') {loc : LocalNego}
    (hw : s'.status = .ongoing loc .waitConnectMsg) : ∃ loc', s.status = .ongoing loc' .waitConnectMsg := by
  induction hs generalizing loc with
  | refl => exact ⟨_, hw⟩
  | call hst op ih =>
    obtain ⟨loc', h'⟩ := step_wait (h.steps hst) hw
    exact ih h'
  | cloned hst hc ih =>
    obtain ⟨h1, rfl⟩ := tryClone_iff.mp hc
    rw [h1] at hw; simp at hw

/-- A negotiation that is over stays over. -/
theorem steps_over {s s' : Layer} {es : List Event} (hw : Wf env st s) (hst : Steps env s es s')
    (hs : ∀ loc rem, s.status ≠ .ongoing loc rem) : ∀ loc rem, s'.status ≠ .ongoing loc rem := by
  induction hst with
  | refl => exact hs
  | @call s1 h1 hst op ih =>
    have heff := step_effect (hw.steps hst) op
    intro loc rem hc
    rw [hc] at heff
    generalize s1.status = a at heff ih
    generalize (step env s1 op).2 = e at heff
    generalize hb : Status.ongoing loc rem = b at heff
    cases heff with
    | quiet h' =>
      rcases h' with h' | h'
      · rw [h'] at hb; exact ih _ _ hb.symm
      · rw [h'] at hb; simp at hb
    | createsConnect => exact ih _ _ rfl
    | createsAck => exact ih _ _ rfl
    | acceptsConnect => exact ih _ _ rfl
    | acceptsAck => exact ih _ _ rfl
  | cloned hst hc ih =>
    obtain ⟨h1, rfl⟩ := tryClone_iff.mp hc
    exact ih

/-- A kept early ACK stays as long as the layer waits for the CONNECT. -/
theorem cstep_early {sl : SecureLayer} (hw : Wf env st sl.minimal) {op : COp M} {x : Bytes} {loc : LocalNego}
    (hx : sl.minimal.ackMsgRecvTooEarly = some x)
    (hs : (cstep env f sl op).1.minimal.status = .ongoing loc .waitConnectMsg) :
    (cstep env f sl op).1.minimal.ackMsgRecvTooEarly = some x := by
  cases hi : op.input? with
  | none => rw [(cstep_keeps hw hi).ack]; exact hx
  | some b =>
    rw [cstep_read hi] at hs ⊢
    have hrd : (sl.minimal.read env b).1.ackMsgRecvTooEarly = some x := by
      rcases (readFrame env sl.minimal b true).ack with h | ⟨-, h, -⟩
      · exact h.trans hx
      · rw [hx] at h; simp at h
    have hw1 := hw.read b
    rcases readBin_state (env := env) sl b with h | ⟨a, k, d, h1, h⟩ | ⟨d, h1, h⟩
    · rw [h]; exact hrd
    · rw [h] at hs
      obtain ⟨loc', h2⟩ := step_wait (op := .takeAck) hw1 hs
      obtain ⟨loc, epk, pl, sig, sec, -, -, -, -, -, -, -, -, -, h3⟩ := read_connect_inv hw h1
      have h2 : (sl.minimal.readInner env b true).1.status = _ := h2
      rw [h3] at h2
      simp at h2
    · rw [h, (drain_frame hw1).ack]; exact hrd

theorem CSteps_early {f : Features} {cst : CStart} {h h' : List (CEvent M)} {sl sl' : SecureLayer}
    (hr : CRun env f cst h sl) (hst : CSteps env f sl h' sl') {x : Bytes} {loc : LocalNego}
    (hx : sl.minimal.ackMsgRecvTooEarly = some x) (hs : sl'.minimal.status = .ongoing loc .waitConnectMsg) :
    sl'.minimal.ackMsgRecvTooEarly = some x := by
  induction hst generalizing loc with
  | refl => exact hx
  | call hst op ih =>
    have hw := (hr.steps hst).wf
    obtain ⟨es, h1, -⟩ := cstep_lower (f := f) hw op
    obtain ⟨loc', h2⟩ := steps_wait hw h1 hs
    exact cstep_early hw (ih h2) hs
  | cloned hst hc ih =>
    obtain ⟨m, hm, rfl⟩ := ctryClone_ok hc
    obtain ⟨h1, rfl⟩ := tryClone_iff.mp hm
    simp only at hs
    rw [h1] at hs; simp at hs

/-- A layer whose negotiation is over keeps its pending early messages where they are. -/
theorem cstep_stack {sl : SecureLayer} (hw : Wf env st sl.minimal) {op : COp M}
    (hs : ∀ loc rem, sl.minimal.status ≠ .ongoing loc rem) :
    (cstep env f sl op).1.minimal.tmpStack = sl.minimal.tmpStack ∧
      ∀ loc rem, (cstep env f sl op).1.minimal.status ≠ .ongoing loc rem := by
  constructor
  · cases hi : op.input? with
    | none => exact (cstep_keeps hw hi).stack
    | some b =>
      rw [cstep_read hi]
      rcases readBin_state (env := env) sl b with h | ⟨a, k, d, h1, h⟩ | ⟨d, h1, h⟩
      · rw [h]
        rcases (readFrame env sl.minimal b true).stack with h2 | ⟨h2, -⟩
        · exact h2
        · exact absurd h2 (hs _ _)
      · obtain ⟨loc, epk, pl, sig, sec, h2, -⟩ := read_connect_inv hw h1
        exact absurd h2 (hs _ _)
      · obtain ⟨rem, pl, sig, k, h2, -⟩ := read_ack_inv hw h1
        exact absurd h2 (hs _ _)
  · obtain ⟨es, h1, -⟩ := cstep_lower (f := f) hw op
    exact steps_over hw h1 hs

theorem CSteps_stack {f : Features} {cst : CStart} {h h' : List (CEvent M)} {sl sl' : SecureLayer}
    (hr : CRun env f cst h sl) (hst : CSteps env f sl h' sl') (hs : ∀ loc rem, sl.minimal.status ≠ .ongoing loc rem) :
    sl'.minimal.tmpStack = sl.minimal.tmpStack ∧ ∀ loc rem, sl'.minimal.status ≠ .ongoing loc rem := by
  induction hst with
  | refl => exact ⟨rfl, hs⟩
  | call hst op ih =>
    obtain ⟨h1, h2⟩ := ih
    obtain ⟨h3, h4⟩ := cstep_stack (f := f) (hr.steps hst).wf (op := op) h2
    exact ⟨h3.trans h1, h4⟩
  | cloned hst hc ih =>
    obtain ⟨h1, h2⟩ := ih
    obtain ⟨m, hm, rfl⟩ := ctryClone_ok hc
    obtain ⟨h3, rfl⟩ := tryClone_iff.mp hm
    exact ⟨h1, fun loc rem => h2 loc rem⟩

end Pkstl

import Verif.Model.Complete
/- Reading does not depend on the configuration. -/
namespace Pkstl

/-- The layer with another configuration. -/
def Layer.conf (c : Config) (s : Layer) : Layer := { s with config := c }

/-- The layer with another configuration. -/
def SecureLayer.conf (c : Config) (sl : SecureLayer) : SecureLayer := { sl with minimal := sl.minimal.conf c }

variable {env : Env} (c : Config) (s : Layer)

theorem computeSharedSecret_conf (cr : Crypto) (p : Bytes) :
    (s.conf c).computeSharedSecret cr p =
      ((s.computeSharedSecret cr p).1.conf c, (s.computeSharedSecret cr p).2) := by
  have ha : c.encryptAlgo = s.config.encryptAlgo := by cases c.encryptAlgo; cases s.config.encryptAlgo; rfl
  unfold Layer.computeSharedSecret
  have e1 : (s.conf c).ephemeralKp = s.ephemeralKp := rfl
  have e2 : (s.conf c).secret = s.secret := rfl
  have e3 : (s.conf c).config = c := rfl
  rw [e1, e2]
  dsimp only
  rw [e3]
  cases s.ephemeralKp with
  | none => dsimp only; split <;> rfl
  | some kp =>
    dsimp only
    rw [ha]
    cases kp.computeSharedSecret cr p s.config.encryptAlgo.sharedSecretLen with
    | err e => rfl
    | panic e => rfl
    | ok z =>
      dsimp only
      cases buildSecretKey s.config.encryptAlgo z <;> rfl

theorem readConnectVerified_conf (d : DecryptedIncomingData) (p k : Bytes) :
    (s.conf c).readConnectVerified env d p k =
      ((s.readConnectVerified env d p k).1.conf c, (s.readConnectVerified env d p k).2) := by
  unfold Layer.readConnectVerified
  cases Layer.verifySig env.cr d.data k d.userMsgEnd with
  | err e => rfl
  | panic e => rfl
  | ok b =>
    cases b with
    | false => rfl
    | true =>
      show (match s.status.applyAction (.receive .connect) with
        | (st, .err e) => _
        | (st, .panic p) => _
        | (st, .ok _) => _) = _
      rcases s.status.applyAction (.receive .connect) with ⟨st, o | e | p⟩
      · dsimp only
        have := computeSharedSecret_conf c { s with status := st, peerEpk := some p } env.cr p
        simp only [Layer.conf] at this ⊢
        rw [this]
        rcases Layer.computeSharedSecret env.cr { s with status := st, peerEpk := some p } p with ⟨s', u | e | p⟩ <;> rfl
      · rfl
      · rfl

theorem readConnect_conf (d : DecryptedIncomingData) (p k : Bytes) :
    (s.conf c).readConnect env d p k = ((s.readConnect env d p k).1.conf c, (s.readConnect env d p k).2) := by
  unfold Layer.readConnect
  have h1 := readConnectVerified_conf (env := env) c s d p k
  have h2 := readConnectVerified_conf (env := env) c { s with peerSigPubkey := some k } d p k
  have hk : (s.conf c).peerSigPubkey = s.peerSigPubkey := rfl
  rw [hk]
  cases s.peerSigPubkey with
  | none => exact h2
  | some k' =>
    dsimp only
    split
    · rfl
    · exact h1

theorem readAck_conf (b : Bytes) (d : DecryptedIncomingData) (ch : Bytes) :
    (s.conf c).readAck env b d ch = ((s.readAck env b d ch).1.conf c, (s.readAck env b d ch).2) := by
  unfold Layer.readAck
  have e1 : (s.conf c).ephemeralPubkey = s.ephemeralPubkey := rfl
  have e2 : (s.conf c).peerSigPubkey = s.peerSigPubkey := rfl
  have e3 : (s.conf c).ackMsgRecvTooEarly = s.ackMsgRecvTooEarly := rfl
  have e4 : (s.conf c).status = s.status := rfl
  rw [e1, e2, e3, e4]
  split
  · rfl
  · cases s.peerSigPubkey with
    | none => cases s.ackMsgRecvTooEarly <;> rfl
    | some k =>
      dsimp only
      rcases Layer.verifySig env.cr d.data k d.userMsgEnd with (_ | _) | e | p
      · rfl
      · dsimp only
        rcases s.status.applyAction (.receive .ack) with ⟨st, o | e | p⟩ <;> rfl
      · rfl
      · rfl

theorem updateNonces_conf (n : Nat) :
    (s.conf c).updateNonces env n = ((s.updateNonces env n).1.conf c, (s.updateNonces env n).2) := by
  unfold Layer.updateNonces
  have e1 : (s.conf c).nextNonceExpected = s.nextNonceExpected := rfl
  have e2 : (s.conf c).orphanNonces = s.orphanNonces := rfl
  rw [e1, e2]
  split
  · cases addU64 env.overflowChecks s.nextNonceExpected 1 <;> rfl
  · split <;> rfl

theorem readUser_conf (d : DecryptedIncomingData) (n : Nat) :
    (s.conf c).readUser env d n = ((s.readUser env d n).1.conf c, (s.readUser env d n).2) := by
  unfold Layer.readUser
  have e1 : (s.conf c).nextNonceExpected = s.nextNonceExpected := rfl
  have e2 : (s.conf c).orphanNonces = s.orphanNonces := rfl
  have e4 : (s.conf c).status = s.status := rfl
  rw [e1, e2, e4]
  split
  · rfl
  · rcases s.status.applyAction (.receive .userMsg) with ⟨st, o | e | p⟩
    · cases o with
      | some a => cases a; rfl
      | none =>
        dsimp only
        have h := updateNonces_conf (env := env) c { s with status := st } n
        simp only [Layer.conf] at h ⊢
        rcases sliceTo d.data d.userMsgEnd with x | e | p
        · rcases sliceFrom d.data d.userMsgEnd with y | e | p
          · dsimp only
            split
            · rfl
            · rw [h]
              rcases Layer.updateNonces env { s with status := st } n with ⟨s', u | e | p⟩ <;> rfl
          · rfl
          · rfl
        · rfl
        · rfl
    · rfl
    · rfl

theorem readInner_conf (b : Bytes) (chk : Bool) :
    (s.conf c).readInner env b chk = ((s.readInner env b chk).1.conf c, (s.readInner env b chk).2) := by
  unfold Layer.readInner
  have e1 : (s.conf c).secret = s.secret := rfl
  rw [e1]
  rcases readerRead env s.secret b chk with d | e | p
  · dsimp only
    cases d.msgTypeHeaders with
    | connect epk a k => exact readConnect_conf c s d epk k
    | ack ch => exact readAck_conf c s b d ch
    | userMsg n => exact readUser_conf c s d n
  · rfl
  · rfl

theorem read_conf (b : Bytes) : (s.conf c).read env b = ((s.read env b).1.conf c, (s.read env b).2) :=
  readInner_conf c s b true

theorem drainLoop_conf (bs : List Bytes) (ms : List Message) :
    (s.conf c).drainLoop env bs ms = ((s.drainLoop env bs ms).1.conf c, (s.drainLoop env bs ms).2) := by
  induction bs generalizing s ms with
  | nil => rw [Layer.drainLoop, Layer.drainLoop]
  | cons b bs ih =>
    rw [Layer.drainLoop, Layer.drainLoop, readInner_conf]
    rcases s.readInner env b false with ⟨s', m | e | p⟩
    · cases m <;> exact ih _ _
    · rfl
    · rfl

theorem drainTmpStack_conf :
    (s.conf c).drainTmpStack env = ((s.drainTmpStack env).1.conf c, (s.drainTmpStack env).2) :=
  drainLoop_conf c { s with tmpStack := [] } s.tmpStack []

theorem takeAck_conf : (s.conf c).takeAck env = ((s.takeAck env).1.conf c, (s.takeAck env).2) := by
  unfold Layer.takeAck
  have e1 : (s.conf c).ackMsgRecvTooEarly = s.ackMsgRecvTooEarly := rfl
  rw [e1]
  cases s.ackMsgRecvTooEarly with
  | none => rfl
  | some b => exact read_conf c { s with ackMsgRecvTooEarly := none } b

theorem readBin_conf (sl : SecureLayer) (b : Bytes) :
    (sl.conf c).readBin env b = ((sl.readBin env b).1.conf c, (sl.readBin env b).2) := by
  unfold SecureLayer.readBin
  have h := read_conf (env := env) c sl.minimal b
  have e1 : (sl.conf c).minimal = sl.minimal.conf c := rfl
  rw [e1, h]
  rcases sl.minimal.read env b with ⟨m, o | e | p⟩
  · cases o with
    | none => rfl
    | some x =>
      cases x with
      | connect a k d =>
        dsimp only
        rcases SecureLayer.uncompressOpt env.cr d with cd | e | p
        · dsimp only
          rw [takeAck_conf]
          rcases m.takeAck env with ⟨m', o | e | p⟩
          · cases o with
            | none => rfl
            | some y =>
              cases y with
              | ack ad =>
                dsimp only
                cases SecureLayer.uncompressOpt env.cr ad <;> rfl
              | _ => rfl
          · rfl
          · rfl
        · rfl
        · rfl
      | ack d =>
        dsimp only
        rcases SecureLayer.uncompressOpt env.cr d with cd | e | p
        · dsimp only
          rw [drainTmpStack_conf]
          rcases m.drainTmpStack env with ⟨m', ms | e | p⟩ <;> rfl
        · rfl
        · rfl
      | message d =>
        dsimp only
        rcases SecureLayer.uncompressOpt env.cr d with cd | e | p <;> rfl
  · rfl
  · rfl

end Pkstl

import Verif.Spec.Vary
import Verif.Lemmas.Frame
import Verif.Lemmas.Complete
/- Where the key agreement is used. -/
namespace Pkstl
open Spec

section
variable {env : Env} {st : Start} {s : Layer} {g : Bytes → Bytes → Option Bytes}

/-- The input is a CONNECT that passes the signature check and the private key is still there. -/
def AgreesOn (env : Env) (s : Layer) (inc : Bytes) (chk : Bool) (epk : Bytes) : Prop :=
  ∃ kp d algo k, s.ephemeralKp = some kp ∧ readerRead env s.secret inc chk = .ok d ∧
    d.msgTypeHeaders = .connect epk algo k ∧ (s.peerSigPubkey = none ∨ s.peerSigPubkey = some k) ∧
    d.userMsgEnd ≤ d.data.length ∧ env.cr.edVerify k (d.data.take d.userMsgEnd) (d.data.drop d.userMsgEnd) = true ∧
    ∃ loc, s.status = .ongoing loc .waitConnectMsg

theorem computeSharedSecret_agree (s : Layer) (epk : Bytes)
    (h : ∀ kp, s.ephemeralKp = some kp → g kp.privkey epk = env.cr.xAgree kp.privkey epk) :
    s.computeSharedSecret (withAgree env g).cr epk = s.computeSharedSecret env.cr epk := by
  rw [Layer.computeSharedSecret_eq, Layer.computeSharedSecret_eq]
  cases hk : s.ephemeralKp with
  | none => rfl
  | some kp =>
    have : sessionKey (withAgree env g).cr kp.privkey kp.pubkey epk = sessionKey env.cr kp.privkey kp.pubkey epk := by
      unfold sessionKey
      rw [show (withAgree env g).cr.xAgree = g from rfl, h kp hk]
      rfl
    dsimp only
    rw [this]

theorem readConnectVerified_agree (s : Layer) (d : DecryptedIncomingData) (epk k : Bytes)
    (h : ∀ kp loc, s.ephemeralKp = some kp → s.status = .ongoing loc .waitConnectMsg → d.userMsgEnd ≤ d.data.length →
      env.cr.edVerify k (d.data.take d.userMsgEnd) (d.data.drop d.userMsgEnd) = true →
      g kp.privkey epk = env.cr.xAgree kp.privkey epk) :
    s.readConnectVerified (withAgree env g) d epk k = s.readConnectVerified env d epk k := by
  unfold Layer.readConnectVerified
  rw [verifySig_eq, verifySig_eq, show (withAgree env g).cr.edVerify = env.cr.edVerify from rfl]
  by_cases hl : d.userMsgEnd ≤ d.data.length
  swap
  · simp only [hl, if_false]
  simp only [hl, if_true]
  cases hv : env.cr.edVerify k (d.data.take d.userMsgEnd) (d.data.drop d.userMsgEnd) with
  | false => rfl
  | true =>
    dsimp only
    rcases hs : s.status with _ | ⟨loc, rem⟩ | _
    · rfl
    · by_cases hr : rem = .waitConnectMsg
      · subst hr
        simp only [Status.applyAction, if_true]
        rw [computeSharedSecret_agree]
        intro kp hkp
        exact h kp loc hkp hs hl hv
      · simp only [Status.applyAction, hr, if_false]
    · rfl

theorem readInner_agree (s : Layer) (inc : Bytes) (chk : Bool)
    (h : ∀ epk, AgreesOn env s inc chk epk → ∀ kp, s.ephemeralKp = some kp →
      g kp.privkey epk = env.cr.xAgree kp.privkey epk) :
    s.readInner (withAgree env g) inc chk = s.readInner env inc chk := by
  unfold Layer.readInner
  rw [show readerRead (withAgree env g) s.secret inc chk = readerRead env s.secret inc chk from rfl]
  cases hp : readerRead env s.secret inc chk with
  | panic p => rfl
  | err e => rfl
  | ok d =>
    dsimp only
    cases hh : d.msgTypeHeaders with
    | ack c => rfl
    | userMsg n => rfl
    | connect epk algo k =>
      dsimp only
      unfold Layer.readConnect
      have key : ∀ (s' : Layer), s'.ephemeralKp = s.ephemeralKp → s'.status = s.status →
          (s.peerSigPubkey = none ∨ s.peerSigPubkey = some k) → s'.readConnectVerified (withAgree env g) d epk k = s'.readConnectVerified env d epk k := by
        intro s' h1 h2 h3
        apply readConnectVerified_agree
        intro kp loc hkp hs hl hv
        rw [h1] at hkp
        exact h epk ⟨kp, d, algo, k, hkp, hp, hh, h3, hl, hv, loc, h2 ▸ hs⟩ kp hkp
      cases hk : s.peerSigPubkey with
      | none => exact key _ rfl rfl (.inl hk)
      | some k' =>
        dsimp only
        split
        · rfl
        · rename_i hne
          exact key _ rfl rfl (.inr (by rw [hk, not_not.mp hne]))

theorem readInner_kp (s : Layer) (inc : Bytes) (chk : Bool) :
    (s.readInner env inc chk).1.ephemeralKp = s.ephemeralKp ∨ (s.readInner env inc chk).1.ephemeralKp = none := by
  have hcase := readInner_case env s inc chk
  generalize (s.readInner env inc chk).2 = r at hcase
  generalize (s.readInner env inc chk).1 = s' at hcase
  have nonces : ∀ {n s1 r1}, s.updateNonces env n = (s1, r1) → s1.ephemeralKp = s.ephemeralKp := by
    intro n s1 r1 hu
    obtain ⟨O', n', st, h1, -⟩ := updateNonces_frame env s n
    rw [hu] at h1
    have h1 : s1 = _ := h1
    subst h1
    rfl
  cases hcase <;> first
    | exact .inl rfl
    | exact .inr rfl
    | (rename_i hu; exact .inl (nonces hu))

theorem agreesOn_kp {inc epk : Bytes} {chk : Bool} (h : AgreesOn env s inc chk epk) :
    (s.readInner env inc chk).1.ephemeralKp = none := by
  obtain ⟨kp, d, algo, k, hkp, hp, hh, hk, hl, hv, loc, hs⟩ := h
  have key : ∀ (s' : Layer), s'.ephemeralKp = s.ephemeralKp → s'.status = s.status →
      (s'.readConnectVerified env d epk k).1.ephemeralKp = none := by
    intro s' h1 h2
    unfold Layer.readConnectVerified
    rw [verifySig_eq, if_pos hl, hv, h2, hs]
    simp only [Status.applyAction, if_true, Layer.computeSharedSecret_eq]
    rw [h1, hkp]
    dsimp only
    cases sessionKey env.cr kp.privkey kp.pubkey epk <;> rfl
  unfold Layer.readInner
  rw [hp]
  dsimp only
  rw [hh]
  dsimp only
  unfold Layer.readConnect
  rcases hk with hk | hk
  · rw [hk]; exact key _ rfl rfl
  · rw [hk]
    dsimp only
    rw [if_neg (by simp)]
    exact key _ rfl rfl

theorem takeAck_agree (h : Wf env st s) : s.takeAck (withAgree env g) = s.takeAck env := by
  rcases ha : s.ackMsgRecvTooEarly with _ | b
  · unfold Layer.takeAck; rw [ha]
  · obtain ⟨hm, d0, hp0, hh0⟩ := h.ackP b ha
    unfold Layer.takeAck
    rw [ha]
    apply readInner_agree
    rintro epk ⟨kp, d, algo, k, -, hp, hh, -⟩
    rw [readerRead_clear hm, hp0] at hp
    cases hp
    rw [hh0] at hh
    cases hh

theorem drainLoop_agree (s : Layer) (bs : List Bytes) (ms : List Message) (hb : Stackable env bs) :
    s.drainLoop (withAgree env g) bs ms = s.drainLoop env bs ms := by
  induction bs generalizing s ms with
  | nil => rfl
  | cons b bs ih =>
    obtain ⟨n, d, hp, hh⟩ := hb b (by simp)
    have hb2 : Stackable env bs := fun b hm => hb b (by simp [hm])
    unfold Layer.drainLoop
    rw [readInner_stacked (env := withAgree env g) s hp hh, readInner_stacked s hp hh,
      show s.readUser (withAgree env g) d n = s.readUser env d n from rfl]
    rcases hr : s.readUser env d n with ⟨s', (_ | m) | e | p⟩
    · exact ih _ _ hb2
    · exact ih _ _ hb2
    · rfl
    · rfl

theorem drain_agree (h : Wf env st s) : s.drainTmpStack (withAgree env g) = s.drainTmpStack env :=
  drainLoop_agree _ _ _ h.stackP

theorem takeAck_kp (s : Layer) : (s.takeAck env).1.ephemeralKp = s.ephemeralKp ∨ (s.takeAck env).1.ephemeralKp = none := by
  rcases takeAck_cases env s with ⟨-, h⟩ | ⟨b, -, h⟩ <;> rw [h]
  · exact .inl rfl
  · exact readInner_kp _ _ _

/-- The private key is never restored. -/
theorem step_kp (h : Wf env st s) (op : Op) (hk : s.ephemeralKp = none) : (step env s op).1.ephemeralKp = none := by
  have e : ∀ {x : Option EphemeralKeyPair}, x = s.ephemeralKp ∨ x = none → x = none := by
    rintro x (h | h)
    · exact h.trans hk
    · exact h
  cases op with
  | read b => exact e (readInner_kp s b true)
  | takeAck => exact e (takeAck_kp s)
  | drain => exact e (.inl (drain_frame h).kp)
  | connect pk d =>
    show (s.createConnect env pk d).1.ephemeralKp = none
    rcases createConnect_cases env s pk d with ⟨rem, hs, he⟩ | ⟨-, he⟩ <;> rw [he] <;> exact hk
  | ack d =>
    show (s.createAck env d).1.ephemeralKp = none
    rcases createAck_cases env s d with ⟨loc, hs, he⟩ | ⟨-, he⟩
    · rw [he]; cases s.peerEpk <;> exact hk
    · rw [he]; exact hk
  | write d w =>
    show (s.writeMessage env d w).1.ephemeralKp = none
    rcases writeMessage_cases env s d w with ⟨-, he⟩ | ⟨_, _, -, he⟩ | ⟨-, -, he⟩ |
      ⟨hs, k, hk', ⟨w', e, -, he⟩ | ⟨w', -, ⟨n, hn, he⟩ | ⟨-, he⟩⟩⟩ <;> rw [he] <;> exact hk
  | clone =>
    show s.tryClone.1.ephemeralKp = none
    unfold Layer.tryClone
    split <;> exact hk
  | config c =>
    show (s.changeConfig c).1.ephemeralKp = none
    unfold Layer.changeConfig
    split <;> exact hk

theorem agrees_expected (h : Wf env st s) {loc : LocalNego} (hs : s.status = .ongoing loc .waitConnectMsg) {k : Bytes}
    (hk : s.peerSigPubkey = none ∨ s.peerSigPubkey = some k) (x : Bytes) (hx : st.expected = some x) : k = x := by
  have := h.expc x hx (h.fresh _ _ hs).1
  rw [this] at hk
  simpa [eq_comm] using hk

/-- Either the call does not use the key agreement, or it is a `read` of a signed CONNECT and uses it once. -/
theorem step_agree (h : Wf env st s) (op : Op) :
    (∀ g, step (withAgree env g) s op = step env s op) ∨
    (step env s op).1.ephemeralKp = none ∧ ∃ inc epk k, op = .read inc ∧ SignedConnect env.cr inc epk k ∧ (∀ x, st.expected = some x → k = x) ∧
      ∀ g, g st.random epk = env.cr.xAgree st.random epk → step (withAgree env g) s op = step env s op := by
  cases op with
  | read b =>
    by_cases hx : ∃ epk, AgreesOn env s b true epk
    · right
      obtain ⟨epk, ha⟩ := hx
      refine ⟨agreesOn_kp ha, ?_⟩
      obtain ⟨kp, d, algo, k, hkp, hp, hh, hk, hl, hv, loc, hs⟩ := ha
      refine ⟨b, epk, k, rfl, signedConnect_of hp hh hv, agrees_expected h hs hk, fun g hg => ?_⟩
      have : s.read (withAgree env g) b = s.read env b := by
        apply readInner_agree
        rintro epk' ⟨_, d', algo', k', -, hp', hh', -⟩ kp' hkp'
        rw [hp] at hp'
        cases hp'
        rw [hh] at hh'
        cases hh'
        obtain ⟨rfl, -⟩ := h.kp kp' hkp'
        exact hg
      simp only [step, this]
    · left
      intro g
      have : s.read (withAgree env g) b = s.read env b :=
        readInner_agree _ _ _ fun epk ha => absurd ⟨epk, ha⟩ hx
      simp only [step, this]
  | takeAck => left; intro g; unfold step; rw [takeAck_agree h]
  | drain => left; intro g; unfold step; rw [drain_agree h]
  | connect pk d => left; intro g; rfl
  | ack d => left; intro g; rfl
  | write d w => left; intro g; rfl
  | clone => left; intro g; rfl
  | config c => left; intro g; rfl

theorem run_agree {h : List Event} (hr : Run env st h s) :
    (∀ g, Run (withAgree env g) st h s) ∨
    s.ephemeralKp = none ∧ ∃ inc ∈ inputs h, ∃ epk k, SignedConnect env.cr inc epk k ∧ (∀ x, st.expected = some x → k = x) ∧
      ∀ g, g st.random epk = env.cr.xAgree st.random epk → Run (withAgree env g) st h s := by
  induction hr with
  | init hc => exact .inl fun g => .init hc
  | @call h s hr op ih =>
    have hw := Wf.of_run hr
    rcases ih with ih | ⟨hk, inc, hin, epk, k, hsc, hx, ih⟩
    · rcases step_agree hw op with hs | ⟨hkp, inc, epk, k, rfl, hsc, hx, hs⟩
      · left
        intro g
        have := Run.call (ih g) op
        rwa [hs g] at this
      · right
        refine ⟨hkp, inc, by simp [inputs, step], epk, k, hsc, hx, fun g hg => ?_⟩
        have := Run.call (ih g) (.read inc)
        rwa [hs g hg] at this
    · right
      refine ⟨step_kp hw op hk, inc, by rw [inputs_append]; exact List.mem_append_left _ hin, epk, k, hsc, hx, fun g hg => ?_⟩
      have hs : step (withAgree env g) s op = step env s op := by
        rcases step_agree hw op with hs | ⟨hkp, inc', epk', k', rfl, -, -, -⟩
        · exact hs g
        · have : s.read (withAgree env g) inc' = s.read env inc' :=
            readInner_agree _ _ _ fun epk ha kp hkp => by rw [hk] at hkp; cases hkp
          simp only [step, this]
      have := Run.call (ih g hg) op
      rwa [hs] at this
  | @cloned h s c hr hc ih =>
    rcases ih with ih | ⟨hk, inc, hin, epk, k, hsc, hx, ih⟩
    · exact .inl fun g => .cloned (ih g) hc
    · refine .inr ⟨?_, inc, by rw [inputs_append]; exact List.mem_append_left _ hin, epk, k, hsc, hx, fun g hg => .cloned (ih g hg) hc⟩
      obtain ⟨-, rfl⟩ := tryClone_ok hc
      rfl

end

section
variable {M : Type} {env : Env} {f : Features} {st : Start} {sl : SecureLayer} {g : Bytes → Bytes → Option Bytes}

theorem uncompressUserMsgs_agree (ms : List Message) (acc : List BinMessage) :
    SecureLayer.uncompressUserMsgs (withAgree env g).cr ms acc = SecureLayer.uncompressUserMsgs env.cr ms acc := by
  induction ms generalizing acc with
  | nil => rfl
  | cons m ms ih =>
    unfold SecureLayer.uncompressUserMsgs
    cases m <;> simp only [ih]
    rfl

theorem readBin_agree (h : Wf env st sl.minimal) {inc : Bytes}
    (hread : sl.minimal.read (withAgree env g) inc = sl.minimal.read env inc) :
    sl.readBin (withAgree env g) inc = sl.readBin env inc := by
  have hw := h.read inc
  unfold SecureLayer.readBin
  rw [hread]
  rcases hr : sl.minimal.read env inc with ⟨m, (_ | msg) | e | p⟩ <;> rw [hr] at hw <;> try rfl
  cases msg with
  | connect a k d =>
    dsimp only
    rw [takeAck_agree hw]
    rfl
  | ack d =>
    dsimp only
    rw [drain_agree hw]
    simp only [uncompressUserMsgs_agree]
    rfl
  | message d => rfl

theorem readBin_kp (h : Wf env st sl.minimal) {inc : Bytes} (hk : (sl.minimal.read env inc).1.ephemeralKp = none) :
    (sl.readBin env inc).1.minimal.ephemeralKp = none := by
  have hw := h.read inc
  unfold SecureLayer.readBin
  rcases hr : sl.minimal.read env inc with ⟨m, (_ | msg) | e | p⟩ <;> rw [hr] at hw hk
  · exact hk
  · cases msg with
    | connect a k d =>
      dsimp only
      cases SecureLayer.uncompressOpt env.cr d with
      | err e => exact hk
      | panic p => exact hk
      | ok cd =>
        dsimp only
        have hm : (m.takeAck env).1.ephemeralKp = none := by
          rcases takeAck_kp (env := env) m with h | h
          · exact h.trans hk
          · exact h
        generalize m.takeAck env = r at hm
        rcases r with ⟨m', (_ | msg) | e | p⟩
        · exact hm
        · cases msg with
          | connect a k d => exact hm
          | message d => exact hm
          | ack d => dsimp only; cases SecureLayer.uncompressOpt env.cr d <;> exact hm
        · exact hm
        · exact hm
    | ack d =>
      dsimp only
      cases SecureLayer.uncompressOpt env.cr d with
      | err e => exact hk
      | panic p => exact hk
      | ok cd =>
        dsimp only
        have hm : (m.drainTmpStack env).1.ephemeralKp = none := (drain_frame hw).kp.trans hk
        generalize m.drainTmpStack env = r at hm
        rcases r with ⟨m', msgs | e | p⟩ <;> exact hm
    | message d => dsimp only; cases SecureLayer.uncompressOpt env.cr d <;> exact hk
  · exact hk
  · exact hk

theorem writeRaw_kp (b : Option Bytes) (w : BufW) (hk : sl.minimal.ephemeralKp = none) :
    (sl.writeConnectRaw env b w).1.minimal.ephemeralKp = none ∧ (sl.writeAckRaw env b w).1.minimal.ephemeralKp = none := by
  constructor
  · unfold SecureLayer.writeConnectRaw
    cases sl.sigSeed with
    | none => exact hk
    | some seed =>
      dsimp only
      have hm : (sl.minimal.createConnect env (env.cr.edPublic seed) b).1.ephemeralKp = none := by
        rcases createConnect_cases env sl.minimal (env.cr.edPublic seed) b with ⟨rem, hs, he⟩ | ⟨-, he⟩ <;> rw [he] <;>
          exact hk
      generalize sl.minimal.createConnect env (env.cr.edPublic seed) b = r at hm
      rcases r with ⟨m, x | e | p⟩ <;> exact hm
  · unfold SecureLayer.writeAckRaw
    cases sl.sigSeed with
    | none => exact hk
    | some seed =>
      dsimp only
      have hm : (sl.minimal.createAck env b).1.ephemeralKp = none := by
        rcases createAck_cases env sl.minimal b with ⟨loc, hs, he⟩ | ⟨-, he⟩
        · rw [he]; cases sl.minimal.peerEpk <;> exact hk
        · rw [he]; exact hk
      generalize sl.minimal.createAck env b = r at hm
      rcases r with ⟨m, x | e | p⟩ <;> exact hm

theorem writeBinRaw_kp (b : Bytes) (w : BufW) (hk : sl.minimal.ephemeralKp = none) :
    (sl.writeBinRaw env b w).1.minimal.ephemeralKp = none := by
  show (sl.minimal.writeMessage env b w).1.ephemeralKp = none
  rcases writeMessage_cases env sl.minimal b w with ⟨-, he⟩ | ⟨_, _, -, he⟩ | ⟨-, -, he⟩ |
    ⟨hs, k, hk', ⟨w', e, -, he⟩ | ⟨w', -, ⟨n, hn, he⟩ | ⟨-, he⟩⟩⟩ <;> rw [he] <;> exact hk

theorem readSer_state (c : Codec M) (inc : Bytes) : (sl.readSer env f c inc).1 = (sl.readBin env inc).1 := by
  unfold SecureLayer.readSer
  rcases sl.readBin env inc with ⟨m, x | e | p⟩ <;> rfl

theorem cstep_kp (h : Wf env st sl.minimal) (op : COp M) (hk : sl.minimal.ephemeralKp = none) :
    (cstep env f sl op).1.minimal.ephemeralKp = none := by
  have hread : ∀ b, (sl.minimal.read env b).1.ephemeralKp = none := fun b => by
    rcases readInner_kp (env := env) sl.minimal b true with h | h
    · exact h.trans hk
    · exact h
  cases op with
  | readBin b => exact readBin_kp h (hread b)
  | readSer c b =>
    show (sl.readSer env f c b).1.minimal.ephemeralKp = none
    rw [readSer_state]; exact readBin_kp h (hread b)
  | connectBin d w => exact (writeRaw_kp _ w hk).1
  | connectSer c d w =>
    show (sl.writeConnectSer env c d w).1.minimal.ephemeralKp = none
    unfold SecureLayer.writeConnectSer
    split
    · exact (writeRaw_kp _ w hk).1
    · exact hk
    · exact hk
  | ackBin d w => exact (writeRaw_kp _ w hk).2
  | ackSer c d w =>
    show (sl.writeAckSer env c d w).1.minimal.ephemeralKp = none
    unfold SecureLayer.writeAckSer
    split
    · exact (writeRaw_kp _ w hk).2
    · exact hk
    · exact hk
  | writeBin d w => exact writeBinRaw_kp _ w hk
  | writeSer c d w =>
    show (sl.writeSer env c d w).1.minimal.ephemeralKp = none
    unfold SecureLayer.writeSer
    split
    · exact writeBinRaw_kp _ w hk
    · exact hk
    · exact hk
  | clone =>
    show (sl.tryClone).1.minimal.ephemeralKp = none
    have hm : sl.minimal.tryClone.1.ephemeralKp = none := by
      unfold Layer.tryClone
      split <;> exact hk
    unfold SecureLayer.tryClone
    generalize sl.minimal.tryClone = r at hm
    rcases r with ⟨m, x | e | p⟩ <;> exact hm
  | config c =>
    show (sl.minimal.changeConfig c).1.ephemeralKp = none
    unfold Layer.changeConfig
    split <;> exact hk

theorem cstep_agree (h : Wf env st sl.minimal) (op : COp M) :
    (∀ g, cstep (withAgree env g) f sl op = cstep env f sl op) ∨
    (cstep env f sl op).1.minimal.ephemeralKp = none ∧
      ∃ inc epk k, inc ∈ (cstep env f sl op).2.input ∧ SignedConnect env.cr inc epk k ∧ (∀ x, st.expected = some x → k = x) ∧
      ∀ g, (g st.random epk = env.cr.xAgree st.random epk ∨ sl.minimal.ephemeralKp = none) →
        cstep (withAgree env g) f sl op = cstep env f sl op := by
  have key : ∀ b, (∀ g, sl.minimal.read (withAgree env g) b = sl.minimal.read env b) ∨
      (sl.minimal.read env b).1.ephemeralKp = none ∧ ∃ epk k, SignedConnect env.cr b epk k ∧ (∀ x, st.expected = some x → k = x) ∧
      ∀ g, (g st.random epk = env.cr.xAgree st.random epk ∨ sl.minimal.ephemeralKp = none) →
        sl.minimal.read (withAgree env g) b = sl.minimal.read env b := by
    intro b
    by_cases hx : ∃ epk, AgreesOn env sl.minimal b true epk
    · right
      obtain ⟨epk, ha⟩ := hx
      refine ⟨agreesOn_kp ha, ?_⟩
      obtain ⟨kp, d, algo, k, hkp, hp, hh, hk, hl, hv, loc, hs⟩ := ha
      refine ⟨epk, k, signedConnect_of hp hh hv, agrees_expected h hs hk, fun g hg => ?_⟩
      apply readInner_agree
      rintro epk' ⟨_, d', algo', k', -, hp', hh', -⟩ kp' hkp'
      rw [hp] at hp'
      cases hp'
      rw [hh] at hh'
      cases hh'
      obtain ⟨rfl, -⟩ := h.kp kp' hkp'
      rcases hg with hg | hg
      · exact hg
      · rw [hg] at hkp'; cases hkp'
    · exact .inl fun g => readInner_agree _ _ _ fun epk ha => absurd ⟨epk, ha⟩ hx
  cases op with
  | readBin b =>
    rcases key b with hb | ⟨hk, epk, k, hsc, hxe, hb⟩
    · left; intro g; simp only [cstep, readBin_agree h (hb g)]
    · right
      refine ⟨readBin_kp h hk, b, epk, k, by simp [cstep, CEvent.input], hsc, hxe, fun g hg => ?_⟩
      simp only [cstep, readBin_agree h (hb g hg)]
  | readSer c b =>
    rcases key b with hb | ⟨hk, epk, k, hsc, hxe, hb⟩
    · left; intro g; simp only [cstep, SecureLayer.readSer, readBin_agree h (hb g)]
    · right
      refine ⟨?_, b, epk, k, by simp [cstep, CEvent.input], hsc, hxe, fun g hg => ?_⟩
      · show (sl.readSer env f c b).1.minimal.ephemeralKp = none
        rw [readSer_state]; exact readBin_kp h hk
      · simp only [cstep, SecureLayer.readSer, readBin_agree h (hb g hg)]
  | connectBin d w => left; intro g; rfl
  | connectSer c d w => left; intro g; rfl
  | ackBin d w => left; intro g; rfl
  | ackSer c d w => left; intro g; rfl
  | writeBin d w => left; intro g; rfl
  | writeSer c d w => left; intro g; rfl
  | clone => left; intro g; rfl
  | config c => left; intro g; rfl

theorem crun_agree {st : CStart} {h : List (CEvent M)} (hr : CRun env f st h sl) :
    (∀ g, CRun (withAgree env g) f st h sl) ∨
    sl.minimal.ephemeralKp = none ∧ ∃ inc ∈ cinputs h, ∃ epk k, SignedConnect env.cr inc epk k ∧ (∀ x, st.expected = some x → k = x) ∧
      ∀ g, g st.random epk = env.cr.xAgree st.random epk → CRun (withAgree env g) f st h sl := by
  induction hr with
  | init hc => exact .inl fun g => .init hc
  | @call h sl hr op ih =>
    have hw := hr.wf
    rcases ih with ih | ⟨hk, inc, hin, epk, k, hsc, hx, ih⟩
    · rcases cstep_agree (f := f) hw op with hs | ⟨hkp, inc, epk, k, hin, hsc, hx, hs⟩
      · left
        intro g
        have := CRun.call (ih g) op
        rwa [hs g] at this
      · right
        refine ⟨hkp, inc, ?_, epk, k, hsc, hx, fun g hg => ?_⟩
        · simp only [cinputs, List.flatMap_append, List.flatMap_cons, List.flatMap_nil, List.append_nil]
          exact List.mem_append_right _ hin
        · have := CRun.call (ih g) op
          rwa [hs g (.inl hg)] at this
    · right
      refine ⟨cstep_kp hw op hk, inc, ?_, epk, k, hsc, hx, fun g hg => ?_⟩
      · simp only [cinputs, List.flatMap_append]
        exact List.mem_append_left _ hin
      have hs : cstep (withAgree env g) f sl op = cstep env f sl op := by
        rcases cstep_agree (f := f) hw op with hs | ⟨-, _, _, _, -, -, -, hs⟩
        · exact hs g
        · exact hs g (.inr hk)
      have := CRun.call (ih g hg) op
      rwa [hs] at this
  | @cloned h sl c hr hc ih =>
    rcases ih with ih | ⟨hk, inc, hin, epk, k, hsc, hx, ih⟩
    · exact .inl fun g => .cloned (ih g) hc
    · refine .inr ⟨?_, inc, ?_, epk, k, hsc, hx, fun g hg => .cloned (ih g hg) hc⟩
      · unfold SecureLayer.tryClone at hc
        rcases ht : sl.minimal.tryClone with ⟨m, x | e | p⟩
        · rw [ht] at hc
          cases hc
          obtain ⟨-, rfl⟩ := tryClone_ok (c := x) (by rw [ht])
          rfl
        · rw [ht] at hc; cases hc
        · rw [ht] at hc; cases hc
      · simp only [cinputs, List.flatMap_append]
        exact List.mem_append_left _ hin

end
end Pkstl

import Verif.Props.Complete
import Verif.Spec.Interop
/- C76: a party that uses the minimal mode and one that uses the complete mode. -/
namespace Pkstl
open Spec

/-- What a party of the minimal mode sees of content written in complete mode with configuration `c`. -/
def Spec.packedAs (cr : Crypto) (c : Config) (d : Bytes) : Bytes := cr.deflate (levelFor c d) d

section
variable {M : Type} {env : Env} {f : Features}

theorem unpacks_iff {b : Bytes} {r : Res (Option Bytes)} :
    Unpacks env.cr b r ↔ SecureLayer.uncompressOpt env.cr (present b) = r := by
  cases b with
  | nil =>
    simp only [present, SecureLayer.uncompressOpt]
    constructor
    · rintro ⟨⟩ <;> first | rfl | contradiction
    · rintro rfl; exact .nothing
  | cons x b =>
    simp only [present, SecureLayer.uncompressOpt, SecureLayer.uncompress]
    constructor
    · intro h
      cases h with
      | stream h1 h2 => rw [h2]
      | other h1 h2 => rw [h2]
    · rintro rfl
      cases h : env.cr.inflate (x :: b) with
      | none => exact .other (by simp) h
      | some d => exact .stream (by simp) h

variable {stA : Start} {hA : List Event} {a a' : Layer} {stB : CStart} {hB : List (CEvent M)} {b : SecureLayer}

/-- **C76, minimal to complete, CONNECT.** A CONNECT made with `create_connect_message` and signed by the application is
accepted by `read_bin`; its custom data are handed over unpacked.  If they cannot be unpacked, the negotiation goes on all the
same. -/
theorem C76_connect_to_complete (law : env.cr.Lawful) (ra : Run env stA hA a) (rb : CRun env f stB hB b)
    {pk msg sig : Bytes} {data : Option Bytes} {loc : LocalNego} (hc : a.createConnect env pk data = (a', .ok msg))
    (hpk : pk.length = 32) (hlen : 86 + (data.getD []).length < 2 ^ 64) (hsig : env.cr.edVerify pk msg sig = true)
    (hkey : b.minimal.peerSigPubkey = none ∨ b.minimal.peerSigPubkey = some pk)
    (hwait : b.minimal.status = .ongoing loc .waitConnectMsg)
    (hag : (env.cr.xAgree stB.random (env.cr.xPublic stA.random)).isSome = true)
    (hearly : b.minimal.ackMsgRecvTooEarly = none) :
    ∃ b', b.readBin env (msg ++ sig) = (b', (b.readBin env (msg ++ sig)).2) ∧
      b'.minimal.status = .ongoing loc .validConnectMsgReceived ∧
      b'.minimal.secret = sessionKey env.cr stB.random (env.cr.xPublic stB.random) (env.cr.xPublic stA.random) ∧
      (∀ d, Unpacks env.cr (data.getD []) (.ok d) → (b.readBin env (msg ++ sig)).2 = .ok [.connect d pk]) ∧
      (∀ e, Unpacks env.cr (data.getD []) (.err e) → (b.readBin env (msg ++ sig)).2 = .err e) := by
  obtain ⟨⟨l, hl, -⟩, -⟩ := rb.lower
  obtain ⟨m, h1, -, -, h4, h5, -⟩ := C01_connect_roundtrip law ra hl hc hpk hlen hsig hkey hwait hag
  have hm : m.ackMsgRecvTooEarly = none := by
    obtain ⟨kp, hkp⟩ := Option.ne_none_iff_exists'.mp (rb.wf.wait _ hwait)
    obtain ⟨rfl, -, -⟩ := rb.wf.kp _ hkp
    obtain ⟨z, hz⟩ := Option.isSome_iff_exists.mp hag
    obtain ⟨sec, hsec⟩ : ∃ sec, sessionKey env.cr stB.random (env.cr.xPublic stB.random)
        (env.cr.xPublic stA.random) = some sec := ⟨_, by rw [sessionKey, hz, Option.map_some]⟩
    have hmsg := (C04_layout_clear ra (msg := msg)).1 _ _ hc
    subst hmsg
    have := read_connect_eval (env := env) (law.xPublic_length stA.random) hpk hlen hsig hkey hwait hkp hsec
    rw [this] at h1
    simp only [Prod.mk.injEq] at h1
    rw [← h1.1]
    exact hearly
  have hta : m.takeAck env = (m, .ok none) := by unfold Layer.takeAck; rw [hm]
  refine ⟨{ b with minimal := m }, ?_, h4, h5, ?_, ?_⟩
  · refine Prod.ext ?_ rfl
    unfold SecureLayer.readBin
    rw [h1]
    dsimp only
    rcases SecureLayer.uncompressOpt env.cr (data.bind present) with d | e | p <;> dsimp only
    rw [hta]
  · intro d hd
    rw [unpacks_iff, getD_present] at hd
    unfold SecureLayer.readBin
    rw [h1]
    dsimp only
    rw [hd]
    dsimp only
    rw [hta]
  · intro e he
    rw [unpacks_iff, getD_present] at he
    unfold SecureLayer.readBin
    rw [h1]
    dsimp only
    rw [he]

/-- **C76, minimal to complete, ACK.** -/
theorem C76_ack_to_complete (law : env.cr.Lawful) (ra : Run env stA hA a) (rb : CRun env f stB hB b)
    {k msg sig : Bytes} {data : Option Bytes} {rem : RemoteNego} (hpeer : a.peerEpk = some (env.cr.xPublic stB.random))
    (hc : a.createAck env data = (a', .ok msg)) (hlen : 50 + (data.getD []).length < 2 ^ 64)
    (hkey : b.minimal.peerSigPubkey = some k) (hsig : env.cr.edVerify k msg sig = true)
    (hdue : b.minimal.status = .ongoing .connectMsgSent rem) (hst : b.minimal.tmpStack = []) :
    ((b.readBin env (msg ++ sig)).1.minimal.status = if rem = .ackMsgSent then .success else .ongoing .validAckMsgReceived rem) ∧
      (∀ d, Unpacks env.cr (data.getD []) (.ok d) → (b.readBin env (msg ++ sig)).2 = .ok [.ack d]) ∧
      (∀ e, Unpacks env.cr (data.getD []) (.err e) → (b.readBin env (msg ++ sig)).2 = .err e) := by
  obtain ⟨epk, h1, hmsg⟩ := (C04_layout_clear ra (msg := msg)).2 _ hc
  rw [hpeer] at h1
  simp only [Option.some.injEq] at h1
  subst h1 hmsg
  have h1 := read_ack_eval (env := env) (b := b.minimal) (p := data.getD []) (by rw [rb.wf.epub]; rfl)
    (law.sha256_length _) hlen hsig hkey hdue
  have hdr : ∀ t, ({ b.minimal with status := t } : Layer).drainTmpStack env = ({ b.minimal with status := t }, .ok []) := by
    intro t
    unfold Layer.drainTmpStack
    dsimp only
    rw [hst, Layer.drainLoop, ← hst]
  refine ⟨?_, ?_, ?_⟩
  · unfold SecureLayer.readBin
    rw [h1]
    dsimp only
    rcases SecureLayer.uncompressOpt env.cr (present (data.getD [])) with d | e | p <;> dsimp only
    rw [hdr]
  · intro d hd
    rw [unpacks_iff] at hd
    unfold SecureLayer.readBin
    rw [h1]
    dsimp only
    rw [hd]
    dsimp only
    rw [hdr]
    rfl
  · intro e he
    rw [unpacks_iff] at he
    unfold SecureLayer.readBin
    rw [h1]
    dsimp only
    rw [he]

/-- **C76, minimal to complete, user messages.** -/
theorem C76_user_to_complete (law : env.cr.Lawful) (ra : Run env stA hA a) (rb : CRun env f stB hB b)
    {k : SecretKey} {data m : Bytes} {w w' : BufW} (hw : a.writeMessage env data w = (a', w', .ok ())) (hcap : 16 < w.cap)
    (hm : w'.stream = w.stream ++ m) (hka : a.secret = some k) (hkb : b.minimal.secret = some k)
    (hb : b.minimal.status = .success) (hlen : 26 + data.length < 2 ^ 64)
    (hks : ¬ ∀ i < 4, env.cr.keystream k.key k.nonce i = 0)
    (hnew : ¬ a.nextNonceSent < b.minimal.nextNonceExpected) (hnew' : a.nextNonceSent ∉ b.minimal.orphanNonces)
    (hroom : a.nextNonceSent = b.minimal.nextNonceExpected ∨ b.minimal.orphanNonces.card < 10000)
    (hend : b.minimal.nextNonceExpected + b.minimal.orphanNonces.card + 1 < 2 ^ 64) :
    (b.readBin env m).1.minimal.status = .success ∧
      (∀ d, Unpacks env.cr data (.ok d) → (b.readBin env m).2 = .ok [.message d]) ∧
      (∀ e, Unpacks env.cr data (.err e) → (b.readBin env m).2 = .err e) := by
  obtain ⟨⟨l, hl, -⟩, -⟩ := rb.lower
  obtain ⟨b', h1, h2⟩ := C03_user_roundtrip law ra hl hw hcap hm hka hkb hb hlen hks hnew hnew' hroom hend
  refine ⟨?_, ?_, ?_⟩
  · unfold SecureLayer.readBin
    rw [h1]
    dsimp only
    rcases SecureLayer.uncompressOpt env.cr (present data) with d | e | p <;> exact h2
  · intro d hd
    rw [unpacks_iff] at hd
    unfold SecureLayer.readBin
    rw [h1]
    dsimp only
    rw [hd]
  · intro e he
    rw [unpacks_iff] at he
    unfold SecureLayer.readBin
    rw [h1]
    dsimp only
    rw [he]

end

section
variable {M : Type} {env : Env} {f : Features} {stA : CStart} {hA : List (CEvent M)} {a a' : SecureLayer} {stB : Start}
  {hB : List Event} {b : Layer} {w w' : BufW}

theorem present_packed (law : env.cr.Lawful) (c : Config) (d : Option Bytes) :
    present (packed env.cr c d) = d.map (packedAs env.cr c) := by
  cases d with
  | none => rfl
  | some d =>
    have := law.deflate_ne_nil (levelFor c d) d
    simp only [packed, packedAs, Option.map_some]
    revert this
    cases env.cr.deflate (levelFor c d) d <;> simp [present]

/-- **C76, complete to minimal, CONNECT.** What `write_connect_msg_bin` writes is accepted by `read` of the minimal mode,
which hands over the custom data packed. -/
theorem C76_connect_to_minimal (law : env.cr.Lawful) (ra : CRun env f stA hA a) (rb : Run env stB hB b) {d : Option Bytes}
    {m : Bytes} (hc : a.writeConnectBin env d w = (a', w', .ok ()))
    (hw : Whole w (connectWire env.cr a.minimal.config (env.cr.xPublic stA.random) stA.sigSeed d))
    (hm : w'.stream = w.stream ++ m) {loc : LocalNego} (hwait : b.status = .ongoing loc .waitConnectMsg)
    (hkey : b.peerSigPubkey = none ∨ b.peerSigPubkey = some (env.cr.edPublic stA.sigSeed))
    (hlen : 86 + (packed env.cr a.minimal.config d).length < 2 ^ 64)
    (hag : (env.cr.xAgree stB.random (env.cr.xPublic stA.random)).isSome = true) :
    ∃ b', b.read env m = (b', .ok (some (.connect [0, 0, 0, 0] (env.cr.edPublic stA.sigSeed)
        (d.map (packedAs env.cr a.minimal.config))))) ∧
      b'.status = .ongoing loc .validConnectMsgReceived ∧
      b'.secret = sessionKey env.cr stB.random (env.cr.xPublic stB.random) (env.cr.xPublic stA.random) := by
  have hm' := connect_stream law ra hw hc
  rw [hm, List.append_cancel_left_eq] at hm'
  have hwf := Wf.of_run rb
  obtain ⟨kp, hkp⟩ := Option.ne_none_iff_exists'.mp (hwf.wait _ hwait)
  obtain ⟨rfl, -, -⟩ := hwf.kp _ hkp
  obtain ⟨z, hz⟩ := Option.isSome_iff_exists.mp hag
  obtain ⟨sec, hsec⟩ : ∃ sec, sessionKey env.cr stB.random (env.cr.xPublic stB.random)
      (env.cr.xPublic stA.random) = some sec := ⟨_, by rw [sessionKey, hz, Option.map_some]⟩
  rw [hm', ← present_packed law]
  exact ⟨_, read_connect_eval (law.xPublic_length stA.random) (law.edPublic_length stA.sigSeed) hlen
    (law.edVerify_sign stA.sigSeed _) hkey hwait hkp hsec, rfl, hsec.symm⟩

/-- **C76, complete to minimal, ACK.** -/
theorem C76_ack_to_minimal (law : env.cr.Lawful) (ra : CRun env f stA hA a) (rb : Run env stB hB b) {d : Option Bytes}
    {m : Bytes} (hc : a.writeAckBin env d w = (a', w', .ok ()))
    (hw : Whole w (ackWire env.cr a.minimal.config (env.cr.xPublic stB.random) d))
    (hm : w'.stream = w.stream ++ m) (hpeer : a.minimal.peerEpk = some (env.cr.xPublic stB.random))
    {rem : RemoteNego} (hdue : b.status = .ongoing .connectMsgSent rem)
    (hkey : b.peerSigPubkey = some (env.cr.edPublic stA.sigSeed))
    (hlen : 50 + (packed env.cr a.minimal.config d).length < 2 ^ 64) :
    ∃ b', b.read env m = (b', .ok (some (.ack (d.map (packedAs env.cr a.minimal.config))))) ∧
      b'.status = if rem = .ackMsgSent then .success else .ongoing .validAckMsgReceived rem := by
  have hm' := ack_stream law ra hpeer hw hc
  rw [hm, List.append_cancel_left_eq] at hm'
  rw [hm', ← present_packed law]
  exact ⟨_, read_ack_eval (by rw [(Wf.of_run rb).epub]) (law.sha256_length _) hlen
    (law.edVerify_sign stA.sigSeed _) hkey hdue, rfl⟩

/-- **C76, complete to minimal, user messages.** -/
theorem C76_user_to_minimal (law : env.cr.Lawful) (ra : CRun env f stA hA a) (rb : Run env stB hB b) {d m : Bytes}
    (hc : a.writeBin env d w = (a', w', .ok ())) (hcap : 16 < w.cap) (hm : w'.stream = w.stream ++ m) {k : SecretKey}
    (hka : a.minimal.secret = some k) (hkb : b.secret = some k) (hb : b.status = .success)
    (hlen : 26 + (packedAs env.cr a.minimal.config d).length < 2 ^ 64)
    (hks : ¬ ∀ i < 4, env.cr.keystream k.key k.nonce i = 0)
    (hnew : ¬ a.minimal.nextNonceSent < b.nextNonceExpected) (hnew' : a.minimal.nextNonceSent ∉ b.orphanNonces)
    (hroom : a.minimal.nextNonceSent = b.nextNonceExpected ∨ b.orphanNonces.card < 10000)
    (hend : b.nextNonceExpected + b.orphanNonces.card + 1 < 2 ^ 64) :
    ∃ b', b.read env m = (b', .ok (some (.message (some (packedAs env.cr a.minimal.config d))))) ∧ b'.status = .success := by
  obtain ⟨⟨la, hla, -⟩, -⟩ := ra.lower
  rcases hw : a.minimal.writeMessage env (a.compress env.cr d) w with ⟨m1, w1, r⟩
  unfold SecureLayer.writeBin SecureLayer.writeBinRaw at hc
  rw [hw] at hc
  simp only [Prod.mk.injEq] at hc
  obtain ⟨-, rfl, rfl⟩ := hc
  obtain ⟨b', h1, h2⟩ := C03_user_roundtrip law hla rb hw hcap hm hka hkb hb hlen hks hnew hnew' hroom hend
  refine ⟨b', ?_, h2⟩
  rw [h1]
  have := present_packed law a.minimal.config (some d)
  exact congrArg (fun x => (b', Res.ok (some (Message.message x)))) this

end

/-! ### a whole negotiation -/

/-- **C76, a mixed negotiation.** A party of the minimal mode that signs its CONNECT and its ACK itself and a party of the
complete mode negotiate with each other, whatever their configurations and the custom data: both end up negotiated, with one
and the same session secret, and each message arrives. -/
theorem C76_session {env : Env} (law : env.cr.Lawful) {cA cB : Config} {expA expB : Option Bytes} {rA rB : Bytes}
    {sB : Option Bytes} {sR : Bytes} {a : Layer} {b : SecureLayer} {w : BufW}
    (ha : Layer.create env.cr cA expA (some rA) = .ok a)
    (hb : SecureLayer.create env.cr cB sB expB (some sR) (some rB) = .ok b) (hw : w.sink.script = [])
    {seedA seedB : Bytes} (hsB : seedB = sB.getD sR)
    (hexpA : expA = none ∨ expA = some (env.cr.edPublic seedB)) (hexpB : expB = none ∨ expB = some (env.cr.edPublic seedA))
    (hag : (env.cr.xAgree rA (env.cr.xPublic rB)).isSome = true) {dA dB eA eB xA yA : Option Bytes}
    (hxA : Unpacks env.cr (dA.getD []) (.ok xA)) (hyA : Unpacks env.cr (eA.getD []) (.ok yA))
    (hdA : 86 + (dA.getD []).length < 2 ^ 64) (hdB : 86 + (packed env.cr cB dB).length < 2 ^ 64)
    (heA : 50 + (eA.getD []).length < 2 ^ 64) (heB : 50 + (packed env.cr cB eB).length < 2 ^ 64) :
    ∃ (a1 a2 a3 a4 : Layer) (b1 b2 b3 b4 : SecureLayer) (w1 w2 : BufW) (conA ackA conB ackB : Bytes),
      a.createConnect env (env.cr.edPublic seedA) dA = (a1, .ok conA) ∧
      b.readBin env (conA ++ env.cr.edSign seedA conA) = (b1, .ok [.connect xA (env.cr.edPublic seedA)]) ∧
      b1.writeConnectBin env dB w = (b2, w1, .ok ()) ∧ w1.stream = w.stream ++ conB ∧
      a1.read env conB =
        (a2, .ok (some (.connect [0, 0, 0, 0] (env.cr.edPublic seedB) (dB.map (packedAs env.cr cB))))) ∧
      a2.createAck env eA = (a3, .ok ackA) ∧
      b2.readBin env (ackA ++ env.cr.edSign seedA ackA) = (b3, .ok [.ack yA]) ∧
      b3.writeAckBin env eB w1 = (b4, w2, .ok ()) ∧ w2.stream = w1.stream ++ ackB ∧
      a3.read env ackB = (a4, .ok (some (.ack (eB.map (packedAs env.cr cB))))) ∧
      a4.status = .success ∧ b4.minimal.status = .success ∧
      ∃ k, a4.secret = some k ∧ b4.minimal.secret = some k := by
  obtain ⟨z, hz⟩ := Option.isSome_iff_exists.mp hag
  obtain ⟨k, hkA⟩ : ∃ k, sessionKey env.cr rA (env.cr.xPublic rA) (env.cr.xPublic rB) = some k :=
    ⟨_, by rw [sessionKey, hz, Option.map_some]⟩
  have hkB : sessionKey env.cr rB (env.cr.xPublic rB) (env.cr.xPublic rA) = some k := by rw [← sessionKey_comm law, hkA]
  have rb0 : CRun (M := Unit) env ⟨true, true, true⟩ ⟨cB, expB, rB, sB, sR⟩ [] b := .init hb
  have hb' : b = ⟨b.minimal, some seedB⟩ ∧ Layer.create env.cr cB expB (some rB) = .ok b.minimal := by
    subst hsB
    cases sB <;> cases hb <;> exact ⟨rfl, rfl⟩
  obtain ⟨hb1, hb2⟩ := hb'
  obtain ⟨bm, bs⟩ := b
  simp only [SecureLayer.mk.injEq, true_and] at hb1 hb2
  subst hb1
  rw [unpacks_iff] at hxA hyA
  obtain ⟨ha1, ha2, ha3, ha4⟩ : a.status = .ongoing .created .waitConnectMsg ∧
      a.ephemeralKp = some ⟨rA, env.cr.xPublic rA⟩ ∧ a.ephemeralPubkey = env.cr.xPublic rA ∧ a.peerSigPubkey = expA := by
    cases ha; exact ⟨rfl, rfl, rfl, rfl⟩
  obtain ⟨hb1, hb2, hb3, hb4, hb5, hb6, hb7⟩ : bm.status = .ongoing .created .waitConnectMsg ∧
      bm.ephemeralKp = some ⟨rB, env.cr.xPublic rB⟩ ∧ bm.ephemeralPubkey = env.cr.xPublic rB ∧ bm.peerSigPubkey = expB ∧
      bm.ackMsgRecvTooEarly = none ∧ bm.tmpStack = [] ∧ bm.config = cB := by
    cases hb2; exact ⟨rfl, rfl, rfl, rfl, rfl, rfl, rfl⟩
  -- A's CONNECT
  have h1 : a.createConnect env (env.cr.edPublic seedA) dA = ({ a with status := .ongoing .connectMsgSent .waitConnectMsg },
        .ok (connectFrame (env.cr.xPublic rA) (env.cr.edPublic seedA) (dA.getD []))) := by
    rw [createConnect_eq, ha1, ha3]
    rfl
  have h2 := readBin_connect_eval (env := env) (b := ⟨bm, some seedB⟩) (law.xPublic_length rA) (law.edPublic_length seedA) hdA
    (law.edVerify_sign seedA _) (by rw [hb4]; exact hexpB) hb1 hb2 hkB hxA hb5
  have r1 := rb0.call (.readBin (connectFrame (env.cr.xPublic rA) (env.cr.edPublic seedA) (dA.getD []) ++
    env.cr.edSign seedA (connectFrame (env.cr.xPublic rA) (env.cr.edPublic seedA) (dA.getD []))))
  simp only [cstep] at r1
  rw [h2] at r1
  -- B's CONNECT
  obtain ⟨w1, h3, h3s, h3w⟩ := writeConnectBin_good (env := env) (sl := ⟨{ bm with
      peerSigPubkey := some (env.cr.edPublic seedA), status := .ongoing .created .validConnectMsgReceived
      peerEpk := some (env.cr.xPublic rA), ephemeralKp := none, secret := some k }, some seedB⟩) rfl rfl dB (w := w) hw
  dsimp only at h3s
  rw [hb7, hb3] at h3s
  have r2 := r1.call (.connectBin dB w)
  simp only [cstep] at r2
  rw [h3] at r2
  have h4 := read_connect_eval (env := env) (b := { a with status := .ongoing .connectMsgSent .waitConnectMsg })
    (law.xPublic_length rB) (law.edPublic_length seedB) hdB (law.edVerify_sign seedB _) (by rw [← ha4] at hexpA; exact hexpA)
    rfl ha2 hkA
  -- A's ACK
  have h5 : ∀ s : Layer, s.status = .ongoing .connectMsgSent .validConnectMsgReceived →
      s.peerEpk = some (env.cr.xPublic rB) → s.createAck env eA =
        ({ s with status := .ongoing .connectMsgSent .ackMsgSent },
          .ok (ackFrame (env.cr.sha256 (env.cr.xPublic rB)) (eA.getD []))) := by
    intro s hs he
    rcases createAck_cases env s eA with ⟨loc, h, h'⟩ | ⟨h, -⟩
    · rw [hs] at h
      simp only [Status.ongoing.injEq, and_true] at h
      subst h
      rw [h', he]
      rfl
    · exact absurd hs (h _)
  have h6 := readBin_ack_nil_eval (env := env) (b := ⟨{ bm with
      peerSigPubkey := some (env.cr.edPublic seedA), status := .ongoing .connectMsgSent .validConnectMsgReceived
      peerEpk := some (env.cr.xPublic rA), ephemeralKp := none, secret := some k }, some seedB⟩)
    (by dsimp only; rw [hb3]) (law.sha256_length (env.cr.xPublic rB)) heA (law.edVerify_sign seedA _) rfl rfl hyA hb6
  have r3 := r2.call (.readBin (ackFrame (env.cr.sha256 (env.cr.xPublic rB)) (eA.getD []) ++
    env.cr.edSign seedA (ackFrame (env.cr.sha256 (env.cr.xPublic rB)) (eA.getD []))))
  simp only [cstep] at r3
  rw [h6] at r3
  -- B's ACK
  obtain ⟨w2, h7, h7s, -⟩ := writeAckBin_good (env := env) r3.wf (epk := env.cr.xPublic rA) (loc := .validAckMsgReceived) rfl rfl rfl eB (w := w1) h3w
  dsimp only at h7s
  rw [hb7] at h7s
  have h8 := read_ack_eval (env := env) (b := { a with
      peerSigPubkey := some (env.cr.edPublic seedB), status := .ongoing .connectMsgSent .ackMsgSent
      peerEpk := some (env.cr.xPublic rB), ephemeralKp := none, secret := some k }) (p := packed env.cr cB eB)
    (by dsimp only; rw [ha3]) (law.sha256_length (env.cr.xPublic rA)) heB (law.edVerify_sign seedB _) rfl rfl
  rw [← present_packed law, ← present_packed law]
  exact ⟨_, _, _, _, _, _, _, _, w1, w2, _, _, _, _, h1, h2, h3, h3s, h4, h5 _ rfl rfl, h6, h7, h7s, h8, rfl, rfl, k, rfl, rfl⟩

/-! ### the toy parties -/

/-- A toy CONNECT of the minimal mode whose custom data are a DEFLATE stream: the hypotheses of `C76_connect_to_complete` and
of the unpacking hold. -/
example (oc : Bool) : Spec.Run (Toy.env oc) Toy.stA [] (Toy.layer0 [1] none) ∧
    Toy.CReach Unit (Toy.env oc) ⟨true, true, true⟩ Toy.cstB (Toy.csB (Toy.layer0 [2] none)) ∧
    (Toy.layer0 [1] none).createConnect (Toy.env oc) Toy.pkA (some [0, 7, 8]) =
      (Toy.a1, .ok (connectFrame (Toy.xpub [1]) Toy.pkA [0, 7, 8])) ∧
    ((Toy.csB (Toy.layer0 [2] none)).readBin (Toy.env oc) (Toy.sign Toy.seedA (connectFrame (Toy.xpub [1]) Toy.pkA [0, 7, 8]))).2 =
      .ok [.connect (some [7, 8]) Toy.pkA] := by
  have h : (Toy.layer0 [1] none).createConnect (Toy.env oc) Toy.pkA (some [0, 7, 8]) =
      (Toy.a1, .ok (connectFrame (Toy.xpub [1]) Toy.pkA [0, 7, 8])) := rfl
  obtain ⟨hB, rb⟩ := Toy.creach_b0 Unit ⟨true, true, true⟩ oc
  obtain ⟨_, -, -, -, h', -⟩ := C76_connect_to_complete Toy.lawful (Toy.run0 oc [1] none) rb h (by decide)
    (by decide) (Toy.lawful.edVerify_sign Toy.seedA _) (.inl rfl) rfl (by cases oc <;> decide +kernel) rfl
  exact ⟨Toy.run0 _ _ _, Toy.creach_b0 _ _ _, h, h' _ (.stream (by decide) rfl)⟩

/-- One whose custom data are no DEFLATE stream: the application gets an error, the negotiation goes on. -/
example (oc : Bool) :
    ((Toy.csB (Toy.layer0 [2] none)).readBin (Toy.env oc) (Toy.sign Toy.seedA Toy.conA)).2 = .err .zipError ∧
    ((Toy.csB (Toy.layer0 [2] none)).readBin (Toy.env oc) (Toy.sign Toy.seedA Toy.conA)).1.minimal.status =
      .ongoing .created .validConnectMsgReceived := by
  have h : (Toy.layer0 [1] none).createConnect (Toy.env oc) Toy.pkA (some [7, 8]) = (Toy.a1, .ok Toy.conA) := rfl
  obtain ⟨hB, rb⟩ := Toy.creach_b0 Unit ⟨true, true, true⟩ oc
  obtain ⟨b', h1, h2, -, -, h'⟩ := C76_connect_to_complete Toy.lawful (Toy.run0 oc [1] none) rb h (by decide)
    (by decide) (Toy.lawful.edVerify_sign Toy.seedA _) (.inl rfl) rfl (by cases oc <;> decide +kernel) rfl
  exact ⟨h' _ (.other (by decide) rfl), by rw [show Toy.sign Toy.seedA Toy.conA = Toy.conA ++ _ from rfl, h1]; exact h2⟩

/-- A toy ACK of the minimal mode without custom data. -/
example (oc : Bool) : ((Toy.csB Toy.b3).readBin (Toy.env oc)
    (Toy.sign Toy.seedA (ackFrame (Toy.cr.sha256 (Toy.xpub [2])) []))).2 = .ok [.ack none] := by
  have h : Toy.a3.createAck (Toy.env oc) none = (Toy.a4, .ok (ackFrame (Toy.cr.sha256 (Toy.xpub [2])) [])) := rfl
  obtain ⟨hA, ra⟩ := Toy.reach_a3 oc
  obtain ⟨hB, rb⟩ := Toy.creach_b3 Unit ⟨true, true, true⟩ oc
  exact (C76_ack_to_complete Toy.lawful ra rb (k := Toy.pkA) rfl h (by decide) rfl
    (Toy.lawful.edVerify_sign Toy.seedA _) rfl rfl).2.1 _ .nothing

/-- A toy user message of the minimal mode: `[0, 5]` is a DEFLATE stream of the toy compression. -/
example (oc : Bool) : ((Toy.csB Toy.b4).readBin (Toy.env oc) (cipherOf Toy.cr Toy.key 0 [0, 5])).2 =
    .ok [.message (some [5])] := by
  obtain ⟨hA, ra⟩ := Toy.reach_a4 oc
  obtain ⟨hB, rb⟩ := Toy.creach_b4 Unit ⟨true, true, true⟩ oc
  obtain ⟨w', h1, h2, -⟩ := writeMessage_good (env := Toy.env oc) Toy.lawful (s := Toy.a4) (k := Toy.key) [0, 5] (w := Toy.sink)
    rfl rfl rfl (by decide) (by decide)
  exact (C76_user_to_complete Toy.lawful ra rb h1 (by decide) (m := cipherOf Toy.cr Toy.key 0 [0, 5])
    (h2.trans (by cases oc <;> decide +kernel)) rfl rfl rfl (by decide) Toy.key_stream (by decide) (by decide) (.inl rfl)
    (by decide)).2.1 _ (.stream (by decide) rfl)

/-- Toy messages of the complete mode: `C76_connect_to_minimal`, `C76_ack_to_minimal` and `C76_user_to_minimal` apply. -/
example (oc : Bool) :
    (∃ b', (Toy.layer0 [2] none).read (Toy.env oc) Toy.cconA =
      (b', .ok (some (.connect [0, 0, 0, 0] Toy.pkA (some [0, 7, 8]))))) ∧
    (∃ b', Toy.b3.read (Toy.env oc) Toy.cackA = (b', .ok (some (.ack (some [0])))) ∧ b'.status = .success) ∧
    (∃ b', Toy.b4.read (Toy.env oc) (cipherOf Toy.cr Toy.key 0 [0, 5]) = (b', .ok (some (.message (some [0, 5]))))) := by
  refine ⟨?_, ?_, ?_⟩
  · obtain ⟨hA, ra⟩ := Toy.creach_a0 Unit ⟨true, true, true⟩ oc
    obtain ⟨w', h1, h2, -⟩ := writeConnectBin_good (env := Toy.env oc) (sl := Toy.csA (Toy.layer0 [1] none))
      (rem := .waitConnectMsg) rfl rfl (some [7, 8]) (w := Toy.sink) rfl
    obtain ⟨b', h, -⟩ := C76_connect_to_minimal Toy.lawful ra (Toy.run0 oc [2] none) h1 (.inl rfl) (m := Toy.cconA)
      (h2.trans (by cases oc <;> decide +kernel)) rfl (.inl rfl) (by cases oc <;> decide +kernel) (by cases oc <;> decide +kernel)
    exact ⟨b', h⟩
  · obtain ⟨hA, ra⟩ := Toy.creach_a3 Unit ⟨true, true, true⟩ oc
    obtain ⟨hB, rb⟩ := Toy.reach_b3 oc
    obtain ⟨w', h1, h2, -⟩ := writeAckBin_good (env := Toy.env oc) (sl := Toy.csA Toy.a3) ra.wf rfl rfl rfl
      (some []) (w := Toy.sink) rfl
    obtain ⟨b', h, h'⟩ := C76_ack_to_minimal Toy.lawful ra rb h1 (.inl rfl) (m := Toy.cackA)
      (h2.trans (by cases oc <;> decide +kernel)) rfl rfl rfl (by cases oc <;> decide +kernel)
    exact ⟨b', h, h'⟩
  · obtain ⟨hA, ra⟩ := Toy.creach_a4 Unit ⟨true, true, true⟩ oc
    obtain ⟨hB, rb⟩ := Toy.reach_b4 oc
    obtain ⟨w', h1, h2, -⟩ := writeBin_good (env := Toy.env oc) (sl := Toy.csA Toy.a4) Toy.lawful rfl rfl [5]
      (w := Toy.sink) rfl (by decide) (by decide)
    obtain ⟨b', h, -⟩ := C76_user_to_minimal Toy.lawful ra rb h1 (by decide) (m := cipherOf Toy.cr Toy.key 0 [0, 5])
      (h2.trans (by cases oc <;> decide +kernel)) rfl rfl rfl (by cases oc <;> decide +kernel) Toy.key_stream (by decide)
      (by decide) (.inl rfl) (by decide)
    exact ⟨b', h⟩

/-- The toy parties meet the hypotheses of `C76_session`. -/
example (oc : Bool) : Layer.create (Toy.env oc).cr Config.default none (some [1]) = .ok (Toy.layer0 [1] none) ∧
    SecureLayer.create (Toy.env oc).cr Config.default (some Toy.seedB) none (some []) (some [2]) =
      .ok (Toy.csB (Toy.layer0 [2] none)) ∧ Toy.sink.sink.script = [] ∧
    (Toy.cr.xAgree [1] (Toy.cr.xPublic [2])).isSome = true ∧ Unpacks Toy.cr [0, 7, 8] (.ok (some [7, 8])) ∧
    Unpacks Toy.cr [] (.ok none) :=
  ⟨rfl, rfl, rfl, by decide +kernel, .stream (by decide) rfl, .nothing⟩

end Pkstl

import Verif.Props.Writer
/- What the complete layer writes through a writer that takes everything. -/
namespace Pkstl
open Spec

variable {env : Env} {sl : SecureLayer} {w : BufW}

/-- A CONNECT. -/
theorem writeConnectBin_good {seed : Bytes} {rem : RemoteNego} (hseed : sl.sigSeed = some seed)
    (hs : sl.minimal.status = .ongoing .created rem) (d : Option Bytes) (hw : w.sink.script = []) :
    ∃ w', sl.writeConnectBin env d w =
        ({ sl with minimal := { sl.minimal with status := .ongoing .connectMsgSent rem } }, w', .ok ()) ∧
      w'.stream = w.stream ++ (connectWire env.cr sl.minimal.config sl.minimal.ephemeralPubkey seed d ++
        env.cr.edSign seed (connectWire env.cr sl.minimal.config sl.minimal.ephemeralPubkey seed d)) ∧
      w'.sink.script = [] := by
  obtain ⟨w', h1, h2, h3, -⟩ := writeSigned_good env.cr seed
    (connectWire env.cr sl.minimal.config sl.minimal.ephemeralPubkey seed d) hw
  refine ⟨w', ?_, h2, h3⟩
  unfold SecureLayer.writeConnectBin
  rcases writeConnectRaw_cases env sl (d.map (sl.compress env.cr)) w with ⟨h, -⟩ | ⟨_, -, h, -⟩ |
    ⟨seed', rem', h4, h5, he⟩
  · simp [hseed] at h
  · exact absurd hs (h rem)
  · rw [hseed] at h4
    rw [hs] at h5
    simp only [Option.some.injEq, Status.ongoing.injEq, true_and] at h4 h5
    subst h4 h5
    rw [he]
    have : SecureLayer.writeSigned env.cr seed (connectFrame sl.minimal.ephemeralPubkey (env.cr.edPublic seed)
      ((d.map (sl.compress env.cr)).getD [])) w = (w', .ok ()) := h1
    rw [this]

/-- An ACK. -/
theorem writeAckBin_good {st : Start} (hwf : Wf env st sl.minimal) {seed epk : Bytes} {loc : LocalNego}
    (hseed : sl.sigSeed = some seed) (hs : sl.minimal.status = .ongoing loc .validConnectMsgReceived)
    (hepk : sl.minimal.peerEpk = some epk) (d : Option Bytes) (hw : w.sink.script = []) :
    ∃ w', sl.writeAckBin env d w =
        ({ sl with minimal := { sl.minimal with
          status := if loc = LocalNego.validAckMsgReceived then .success else .ongoing loc .ackMsgSent } }, w', .ok ()) ∧
      w'.stream = w.stream ++ (ackWire env.cr sl.minimal.config epk d ++
        env.cr.edSign seed (ackWire env.cr sl.minimal.config epk d)) ∧
      w'.sink.script = [] := by
  obtain ⟨w', h1, h2, h3, -⟩ := writeSigned_good env.cr seed (ackWire env.cr sl.minimal.config epk d) hw
  refine ⟨w', ?_, h2, h3⟩
  unfold SecureLayer.writeAckBin
  rcases writeAckRaw_cases hwf (d.map (sl.compress env.cr)) w with ⟨h, -⟩ | ⟨_, -, h, -⟩ |
    ⟨seed', loc', epk', h4, h5, h6, he⟩
  · simp [hseed] at h
  · exact absurd hs (h loc)
  · rw [hseed] at h4
    rw [hs] at h5
    rw [hepk] at h6
    simp only [Option.some.injEq, Status.ongoing.injEq, and_true] at h4 h5 h6
    subst h4 h5 h6
    rw [he]
    have : SecureLayer.writeSigned env.cr seed (ackFrame (env.cr.sha256 epk)
      ((d.map (sl.compress env.cr)).getD [])) w = (w', .ok ()) := h1
    rw [this]

/-- A user message. -/
theorem writeBin_good (law : env.cr.Lawful) {k : SecretKey} (hs : sl.minimal.status = .success)
    (hk : sl.minimal.secret = some k) (d : Bytes) (hw : w.sink.script = []) (hcap : 16 < w.cap)
    (hn : sl.minimal.nextNonceSent + 1 < 2 ^ 64) :
    ∃ w', sl.writeBin env d w =
        ({ sl with minimal := { sl.minimal with nextNonceSent := sl.minimal.nextNonceSent + 1 } }, w', .ok ()) ∧
      w'.stream = w.stream ++ cipherOf env.cr k sl.minimal.nextNonceSent (env.cr.deflate (levelFor sl.minimal.config d) d) ∧
      w'.sink.script = [] ∧ w'.cap = w.cap := by
  obtain ⟨w', h1, h2⟩ := writeMessage_good (env := env) law (s := sl.minimal) (k := k) (sl.compress env.cr d) hs hk hw hcap hn
  refine ⟨w', ?_, h2⟩
  unfold SecureLayer.writeBin SecureLayer.writeBinRaw
  rw [h1]

end Pkstl

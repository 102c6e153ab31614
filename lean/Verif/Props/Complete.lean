import Verif.Lemmas.Config
import Verif.Lemmas.CEval
import Verif.Lemmas.CWrite
import Verif.Props.Writer
import Verif.Props.Clone
import Verif.Props.Codec
/- C37–C42: the complete mode: round trips, compression, signatures, clones, early ACK, decompression failures. -/
namespace Pkstl
open Spec

variable {M : Type} {env : Env} {f : Features}

/-- A writer for which `Ok` means that the message `m` and its signature are written (see C47): it takes everything, or
message and signature are shorter than the buffer. -/
def Spec.Whole (w : BufW) (m : Bytes) : Prop := w.sink.script = [] ∨ (m.length < w.cap ∧ 64 < w.cap)

section
variable {st : CStart} {h : List (CEvent M)} {sl sl' : SecureLayer} {d : Option Bytes} {w w' : BufW}

theorem writeSigned_whole (law : env.cr.Lawful) {seed b : Bytes} (hw : Whole w b)
    (h : SecureLayer.writeSigned env.cr seed b w = (w', .ok ())) :
    w'.stream = w.stream ++ (b ++ env.cr.edSign seed b) := by
  rcases hw with hw | ⟨h1, h2⟩
  · obtain ⟨w1, h3, h4, -⟩ := writeSigned_good env.cr seed b hw
    rw [h] at h3
    simp only [Prod.mk.injEq, and_true] at h3
    rw [h3]; exact h4
  · exact (writeSigned_ok h1 (by rw [law.edSign_length]; exact h2) h).1

/-- The stream after a CONNECT. -/
theorem connectRaw_stream (law : env.cr.Lawful) (hr : CRun env f st h sl)
    (h' : sl.writeConnectRaw env d w = (sl', w', .ok ()))
    (hw : Whole w (connectFrame (env.cr.xPublic st.random) (env.cr.edPublic st.sigSeed) (d.getD []))) :
    w'.stream = w.stream ++ (connectFrame (env.cr.xPublic st.random) (env.cr.edPublic st.sigSeed) (d.getD []) ++
      env.cr.edSign st.sigSeed (connectFrame (env.cr.xPublic st.random) (env.cr.edPublic st.sigSeed) (d.getD []))) := by
  rcases writeConnectRaw_cases env sl d w with ⟨h1, he⟩ | ⟨seed', h1, h2, he⟩ |
    ⟨seed', rem, h1, h2, he⟩
  · rw [h'] at he; simp at he
  · rw [h'] at he; simp at he
  · have hs : st.sigSeed = seed' := by
      rcases hr.lower.2 with h3 | h3 <;> rw [h1] at h3 <;> simp at h3
      exact h3.symm
    subst hs
    rw [h', hr.wf.epub] at he
    simp only [Prod.mk.injEq] at he
    exact writeSigned_whole law hw (Prod.ext he.2.1.symm he.2.2.symm)

theorem connect_stream (law : env.cr.Lawful) (hr : CRun env f st h sl)
    (hw : Whole w (connectWire env.cr sl.minimal.config (env.cr.xPublic st.random) st.sigSeed d))
    (h' : sl.writeConnectBin env d w = (sl', w', .ok ())) :
    w'.stream = w.stream ++ (connectWire env.cr sl.minimal.config (env.cr.xPublic st.random) st.sigSeed d ++
      env.cr.edSign st.sigSeed (connectWire env.cr sl.minimal.config (env.cr.xPublic st.random) st.sigSeed d)) :=
  connectRaw_stream law hr h' hw

/-- The stream after an ACK; an ACK is written only when the peer's ephemeral key is known. -/
theorem ackRaw_stream (law : env.cr.Lawful) (hr : CRun env f st h sl)
    (h' : sl.writeAckRaw env d w = (sl', w', .ok ())) :
    ∃ epk, sl.minimal.peerEpk = some epk ∧ (Whole w (ackFrame (env.cr.sha256 epk) (d.getD [])) →
      w'.stream = w.stream ++ (ackFrame (env.cr.sha256 epk) (d.getD []) ++
        env.cr.edSign st.sigSeed (ackFrame (env.cr.sha256 epk) (d.getD [])))) := by
  rcases writeAckRaw_cases hr.wf d w with ⟨h1, he⟩ | ⟨seed', h1, h2, he⟩ |
    ⟨seed', loc, epk', h1, h2, h3, he⟩
  · rw [h'] at he; simp at he
  · rw [h'] at he; simp at he
  · have hs : st.sigSeed = seed' := by
      rcases hr.lower.2 with h3 | h3 <;> rw [h1] at h3 <;> simp at h3
      exact h3.symm
    subst hs
    refine ⟨epk', h3, fun hw => ?_⟩
    rw [h'] at he
    simp only [Prod.mk.injEq] at he
    exact writeSigned_whole law hw (Prod.ext he.2.1.symm he.2.2.symm)

theorem ack_stream (law : env.cr.Lawful) (hr : CRun env f st h sl) {epk : Bytes} (hepk : sl.minimal.peerEpk = some epk)
    (hw : Whole w (ackWire env.cr sl.minimal.config epk d)) (h' : sl.writeAckBin env d w = (sl', w', .ok ())) :
    w'.stream = w.stream ++ (ackWire env.cr sl.minimal.config epk d ++
      env.cr.edSign st.sigSeed (ackWire env.cr sl.minimal.config epk d)) := by
  obtain ⟨epk', h1, h2⟩ := ackRaw_stream law hr h'
  rw [hepk] at h1
  simp only [Option.some.injEq] at h1
  subst h1
  exact h2 hw

/-- The payload of a compressed message. -/
def Spec.packed (cr : Crypto) (c : Config) (data : Option Bytes) : Bytes :=
  (data.map fun d => cr.deflate (levelFor c d) d).getD []

theorem uncompress_packed (law : env.cr.Lawful) (c : Config) (d : Option Bytes) :
    SecureLayer.uncompressOpt env.cr (present (packed env.cr c d)) = .ok d := by
  cases d with
  | none => simp [packed, present, SecureLayer.uncompressOpt]
  | some b =>
    simp [packed, present, law.deflate_ne_nil, SecureLayer.uncompressOpt, SecureLayer.uncompress, law.inflate_deflate]

end

section
variable {M' : Type} {f' : Features} {stA stB : CStart} {hA : List (CEvent M)} {hB : List (CEvent M')} {a a' b : SecureLayer}
  {w w' : BufW}

/-- **C37, CONNECT.** What `write_connect_msg_bin` writes is delivered by `read_bin` of a layer that waits for it, with
exactly the same custom data: absent, empty and non-empty data are told apart. -/
theorem C37_connect (law : env.cr.Lawful) (ra : CRun env f stA hA a) (rb : CRun env f' stB hB b) {d : Option Bytes}
    {m : Bytes} (hc : a.writeConnectBin env d w = (a', w', .ok ()))
    (hw : Whole w (connectWire env.cr a.minimal.config (env.cr.xPublic stA.random) stA.sigSeed d))
    (hm : w'.stream = w.stream ++ m) {loc : LocalNego} (hwait : b.minimal.status = .ongoing loc .waitConnectMsg)
    (hkey : b.minimal.peerSigPubkey = none ∨ b.minimal.peerSigPubkey = some (env.cr.edPublic stA.sigSeed))
    (hlen : 86 + (packed env.cr a.minimal.config d).length < 2 ^ 64)
    (hag : (env.cr.xAgree stB.random (env.cr.xPublic stA.random)).isSome = true)
    (hearly : b.minimal.ackMsgRecvTooEarly = none) :
    ∃ b', b.readBin env m = (b', .ok [.connect d (env.cr.edPublic stA.sigSeed)]) ∧
      b'.minimal.status = .ongoing loc .validConnectMsgReceived := by
  have hm' := connect_stream law ra hw hc
  rw [hm, List.append_cancel_left_eq] at hm'
  obtain ⟨kp, hkp⟩ := Option.ne_none_iff_exists'.mp (rb.wf.wait _ hwait)
  obtain ⟨rfl, -, -⟩ := rb.wf.kp _ hkp
  obtain ⟨z, hz⟩ := Option.isSome_iff_exists.mp hag
  obtain ⟨sec, hsec⟩ : ∃ sec, sessionKey env.cr stB.random (env.cr.xPublic stB.random)
      (env.cr.xPublic stA.random) = some sec := ⟨_, by rw [sessionKey, hz, Option.map_some]⟩
  rw [hm']
  exact ⟨_, readBin_connect_eval (law.xPublic_length stA.random) (law.edPublic_length stA.sigSeed) hlen
    (law.edVerify_sign stA.sigSeed _) hkey hwait hkp hsec (uncompress_packed law _ d) hearly, rfl⟩

/-- **C37, ACK.** What `write_ack_msg_bin` writes is delivered by `read_bin` of the layer it is meant for, with exactly the
same custom data. -/
theorem C37_ack (law : env.cr.Lawful) (ra : CRun env f stA hA a) (rb : CRun env f' stB hB b) {d : Option Bytes}
    {m : Bytes} (hc : a.writeAckBin env d w = (a', w', .ok ()))
    (hw : Whole w (ackWire env.cr a.minimal.config (env.cr.xPublic stB.random) d))
    (hm : w'.stream = w.stream ++ m) (hpeer : a.minimal.peerEpk = some (env.cr.xPublic stB.random))
    {rem : RemoteNego} (hdue : b.minimal.status = .ongoing .connectMsgSent rem)
    (hkey : b.minimal.peerSigPubkey = some (env.cr.edPublic stA.sigSeed))
    (hlen : 50 + (packed env.cr a.minimal.config d).length < 2 ^ 64) (hst : b.minimal.tmpStack = []) :
    ∃ b', b.readBin env m = (b', .ok [.ack d]) ∧ (rem = .ackMsgSent → b'.minimal.status = .success) ∧
      (rem ≠ .ackMsgSent → b'.minimal.status = .ongoing .validAckMsgReceived rem) := by
  have hm' := ack_stream law ra hpeer hw hc
  rw [hm, List.append_cancel_left_eq] at hm'
  rw [hm']
  refine ⟨_, readBin_ack_nil_eval (by rw [rb.wf.epub]; rfl) (law.sha256_length _) hlen
    (law.edVerify_sign stA.sigSeed _) hkey hdue (uncompress_packed law _ d) hst, ?_, ?_⟩
  · intro h; simp [h]
  · intro h; simp [h]

/-- **C37, user messages.** What `write_bin` writes is delivered by `read_bin` of every negotiated layer with the same
secret that may still accept the number, with exactly the same bytes (empty data are delivered as empty data). -/
theorem C37_user (law : env.cr.Lawful) (ra : CRun env f stA hA a) (rb : CRun env f' stB hB b) {d m : Bytes}
    (hc : a.writeBin env d w = (a', w', .ok ())) (hcap : 16 < w.cap) (hm : w'.stream = w.stream ++ m) {k : SecretKey}
    (hka : a.minimal.secret = some k) (hkb : b.minimal.secret = some k) (hb : b.minimal.status = .success)
    (hlen : 26 + (env.cr.deflate (levelFor a.minimal.config d) d).length < 2 ^ 64)
    (hks : ¬ ∀ i < 4, env.cr.keystream k.key k.nonce i = 0)
    (hnew : ¬ a.minimal.nextNonceSent < b.minimal.nextNonceExpected)
    (hnew' : a.minimal.nextNonceSent ∉ b.minimal.orphanNonces)
    (hroom : a.minimal.nextNonceSent = b.minimal.nextNonceExpected ∨ b.minimal.orphanNonces.card < 10000)
    (hend : b.minimal.nextNonceExpected + b.minimal.orphanNonces.card + 1 < 2 ^ 64) :
    ∃ b', b.readBin env m = (b', .ok [.message (some d)]) ∧ b'.minimal.status = .success := by
  obtain ⟨⟨la, hla, -⟩, -⟩ := ra.lower
  obtain ⟨⟨lb, hlb, -⟩, -⟩ := rb.lower
  rcases hw : a.minimal.writeMessage env (a.compress env.cr d) w with ⟨m1, w1, r⟩
  unfold SecureLayer.writeBin SecureLayer.writeBinRaw at hc
  rw [hw] at hc
  simp only [Prod.mk.injEq] at hc
  obtain ⟨-, rfl, rfl⟩ := hc
  obtain ⟨b', h1, h2⟩ := C03_user_roundtrip law hla hlb hw hcap hm hka hkb hb hlen hks hnew hnew' hroom hend
  refine ⟨{ b with minimal := b' }, ?_, h2⟩
  have hun := uncompress_packed law a.minimal.config (some d)
  unfold SecureLayer.readBin
  rw [h1]
  dsimp only
  have he : present (a.compress env.cr d) = present (packed env.cr a.minimal.config (some d)) := rfl
  rw [he, hun]

end

/-- A toy CONNECT with custom data: the hypotheses of `C37_connect` hold. -/
example (oc : Bool) : Toy.CReach Unit (Toy.env oc) ⟨true, true, true⟩ Toy.cstA (Toy.csA (Toy.layer0 [1] none)) ∧
    Toy.CReach Unit (Toy.env oc) ⟨true, true, true⟩ Toy.cstB (Toy.csB (Toy.layer0 [2] none)) ∧
    (∃ a' w', (Toy.csA (Toy.layer0 [1] none)).writeConnectBin (Toy.env oc) (some [7, 8]) Toy.sink = (a', w', .ok ()) ∧
      w'.stream = Toy.sink.stream ++ Toy.cconA) ∧
    (∀ m, Whole Toy.sink m) ∧ (Toy.layer0 [2] none).status = .ongoing .created .waitConnectMsg ∧
    (Toy.cr.xAgree Toy.cstB.random (Toy.cr.xPublic Toy.cstA.random)).isSome = true := by
  obtain ⟨w', h1, h2, -⟩ := writeConnectBin_good (env := Toy.env oc) (sl := Toy.csA (Toy.layer0 [1] none))
    (rem := .waitConnectMsg) rfl rfl (some [7, 8]) (w := Toy.sink) rfl
  exact ⟨Toy.creach_a0 _ _ _, Toy.creach_b0 _ _ _, ⟨_, w', h1, h2.trans (by cases oc <;> decide +kernel)⟩,
    fun m => .inl rfl, rfl, by decide +kernel⟩

/-- A toy ACK with empty custom data: the hypotheses of `C37_ack` hold. -/
example (oc : Bool) : Toy.CReach Unit (Toy.env oc) ⟨true, true, true⟩ Toy.cstA (Toy.csA Toy.a3) ∧
    Toy.CReach Unit (Toy.env oc) ⟨true, true, true⟩ Toy.cstB (Toy.csB Toy.b3) ∧
    (∃ a' w', (Toy.csA Toy.a3).writeAckBin (Toy.env oc) (some []) Toy.sink = (a', w', .ok ()) ∧
      w'.stream = Toy.sink.stream ++ Toy.cackA) ∧
    Toy.a3.peerEpk = some (Toy.cr.xPublic Toy.cstB.random) ∧ Toy.b3.status = .ongoing .connectMsgSent .ackMsgSent ∧
    Toy.b3.peerSigPubkey = some (Toy.cr.edPublic Toy.cstA.sigSeed) ∧ Toy.b3.tmpStack = [] := by
  have hwf := (Toy.creach_a3 Unit ⟨true, true, true⟩ oc).elim fun _ h => h.wf
  obtain ⟨w', h1, h2, -⟩ := writeAckBin_good (env := Toy.env oc) (sl := Toy.csA Toy.a3) hwf rfl rfl rfl
    (some []) (w := Toy.sink) rfl
  exact ⟨Toy.creach_a3 _ _ _, Toy.creach_b3 _ _ _, ⟨_, w', h1, h2.trans (by cases oc <;> decide +kernel)⟩, rfl, rfl, rfl, rfl⟩

/-- A toy user message: the hypotheses of `C37_user` hold. -/
example (oc : Bool) : Toy.CReach Unit (Toy.env oc) ⟨true, true, true⟩ Toy.cstA (Toy.csA Toy.a4) ∧
    Toy.CReach Unit (Toy.env oc) ⟨true, true, true⟩ Toy.cstB (Toy.csB Toy.b4) ∧
    (∃ a' w', (Toy.csA Toy.a4).writeBin (Toy.env oc) [5] Toy.sink = (a', w', .ok ()) ∧
      w'.stream = Toy.sink.stream ++ cipherOf Toy.cr Toy.key 0 [0, 5]) ∧
    Toy.a4.secret = some Toy.key ∧ Toy.b4.secret = some Toy.key ∧ Toy.b4.status = .success ∧
    (¬ ∀ i < 4, Toy.cr.keystream Toy.key.key Toy.key.nonce i = 0) ∧ Toy.a4.nextNonceSent = 0 ∧
    Toy.b4.nextNonceExpected = 0 ∧ Toy.b4.orphanNonces = ∅ := by
  obtain ⟨w', h1, h2, -⟩ := writeBin_good (env := Toy.env oc) (sl := Toy.csA Toy.a4) Toy.lawful rfl rfl [5]
    (w := Toy.sink) rfl (by decide) (by decide)
  exact ⟨Toy.creach_a4 _ _ _, Toy.creach_b4 _ _ _, ⟨_, w', h1, h2.trans (by cases oc <;> decide +kernel)⟩, rfl, rfl, rfl,
    Toy.key_stream, rfl, rfl, rfl⟩

/-! ## C38: compression -/

theorem connectFrame_split (epk pk p : Bytes) : connectFrame epk pk p =
    ([0xE2, 0xC2, 0xE2, 0xD2] ++ [0, 0, 0, 1] ++ be64 ([0, 1] ++ epk ++ [0, 0, 0, 0] ++ pk ++ p).length ++ [0, 1] ++ epk ++
      [0, 0, 0, 0]) ++ (pk ++ p) := by
  simp [connectFrame, frame]

theorem connectFrame_key {epk pk p : Bytes} (h1 : epk.length = 32) : (connectFrame epk pk p).drop 54 = pk ++ p := by
  rw [connectFrame_split]
  exact List.drop_left' (by simp [h1, be64])

theorem connectFrame_data {epk pk p q : Bytes} (h1 : epk.length = 32) (h2 : pk.length = 32) (h3 : q.length = 64) :
    ((connectFrame epk pk p ++ q).drop 86).take ((connectFrame epk pk p ++ q).length - 150) = p := by
  have hl : (connectFrame epk pk p ++ q).length - 150 = p.length := by
    rw [connectFrame_split]
    simp [h1, h2, h3, be64]
    omega
  rw [hl, connectFrame_split, show (86 : Nat) = 54 + 32 from rfl, ← List.drop_drop, List.append_assoc,
    List.drop_left' (by simp [h1, be64]), List.append_assoc, List.drop_left' h2]
  exact List.take_left' rfl

theorem ackFrame_data {c p q : Bytes} (h1 : c.length = 32) (h3 : q.length = 64) :
    ((ackFrame c p ++ q).drop 50).take ((ackFrame c p ++ q).length - 114) = p := by
  have hs : ackFrame c p =
      ([0xE2, 0xC2, 0xE2, 0xD2] ++ [0, 0, 0, 1] ++ be64 ([0, 2] ++ c ++ p).length ++ [0, 2] ++ c) ++ p := by
    simp [ackFrame, frame]
  have hl : (ackFrame c p ++ q).length - 114 = p.length := by
    rw [hs]
    simp [h1, h3, be64]
    omega
  rw [hl, hs, List.append_assoc, List.drop_left' (by simp [h1, be64])]
  exact List.take_left' rfl

section
variable {st : CStart} {h : List (CEvent M)} {sl sl' : SecureLayer} {w w' : BufW}

/-- **C38.** User data shorter than `compression_min_size` are sent at level 0, anything else at the configured level. -/
theorem C38_user (law : env.cr.Lawful) {d m : Bytes} (hcap : 16 < w.cap) (h' : sl.writeBin env d w = (sl', w', .ok ()))
    (hm : w'.stream = w.stream ++ m) : ∃ k, sl.minimal.secret = some k ∧
      (d.length < sl.minimal.config.compressionMinSize →
        m = cipherOf env.cr k sl.minimal.nextNonceSent (env.cr.deflate 0 d)) ∧
      (sl.minimal.config.compressionMinSize ≤ d.length →
        m = cipherOf env.cr k sl.minimal.nextNonceSent (env.cr.deflate sl.minimal.config.compression d)) := by
  obtain ⟨-, k, hk, h1⟩ := C46_ok_written_bin law hcap h'
  rw [hm, List.append_cancel_left_eq] at h1
  refine ⟨k, hk, fun hl => ?_, fun hl => ?_⟩
  · rw [h1, levelFor, if_pos hl]
  · rw [h1, levelFor, if_neg (by omega)]

/-- **C38.** The same for the custom data of a CONNECT, the bytes between the first 86 and the signature. -/
theorem C38_connect (law : env.cr.Lawful) (hr : CRun env f st h sl) {d m : Bytes}
    (h' : sl.writeConnectBin env (some d) w = (sl', w', .ok ()))
    (hw : Whole w (connectWire env.cr sl.minimal.config (env.cr.xPublic st.random) st.sigSeed (some d)))
    (hm : w'.stream = w.stream ++ m) :
    (d.length < sl.minimal.config.compressionMinSize → (m.drop 86).take (m.length - 150) = env.cr.deflate 0 d) ∧
    (sl.minimal.config.compressionMinSize ≤ d.length →
      (m.drop 86).take (m.length - 150) = env.cr.deflate sl.minimal.config.compression d) := by
  have h1 := connect_stream law hr hw h'
  rw [hm, List.append_cancel_left_eq] at h1
  have h2 : (m.drop 86).take (m.length - 150) = env.cr.deflate (levelFor sl.minimal.config d) d := by
    rw [h1]
    exact connectFrame_data (law.xPublic_length _) (law.edPublic_length _) (law.edSign_length _ _)
  refine ⟨fun hl => ?_, fun hl => ?_⟩
  · rw [h2, levelFor, if_pos hl]
  · rw [h2, levelFor, if_neg (by omega)]

/-- **C38.** The same for the custom data of an ACK, the bytes between the first 50 and the signature. -/
theorem C38_ack (law : env.cr.Lawful) (hr : CRun env f st h sl) {d m epk : Bytes}
    (h' : sl.writeAckBin env (some d) w = (sl', w', .ok ())) (hepk : sl.minimal.peerEpk = some epk)
    (hw : Whole w (ackWire env.cr sl.minimal.config epk (some d))) (hm : w'.stream = w.stream ++ m) :
    (d.length < sl.minimal.config.compressionMinSize → (m.drop 50).take (m.length - 114) = env.cr.deflate 0 d) ∧
    (sl.minimal.config.compressionMinSize ≤ d.length →
      (m.drop 50).take (m.length - 114) = env.cr.deflate sl.minimal.config.compression d) := by
  have h1 := ack_stream law hr hepk hw h'
  rw [hm, List.append_cancel_left_eq] at h1
  have h2 : (m.drop 50).take (m.length - 114) = env.cr.deflate (levelFor sl.minimal.config d) d := by
    rw [h1]
    exact ackFrame_data (law.sha256_length _) (law.edSign_length _ _)
  refine ⟨fun hl => ?_, fun hl => ?_⟩
  · rw [h2, levelFor, if_pos hl]
  · rw [h2, levelFor, if_neg (by omega)]

/-- Hand several inputs to `read_bin`, one after the other; the results in order. -/
def Spec.readBinAll (env : Env) (sl : SecureLayer) : List Bytes → SecureLayer × List (Res (List BinMessage))
  | [] => (sl, [])
  | b :: bs =>
    let r := sl.readBin env b
    let rs := readBinAll env r.1 bs
    (rs.1, r.2 :: rs.2)

theorem readBinAll_conf (c : Config) (sl : SecureLayer) (bs : List Bytes) :
    readBinAll env (sl.conf c) bs = ((readBinAll env sl bs).1.conf c, (readBinAll env sl bs).2) := by
  induction bs generalizing sl with
  | nil => rfl
  | cons b bs ih => simp only [readBinAll, readBin_conf, ih]

/-- **C38.** The receiver's configuration has no influence on what it decodes: whatever arrives after a successful
`change_config`, the results are those without the change. -/
theorem C38_receiver {c : Config} (h' : sl.changeConfig c = (sl', .ok ())) (bs : List Bytes) :
    (readBinAll env sl' bs).2 = (readBinAll env sl bs).2 := by
  have h1 : sl' = sl.conf c := by
    unfold SecureLayer.changeConfig Layer.changeConfig at h'
    by_cases hc : sl.minimal.cloned = false
    · rw [if_pos hc] at h'
      exact (congrArg Prod.fst h').symm
    · rw [if_neg hc] at h'
      simp at h'
  rw [h1, readBinAll_conf]

end

/-- With the toy codec of a layer configured to level 3 and threshold 2, one byte goes out at level 0 and three bytes at
level 3. -/
example (oc : Bool) : ∃ c sl, (Toy.csA Toy.a4).changeConfig c = (sl, .ok ()) ∧ sl.minimal.config.compressionMinSize = 2 ∧
    (∃ sl' w', sl.writeBin (Toy.env oc) [5] Toy.sink = (sl', w', .ok ()) ∧
      w'.stream = Toy.sink.stream ++ cipherOf Toy.cr Toy.key 0 [0, 5]) ∧
    (∃ sl' w', sl.writeBin (Toy.env oc) [5, 6, 7] Toy.sink = (sl', w', .ok ()) ∧
      w'.stream = Toy.sink.stream ++ cipherOf Toy.cr Toy.key 0 [1, 5, 6, 7]) := by
  have hg : ∀ d : Bytes, _ := fun d => writeBin_good (env := Toy.env oc)
    (sl := (Toy.csA Toy.a4).conf { Config.default with compression := 3, compressionMinSize := 2 }) Toy.lawful rfl rfl d
    (w := Toy.sink) rfl (by decide) (by decide)
  refine ⟨{ Config.default with compression := 3, compressionMinSize := 2 }, _, rfl, rfl, ?_, ?_⟩
  · obtain ⟨w', h1, h2, -⟩ := hg [5]
    exact ⟨_, w', h1, h2.trans (by cases oc <;> decide +kernel)⟩
  · obtain ⟨w', h1, h2, -⟩ := hg [5, 6, 7]
    exact ⟨_, w', h1, h2.trans (by cases oc <;> decide +kernel)⟩

/-! ## C39: signatures -/

/-- The writer before and after a call of `write_connect_msg*` that returned `Ok`. -/
def Spec.CEvent.wroteConnect : CEvent M → Option (BufW × BufW)
  | .connectBin _ w w' (.ok ()) => some (w, w')
  | .connectSer _ _ w w' (.ok ()) => some (w, w')
  | _ => none

/-- The writer before and after a call of `write_ack_msg*` that returned `Ok`. -/
def Spec.CEvent.wroteAck : CEvent M → Option (BufW × BufW)
  | .ackBin _ w w' (.ok ()) => some (w, w')
  | .ackSer _ _ w w' (.ok ()) => some (w, w')
  | _ => none

theorem wroteConnect_step {sl : SecureLayer} {op : COp M} {w w' : BufW}
    (h : (cstep env f sl op).2.wroteConnect = some (w, w')) :
    ∃ d sl', sl.writeConnectRaw env d w = (sl', w', .ok ()) := by
  cases op with
  | connectBin d v =>
    simp only [cstep, CEvent.wroteConnect, SecureLayer.writeConnectBin] at h
    rcases hr : sl.writeConnectRaw env (d.map (sl.compress env.cr)) v with ⟨s1, w1, r⟩
    rw [hr] at h
    rcases r with _ | e | p <;> simp at h
    obtain ⟨rfl, rfl⟩ := h
    exact ⟨_, _, hr⟩
  | connectSer c d v =>
    simp only [cstep, CEvent.wroteConnect, SecureLayer.writeConnectSer] at h
    rcases hs : SecureLayer.serializeOpt env.cr c sl d with d' | e | p <;> rw [hs] at h <;> simp at h
    rcases hr : sl.writeConnectRaw env d' v with ⟨s1, w1, r⟩
    rw [hr] at h
    rcases r with _ | e | p <;> simp at h
    obtain ⟨rfl, rfl⟩ := h
    exact ⟨_, _, hr⟩
  | _ => simp [cstep, CEvent.wroteConnect] at h

theorem wroteAck_step {sl : SecureLayer} {op : COp M} {w w' : BufW}
    (h : (cstep env f sl op).2.wroteAck = some (w, w')) :
    ∃ d sl', sl.writeAckRaw env d w = (sl', w', .ok ()) := by
  cases op with
  | ackBin d v =>
    simp only [cstep, CEvent.wroteAck, SecureLayer.writeAckBin] at h
    rcases hr : sl.writeAckRaw env (d.map (sl.compress env.cr)) v with ⟨s1, w1, r⟩
    rw [hr] at h
    rcases r with _ | e | p <;> simp at h
    obtain ⟨rfl, rfl⟩ := h
    exact ⟨_, _, hr⟩
  | ackSer c d v =>
    simp only [cstep, CEvent.wroteAck, SecureLayer.writeAckSer] at h
    rcases hs : SecureLayer.serializeOpt env.cr c sl d with d' | e | p <;> rw [hs] at h <;> simp at h
    rcases hr : sl.writeAckRaw env d' v with ⟨s1, w1, r⟩
    rw [hr] at h
    rcases r with _ | e | p <;> simp at h
    obtain ⟨rfl, rfl⟩ := h
    exact ⟨_, _, hr⟩
  | _ => simp [cstep, CEvent.wroteAck] at h

/-- A signed message: `msg` and 64 bytes of signature over exactly `msg`, valid under the public key of `seed`. -/
def Spec.SignedBy (cr : Crypto) (seed msg sig : Bytes) : Prop :=
  sig.length = 64 ∧ cr.edVerify (cr.edPublic seed) msg sig = true

/-- **C39.** In every history of a layer there is one key, the public key of the configured seed, such that every CONNECT
written announces that key and every CONNECT and ACK written is followed by a 64-byte signature over exactly its bytes that
verifies under that key.  (The writers here take everything; for the others see the theorems below and C47.) -/
theorem C39_signed (law : env.cr.Lawful) {st : CStart} {h : List (CEvent M)} {sl : SecureLayer} (hr : CRun env f st h sl)
    {e : CEvent M} (he : e ∈ h) :
    (∀ w w', e.wroteConnect = some (w, w') → w.sink.script = [] → ∃ msg sig, w'.stream = w.stream ++ (msg ++ sig) ∧
      SignedBy env.cr st.sigSeed msg sig ∧ (msg.drop 54).take 32 = env.cr.edPublic st.sigSeed) ∧
    (∀ w w', e.wroteAck = some (w, w') → w.sink.script = [] → ∃ msg sig, w'.stream = w.stream ++ (msg ++ sig) ∧
      SignedBy env.cr st.sigSeed msg sig) := by
  obtain ⟨h1, h2, rfl⟩ := List.append_of_mem he
  obtain ⟨s1, s2, hr1, -, -, ⟨op, he1, -⟩ | ⟨he1, -⟩⟩ := hr.at rfl
  · subst he1
    refine ⟨fun w w' hw hs => ?_, fun w w' hw hs => ?_⟩
    · obtain ⟨d, sl', h'⟩ := wroteConnect_step hw
      refine ⟨connectFrame (env.cr.xPublic st.random) (env.cr.edPublic st.sigSeed) (d.getD []), _,
        connectRaw_stream law hr1 h' (.inl hs), ⟨law.edSign_length _ _, law.edVerify_sign st.sigSeed _⟩, ?_⟩
      rw [connectFrame_key (law.xPublic_length _)]
      exact List.take_left' (law.edPublic_length _)
    · obtain ⟨d, sl', h'⟩ := wroteAck_step hw
      obtain ⟨epk, -, h''⟩ := ackRaw_stream law hr1 h'
      exact ⟨_, _, h'' (.inl hs), law.edSign_length _ _, law.edVerify_sign st.sigSeed _⟩
  · subst he1
    simp [CEvent.wroteConnect, CEvent.wroteAck]

/-- The toy party A has written its CONNECT; later it writes its ACK. -/
example (oc : Bool) : (∃ (h : List (CEvent Unit)) (sl : SecureLayer), CRun (Toy.env oc) ⟨true, true, true⟩ Toy.cstA h sl ∧
      ∃ e ∈ h, e.wroteConnect.isSome = true) ∧
    ∃ (h : List (CEvent Unit)) (sl : SecureLayer), CRun (Toy.env oc) ⟨true, true, true⟩ Toy.cstA h sl ∧
      ∃ e ∈ h, e.wroteAck.isSome = true := by
  constructor
  · have r0 := (CRun.init (M := Unit) (env := Toy.env oc) (f := ⟨true, true, true⟩) (st := Toy.cstA)
      (sl := Toy.csA (Toy.layer0 [1] none)) rfl).call (.connectBin (some [7, 8]) Toy.sink)
    obtain ⟨w1, h1, -⟩ := writeConnectBin_good (env := Toy.env oc) (sl := Toy.csA (Toy.layer0 [1] none))
      (rem := .waitConnectMsg) rfl rfl (some [7, 8]) (w := Toy.sink) rfl
    simp only [cstep, h1] at r0
    exact ⟨_, _, r0, _, List.mem_append_right _ (List.mem_singleton_self _), rfl⟩
  · obtain ⟨h, hr⟩ := Toy.creach_a2 Unit ⟨true, true, true⟩ oc
    have r2 := hr.call (.ackBin none Toy.sink)
    obtain ⟨w2, h2, -⟩ := writeAckBin_good (env := Toy.env oc) (sl := Toy.csA Toy.a2) hr.wf rfl rfl rfl
      none (w := Toy.sink) rfl
    simp only [cstep, h2] at r2
    exact ⟨_, _, r2, ⟨_, List.mem_append_right _ (List.mem_singleton_self _), rfl⟩⟩

section
variable {st : CStart} {h : List (CEvent M)} {sl sl' : SecureLayer} {d : Option Bytes} {w w' : BufW}

/-- **C39, one CONNECT.** Through any writer whose buffer is larger than the message, a successful `write_connect_msg_bin`
adds a CONNECT that announces the ephemeral key and the key of the configured seed, with its signature. -/
theorem C39_connect (law : env.cr.Lawful) (hr : CRun env f st h sl)
    (hw : Whole w (connectWire env.cr sl.minimal.config (env.cr.xPublic st.random) st.sigSeed d))
    (h' : sl.writeConnectBin env d w = (sl', w', .ok ())) :
    ∃ sig, w'.stream = w.stream ++
        (connectFrame (env.cr.xPublic st.random) (env.cr.edPublic st.sigSeed) (packed env.cr sl.minimal.config d) ++ sig) ∧
      SignedBy env.cr st.sigSeed
        (connectFrame (env.cr.xPublic st.random) (env.cr.edPublic st.sigSeed) (packed env.cr sl.minimal.config d)) sig :=
  ⟨_, connect_stream law hr hw h', law.edSign_length _ _, law.edVerify_sign st.sigSeed _⟩

/-- **C39, one ACK.** The same for a successful `write_ack_msg_bin`: it adds an ACK whose challenge is the hash of the peer's
ephemeral key, with its signature. -/
theorem C39_ack (law : env.cr.Lawful) (hr : CRun env f st h sl)
    (hw : ∀ epk, sl.minimal.peerEpk = some epk → Whole w (ackWire env.cr sl.minimal.config epk d))
    (h' : sl.writeAckBin env d w = (sl', w', .ok ())) :
    ∃ epk sig, sl.minimal.peerEpk = some epk ∧
      w'.stream = w.stream ++ (ackFrame (env.cr.sha256 epk) (packed env.cr sl.minimal.config d) ++ sig) ∧
      SignedBy env.cr st.sigSeed (ackFrame (env.cr.sha256 epk) (packed env.cr sl.minimal.config d)) sig := by
  obtain ⟨epk, h1, -⟩ := ackRaw_stream law hr h'
  exact ⟨epk, _, h1, ack_stream law hr h1 (hw epk h1) h', law.edSign_length _ _, law.edVerify_sign st.sigSeed _⟩

end

/-- A writer that takes 7 bytes per call below a buffer of 8192 bytes: the CONNECT and the ACK of the toy parties. -/
example (oc : Bool) :
    (∃ sl' w', (Toy.csA (Toy.layer0 [1] none)).writeConnectBin (Toy.env oc) (some [7, 8])
        { Toy.sink with sink := { Toy.sink.sink with script := [.accept 7] } } = (sl', w', .ok ())) ∧
    Whole { Toy.sink with sink := { Toy.sink.sink with script := [.accept 7] } }
      (connectWire Toy.cr Config.default (Toy.xpub [1]) Toy.seedA (some [7, 8])) ∧
    (∃ sl' w', (Toy.csA Toy.a2).writeAckBin (Toy.env oc) none
        { Toy.sink with sink := { Toy.sink.sink with script := [.accept 7] } } = (sl', w', .ok ())) ∧
    Whole { Toy.sink with sink := { Toy.sink.sink with script := [.accept 7] } } (ackWire Toy.cr Config.default (Toy.xpub [2]) none) := by
  refine ⟨⟨_, _, rfl⟩, .inr (by decide +kernel), ⟨_, _, rfl⟩, .inr (by decide +kernel)⟩

/-! ## C40: clones -/

/-- An attempt to write a CONNECT or an ACK fails as it must on a clone: nothing is written and the error is
ConnectMsgAlreadyWritten, unless the serialisation of the custom data fails before. -/
def Spec.CEvent.refused : CEvent M → Prop
  | .connectBin _ w w' r => w' = w ∧ r = .err .connectMsgAlreadyWritten
  | .ackBin _ w w' r => w' = w ∧ r = .err .connectMsgAlreadyWritten
  | .connectSer _ d w w' r => w' = w ∧ (r = .err .connectMsgAlreadyWritten ∨
      d ≠ none ∧ ((∃ e, r = .err (.serdeError e)) ∨ r = .panic .notImplemented))
  | .ackSer _ d w w' r => w' = w ∧ (r = .err .connectMsgAlreadyWritten ∨
      d ≠ none ∧ ((∃ e, r = .err (.serdeError e)) ∨ r = .panic .notImplemented))
  | _ => True

theorem serialize_panic {c : Codec M} {m : M} {fmt : MessageFormat} {p : Panic} (h : serialize c m fmt = .panic p) :
    p = .notImplemented := by
  unfold serialize serializeInner at h
  cases fmt with
  | rawBinary => simp at h
  | utf8PlainText => simp at h; exact h.symm
  | utf8Json => cases hs : c.jsonSer m <;> simp [codecRes, hs] at h
  | cbor => cases hs : c.cborSer m <;> simp [codecRes, hs] at h
  | bincode => cases hs : c.binSer m <;> simp [codecRes, hs] at h

theorem serializeOpt_panic {cr : Crypto} {c : Codec M} {sl : SecureLayer} {d : Option M} {p : Panic}
    (h : SecureLayer.serializeOpt cr c sl d = .panic p) : p = .notImplemented ∧ d ≠ none := by
  cases d with
  | none => simp [SecureLayer.serializeOpt] at h
  | some m =>
    refine ⟨?_, by simp⟩
    unfold SecureLayer.serializeOpt at h
    dsimp only at h
    cases hs : serialize c m sl.minimal.config.messageFormat with
    | ok b => rw [hs] at h; simp at h
    | err e' => rw [hs] at h; simp at h
    | panic p => rw [hs] at h; simp at h; subst h; exact serialize_panic hs

theorem refused_step {sl : SecureLayer} (hn : sl.sigSeed = none) (op : COp M) : (cstep env f sl op).2.refused := by
  have hc : ∀ d w, sl.writeConnectRaw env d w = (sl, w, .err .connectMsgAlreadyWritten) := by
    intro d w; unfold SecureLayer.writeConnectRaw; rw [hn]
  have ha : ∀ d w, sl.writeAckRaw env d w = (sl, w, .err .connectMsgAlreadyWritten) := by
    intro d w; unfold SecureLayer.writeAckRaw; rw [hn]
  cases op with
  | connectBin d w => simp [cstep, CEvent.refused, SecureLayer.writeConnectBin, hc]
  | ackBin d w => simp [cstep, CEvent.refused, SecureLayer.writeAckBin, ha]
  | connectSer c d w =>
    simp only [cstep, CEvent.refused, SecureLayer.writeConnectSer]
    rcases hs : SecureLayer.serializeOpt env.cr c sl d with d' | e | p
    · simp [hc]
    · obtain ⟨x, rfl⟩ := serializeOpt_err hs
      refine ⟨rfl, .inr ⟨?_, .inl ⟨x, rfl⟩⟩⟩
      rintro rfl
      simp [SecureLayer.serializeOpt] at hs
    · obtain ⟨rfl, hd⟩ := serializeOpt_panic hs
      exact ⟨rfl, .inr ⟨hd, .inr rfl⟩⟩
  | ackSer c d w =>
    simp only [cstep, CEvent.refused, SecureLayer.writeAckSer]
    rcases hs : SecureLayer.serializeOpt env.cr c sl d with d' | e | p
    · simp [ha]
    · obtain ⟨x, rfl⟩ := serializeOpt_err hs
      refine ⟨rfl, .inr ⟨?_, .inl ⟨x, rfl⟩⟩⟩
      rintro rfl
      simp [SecureLayer.serializeOpt] at hs
    · obtain ⟨rfl, hd⟩ := serializeOpt_panic hs
      exact ⟨rfl, .inr ⟨hd, .inr rfl⟩⟩
  | _ => trivial

/-- **C40.** On a clone, on its clones and so on, every attempt to write a CONNECT or an ACK is refused, whatever happened
before. -/
theorem C40_refused {st : CStart} {h h' : List (CEvent M)} {sl c c' : SecureLayer} (hr : CRun env f st h sl)
    (hc : sl.tryClone.2 = .ok c) (hs : CSteps env f c h' c') : (∀ e ∈ h', e.refused) := by
  have r0 := hr.cloned hc
  have hn : c'.sigSeed = none ∧ ∀ e ∈ h', e.refused := by
    obtain ⟨m, -, rfl⟩ := ctryClone_ok hc
    clear hc
    induction hs with
    | refl => exact ⟨rfl, by simp⟩
    | call hst op ih =>
      obtain ⟨-, -, h3, -⟩ := cstep_lower (f := f) (r0.steps hst).wf op
      refine ⟨h3.trans ih.1, fun e he => ?_⟩
      rcases List.mem_append.mp he with he | he
      · exact ih.2 e he
      · rw [List.mem_singleton.mp he]
        exact refused_step ih.1 op
    | cloned hst hc ih =>
      obtain ⟨m, -, rfl⟩ := ctryClone_ok hc
      refine ⟨rfl, fun e he => ?_⟩
      rcases List.mem_append.mp he with he | he
      · exact ih.2 e he
      · rw [List.mem_singleton.mp he]
        trivial
  exact hn.2

/-- A negotiated layer delivers nothing but user messages. -/
theorem read_success_msg {st : Start} {s : Layer} (hw : Wf env st s) (hs : s.status = .success) {b : Bytes} {m : Message}
    (h : (s.read env b).2 = .ok (some m)) : ∃ d, m = .message d := by
  have heff := step_effect hw (.read b)
  rw [hs] at heff
  simp only [step, h] at heff
  generalize (s.read env b).1.status = b' at heff
  cases heff with
  | quiet hb h1 h2 h3 =>
    obtain ⟨d, h4, -⟩ := h3 m (by simp [Event.delivers])
    exact ⟨d, h4⟩

/-- What a negotiated layer returns depends on what the layer inside returns only. -/
theorem readBin_same {st : Start} {a b : SecureLayer} (hw : Wf env st b.minimal) (hs : b.minimal.status = .success)
    {inc : Bytes} (h : (a.minimal.read env inc).2 = (b.minimal.read env inc).2) :
    (a.readBin env inc).2 = (b.readBin env inc).2 := by
  have hm := fun m => read_success_msg (b := inc) (m := m) hw hs
  unfold SecureLayer.readBin
  rcases hb : b.minimal.read env inc with ⟨mb, r⟩
  rcases ha : a.minimal.read env inc with ⟨ma, r'⟩
  rw [hb] at h hm
  rw [ha] at h
  simp only at h hm
  subst h
  rcases r' with (_ | m) | e | p
  · rfl
  · obtain ⟨d, rfl⟩ := hm _ rfl
    dsimp only
    cases SecureLayer.uncompressOpt env.cr d <;> rfl
  · rfl
  · rfl

theorem writeBin_same {a b : SecureLayer} (h : SameTx a.minimal b.minimal)
    (hc : a.minimal.config = b.minimal.config) (d : Bytes) (w : BufW) :
    (a.writeBin env d w).2 = (b.writeBin env d w).2 := by
  unfold SecureLayer.writeBin SecureLayer.writeBinRaw SecureLayer.compress
  rw [hc]
  dsimp only
  exact (write_same h _ w).1

/-- **C40.** User messages work on a clone exactly as on the layer it was made from: writing writes the same bytes with the
same outcome, and reading a user message (anything that does not start with the magic value) returns the same. -/
theorem C40_user {st : CStart} {h : List (CEvent M)} {sl c : SecureLayer} (hr : CRun env f st h sl)
    (hc : sl.tryClone.2 = .ok c) :
    (∀ d w, (c.writeBin env d w).2 = (sl.writeBin env d w).2) ∧
    (∀ inc, inc.take 4 ≠ [0xE2, 0xC2, 0xE2, 0xD2] → (c.readBin env inc).2 = (sl.readBin env inc).2) ∧
    (∀ inc, inc.take 4 ≠ [0xE2, 0xC2, 0xE2, 0xD2] → (sl.tryClone.1.readBin env inc).2 = (sl.readBin env inc).2) := by
  have hw := hr.wf
  obtain ⟨m, hm, rfl⟩ := ctryClone_ok hc
  have h1 : sl.tryClone.1 = { sl with minimal := { sl.minimal with cloned := true } } := by
    obtain ⟨hs, rfl⟩ := tryClone_iff.mp hm
    unfold SecureLayer.tryClone Layer.tryClone
    rw [if_pos hs]
  obtain ⟨hs, he⟩ := tryClone_iff.mp hm
  rw [h1]
  have rx : SameRx m sl.minimal := by rw [he]; exact ⟨rfl, rfl, rfl, rfl, rfl⟩
  have tx : SameTx m sl.minimal := by rw [he]; exact ⟨rfl, rfl, rfl⟩
  have hcf : m.config = sl.minimal.config := by rw [he]
  have rx' : SameRx { sl.minimal with cloned := true } sl.minimal := ⟨rfl, rfl, rfl, rfl, rfl⟩
  exact ⟨fun d w => writeBin_same tx hcf d w, fun inc hi => readBin_same hw hs (read_same rx hi).1,
    fun inc hi => readBin_same hw hs (read_same rx' hi).1⟩

/-- A clone of a negotiated toy party: its CONNECT is refused, it delivers a user message. -/
example (oc : Bool) : ∃ (h : List (CEvent Unit)) (c : SecureLayer), CRun (Toy.env oc) f Toy.cstB h (Toy.csB Toy.b4) ∧
    (Toy.csB Toy.b4).tryClone.2 = .ok c ∧
    CSteps (M := Unit) (Toy.env oc) f c [.connectBin (some [1]) Toy.sink Toy.sink (.err .connectMsgAlreadyWritten)] c ∧
    (cipherOf Toy.cr Toy.key 3 [0, 5]).take 4 ≠ [0xE2, 0xC2, 0xE2, 0xD2] ∧
    (c.readBin (Toy.env oc) (cipherOf Toy.cr Toy.key 3 [0, 5])).2 = .ok [.message (some [5])] := by
  obtain ⟨h, hr⟩ := Toy.creach_b4 Unit f oc
  exact ⟨h, _, hr, rfl, CSteps.call (.refl _) (.connectBin (some [1]) Toy.sink), by decide +kernel,
    by cases oc <;> decide +kernel⟩

end Pkstl

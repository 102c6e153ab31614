import Verif.Props.Cut
import Verif.Props.Serde
import Verif.Props.EarlyAck
/- C47 and C51 for the serde API. -/
namespace Pkstl
open Spec

variable {M : Type} {env : Env} {f : Features}

theorem serializeOpt_packs {cr : Crypto} {c : Codec M} {sl : SecureLayer} {m : Option M} {e : Option Bytes}
    (h : Packs c sl.minimal.config.messageFormat m e) : sl.serializeOpt cr c m = .ok (e.map (sl.compress cr)) := by
  cases h with
  | none => rfl
  | some h =>
    unfold SecureLayer.serializeOpt
    dsimp only
    rw [C44_serialize.mpr ⟨_, h, rfl⟩]
    rfl

/-- A value that can be encoded is sent like its encoding. -/
theorem writeConnectSer_packs {c : Codec M} {sl : SecureLayer} {m : Option M} {e : Option Bytes}
    (h : Packs c sl.minimal.config.messageFormat m e) (w : BufW) :
    sl.writeConnectSer env c m w = sl.writeConnectBin env e w := by
  unfold SecureLayer.writeConnectSer
  rw [serializeOpt_packs h]
  rfl

theorem writeAckSer_packs {c : Codec M} {sl : SecureLayer} {m : Option M} {e : Option Bytes}
    (h : Packs c sl.minimal.config.messageFormat m e) (w : BufW) :
    sl.writeAckSer env c m w = sl.writeAckBin env e w := by
  unfold SecureLayer.writeAckSer
  rw [serializeOpt_packs h]
  rfl

/-- **C47, `write_connect_msg`.** If message and signature are shorter than the buffer, `Ok` means that the value was encoded
and that the stream has grown by exactly the message with the encoding and its signature. -/
theorem C47_connect_ser_partial (law : env.cr.Lawful) {c : Codec M} {sl sl' : SecureLayer} {m : Option M} {w w' : BufW}
    {seed : Bytes} (hseed : sl.sigSeed = some seed)
    (hb : ∀ e, Packs c sl.minimal.config.messageFormat m e →
      (connectWire env.cr sl.minimal.config sl.minimal.ephemeralPubkey seed e).length < w.cap) (h64 : 64 < w.cap)
    (h : sl.writeConnectSer env c m w = (sl', w', .ok ())) :
    ∃ e, Packs c sl.minimal.config.messageFormat m e ∧
      w'.stream = w.stream ++ (connectWire env.cr sl.minimal.config sl.minimal.ephemeralPubkey seed e ++
        env.cr.edSign seed (connectWire env.cr sl.minimal.config sl.minimal.ephemeralPubkey seed e)) := by
  have h0 := h
  unfold SecureLayer.writeConnectSer at h0
  cases hs : sl.serializeOpt env.cr c m with
  | err e => rw [hs] at h0; simp at h0
  | panic p => rw [hs] at h0; simp at h0
  | ok x =>
    obtain ⟨e, he, -⟩ := serializeOpt_ok hs
    rw [writeConnectSer_packs he] at h
    exact ⟨e, he, C47_connect_partial law hseed (hb e he) h64 h⟩

/-- **C47, `write_ack_msg`.** -/
theorem C47_ack_ser_partial (law : env.cr.Lawful) {c : Codec M} {st : CStart} {h : List (CEvent M)} {sl sl' : SecureLayer}
    (hr : CRun env f st h sl) {m : Option M} {w w' : BufW} {seed epk : Bytes} (hseed : sl.sigSeed = some seed)
    (hepk : sl.minimal.peerEpk = some epk)
    (hb : ∀ e, Packs c sl.minimal.config.messageFormat m e → (ackWire env.cr sl.minimal.config epk e).length < w.cap)
    (h64 : 64 < w.cap) (h' : sl.writeAckSer env c m w = (sl', w', .ok ())) :
    ∃ e, Packs c sl.minimal.config.messageFormat m e ∧
      w'.stream = w.stream ++ (ackWire env.cr sl.minimal.config epk e ++
        env.cr.edSign seed (ackWire env.cr sl.minimal.config epk e)) := by
  have h0 := h'
  unfold SecureLayer.writeAckSer at h0
  cases hs : sl.serializeOpt env.cr c m with
  | err e => rw [hs] at h0; simp at h0
  | panic p => rw [hs] at h0; simp at h0
  | ok x =>
    obtain ⟨e, he, -⟩ := serializeOpt_ok hs
    rw [writeAckSer_packs he] at h'
    exact ⟨e, he, C47_ack_partial law hr hseed hepk (hb e he) h64 h'⟩

/-- **C47, `write_connect_msg`, exactly.** On a layer that may send its CONNECT, for a value (or none) with encoding `e`. -/
theorem C47_connect_ser_cut_partial (law : env.cr.Lawful) {c : Codec M} {sl : SecureLayer} {seed : Bytes} {rem : RemoteNego}
    (hseed : sl.sigSeed = some seed) (hs : sl.minimal.status = .ongoing .created rem) {m : Option M} {e : Option Bytes}
    (he : Packs c sl.minimal.config.messageFormat m e) (cap : Nat) (r : Res Unit) (q : Bytes) :
    (∃ w sl' w', w.cap = cap ∧ sl.writeConnectSer env c m w = (sl', w', r) ∧ w'.stream = w.stream ++ q) ↔
      Cut cap (connectWire env.cr sl.minimal.config sl.minimal.ephemeralPubkey seed e)
        (env.cr.edSign seed (connectWire env.cr sl.minimal.config sl.minimal.ephemeralPubkey seed e)) r q := by
  simp only [writeConnectSer_packs he]
  exact C47_connect_cut_partial law hseed hs e cap r q

/-- **C47, `write_ack_msg`, exactly.** -/
theorem C47_ack_ser_cut_partial (law : env.cr.Lawful) {c : Codec M} {st : CStart} {h : List (CEvent M)} {sl : SecureLayer}
    (hr : CRun env f st h sl) {seed epk : Bytes} {loc : LocalNego} (hseed : sl.sigSeed = some seed)
    (hs : sl.minimal.status = .ongoing loc .validConnectMsgReceived) (hepk : sl.minimal.peerEpk = some epk) {m : Option M}
    {e : Option Bytes} (he : Packs c sl.minimal.config.messageFormat m e) (cap : Nat) (r : Res Unit) (q : Bytes) :
    (∃ w sl' w', w.cap = cap ∧ sl.writeAckSer env c m w = (sl', w', r) ∧ w'.stream = w.stream ++ q) ↔
      Cut cap (ackWire env.cr sl.minimal.config epk e)
        (env.cr.edSign seed (ackWire env.cr sl.minimal.config epk e)) r q := by
  simp only [writeAckSer_packs he]
  exact C47_ack_cut_partial law hr hseed hs hepk e cap r q

/-- A toy party configured for CBOR sends a CONNECT with the value 7 through a buffer of 65 bytes: `Ok`, and nothing but the
signature is in the stream. -/
example : ∃ w sl' w', w.cap = 65 ∧
    (Toy.cborA (Toy.layer0 [1] none)).writeConnectSer (Toy.env true) Toy.codec (some 7) w = (sl', w', .ok ()) ∧
    w'.stream.length = w.stream.length + 64 := by
  have he : Packs Toy.codec .cbor (some 7) (some (formatTag .cbor ++ [2, 7])) := .some (.cbor rfl)
  have hl : 65 ≤ (connectWire Toy.cr { Config.default with messageFormat := .cbor } (Toy.xpub [1]) Toy.seedA
    (some (formatTag .cbor ++ [2, 7]))).length := by decide +kernel
  have hsl := Toy.lawful.edSign_length Toy.seedA (connectWire Toy.cr { Config.default with messageFormat := .cbor }
    (Toy.xpub [1]) Toy.seedA (some (formatTag .cbor ++ [2, 7])))
  obtain ⟨w, sl', w', h1, h2, h3⟩ := (C47_connect_ser_cut_partial (env := Toy.env true) (rem := .waitConnectMsg)
    (sl := Toy.cborA (Toy.layer0 [1] none)) (seed := Toy.seedA) Toy.lawful rfl rfl he 65 _ _).mpr
    (Cut.ok (i := 0) (j := 64) (Nat.zero_le _) (le_of_eq hsl.symm) (fun h => absurd h (not_lt.mpr hl)) (fun _ => hsl.symm))
  refine ⟨w, sl', w', h1, h2, ?_⟩
  rw [h3, List.take_zero, List.nil_append, List.length_append, List.length_take]
  exact congrArg (w.stream.length + ·) (min_eq_left (le_of_eq hsl.symm))

section
variable {st : CStart} {h : List (CEvent M)} {b b' : SecureLayer}

/-- **C51 (partial), `read`, exactly.** A forged ACK has the same immediate effect on `read` as on `read_bin`. -/
theorem C51_effect_ser_partial (law : env.cr.Lawful) (hr : CRun env f st h b) {p sig : Bytes} (hl : 50 + p.length < 2 ^ 64)
    (hforged : ∀ k, b.minimal.peerSigPubkey = some k →
      env.cr.edVerify k (ackFrame (env.cr.sha256 (env.cr.xPublic st.random)) p) sig = false) {c : Codec M}
    {r : Res (List (SerMessage M))}
    (hrd : b.readSer env f c (ackFrame (env.cr.sha256 (env.cr.xPublic st.random)) p ++ sig) = (b', r)) :
    (∀ ms, r = .ok ms → ms = []) ∧
      (b' ≠ b ↔ b.minimal.peerSigPubkey = none ∧ (b.minimal.ackMsgRecvTooEarly = none ∨ b.minimal.status ≠ .fail)) ∧
      (b.minimal.status ≠ .fail → (b'.minimal.status = .fail ↔
        b.minimal.peerSigPubkey = none ∧ b.minimal.ackMsgRecvTooEarly ≠ none)) := by
  rcases hx : b.readBin env (ackFrame (env.cr.sha256 (env.cr.xPublic st.random)) p ++ sig) with ⟨b2, r2⟩
  obtain ⟨h1, h2, h3⟩ := C51_effect_partial law hr hl hforged hx
  have hb : b' = b2 := by
    unfold SecureLayer.readSer at hrd
    rw [hx] at hrd
    rcases r2 with ms | e | p <;> simp only [Prod.mk.injEq] at hrd <;> exact hrd.1.symm
  subst hb
  refine ⟨fun ms hms => ?_, h2, h3⟩
  subst hms
  obtain ⟨xs, h4, h5⟩ := C44_read.mp hrd
  rw [hx] at h4
  simp only [Prod.mk.injEq, true_and] at h4
  obtain rfl := h1 xs h4
  cases h5
  rfl

end

/-- A toy layer that waits for the CONNECT reads a forged ACK with `read`: `C51_effect_ser_partial` says that it changes. -/
example (oc : Bool) : ((Toy.csA Toy.a1).readSer (Toy.env oc) ⟨true, true, true⟩ Toy.codec
    (ackFrame ((Toy.env oc).cr.sha256 ((Toy.env oc).cr.xPublic Toy.cstA.random)) [9] ++ [1, 2])).1 ≠ Toy.csA Toy.a1 := by
  obtain ⟨_, hr⟩ := Toy.creach_a1 UInt8 ⟨true, true, true⟩ oc
  generalize hx : (Toy.csA Toy.a1).readSer (Toy.env oc) ⟨true, true, true⟩ Toy.codec
    (ackFrame ((Toy.env oc).cr.sha256 ((Toy.env oc).cr.xPublic Toy.cstA.random)) [9] ++ [1, 2]) = x
  exact (C51_effect_ser_partial (b' := x.1) (r := x.2) Toy.lawful hr (by decide) (fun k hk => by cases hk) hx).2.1.mpr
    ⟨rfl, .inl rfl⟩

/-- The hypotheses of `C47_connect_ser_partial`, `C47_ack_ser_partial` and `C47_ack_ser_cut_partial` hold for toy parties
that send no data. -/
example (oc : Bool) :
    (∃ sl' w', (Toy.csA (Toy.layer0 [1] none)).writeConnectSer (Toy.env oc) Toy.codec none Toy.sink = (sl', w', .ok ())) ∧
    (∃ sl' w', (Toy.csB Toy.b2).writeAckSer (Toy.env oc) Toy.codec none Toy.sink = (sl', w', .ok ())) ∧
    Toy.CReach UInt8 (Toy.env oc) ⟨true, true, true⟩ Toy.cstB (Toy.csB Toy.b2) ∧
    Toy.b2.status = .ongoing .connectMsgSent .validConnectMsgReceived ∧ Toy.b2.peerEpk = some (Toy.xpub [1]) ∧
    (connectWire Toy.cr Config.default (Toy.xpub [1]) Toy.seedA none).length < Toy.sink.cap ∧
    (ackWire Toy.cr Config.default (Toy.xpub [1]) none).length < Toy.sink.cap ∧ 64 < Toy.sink.cap ∧
    ∀ e, Packs Toy.codec Config.default.messageFormat none e → e = none :=
  ⟨⟨_, _, rfl⟩, ⟨_, _, rfl⟩, Toy.creach_b2 _ _ _, rfl, rfl, by decide +kernel, by decide +kernel, by decide,
    fun e h => by cases h; rfl⟩

end Pkstl

import Verif.Props.Writer
import Verif.Spec.Cut
/- C47: everything that can happen to a CONNECT or ACK on its way into the stream. -/
namespace Pkstl
open Spec

/-- After a slice that bypasses the buffer the buffer is empty. -/
theorem write_direct_buf {w : BufW} {d : Bytes} (hd : w.cap ≤ d.length) {n : Nat} (h : (w.write d).2 = .ok n) :
    (w.write d).1.buf = [] := by
  have key : ∀ v : BufW, v.buf = [] → w.cap = v.cap → (v.writeNoFlush d).1.buf = [] := by
    intro v hv hc
    unfold BufW.writeNoFlush
    rw [if_pos (by omega)]
    exact hv
  unfold BufW.write at h ⊢
  split
  · rename_i hc
    rw [if_pos hc] at h
    obtain ⟨-, h2, h3⟩ := flushBuf_spec w
    rcases hf : w.flushBuf with ⟨v, e | u⟩
    · rw [hf] at h; cases h
    · rw [hf] at h2 h3
      exact key v (h3 rfl) h2.symm
  · exact key w (List.length_eq_zero_iff.mp (by omega)) rfl

/-- Whatever the writer does: what gets into the stream is described by `Cut`. -/
theorem writeSigned_cut {cr : Crypto} {seed b : Bytes} {w w' : BufW} {r : Res Unit}
    (h : SecureLayer.writeSigned cr seed b w = (w', r)) :
    ∃ q, w'.stream = w.stream ++ q ∧ Cut w.cap b (cr.edSign seed b) r q := by
  unfold SecureLayer.writeSigned SecureLayer.signAndWriteSig at h
  obtain ⟨h1, h2, h2e⟩ := write_spec w b
  rcases hw : w.write b with ⟨w1, e | n⟩
  · rw [hw] at h h2e
    simp only [Prod.mk.injEq] at h
    obtain ⟨rfl, rfl⟩ := h
    exact ⟨[], by simpa using h2e e rfl, .nothing⟩
  · have hbuf := fun hd => write_direct_buf (w := w) hd (n := n) (by rw [hw])
    rw [hw] at h h1 h2 hbuf
    dsimp only at h h1 h2 hbuf
    obtain ⟨h5, h6, h7⟩ := h2 n rfl
    obtain ⟨h3, h4, h4e⟩ := write_spec w1 (cr.edSign seed b)
    rcases hw1 : w1.write (cr.edSign seed b) with ⟨w2, e | n2⟩
    · rw [hw1] at h h4e
      simp only [Prod.mk.injEq] at h
      obtain ⟨rfl, rfl⟩ := h
      refine ⟨b.take n, (h4e e rfl).trans h6, .unsigned h5 h7 ?_⟩
      by_contra hc
      simp only [not_or, not_lt, not_le] at hc
      have hnil := hbuf hc.1
      unfold BufW.write at hw1
      rw [hnil, if_neg (by simp; omega)] at hw1
      unfold BufW.writeNoFlush at hw1
      rw [if_neg (by omega)] at hw1
      simp at hw1
    · rw [hw1] at h h3 h4
      simp only [Prod.mk.injEq] at h
      obtain ⟨rfl, rfl⟩ := h
      obtain ⟨h8, h9, h10⟩ := h4 n2 rfl
      refine ⟨_, ?_, .ok h5 h8 h7 (fun hs => h10 (by omega))⟩
      dsimp only at h9
      rw [h9, h6, List.append_assoc]

/-! ### every case of `Cut` occurs -/

theorem flushLoop_nil (script : List WResp) (t : Bytes) : flushLoop script t [] = (⟨t, script⟩, [], none) := by
  unfold flushLoop; rfl

theorem write_direct {cap : Nat} {t d : Bytes} {script : List WResp} (hd : cap ≤ d.length) :
    (⟨cap, [], ⟨t, script⟩⟩ : BufW).write d =
      (⟨cap, [], ((⟨t, script⟩ : Sink).write d).1⟩, ((⟨t, script⟩ : Sink).write d).2) := by
  unfold BufW.write BufW.flushBuf
  dsimp only
  rw [flushLoop_nil]
  dsimp only
  have : (⟨cap, [], ⟨t, script⟩⟩ : BufW).writeNoFlush d =
      (⟨cap, [], ((⟨t, script⟩ : Sink).write d).1⟩, ((⟨t, script⟩ : Sink).write d).2) := by
    unfold BufW.writeNoFlush
    rw [if_pos hd]
  rw [this]
  split <;> rfl

theorem write_buffered {cap : Nat} {buf d : Bytes} {k : Sink} (h : buf.length + d.length ≤ cap) (hd : d.length < cap) :
    (⟨cap, buf, k⟩ : BufW).write d = (⟨cap, buf ++ d, k⟩, .ok d.length) := by
  unfold BufW.write BufW.writeNoFlush
  rw [if_neg (by dsimp only; omega), if_neg (by dsimp only; omega)]

theorem write_flush_fail {cap : Nat} {buf t d : Bytes} {script : List WResp} (hb : buf ≠ [])
    (h : cap < buf.length + d.length) :
    (⟨cap, buf, ⟨t, .fail :: script⟩⟩ : BufW).write d = (⟨cap, buf, ⟨t, script⟩⟩, .error .other) := by
  have hf : flushLoop (.fail :: script) t buf = (⟨t, script⟩, buf, some .other) := by
    cases buf with
    | nil => exact absurd rfl hb
    | cons x b => unfold flushLoop; rfl
  unfold BufW.write BufW.flushBuf
  rw [if_pos h]
  dsimp only
  rw [hf]

theorem write_flush_direct {cap j : Nat} {buf t d : Bytes} (hb : buf ≠ []) (hd : cap ≤ d.length) :
    (⟨cap, buf, ⟨t, [.accept buf.length, .accept j]⟩⟩ : BufW).write d =
      (⟨cap, [], ⟨t ++ buf ++ d.take j, []⟩⟩, .ok (min j d.length)) := by
  have hl : 0 < buf.length := List.length_pos_iff.mpr hb
  unfold BufW.write BufW.flushBuf
  rw [if_pos (by dsimp only; omega)]
  dsimp only
  rw [flushLoop_accept _ _ _ hb le_rfl]
  dsimp only
  unfold BufW.writeNoFlush Sink.write
  rw [if_pos hd]

/-- Every case of `Cut` occurs with some writer. -/
theorem cut_occurs {cr : Crypto} {seed b : Bytes} {cap : Nat} (hb : b ≠ []) (hs : cr.edSign seed b ≠ []) {r : Res Unit}
    {q : Bytes} (h : Cut cap b (cr.edSign seed b) r q) :
    ∃ w w', w.cap = cap ∧ SecureLayer.writeSigned cr seed b w = (w', r) ∧ w'.stream = w.stream ++ q := by
  have hbl : 0 < b.length := List.length_pos_iff.mpr hb
  have hsl : 0 < (cr.edSign seed b).length := List.length_pos_iff.mpr hs
  unfold SecureLayer.writeSigned SecureLayer.signAndWriteSig
  cases h with
  | @ok i j hi hj hm hsj =>
    by_cases h1 : b.length < cap
    · have hi' := hm h1
      subst hi'
      by_cases h2 : (cr.edSign seed b).length < cap
      · have hj' := hsj h2
        subst hj'
        obtain ⟨w', g1, g2, -⟩ := writeSigned_good cr seed b (w := ⟨cap, [], ⟨[], []⟩⟩) rfl
        refine ⟨_, w', rfl, g1, ?_⟩
        rw [g2, List.take_length, List.take_length]
      · refine ⟨⟨cap, [], ⟨[], [.accept b.length, .accept j]⟩⟩, ⟨cap, [], ⟨b ++ (cr.edSign seed b).take j, []⟩⟩, rfl, ?_, ?_⟩
        · rw [write_buffered (by simp; omega) h1]
          dsimp only
          rw [List.nil_append, write_flush_direct hb (by omega)]
          rfl
        · simp [BufW.stream]
    · by_cases h2 : (cr.edSign seed b).length < cap
      · have hj' := hsj h2
        subst hj'
        refine ⟨⟨cap, [], ⟨[], [.accept i]⟩⟩, ⟨cap, cr.edSign seed b, ⟨b.take i, []⟩⟩, rfl, ?_, ?_⟩
        · rw [write_direct (by omega)]
          dsimp only [Sink.write]
          rw [write_buffered (by simp; omega) h2]
          rfl
        · simp [BufW.stream]
      · refine ⟨⟨cap, [], ⟨[], [.accept i, .accept j]⟩⟩, ⟨cap, [], ⟨b.take i ++ (cr.edSign seed b).take j, []⟩⟩, rfl, ?_, ?_⟩
        · rw [write_direct (by omega)]
          dsimp only [Sink.write]
          rw [write_direct (by omega)]
          rfl
        · simp [BufW.stream]
  | nothing =>
    by_cases h1 : b.length < cap
    · refine ⟨⟨cap, List.replicate cap 0, ⟨[], [.fail]⟩⟩, ⟨cap, List.replicate cap 0, ⟨[], []⟩⟩, rfl, ?_, ?_⟩
      · rw [write_flush_fail (by simp; omega) (by simp; omega)]
      · simp [BufW.stream]
    · refine ⟨⟨cap, [], ⟨[], [.fail]⟩⟩, ⟨cap, [], ⟨[], []⟩⟩, rfl, ?_, ?_⟩
      · rw [write_direct (by omega)]
        rfl
      · simp [BufW.stream]
  | @unsigned i hi hm h2 =>
    by_cases h1 : b.length < cap
    · have hi' := hm h1
      subst hi'
      refine ⟨⟨cap, List.replicate (cap - b.length) 0, ⟨[], [.fail]⟩⟩, ⟨cap, List.replicate (cap - b.length) 0 ++ b, ⟨[], []⟩⟩,
        rfl, ?_, ?_⟩
      · rw [write_buffered (by simp; omega) h1]
        dsimp only
        rw [write_flush_fail (by simp [hb]) (by simp; omega)]
      · simp [BufW.stream]
    · refine ⟨⟨cap, [], ⟨[], [.accept i, .fail]⟩⟩, ⟨cap, [], ⟨b.take i, []⟩⟩, rfl, ?_, ?_⟩
      · rw [write_direct (by omega)]
        dsimp only [Sink.write]
        rw [write_direct (by omega)]
        rfl
      · simp [BufW.stream]

/-! ### the property -/

variable {env : Env}

theorem frame_ne (b : Bytes) : frame b ≠ [] := by
  simp [frame]

theorem cut_iff (law : env.cr.Lawful) (seed : Bytes) {b : Bytes} (hb : b ≠ []) (cap : Nat) (r : Res Unit) (q : Bytes) :
    (∃ w w', w.cap = cap ∧ SecureLayer.writeSigned env.cr seed b w = (w', r) ∧ w'.stream = w.stream ++ q) ↔
      Cut cap b (env.cr.edSign seed b) r q := by
  constructor
  · rintro ⟨w, w', rfl, h1, h2⟩
    obtain ⟨q', h3, h4⟩ := writeSigned_cut h1
    rw [h2, List.append_cancel_left_eq] at h3
    exact h3 ▸ h4
  · refine cut_occurs hb fun h => ?_
    have := law.edSign_length seed b
    rw [h] at this
    simp at this

/-- **C47, CONNECT, exactly.** On a layer that may send its CONNECT, `r` and `q` are an answer of `write_connect_msg_bin`
through a buffer of `cap` bytes and what the stream grows by, for some writer, if and only if `Cut` lists them. -/
theorem C47_connect_cut_partial (law : env.cr.Lawful) {sl : SecureLayer} {seed : Bytes} {rem : RemoteNego}
    (hseed : sl.sigSeed = some seed) (hs : sl.minimal.status = .ongoing .created rem) (d : Option Bytes) (cap : Nat)
    (r : Res Unit) (q : Bytes) :
    (∃ w sl' w', w.cap = cap ∧ sl.writeConnectBin env d w = (sl', w', r) ∧ w'.stream = w.stream ++ q) ↔
      Cut cap (connectWire env.cr sl.minimal.config sl.minimal.ephemeralPubkey seed d)
        (env.cr.edSign seed (connectWire env.cr sl.minimal.config sl.minimal.ephemeralPubkey seed d)) r q := by
  have key : ∀ w, ∃ sl', sl.writeConnectBin env d w = (sl', SecureLayer.writeSigned env.cr seed
      (connectWire env.cr sl.minimal.config sl.minimal.ephemeralPubkey seed d) w) := by
    intro w
    rcases writeConnectRaw_cases env sl (d.map (sl.compress env.cr)) w with ⟨h3, -⟩ | ⟨seed', h3, h4, he⟩ |
      ⟨seed', rem', h3, h4, he⟩
    · simp [hseed] at h3
    · exact absurd hs (h4 rem)
    · rw [hseed] at h3
      simp only [Option.some.injEq] at h3
      subst h3
      exact ⟨_, he⟩
  refine Iff.trans ?_ (cut_iff law seed (frame_ne _) cap r q)
  constructor
  · rintro ⟨w, sl', w', h1, h2, h3⟩
    obtain ⟨sl2, hk⟩ := key w
    exact ⟨w, w', h1, congrArg Prod.snd (hk.symm.trans h2), h3⟩
  · rintro ⟨w, w', h1, h2, h3⟩
    obtain ⟨sl2, hk⟩ := key w
    exact ⟨w, sl2, w', h1, hk.trans (congrArg (Prod.mk sl2) h2), h3⟩

/-- **C47, ACK, exactly.** -/
theorem C47_ack_cut_partial (law : env.cr.Lawful) {st : CStart} {h : List (CEvent M)} {sl : SecureLayer}
    (hr : CRun env f st h sl) {seed epk : Bytes} {loc : LocalNego} (hseed : sl.sigSeed = some seed)
    (hs : sl.minimal.status = .ongoing loc .validConnectMsgReceived) (hepk : sl.minimal.peerEpk = some epk)
    (d : Option Bytes) (cap : Nat) (r : Res Unit) (q : Bytes) :
    (∃ w sl' w', w.cap = cap ∧ sl.writeAckBin env d w = (sl', w', r) ∧ w'.stream = w.stream ++ q) ↔
      Cut cap (ackWire env.cr sl.minimal.config epk d)
        (env.cr.edSign seed (ackWire env.cr sl.minimal.config epk d)) r q := by
  have key : ∀ w, ∃ sl', sl.writeAckBin env d w = (sl', SecureLayer.writeSigned env.cr seed
      (ackWire env.cr sl.minimal.config epk d) w) := by
    intro w
    rcases writeAckRaw_cases hr.wf (d.map (sl.compress env.cr)) w with ⟨h3, -⟩ | ⟨seed', h3, h4, he⟩ |
      ⟨seed', loc', epk', h3, h4, h5, he⟩
    · simp [hseed] at h3
    · exact absurd hs (h4 loc)
    · rw [hseed] at h3
      rw [hepk] at h5
      simp only [Option.some.injEq] at h3 h5
      subst h3 h5
      exact ⟨_, he⟩
  refine Iff.trans ?_ (cut_iff law seed (frame_ne _) cap r q)
  constructor
  · rintro ⟨w, sl', w', h1, h2, h3⟩
    obtain ⟨sl2, hk⟩ := key w
    exact ⟨w, w', h1, congrArg Prod.snd (hk.symm.trans h2), h3⟩
  · rintro ⟨w, w', h1, h2, h3⟩
    obtain ⟨sl2, hk⟩ := key w
    exact ⟨w, sl2, w', h1, hk.trans (congrArg (Prod.mk sl2) h2), h3⟩

/-- A toy CONNECT that goes out without its signature: the call fails, but the peer sees the message. -/
example : ∃ w sl' w', w.cap = 8192 ∧ Toy.slA.writeConnectBin (Toy.env true) none w = (sl', w', .err .bufferFlushError) ∧
    w'.stream = w.stream ++ connectWire Toy.cr Config.default (Toy.xpub [1]) Toy.seedA none := by
  have hl : (connectWire Toy.cr Config.default (Toy.xpub [1]) Toy.seedA none).length < 8192 := by decide +kernel
  have hc := Cut.unsigned (cap := 8192) (m := connectWire Toy.cr Config.default (Toy.xpub [1]) Toy.seedA none)
    (sig := Toy.cr.edSign Toy.seedA (connectWire Toy.cr Config.default (Toy.xpub [1]) Toy.seedA none)) le_rfl (fun _ => rfl)
    (.inl hl)
  rw [List.take_length] at hc
  exact (C47_connect_cut_partial (env := Toy.env true) (rem := .waitConnectMsg) Toy.lawful rfl rfl none 8192 _ _).mpr hc

/-- The bytes of a toy CONNECT are never written in part while it is shorter than the buffer. -/
example (r : Res Unit) (q : Bytes) (hq : q.length = 5) : ¬ ∃ w sl' w', w.cap = 8192 ∧
    Toy.slA.writeConnectBin (Toy.env true) none w = (sl', w', r) ∧ w'.stream = w.stream ++ q := by
  intro h
  have hl : 5 < (connectWire Toy.cr Config.default (Toy.xpub [1]) Toy.seedA none).length ∧
    (connectWire Toy.cr Config.default (Toy.xpub [1]) Toy.seedA none).length < 8192 := by decide +kernel
  have hc := (C47_connect_cut_partial (env := Toy.env true) (rem := .waitConnectMsg) Toy.lawful rfl rfl none 8192 r q).mp h
  have e : connectWire (Toy.env true).cr Toy.slA.minimal.config Toy.slA.minimal.ephemeralPubkey Toy.seedA none =
    connectWire Toy.cr Config.default (Toy.xpub [1]) Toy.seedA none := rfl
  rw [e] at hc
  cases hc with
  | ok hi hj hm hs =>
    rw [hm hl.2] at hq
    simp at hq
    omega
  | nothing => simp at hq
  | unsigned hi hm h =>
    rw [hm hl.2] at hq
    simp at hq
    omega

/-- A toy ACK through a buffer of 16 bytes: `Ok`, and the stream has two bytes of the message and three of the signature. -/
example : ∃ w sl' w', w.cap = 16 ∧ (Toy.csB Toy.b2).writeAckBin (Toy.env true) none w = (sl', w', .ok ()) ∧
    w'.stream.length = w.stream.length + 5 := by
  obtain ⟨_, hr⟩ := Toy.creach_b2 Unit ⟨true, false, false⟩ true
  have hl : 16 ≤ (ackWire Toy.cr Config.default (Toy.xpub [1]) none).length := by decide +kernel
  have hsl : (Toy.cr.edSign Toy.seedB (ackWire Toy.cr Config.default (Toy.xpub [1]) none)).length = 64 :=
    Toy.lawful.edSign_length _ _
  obtain ⟨w, sl', w', h1, h2, h3⟩ := (C47_ack_cut_partial (env := Toy.env true) (seed := Toy.seedB) (epk := Toy.xpub [1])
    Toy.lawful hr rfl rfl rfl none 16 _ _).mpr
    (Cut.ok (cap := 16) (m := ackWire Toy.cr Config.default (Toy.xpub [1]) none)
      (sig := Toy.cr.edSign Toy.seedB (ackWire Toy.cr Config.default (Toy.xpub [1]) none)) (i := 2) (j := 3)
      (by omega) (by omega) (by omega) (by omega))
  refine ⟨w, sl', w', h1, h2, ?_⟩
  rw [h3, List.length_append, List.length_append, List.length_take, List.length_take, hsl, min_eq_left (by omega)]
  rfl

end Pkstl

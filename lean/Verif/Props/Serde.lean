import Verif.Spec.Format
import Verif.Props.Complete
/- C43, C44, C45, C50 and the serde part of C46: formats and the serde API. -/
namespace Pkstl
open Spec

variable {M : Type} {env : Env} {f : Features}

/-! ## C43: format tags -/

theorem tag_eq (fmt : MessageFormat) : fmt.tag = formatTag fmt := by cases fmt <;> decide

/-- **C43.** Different formats have different tags. -/
theorem C43_injective {fmt fmt' : MessageFormat} (h : fmt.tag = fmt'.tag) : fmt = fmt' := by
  cases fmt <;> cases fmt' <;> first | rfl | (revert h; decide)

/-- **C43.** The tag of a format is its number as 4 bytes. -/
theorem C43_tag (fmt : MessageFormat) : fmt.tag = formatTag fmt ∧ fmt.tag.length = 4 := by cases fmt <;> decide

/-- **C43.** A byte string is recognised as a format exactly if it is the tag of the format and the build knows the
format. -/
theorem C43_decode (b : Bytes) (fmt : MessageFormat) :
    MessageFormat.tryFrom f b = .ok fmt ↔ Knows? f fmt ∧ b = formatTag fmt := by
  obtain ⟨bin, cbor, json⟩ := f
  have e0 : formatTag .rawBinary = [0, 0, 0, 0] := by decide
  have e1 : formatTag .utf8PlainText = [0, 0, 0, 1] := by decide
  have e2 : formatTag .utf8Json = [0, 0, 0, 2] := by decide
  have e3 : formatTag .cbor = [0, 0, 0, 3] := by decide
  have e4 : formatTag .bincode = [0, 0, 0, 4] := by decide
  unfold MessageFormat.tryFrom
  by_cases h4 : b = [0, 0, 0, 4]
  · subst h4
    cases fmt <;> cases bin <;> simp [Knows?, e0, e1, e2, e3, e4, invalidMsg]
  by_cases h3 : b = [0, 0, 0, 3]
  · subst h3
    cases fmt <;> cases cbor <;> simp [Knows?, e0, e1, e2, e3, e4, invalidMsg]
  by_cases h0 : b = [0, 0, 0, 0]
  · subst h0
    cases fmt <;> simp [Knows?, e0, e1, e2, e3, e4]
  by_cases h2 : b = [0, 0, 0, 2]
  · subst h2
    cases fmt <;> cases json <;> simp [Knows?, e0, e1, e2, e3, e4, invalidMsg]
  by_cases h1 : b = [0, 0, 0, 1]
  · subst h1
    cases fmt <;> simp [Knows?, e0, e1, e2, e3, e4]
  cases fmt <;> simp [e0, e1, e2, e3, e4, h0, h1, h2, h3, h4, invalidMsg]

/-- **C43.** Everything else is rejected with `UnknownMessageFormat`. -/
theorem C43_reject (b : Bytes) (h : ∀ fmt, Knows? f fmt → b ≠ formatTag fmt) :
    MessageFormat.tryFrom f b = .err (.recvInvalidMsg .unknownMessageFormat) := by
  have key : (∃ fmt, MessageFormat.tryFrom f b = .ok fmt) ∨
      MessageFormat.tryFrom f b = .err (.recvInvalidMsg .unknownMessageFormat) := by
    unfold MessageFormat.tryFrom
    repeat' split
    all_goals first | exact .inl ⟨_, rfl⟩ | exact .inr rfl
  rcases key with ⟨fmt, h1⟩ | h1
  · obtain ⟨h2, h3⟩ := (C43_decode b fmt).mp h1
    exact absurd h3 (h fmt h2)
  · exact h1

/-- A build without CBOR does not know tag 3 but knows tag 4; nothing knows tag 5. -/
example : MessageFormat.tryFrom ⟨true, false, true⟩ [0, 0, 0, 4] = .ok .bincode ∧
    MessageFormat.tryFrom ⟨true, false, true⟩ [0, 0, 0, 3] = .err (.recvInvalidMsg .unknownMessageFormat) ∧
    ∀ fmt, Knows? ⟨true, true, true⟩ fmt → ([0, 0, 0, 5] : Bytes) ≠ formatTag fmt :=
  ⟨rfl, rfl, fun fmt _ => by cases fmt <;> decide⟩

/-! ## C44: values -/

theorem formatTag_length (fmt : MessageFormat) : (formatTag fmt).length = 4 := by cases fmt <;> rfl

/-- Exactly the encoded values are serialised, with the tag of the format in front. -/
theorem C44_serialize {c : Codec M} {m : M} {fmt : MessageFormat} {b : Bytes} :
    serialize c m fmt = .ok b ↔ ∃ body, Encodes c fmt m body ∧ b = formatTag fmt ++ body := by
  constructor
  · intro h
    unfold serialize serializeInner at h
    cases fmt with
    | rawBinary => simp at h
    | utf8PlainText => simp at h
    | utf8Json =>
      cases hs : c.jsonSer m <;> simp [hs, codecRes] at h
      exact ⟨_, .json hs, by rw [← h, tag_eq]⟩
    | cbor =>
      cases hs : c.cborSer m <;> simp [hs, codecRes] at h
      exact ⟨_, .cbor hs, by rw [← h, tag_eq]⟩
    | bincode =>
      cases hs : c.binSer m <;> simp [hs, codecRes] at h
      exact ⟨_, .bincode hs, by rw [← h, tag_eq]⟩
  · rintro ⟨body, h, rfl⟩
    cases h with
    | json h => simp [serialize, serializeInner, h, codecRes, tag_eq]
    | cbor h => simp [serialize, serializeInner, h, codecRes, tag_eq]
    | bincode h => simp [serialize, serializeInner, h, codecRes, tag_eq]

/-- A byte string is deserialised to a value exactly if it starts with the tag of a format the build knows and the rest is
decoded to the value by the decoder of that format.  The receiver's configuration plays no role. -/
theorem C44_deserialize {c : Codec M} {b : Bytes} {m : M} :
    deserialize f c b = .ok m ↔ ∃ fmt body, Knows? f fmt ∧ b = formatTag fmt ++ body ∧ Decodes c fmt body m := by
  constructor
  · intro h
    unfold deserialize at h
    split at h
    · simp [invalidMsg] at h
    · rename_i hl
      cases ht : MessageFormat.tryFrom f (b.take HEADER_FORMAT_LEN) with
      | err e => simp [ht] at h
      | panic p => simp [ht] at h
      | ok fmt =>
        obtain ⟨hk, hb⟩ := (C43_decode _ _).mp ht
        simp only [ht, Res.bind_ok] at h
        refine ⟨fmt, b.drop HEADER_FORMAT_LEN, hk, by rw [← hb, List.take_append_drop], ?_⟩
        unfold deserializeInner at h
        cases fmt with
        | rawBinary => simp at h
        | utf8PlainText => simp at h
        | utf8Json =>
          cases hs : c.jsonDe (b.drop HEADER_FORMAT_LEN) <;> simp [hs, codecRes] at h
          exact .json (by rw [hs, h])
        | cbor =>
          cases hs : c.cborDe (b.drop HEADER_FORMAT_LEN) <;> simp [hs, codecRes] at h
          exact .cbor (by rw [hs, h])
        | bincode =>
          cases hs : c.binDe (b.drop HEADER_FORMAT_LEN) <;> simp [hs, codecRes] at h
          exact .bincode (by rw [hs, h])
  · rintro ⟨fmt, body, hk, rfl, h⟩
    unfold deserialize
    have h4 : HEADER_FORMAT_LEN = (formatTag fmt).length := (formatTag_length fmt).symm
    rw [if_neg (by rw [h4]; simp), h4, List.take_left, List.drop_left, (C43_decode _ fmt).mpr ⟨hk, rfl⟩, Res.bind_ok]
    cases h with
    | json h => simp [deserializeInner, h, codecRes]
    | cbor h => simp [deserializeInner, h, codecRes]
    | bincode h => simp [deserializeInner, h, codecRes]

theorem decodes_of_encodes {c : Codec M} (hc : c.Lawful) {fmt : MessageFormat} {m : M} {b : Bytes}
    (h : Encodes c fmt m b) : Decodes c fmt b m := by
  cases h with
  | json h => exact .json (hc.json _ _ h)
  | cbor h => exact .cbor (hc.cbor _ _ h)
  | bincode h => exact .bincode (hc.bin _ _ h)

theorem deserializeOpt_packs {c : Codec M} (hc : c.Lawful) {fmt : MessageFormat} (hk : Knows? f fmt) {d : Option M}
    {e : Option Bytes} (h : Packs c fmt d e) : deserializeOpt f c e = .ok d := by
  cases h with
  | none => rfl
  | some h =>
    simp only [deserializeOpt, C44_deserialize.mpr ⟨fmt, _, hk, rfl, decodes_of_encodes hc h⟩, Res.bind_ok]

theorem serializeOpt_ok {cr : Crypto} {c : Codec M} {sl : SecureLayer} {d : Option M} {x : Option Bytes}
    (h : sl.serializeOpt cr c d = .ok x) :
    ∃ e, Packs c sl.minimal.config.messageFormat d e ∧ x = e.map (sl.compress cr) := by
  cases d with
  | none =>
    simp [SecureLayer.serializeOpt] at h
    exact ⟨none, .none, h.symm⟩
  | some m =>
    unfold SecureLayer.serializeOpt at h
    cases hs : serialize c m sl.minimal.config.messageFormat with
    | err e => simp [hs] at h
    | panic p => simp [hs] at h
    | ok b =>
      simp [hs] at h
      obtain ⟨body, h1, rfl⟩ := C44_serialize.mp hs
      exact ⟨_, .some h1, h.symm⟩

/-- **C46, `write`.** If `write` returns `Ok` through a buffer of more than 16 bytes, the stream has grown by exactly the
ciphertext and tag of the next message, whose payload is the tag of the configured format and the encoded value, compressed
as configured. -/
theorem C46_ok_written_ser (law : env.cr.Lawful) {s s' : SecureLayer} {c : Codec M} {m : M} {w w' : BufW}
    (hcap : 16 < w.cap) (h : s.writeSer env c m w = (s', w', .ok ())) :
    s.minimal.status = .success ∧ ∃ k body, s.minimal.secret = some k ∧ Encodes c s.minimal.config.messageFormat m body ∧
      w'.stream = w.stream ++ cipherOf env.cr k s.minimal.nextNonceSent
        (env.cr.deflate (levelFor s.minimal.config (formatTag s.minimal.config.messageFormat ++ body))
          (formatTag s.minimal.config.messageFormat ++ body)) := by
  unfold SecureLayer.writeSer at h
  cases hb : serialize c m s.minimal.config.messageFormat with
  | err e => rw [hb] at h; simp at h
  | panic p => rw [hb] at h; simp at h
  | ok b =>
    rw [hb] at h
    obtain ⟨body, h4, rfl⟩ := C44_serialize.mp hb
    obtain ⟨h1, k, h2, h3⟩ := C46_ok_written_bin (s := s) law hcap h
    exact ⟨h1, k, body, h2, h4, h3⟩

theorem deserializeOpt_iff {c : Codec M} {d : Option Bytes} {e : Option M} :
    deserializeOpt f c d = .ok e ↔ ReadsOpt f c d e := by
  cases d with
  | none =>
    simp only [deserializeOpt, Res.ok.injEq]
    exact ⟨fun h => h ▸ .none, fun h => by cases h; rfl⟩
  | some b =>
    constructor
    · intro h
      unfold deserializeOpt at h
      cases hs : deserialize f c b <;> simp [hs] at h
      subst h
      exact .some (C44_deserialize.mp hs)
    · intro h
      cases h with
      | some h => simp [deserializeOpt, C44_deserialize.mpr h]

theorem deserializeMsg_iff {c : Codec M} {x : BinMessage} {y : SerMessage M} :
    deserializeMsg f c x = .ok y ↔ ReadsMsg f c x y := by
  constructor
  · intro h
    cases x with
    | connect d k =>
      unfold deserializeMsg at h
      cases hs : deserializeOpt f c d <;> simp [hs] at h
      subst h; exact .connect (deserializeOpt_iff.mp hs)
    | ack d =>
      unfold deserializeMsg at h
      cases hs : deserializeOpt f c d <;> simp [hs] at h
      subst h; exact .ack (deserializeOpt_iff.mp hs)
    | message d =>
      unfold deserializeMsg at h
      cases hs : deserializeOpt f c d <;> simp [hs] at h
      subst h; exact .message (deserializeOpt_iff.mp hs)
  · intro h
    cases h with
    | connect h => simp [deserializeMsg, deserializeOpt_iff.mpr h]
    | ack h => simp [deserializeMsg, deserializeOpt_iff.mpr h]
    | message h => simp [deserializeMsg, deserializeOpt_iff.mpr h]

theorem deserializeMsgs_iff {c : Codec M} {xs : List BinMessage} {ys : List (SerMessage M)} :
    deserializeMsgs f c xs = .ok ys ↔ List.Forall₂ (ReadsMsg f c) xs ys := by
  induction xs generalizing ys with
  | nil =>
    simp only [deserializeMsgs, Res.ok.injEq, List.forall₂_nil_left_iff]
    exact eq_comm
  | cons x xs ih =>
    constructor
    · intro h
      unfold deserializeMsgs at h
      cases h1 : deserializeMsg f c x <;> simp [h1] at h
      cases h2 : deserializeMsgs f c xs <;> simp [h2] at h
      subst h
      exact .cons (deserializeMsg_iff.mp h1) (ih.mp h2)
    · intro h
      cases h with
      | cons h1 h2 => simp [deserializeMsgs, deserializeMsg_iff.mpr h1, ih.mpr h2]

/-- **C44, reading.** `read` returns a list of messages exactly if `read_bin` returns the list of the same messages, in the
same order, with the data of each in a format that the build knows and decodable; the layer goes through the same change. -/
theorem C44_read {c : Codec M} {sl sl' : SecureLayer} {inc : Bytes} {ys : List (SerMessage M)} :
    sl.readSer env f c inc = (sl', .ok ys) ↔
      ∃ xs, sl.readBin env inc = (sl', .ok xs) ∧ List.Forall₂ (ReadsMsg f c) xs ys := by
  unfold SecureLayer.readSer
  rcases sl.readBin env inc with ⟨s, xs | e | p⟩
  · simp only [Prod.mk.injEq, Res.ok.injEq]
    constructor
    · rintro ⟨h1, h2⟩
      exact ⟨xs, ⟨h1, rfl⟩, deserializeMsgs_iff.mp h2⟩
    · rintro ⟨xs, ⟨h1, rfl⟩, h2⟩
      exact ⟨h1, deserializeMsgs_iff.mpr h2⟩
  · simp
  · simp

section
variable {M' : Type} {f' : Features} {stA stB : CStart} {hA : List (CEvent M)} {hB : List (CEvent M')} {a a' b : SecureLayer}
  {w w' : BufW} {c : Codec M}

/-- **C44, CONNECT.** A value sent as custom data of a CONNECT in any format is delivered by `read` of every receiver whose
build knows the format. -/
theorem C44_connect (law : env.cr.Lawful) (hc : c.Lawful) (ra : CRun env f stA hA a) (rb : CRun env f' stB hB b)
    {d : Option M} (h : a.writeConnectSer env c d w = (a', w', .ok ())) :
    ∃ e, Packs c a.minimal.config.messageFormat d e ∧
      ∀ m, w'.stream = w.stream ++ m →
        Whole w (connectWire env.cr a.minimal.config (env.cr.xPublic stA.random) stA.sigSeed e) →
        86 + (packed env.cr a.minimal.config e).length < 2 ^ 64 →
        Knows? f' a.minimal.config.messageFormat →
        ∀ loc, b.minimal.status = .ongoing loc .waitConnectMsg →
        (b.minimal.peerSigPubkey = none ∨ b.minimal.peerSigPubkey = some (env.cr.edPublic stA.sigSeed)) →
        (env.cr.xAgree stB.random (env.cr.xPublic stA.random)).isSome = true → b.minimal.ackMsgRecvTooEarly = none →
        ∃ b', b.readSer env f' c m = (b', .ok [.connect d (env.cr.edPublic stA.sigSeed)]) ∧
          b'.minimal.status = .ongoing loc .validConnectMsgReceived := by
  unfold SecureLayer.writeConnectSer at h
  cases hs : a.serializeOpt env.cr c d with
  | err e => simp [hs] at h
  | panic p => simp [hs] at h
  | ok x =>
    obtain ⟨e, hp, rfl⟩ := serializeOpt_ok hs
    rw [hs] at h
    refine ⟨e, hp, ?_⟩
    intro m hm hw hlen hk loc hwait hkey hag hearly
    obtain ⟨b', h1, h2⟩ := C37_connect law ra rb h hw hm hwait hkey hlen hag hearly
    refine ⟨b', ?_, h2⟩
    unfold SecureLayer.readSer
    rw [h1]
    simp [deserializeMsgs, deserializeMsg, deserializeOpt_packs hc hk hp]

/-- **C44, ACK.** -/
theorem C44_ack (law : env.cr.Lawful) (hc : c.Lawful) (ra : CRun env f stA hA a) (rb : CRun env f' stB hB b)
    {d : Option M} (h : a.writeAckSer env c d w = (a', w', .ok ())) :
    ∃ e, Packs c a.minimal.config.messageFormat d e ∧
      ∀ m, w'.stream = w.stream ++ m →
        Whole w (ackWire env.cr a.minimal.config (env.cr.xPublic stB.random) e) →
        50 + (packed env.cr a.minimal.config e).length < 2 ^ 64 →
        Knows? f' a.minimal.config.messageFormat → a.minimal.peerEpk = some (env.cr.xPublic stB.random) →
        ∀ rem, b.minimal.status = .ongoing .connectMsgSent rem →
        b.minimal.peerSigPubkey = some (env.cr.edPublic stA.sigSeed) → b.minimal.tmpStack = [] →
        ∃ b', b.readSer env f' c m = (b', .ok [.ack d]) ∧ (rem = .ackMsgSent → b'.minimal.status = .success) ∧
          (rem ≠ .ackMsgSent → b'.minimal.status = .ongoing .validAckMsgReceived rem) := by
  unfold SecureLayer.writeAckSer at h
  cases hs : a.serializeOpt env.cr c d with
  | err e => simp [hs] at h
  | panic p => simp [hs] at h
  | ok x =>
    obtain ⟨e, hp, rfl⟩ := serializeOpt_ok hs
    rw [hs] at h
    refine ⟨e, hp, ?_⟩
    intro m hm hw hlen hk hpeer rem hdue hkey hst
    obtain ⟨b', h1, h2⟩ := C37_ack law ra rb h hw hm hpeer hdue hkey hlen hst
    refine ⟨b', ?_, h2⟩
    unfold SecureLayer.readSer
    rw [h1]
    simp [deserializeMsgs, deserializeMsg, deserializeOpt_packs hc hk hp]

/-- **C44, user messages.** -/
theorem C44_user (law : env.cr.Lawful) (hc : c.Lawful) (ra : CRun env f stA hA a) (rb : CRun env f' stB hB b)
    {d : M} (h : a.writeSer env c d w = (a', w', .ok ())) :
    ∃ e, Packs c a.minimal.config.messageFormat (some d) (some e) ∧
      ∀ m k, w'.stream = w.stream ++ m → 16 < w.cap →
        26 + (env.cr.deflate (levelFor a.minimal.config e) e).length < 2 ^ 64 →
        Knows? f' a.minimal.config.messageFormat → a.minimal.secret = some k → b.minimal.secret = some k →
        b.minimal.status = .success → (¬ ∀ i < 4, env.cr.keystream k.key k.nonce i = 0) →
        ¬ a.minimal.nextNonceSent < b.minimal.nextNonceExpected → a.minimal.nextNonceSent ∉ b.minimal.orphanNonces →
        (a.minimal.nextNonceSent = b.minimal.nextNonceExpected ∨ b.minimal.orphanNonces.card < 10000) →
        b.minimal.nextNonceExpected + b.minimal.orphanNonces.card + 1 < 2 ^ 64 →
        ∃ b', b.readSer env f' c m = (b', .ok [.message (some d)]) ∧ b'.minimal.status = .success := by
  unfold SecureLayer.writeSer at h
  cases hs : serialize c d a.minimal.config.messageFormat with
  | err e => simp [hs] at h
  | panic p => simp [hs] at h
  | ok e =>
    obtain ⟨body, hp, he⟩ := C44_serialize.mp hs
    have hp' : Packs c a.minimal.config.messageFormat (some d) (some e) := by rw [he]; exact .some hp
    rw [hs] at h
    refine ⟨e, hp', ?_⟩
    intro m k hm hcap hlen hk hka hkb hb hks hn hn' hroom hend
    obtain ⟨b', h1, h2⟩ := C37_user law ra rb h hcap hm hka hkb hb hlen hks hn hn' hroom hend
    refine ⟨b', ?_, h2⟩
    unfold SecureLayer.readSer
    rw [h1]
    simp [deserializeMsgs, deserializeMsg, deserializeOpt_packs hc hk hp']

end

/-- A codec for bytes: the external encoders put one byte in front. -/
def Toy.codec : Codec UInt8 where
  binSer m := some [1, m]
  binDe b := match b with | [1, m] => some m | _ => none
  cborSer m := some [2, m]
  cborDe b := match b with | [2, m] => some m | _ => none
  jsonSer m := if m = 0 then none else some [3, m]
  jsonDe b := match b with | [3, m] => some m | _ => none

theorem Toy.codec_lawful : Toy.codec.Lawful := by
  refine ⟨?_, ?_, ?_⟩
  · intro m b h; simp [codec] at h; subst h; rfl
  · intro m b h; simp [codec] at h; subst h; rfl
  · intro m b h
    simp only [codec] at h
    split at h
    · simp at h
    · simp at h; subst h; rfl

/-- A toy party configured for CBOR. -/
def Toy.cborA (s : Layer) : SecureLayer := (Toy.csA s).conf { Config.default with messageFormat := .cbor }

/-- A toy party configured for CBOR writes values; the receiver is configured for raw binary and its build knows no
bincode: the hypotheses of `C44_connect`, `C44_ack` and `C44_user` hold. -/
example (oc : Bool) : (Toy.csB Toy.b4).minimal.config.messageFormat = .rawBinary ∧ Knows? ⟨false, true, true⟩ .cbor ∧
    (∃ h : List (CEvent UInt8), CRun (Toy.env oc) ⟨true, true, true⟩ Toy.cstA h (Toy.cborA (Toy.layer0 [1] none)) ∧
      ∃ a' w', (Toy.cborA (Toy.layer0 [1] none)).writeConnectSer (Toy.env oc) Toy.codec (some 7) Toy.sink = (a', w', .ok ())) ∧
    (∃ h : List (CEvent UInt8), CRun (Toy.env oc) ⟨true, true, true⟩ Toy.cstA h (Toy.cborA Toy.a3) ∧
      ∃ a' w', (Toy.cborA Toy.a3).writeAckSer (Toy.env oc) Toy.codec none Toy.sink = (a', w', .ok ())) ∧
    (∃ h : List (CEvent UInt8), CRun (Toy.env oc) ⟨true, true, true⟩ Toy.cstA h (Toy.cborA Toy.a4) ∧
      ∃ a' w', (Toy.cborA Toy.a4).writeSer (Toy.env oc) Toy.codec 7 Toy.sink = (a', w', .ok ()) ∧
        w'.stream = Toy.sink.stream ++ cipherOf Toy.cr Toy.key 0 [0, 0, 0, 0, 3, 2, 7]) ∧
    ((Toy.csB Toy.b4).readSer (Toy.env oc) ⟨false, true, true⟩ Toy.codec
      (cipherOf Toy.cr Toy.key 0 [0, 0, 0, 0, 3, 2, 7])).2 = .ok [.message (some 7)] := by
  refine ⟨rfl, rfl, ?_, ?_, ?_, by cases oc <;> decide +kernel⟩
  · obtain ⟨h, hr⟩ := Toy.creach_a0 UInt8 ⟨true, true, true⟩ oc
    obtain ⟨w', h1, -⟩ := writeConnectBin_good (env := Toy.env oc) (sl := Toy.cborA (Toy.layer0 [1] none))
      (rem := .waitConnectMsg) rfl rfl (some [0, 0, 0, 3, 2, 7]) (w := Toy.sink) rfl
    exact ⟨_, hr.call (.config { Config.default with messageFormat := .cbor }), _, w', h1⟩
  · obtain ⟨h, hr⟩ := Toy.creach_a3 UInt8 ⟨true, true, true⟩ oc
    have hr' := hr.call (.config { Config.default with messageFormat := .cbor })
    obtain ⟨w', h1, -⟩ := writeAckBin_good (env := Toy.env oc) (sl := Toy.cborA Toy.a3) hr'.wf rfl rfl rfl
      none (w := Toy.sink) rfl
    exact ⟨_, hr', _, w', h1⟩
  · obtain ⟨h, hr⟩ := Toy.creach_a4 UInt8 ⟨true, true, true⟩ oc
    obtain ⟨w', h1, h2, -⟩ := writeBin_good (env := Toy.env oc) (sl := Toy.cborA Toy.a4) Toy.lawful rfl rfl [0, 0, 0, 3, 2, 7]
      (w := Toy.sink) rfl (by decide) (by decide)
    exact ⟨_, hr.call (.config { Config.default with messageFormat := .cbor }), _, w', h1,
      h2.trans (by cases oc <;> decide +kernel)⟩

/-! ## C45: what the serde API does not support -/

section
variable {sl sl' : SecureLayer} {c : Codec M} {w : BufW}

/-- **C45.** With format `RawBinary` nothing is written and nothing happens; the error is `UseSuffixedBinFunctions`. -/
theorem C45_raw (hf : sl.minimal.config.messageFormat = .rawBinary) (m : M) :
    sl.writeConnectSer env c (some m) w = (sl, w, .err (.serdeError .useSuffixedBinFunctions)) ∧
    sl.writeAckSer env c (some m) w = (sl, w, .err (.serdeError .useSuffixedBinFunctions)) ∧
    sl.writeSer env c m w = (sl, w, .err (.serdeError .useSuffixedBinFunctions)) := by
  simp [SecureLayer.writeConnectSer, SecureLayer.writeAckSer, SecureLayer.writeSer, SecureLayer.serializeOpt, serialize,
    serializeInner, hf]

/-- **C45.** With format `Utf8PlainText` the call panics before anything is written. -/
theorem C45_text (hf : sl.minimal.config.messageFormat = .utf8PlainText) (m : M) :
    sl.writeConnectSer env c (some m) w = (sl, w, .panic .notImplemented) ∧
    sl.writeAckSer env c (some m) w = (sl, w, .panic .notImplemented) ∧
    sl.writeSer env c m w = (sl, w, .panic .notImplemented) := by
  simp [SecureLayer.writeConnectSer, SecureLayer.writeAckSer, SecureLayer.writeSer, SecureLayer.serializeOpt, serialize,
    serializeInner, hf]

/-- **C45.** Without custom data the format plays no role: CONNECT and ACK are those of the `_bin` functions. -/
theorem C45_none : sl.writeConnectSer env c none w = sl.writeConnectBin env none w ∧
    sl.writeAckSer env c none w = sl.writeAckBin env none w := ⟨rfl, rfl⟩

theorem deserializeMsgs_split {ms1 ms2 : List BinMessage} {x : BinMessage} {ys : List (SerMessage M)}
    (h1 : deserializeMsgs f c ms1 = .ok ys) {d : Bytes} (hd : Spec.BinMessage.data x = some d) :
    (∀ e, deserialize f c d = .err e → deserializeMsgs f c (ms1 ++ x :: ms2) = .err e) ∧
    (∀ p, deserialize f c d = .panic p → deserializeMsgs f c (ms1 ++ x :: ms2) = .panic p) := by
  induction ms1 generalizing ys with
  | nil =>
    cases x <;> simp only [Spec.BinMessage.data] at hd <;> subst hd <;>
      refine ⟨fun e he => ?_, fun p hp => ?_⟩ <;>
      simp [deserializeMsgs, deserializeMsg, deserializeOpt, *]
  | cons y ms ih =>
    unfold deserializeMsgs at h1
    cases hy : deserializeMsg f c y with
    | err e => simp [hy] at h1
    | panic p => simp [hy] at h1
    | ok z =>
      cases hs : deserializeMsgs f c ms with
      | err e => simp [hy, hs] at h1
      | panic p => simp [hy, hs] at h1
      | ok zs =>
        obtain ⟨i1, i2⟩ := ih hs
        refine ⟨fun e he => ?_, fun p hp => ?_⟩
        · simp [deserializeMsgs, hy, i1 e he]
        · simp [deserializeMsgs, hy, i2 p hp]

/-- **C45.** `read` gives up at the first message whose data it cannot deserialise: too short, unknown format, raw binary,
plain text (a panic), or not accepted by the decoder of its format.  The layer is then in the state in which all messages have been delivered, so all of them are
lost. -/
theorem C45_read {inc d : Bytes} {ms1 ms2 : List BinMessage} {x : BinMessage}
    (hr : sl.readBin env inc = (sl', .ok (ms1 ++ x :: ms2)))
    (hm : ∀ y ∈ ms1, ∀ d', Spec.BinMessage.data y = some d' → ∃ m, Reads f c d' m) (hd : Spec.BinMessage.data x = some d) :
    (d.length < 4 → sl.readSer env f c inc = (sl', .err (.recvInvalidMsg .messageTooShort))) ∧
    (4 ≤ d.length → (∀ fmt, Knows? f fmt → d.take 4 ≠ formatTag fmt) →
      sl.readSer env f c inc = (sl', .err (.recvInvalidMsg .unknownMessageFormat))) ∧
    (d.take 4 = [0, 0, 0, 0] → sl.readSer env f c inc = (sl', .err (.serdeError .useSuffixedBinFunctions))) ∧
    (d.take 4 = [0, 0, 0, 1] → sl.readSer env f c inc = (sl', .panic .notImplemented)) ∧
    (f.json = true → d.take 4 = [0, 0, 0, 2] → c.jsonDe (d.drop 4) = none →
      sl.readSer env f c inc = (sl', .err (.serdeError .jsonError))) ∧
    (f.cbor = true → d.take 4 = [0, 0, 0, 3] → c.cborDe (d.drop 4) = none →
      sl.readSer env f c inc = (sl', .err (.serdeError .cborError))) ∧
    (f.bin = true → d.take 4 = [0, 0, 0, 4] → c.binDe (d.drop 4) = none →
      sl.readSer env f c inc = (sl', .err (.serdeError .bincodeError))) := by
  obtain ⟨ys, h1⟩ : ∃ ys, deserializeMsgs f c ms1 = .ok ys := by
    clear hr
    induction ms1 with
    | nil => exact ⟨[], rfl⟩
    | cons y ms ih =>
      obtain ⟨ys, h2⟩ := ih fun z hz => hm z (by simp [hz])
      have hy := hm y (by simp)
      obtain ⟨z, hz⟩ : ∃ z, ReadsMsg f c y z := by
        have ho : ∀ d : Option Bytes, Spec.BinMessage.data y = d → ∃ e, ReadsOpt f c d e := by
          intro d hd
          cases d with
          | none => exact ⟨none, .none⟩
          | some d =>
            obtain ⟨m, hm⟩ := hy d hd
            exact ⟨some m, .some hm⟩
        cases y with
        | connect d k => exact (ho d rfl).imp' (fun e => .connect e k) fun _ h => .connect h
        | ack d => exact (ho d rfl).imp' _ fun _ h => .ack h
        | message d => exact (ho d rfl).imp' _ fun _ h => .message h
      exact ⟨z :: ys, by simp [deserializeMsgs, deserializeMsg_iff.mpr hz, h2]⟩
  have he : sl.readSer env f c inc = (sl', deserializeMsgs f c (ms1 ++ x :: ms2)) := by
    unfold SecureLayer.readSer; rw [hr]
  obtain ⟨i1, i2⟩ := deserializeMsgs_split (ms2 := ms2) h1 hd
  have hlen : ∀ t : Bytes, d.take 4 = t → t.length = 4 → ¬ d.length < 4 := by
    intro t ht hl
    rw [← ht, List.length_take] at hl
    omega
  refine ⟨fun h => ?_, fun h h' => ?_, fun h => ?_, fun h => ?_, fun hk h h' => ?_, fun hk h h' => ?_, fun hk h h' => ?_⟩ <;>
    rw [he]
  · rw [i1]
    unfold deserialize
    rw [show HEADER_FORMAT_LEN = 4 from rfl, if_pos h]
  · rw [i1]
    unfold deserialize
    rw [if_neg (by simpa [HEADER_FORMAT_LEN] using h), show HEADER_FORMAT_LEN = 4 from rfl, C43_reject _ h', Res.bind_err]
  · rw [i1]
    unfold deserialize
    rw [show HEADER_FORMAT_LEN = 4 from rfl, if_neg (hlen _ h rfl), h,
      (C43_decode _ .rawBinary).mpr ⟨trivial, by decide⟩, Res.bind_ok]
    rfl
  · rw [i2]
    unfold deserialize
    rw [show HEADER_FORMAT_LEN = 4 from rfl, if_neg (hlen _ h rfl), h,
      (C43_decode _ .utf8PlainText).mpr ⟨trivial, by decide⟩, Res.bind_ok]
    rfl
  · rw [i1]
    unfold deserialize
    rw [show HEADER_FORMAT_LEN = 4 from rfl, if_neg (hlen _ h rfl), h,
      (C43_decode _ .utf8Json).mpr ⟨hk, by decide⟩, Res.bind_ok, deserializeInner, h']
    rfl
  · rw [i1]
    unfold deserialize
    rw [show HEADER_FORMAT_LEN = 4 from rfl, if_neg (hlen _ h rfl), h,
      (C43_decode _ .cbor).mpr ⟨hk, by decide⟩, Res.bind_ok, deserializeInner, h']
    rfl
  · rw [i1]
    unfold deserialize
    rw [show HEADER_FORMAT_LEN = 4 from rfl, if_neg (hlen _ h rfl), h,
      (C43_decode _ .bincode).mpr ⟨hk, by decide⟩, Res.bind_ok, deserializeInner, h']
    rfl

end

/-- A negotiated toy party: its default format is raw binary; messages that `read` cannot handle. -/
example (oc : Bool) : (Toy.csB Toy.b4).minimal.config.messageFormat = .rawBinary ∧
    ((Toy.csB Toy.b4).readBin (Toy.env oc) (cipherOf Toy.cr Toy.key 0 [0, 9])).2 = .ok [.message (some [9])] ∧
    ((Toy.csB Toy.b4).readBin (Toy.env oc) (cipherOf Toy.cr Toy.key 0 [0, 0, 0, 0, 3, 2, 7])).2 =
      .ok [.message (some [0, 0, 0, 3, 2, 7])] ∧
    (∀ fmt, Knows? ⟨true, false, true⟩ fmt → ([0, 0, 0, 3, 2, 7] : Bytes).take 4 ≠ formatTag fmt) ∧
    ((Toy.csB Toy.b4).readSer (Toy.env oc) ⟨true, true, true⟩ Toy.codec (cipherOf Toy.cr Toy.key 0 [0, 0, 0, 0, 1, 7])).2 =
      .panic .notImplemented := by
  refine ⟨rfl, by cases oc <;> decide +kernel, by cases oc <;> decide +kernel, ?_, by cases oc <;> decide +kernel⟩
  intro fmt hk
  cases fmt <;> first | decide | simp [Knows?] at hk

/-- `C46_ok_written_ser`, `C44_read` and `C45_read` applied: a toy party writes the value 7 as CBOR; its peer reads it, or
refuses it if its decoder does not know the value. -/
example (oc : Bool) :
    (∃ a' w', (Toy.cborA Toy.a4).writeSer (Toy.env oc) Toy.codec 7 Toy.sink = (a', w', .ok ()) ∧
      ∃ k body, Encodes Toy.codec .cbor 7 body ∧ w'.stream = Toy.sink.stream ++ cipherOf Toy.cr k 0
        (Toy.cr.deflate (levelFor { Config.default with messageFormat := .cbor } ([0, 0, 0, 3] ++ body)) ([0, 0, 0, 3] ++ body))) ∧
    (∃ b' xs, (Toy.csB Toy.b4).readBin (Toy.env oc) (cipherOf Toy.cr Toy.key 0 [0, 0, 0, 0, 3, 2, 7]) = (b', .ok xs) ∧
      List.Forall₂ (ReadsMsg ⟨false, true, true⟩ Toy.codec) xs [.message (some 7)]) ∧
    ((Toy.csB Toy.b4).readSer (Toy.env oc) ⟨false, true, true⟩ { Toy.codec with cborDe := fun _ => none }
      (cipherOf Toy.cr Toy.key 0 [0, 0, 0, 0, 3, 2, 7])).2 = .err (.serdeError .cborError) := by
  refine ⟨?_, ?_, ?_⟩
  · obtain ⟨w', h1, -⟩ := writeBin_good (env := Toy.env oc) (sl := Toy.cborA Toy.a4) Toy.lawful rfl rfl [0, 0, 0, 3, 2, 7]
      (w := Toy.sink) rfl (by decide) (by decide)
    have h1' : (Toy.cborA Toy.a4).writeSer (Toy.env oc) Toy.codec 7 Toy.sink = (_, w', .ok ()) := h1
    obtain ⟨-, k, body, -, h3, h4⟩ := C46_ok_written_ser (env := Toy.env oc) Toy.lawful (by decide) h1'
    exact ⟨_, w', h1', k, body, h3, h4⟩
  · have h : ((Toy.csB Toy.b4).readSer (Toy.env oc) ⟨false, true, true⟩ Toy.codec
        (cipherOf Toy.cr Toy.key 0 [0, 0, 0, 0, 3, 2, 7])).2 = .ok [.message (some 7)] := by cases oc <;> decide +kernel
    obtain ⟨xs, h1, h2⟩ := C44_read.mp (Prod.ext rfl h)
    exact ⟨_, xs, h1, h2⟩
  · have h : ((Toy.csB Toy.b4).readBin (Toy.env oc) (cipherOf Toy.cr Toy.key 0 [0, 0, 0, 0, 3, 2, 7])).2 =
        .ok ([] ++ .message (some [0, 0, 0, 3, 2, 7]) :: []) := by cases oc <;> decide +kernel
    have g := C45_read (f := ⟨false, true, true⟩) (c := { Toy.codec with cborDe := fun _ => none }) (Prod.ext rfl h)
      (by simp) (d := [0, 0, 0, 3, 2, 7]) rfl
    rw [g.2.2.2.2.2.1 rfl rfl rfl]

/-! ## C50: calls that fail before they do anything -/

/-- **C50, minimal mode.** `change_config`, `try_clone`, `create_connect_message` and `create_ack_message` leave the layer
exactly as it was when they fail. -/
theorem C50_minimal (s : Layer) :
    (∀ c e, (s.changeConfig c).2 = .err e → (s.changeConfig c).1 = s) ∧
    (∀ e, s.tryClone.2 = .err e → s.tryClone.1 = s) ∧
    (∀ pk d e, (s.createConnect env pk d).2 = .err e → (s.createConnect env pk d).1 = s) ∧
    (∀ d e, (s.createAck env d).2 = .err e → (s.createAck env d).1 = s) := by
  refine ⟨?_, ?_, ?_, ?_⟩
  · intro c e h
    unfold Layer.changeConfig at h ⊢
    split at h <;> simp_all
  · intro e h
    unfold Layer.tryClone at h ⊢
    split at h <;> simp_all
  · intro pk d e h
    rcases createConnect_cases env s pk d with ⟨rem, -, he⟩ | ⟨-, he⟩ <;> rw [he] at h ⊢
    simp at h
  · intro d e h
    rcases createAck_cases env s d with ⟨loc, -, he⟩ | ⟨-, he⟩ <;> rw [he] at h ⊢
    cases hp : s.peerEpk <;> simp [hp] at h

/-- **C50, `write_message`.** A failed layer refuses to write and stays as it is; a layer whose negotiation is not complete
writes nothing either, but is failed by the attempt. -/
theorem C50_write (s : Layer) (d : Bytes) (w : BufW) :
    (s.status = .fail → s.writeMessage env d w = (s, w, .err .connectionHadFail)) ∧
    ((∃ loc rem, s.status = .ongoing loc rem) →
      s.writeMessage env d w = ({ s with status := .fail }, w, .err .negoMustHaveBeenSuccessful)) := by
  rcases writeMessage_cases env s d w with ⟨h, he⟩ | ⟨_, _, h, he⟩ | ⟨h, -⟩ | ⟨h, -⟩ <;> simp [h] <;> exact he

theorem writeBinRaw_serde {sl : SecureLayer} {d : Bytes} {w : BufW} {x : SerdeError} :
    (sl.writeBinRaw env d w).2.2 ≠ .err (.serdeError x) := by
  intro h
  unfold SecureLayer.writeBinRaw at h
  rcases writeMessage_cases env sl.minimal d w with ⟨-, he⟩ | ⟨_, _, -, he⟩ | ⟨-, -, he⟩ |
    ⟨-, k, -, ⟨w', e, hen, he⟩ | ⟨w', -, ⟨n, -, he⟩ | ⟨-, he⟩⟩⟩ <;> rw [he] at h <;> simp at h
  subst h
  unfold encrypt at hen
  dsimp only at hen
  split at hen
  · simp at hen
  · split at hen <;> simp at hen

section
variable {st : CStart} {h : List (CEvent M)} {sl : SecureLayer} {c : Codec M}

/-- **C50, complete mode.** When writing a CONNECT or an ACK fails for any other reason than the writer, the layer is
exactly as it was and nothing was written; the same holds if a user value cannot be serialised. -/
theorem C50_complete (hr : CRun env f st h sl) (w : BufW) {e : Error} (hne : e ≠ .bufferFlushError) :
    (∀ d, (sl.writeConnectBin env d w).2.2 = .err e → sl.writeConnectBin env d w = (sl, w, .err e)) ∧
    (∀ d, (sl.writeAckBin env d w).2.2 = .err e → sl.writeAckBin env d w = (sl, w, .err e)) ∧
    (∀ d, (sl.writeConnectSer env c d w).2.2 = .err e → sl.writeConnectSer env c d w = (sl, w, .err e)) ∧
    (∀ d, (sl.writeAckSer env c d w).2.2 = .err e → sl.writeAckSer env c d w = (sl, w, .err e)) ∧
    (∀ m x, (sl.writeSer env c m w).2.2 = .err (.serdeError x) → sl.writeSer env c m w = (sl, w, .err (.serdeError x))) ∧
    (∀ x e, (sl.changeConfig x).2 = .err e → (sl.changeConfig x).1 = sl) ∧
    (∀ e, sl.tryClone.2 = .err e → sl.tryClone.1 = sl) := by
  have signed : ∀ seed b, (SecureLayer.writeSigned env.cr seed b w).2 ≠ .err e := by
    intro seed b h
    unfold SecureLayer.writeSigned SecureLayer.signAndWriteSig at h
    split at h
    · simp at h; exact hne h.symm
    · split at h <;> simp at h
      exact hne h.symm
  have con : ∀ d, (sl.writeConnectRaw env d w).2.2 = .err e → sl.writeConnectRaw env d w = (sl, w, .err e) := by
    intro d h
    rcases writeConnectRaw_cases env sl d w with ⟨-, he⟩ | ⟨seed, -, -, he⟩ | ⟨seed, rem, hs, h1, he⟩ <;> rw [he] at h ⊢
    · simp only at h; rw [h]
    · simp only at h; rw [h]
    · exact absurd h (signed _ _)
  have ack : ∀ d, (sl.writeAckRaw env d w).2.2 = .err e → sl.writeAckRaw env d w = (sl, w, .err e) := by
    intro d h
    rcases writeAckRaw_cases hr.wf d w with ⟨-, he⟩ | ⟨seed, -, -, he⟩ | ⟨seed, loc, epk, hs, h1, hp, he⟩ <;> rw [he] at h ⊢
    · simp only at h; rw [h]
    · simp only at h; rw [h]
    · exact absurd h (signed _ _)
  refine ⟨fun d => con _, fun d => ack _, ?_, ?_, ?_, ?_, ?_⟩
  · intro d h
    unfold SecureLayer.writeConnectSer at h ⊢
    cases hs : sl.serializeOpt env.cr c d with
    | ok x => simp only [hs] at h ⊢; exact con _ h
    | err x => simp only [hs] at h ⊢; rw [h]
    | panic p => simp [hs] at h
  · intro d h
    unfold SecureLayer.writeAckSer at h ⊢
    cases hs : sl.serializeOpt env.cr c d with
    | ok x => simp only [hs] at h ⊢; exact ack _ h
    | err x => simp only [hs] at h ⊢; rw [h]
    | panic p => simp [hs] at h
  · intro m x h
    unfold SecureLayer.writeSer at h ⊢
    cases hs : serialize c m sl.minimal.config.messageFormat with
    | ok b =>
      exfalso
      rw [hs] at h
      exact writeBinRaw_serde h
    | err y => simp only [hs] at h ⊢; rw [h]
    | panic p => simp [hs] at h
  · intro x e h
    have := (C50_minimal (env := env) sl.minimal).1 x e
    unfold SecureLayer.changeConfig at h ⊢
    simp only at h ⊢
    rw [this h]
  · intro e h
    have := (C50_minimal (env := env) sl.minimal).2.1 e
    unfold SecureLayer.tryClone at h ⊢
    rcases hc : sl.minimal.tryClone with ⟨m, x | x | x⟩ <;> rw [hc] at h this <;> simp at h
    have h2 : m = sl.minimal := this (by simpa using h)
    rw [h2]

end

/-- A negotiated toy party refuses to write another CONNECT; a fresh one refuses to write an ACK and to be cloned, and is
failed by the attempt to write. -/
example (oc : Bool) : ((Toy.csA Toy.a4).writeConnectBin (Toy.env oc) none Toy.sink).2.2 = .err .connectMsgAlreadyWritten ∧
    ((Toy.csA (Toy.layer0 [1] none)).writeAckBin (Toy.env oc) none Toy.sink).2.2 = .err .forbidWriteAckMsgNow ∧
    (Toy.layer0 [1] none).tryClone.2 = .err .negoMustHaveBeenSuccessful ∧
    ((Toy.layer0 [1] none).writeMessage (Toy.env oc) [1] Toy.sink).1.status = .fail := ⟨rfl, rfl, rfl, rfl⟩

end Pkstl

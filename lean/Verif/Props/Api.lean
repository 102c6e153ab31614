import Verif.Props.CompleteHistory
import Verif.Props.Clone
import Verif.Props.InForce
import Verif.Props.Serde
import Verif.Props.Window
import Verif.Spec.Api
/-
C68: the binary and the serde API are two views of one session.  Whatever is called, the state of the layer and the bytes on
the wire are those of a history of the binary API alone.
-/
namespace Pkstl
open Spec

variable {M : Type} {env : Env} {f : Features} {st : CStart} {h : List (CEvent M)} {sl : SecureLayer} {c : Codec M} {w : BufW}

/-! ## Values that cannot be read or written -/

theorem tag_split {d : Bytes} {fmt : MessageFormat} (h : d.take 4 = formatTag fmt) : d = formatTag fmt ++ d.drop 4 := by
  rw [← h, List.take_append_drop]

theorem unreadable_total {α : Type} (f : Features) (c : Codec M) (d : Bytes) :
    (∃ m, Reads f c d m) ∨ ∃ r : Res α, Unreadable f c d r := by
  by_cases hl : d.length < 4
  · exact .inr ⟨_, .short hl⟩
  by_cases hk : ∀ fmt, Knows? f fmt → d.take 4 ≠ formatTag fmt
  · exact .inr ⟨_, .unknown (by omega) hk⟩
  push Not at hk
  obtain ⟨fmt, h1, h2⟩ := hk
  have h3 := tag_split h2
  generalize d.drop 4 = b at h3
  subst h3
  cases fmt with
  | rawBinary => exact .inr ⟨_, .raw⟩
  | utf8PlainText => exact .inr ⟨_, .text⟩
  | utf8Json =>
    cases hd : c.jsonDe b with
    | none => exact .inr ⟨_, .json h1 hd⟩
    | some m => exact .inl ⟨m, _, b, h1, rfl, .json hd⟩
  | cbor =>
    cases hd : c.cborDe b with
    | none => exact .inr ⟨_, .cbor h1 hd⟩
    | some m => exact .inl ⟨m, _, b, h1, rfl, .cbor hd⟩
  | bincode =>
    cases hd : c.binDe b with
    | none => exact .inr ⟨_, .bincode h1 hd⟩
    | some m => exact .inl ⟨m, _, b, h1, rfl, .bincode hd⟩

theorem deserialize_tag {fmt : MessageFormat} (hk : Knows? f fmt) (b : Bytes) :
    deserialize f c (formatTag fmt ++ b) = deserializeInner c b fmt := by
  unfold deserialize
  have h4 : HEADER_FORMAT_LEN = (formatTag fmt).length := (formatTag_length fmt).symm
  rw [if_neg (by rw [h4]; simp), h4, List.take_left, List.drop_left, (C43_decode _ fmt).mpr ⟨hk, rfl⟩, Res.bind_ok]

theorem deserialize_unreadable {α : Type} {d : Bytes} {r : Res α} (h : Unreadable f c d r) :
    (∃ e, r = .err e ∧ deserialize f c d = .err e) ∨ ∃ p, r = .panic p ∧ deserialize f c d = .panic p := by
  cases h with
  | short h => exact .inl ⟨_, rfl, by unfold deserialize; rw [show HEADER_FORMAT_LEN = 4 from rfl, if_pos h]⟩
  | unknown h hk =>
    refine .inl ⟨_, rfl, ?_⟩
    unfold deserialize
    rw [if_neg (by simpa [HEADER_FORMAT_LEN] using h), show HEADER_FORMAT_LEN = 4 from rfl, C43_reject _ hk, Res.bind_err]
  | raw => exact .inl ⟨_, rfl, by rw [deserialize_tag (fmt := .rawBinary) trivial]; rfl⟩
  | text => exact .inr ⟨_, rfl, by rw [deserialize_tag (fmt := .utf8PlainText) trivial]; rfl⟩
  | json hk h => exact .inl ⟨_, rfl, by rw [deserialize_tag (fmt := .utf8Json) hk]; simp [deserializeInner, h, codecRes]⟩
  | cbor hk h => exact .inl ⟨_, rfl, by rw [deserialize_tag (fmt := .cbor) hk]; simp [deserializeInner, h, codecRes]⟩
  | bincode hk h => exact .inl ⟨_, rfl, by rw [deserialize_tag (fmt := .bincode) hk]; simp [deserializeInner, h, codecRes]⟩

theorem views_total (f : Features) (c : Codec M) (xs : List BinMessage) :
    (∃ ys, List.Forall₂ (ReadsMsg f c) xs ys) ∨
    ∃ xs1 ys x xs2 d, ∃ r : Res (List (SerMessage M)), xs = xs1 ++ x :: xs2 ∧ List.Forall₂ (ReadsMsg f c) xs1 ys ∧
      Spec.BinMessage.data x = some d ∧ Unreadable f c d r := by
  induction xs with
  | nil => exact .inl ⟨[], .nil⟩
  | cons x xs ih =>
    have hx : (∃ y, ReadsMsg f c x y) ∨
        ∃ d, ∃ r : Res (List (SerMessage M)), Spec.BinMessage.data x = some d ∧ Unreadable f c d r := by
      have ho : ∀ d : Option Bytes, (∃ e, ReadsOpt f c d e) ∨
          ∃ b, ∃ r : Res (List (SerMessage M)), d = some b ∧ Unreadable f c b r := by
        intro d
        cases d with
        | none => exact .inl ⟨none, .none⟩
        | some d =>
          rcases unreadable_total (α := List (SerMessage M)) f c d with ⟨m, h⟩ | ⟨r, h⟩
          · exact .inl ⟨some m, .some h⟩
          · exact .inr ⟨d, r, rfl, h⟩
      cases x with
      | connect d k => exact (ho d).imp (fun ⟨e, h⟩ => ⟨_, .connect h⟩) id
      | ack d => exact (ho d).imp (fun ⟨e, h⟩ => ⟨_, .ack h⟩) id
      | message d => exact (ho d).imp (fun ⟨e, h⟩ => ⟨_, .message h⟩) id
    rcases hx with ⟨y, hy⟩ | ⟨d, r, hd, hr⟩
    · rcases ih with ⟨ys, h⟩ | ⟨xs1, ys, x', xs2, d, r, rfl, h1, h2, h3⟩
      · exact .inl ⟨y :: ys, .cons hy h⟩
      · exact .inr ⟨x :: xs1, y :: ys, x', xs2, d, r, rfl, .cons hy h1, h2, h3⟩
    · exact .inr ⟨[], [], x, xs, d, r, rfl, .nil, hd, hr⟩

theorem views_ok_iff {xs : List BinMessage} {r : Res (List (SerMessage M))} :
    Views f c (.ok xs) r ↔ deserializeMsgs f c xs = r := by
  have fwd : ∀ {r}, Views f c (.ok xs) r → deserializeMsgs f c xs = r := by
    intro r hv
    cases hv with
    | ok h => exact deserializeMsgs_iff.mpr h
    | lost h hd hr =>
      obtain ⟨i1, i2⟩ := deserializeMsgs_split (ms2 := ‹_›) (deserializeMsgs_iff.mpr h) hd
      rcases deserialize_unreadable hr with ⟨e, rfl, h1⟩ | ⟨p, rfl, h1⟩
      · exact i1 e h1
      · exact i2 p h1
  refine ⟨fwd, ?_⟩
  rintro rfl
  rcases views_total f c xs with ⟨ys, h⟩ | ⟨xs1, ys, x, xs2, d, r, rfl, h1, h2, h3⟩
  · rw [deserializeMsgs_iff.mpr h]; exact .ok h
  · have := Views.lost (xs' := xs2) h1 h2 h3
    rw [fwd this]; exact this

theorem serialize_total (α : Type) (c : Codec M) (fmt : MessageFormat) (m : M) :
    (∃ b, Encodes c fmt m b ∧ serialize c m fmt = .ok (formatTag fmt ++ b)) ∨
    ∃ r : Res α, Unencodable c fmt m r ∧
      ((∃ e, r = .err e ∧ serialize c m fmt = .err e) ∨ ∃ p, r = .panic p ∧ serialize c m fmt = .panic p) := by
  cases fmt with
  | rawBinary => exact .inr ⟨_, .raw, .inl ⟨_, rfl, rfl⟩⟩
  | utf8PlainText => exact .inr ⟨_, .text, .inr ⟨_, rfl, rfl⟩⟩
  | utf8Json =>
    cases hs : c.jsonSer m with
    | none => exact .inr ⟨_, .json hs, .inl ⟨_, rfl, by simp [serialize, serializeInner, hs, codecRes]⟩⟩
    | some b => exact .inl ⟨b, .json hs, by simp [serialize, serializeInner, hs, codecRes, tag_eq]⟩
  | cbor =>
    cases hs : c.cborSer m with
    | none => exact .inr ⟨_, .cbor hs, .inl ⟨_, rfl, by simp [serialize, serializeInner, hs, codecRes]⟩⟩
    | some b => exact .inl ⟨b, .cbor hs, by simp [serialize, serializeInner, hs, codecRes, tag_eq]⟩
  | bincode =>
    cases hs : c.binSer m with
    | none => exact .inr ⟨_, .bincode hs, .inl ⟨_, rfl, by simp [serialize, serializeInner, hs, codecRes]⟩⟩
    | some b => exact .inl ⟨b, .bincode hs, by simp [serialize, serializeInner, hs, codecRes, tag_eq]⟩

theorem Spec.Unencodable.serialize {α : Type} {fmt : MessageFormat} {m : M} {r : Res α} (h : Unencodable c fmt m r) :
    (∃ e, r = .err e ∧ Pkstl.serialize c m fmt = .err e) ∨ ∃ p, r = .panic p ∧ Pkstl.serialize c m fmt = .panic p := by
  cases h with
  | raw => exact .inl ⟨_, rfl, rfl⟩
  | text => exact .inr ⟨_, rfl, rfl⟩
  | json h => exact .inl ⟨_, rfl, by simp [Pkstl.serialize, serializeInner, h, codecRes]⟩
  | cbor h => exact .inl ⟨_, rfl, by simp [Pkstl.serialize, serializeInner, h, codecRes]⟩
  | bincode h => exact .inl ⟨_, rfl, by simp [Pkstl.serialize, serializeInner, h, codecRes]⟩

/-! ## Single calls -/

/-- **C68, reading.** `read` and `read_bin` do the same to the layer, and what `read` returns is determined by what `read_bin`
returns: the same messages with their data decoded, or the same error, or, if some data cannot be decoded, only an error. -/
theorem C68_read (sl : SecureLayer) (inc : Bytes) :
    (sl.readSer env f c inc).1 = (sl.readBin env inc).1 ∧
    ∀ r, Views f c (sl.readBin env inc).2 r ↔ (sl.readSer env f c inc).2 = r := by
  unfold SecureLayer.readSer
  rcases sl.readBin env inc with ⟨s, xs | e | p⟩
  · exact ⟨rfl, fun r => views_ok_iff⟩
  · refine ⟨rfl, fun r => ⟨fun h => ?_, ?_⟩⟩
    · cases h; rfl
    · rintro rfl; exact .err e
  · refine ⟨rfl, fun r => ⟨fun h => ?_, ?_⟩⟩
    · cases h; rfl
    · rintro rfl; exact .panic p

/-- **C68, writing.** A value that can be encoded in the configured format is written exactly as `write_bin` and the other
binary functions write the tag of the format and the encoded value: same bytes, same outcome, same layer afterwards.  A value
that cannot be encoded has no effect on layer and writer.  There is no third case. -/
theorem C68_write (sl : SecureLayer) (c : Codec M) (w : BufW) :
    (∀ d e, Packs c sl.minimal.config.messageFormat d e →
      sl.writeConnectSer env c d w = sl.writeConnectBin env e w ∧ sl.writeAckSer env c d w = sl.writeAckBin env e w) ∧
    (∀ m b, Encodes c sl.minimal.config.messageFormat m b →
      sl.writeSer env c m w = sl.writeBin env (formatTag sl.minimal.config.messageFormat ++ b) w) ∧
    (∀ m r, Unencodable c sl.minimal.config.messageFormat m r →
      sl.writeConnectSer env c (some m) w = (sl, w, r) ∧ sl.writeAckSer env c (some m) w = (sl, w, r) ∧
      sl.writeSer env c m w = (sl, w, r)) ∧
    (∀ m, (∃ b, Encodes c sl.minimal.config.messageFormat m b) ∨
      ∃ r : Res Unit, Unencodable c sl.minimal.config.messageFormat m r) := by
  refine ⟨fun d e hp => ?_, fun m b hb => ?_, fun m r hr => ?_, fun m => ?_⟩
  · cases hp with
    | none => exact ⟨rfl, rfl⟩
    | some h =>
      have := C44_serialize.mpr ⟨_, h, rfl⟩
      simp [SecureLayer.writeConnectSer, SecureLayer.writeAckSer, SecureLayer.serializeOpt, this,
        SecureLayer.writeConnectBin, SecureLayer.writeAckBin]
  · simp [SecureLayer.writeSer, C44_serialize.mpr ⟨_, hb, rfl⟩, SecureLayer.writeBin]
  · rcases hr.serialize with ⟨e, rfl, h1⟩ | ⟨p, rfl, h1⟩ <;>
      simp [SecureLayer.writeConnectSer, SecureLayer.writeAckSer, SecureLayer.writeSer, SecureLayer.serializeOpt, h1]
  · rcases serialize_total Unit c sl.minimal.config.messageFormat m with ⟨b, h1, -⟩ | ⟨r, h1, -⟩
    · exact .inl ⟨b, h1⟩
    · exact .inr ⟨r, h1⟩

/-! ## Histories -/

/-- The features of the build play no role for the binary API. -/
theorem cstep_features (f' : Features) (sl : SecureLayer) {op : COp M} (h : (cstep env f sl op).2.serde = false) :
    cstep env f' sl op = cstep env f sl op := by
  cases op <;> first | rfl | simp [cstep, CEvent.serde] at h

/-- One call of either API, as calls of the binary API. -/
theorem renders_step (sl : SecureLayer) (op : COp M) :
    ∃ es, Renders f sl.minimal.config.messageFormat (cstep env f sl op).2 es ∧ (∀ e ∈ es, e.serde = false) ∧
      ((es = [] ∧ (cstep env f sl op).1 = sl) ∨
        ∃ op', es = [(cstep env f sl op').2] ∧ (cstep env f sl op').1 = (cstep env f sl op).1) := by
  obtain ⟨w1, w2, w3, w4⟩ := C68_write (env := env) sl (match op with
    | .connectSer c _ _ => c | .ackSer c _ _ => c | .writeSer c _ _ => c | .readSer c _ => c
    | _ => ⟨fun _ => none, fun _ => none, fun _ => none, fun _ => none, fun _ => none, fun _ => none⟩)
    (match op with | .connectSer _ _ w => w | .ackSer _ _ w => w | .writeSer _ _ w => w | _ => ⟨0, [], ⟨[], []⟩⟩)
  have opt : ∀ (c : Codec M) (d : Option M), (∀ m, (∃ b, Encodes c sl.minimal.config.messageFormat m b) ∨
      ∃ r : Res Unit, Unencodable c sl.minimal.config.messageFormat m r) →
      (∃ e, Packs c sl.minimal.config.messageFormat d e) ∨
        ∃ m, ∃ r : Res Unit, d = some m ∧ Unencodable c sl.minimal.config.messageFormat m r := by
    intro c d h
    cases d with
    | none => exact .inl ⟨none, .none⟩
    | some m =>
      rcases h m with ⟨b, hb⟩ | ⟨r, hr⟩
      · exact .inl ⟨_, .some hb⟩
      · exact .inr ⟨m, r, rfl, hr⟩
  cases op with
  | readSer c b =>
    obtain ⟨h1, h2⟩ := C68_read (env := env) (f := f) (c := c) sl b
    exact ⟨[.readBin b (sl.readBin env b).2], .read ((h2 _).mpr rfl), by simp [CEvent.serde],
      .inr ⟨.readBin b, rfl, h1.symm⟩⟩
  | connectSer c d w =>
    dsimp only at w1 w2 w3 w4
    simp only [cstep]
    rcases opt c d w4 with ⟨e, he⟩ | ⟨m, r, rfl, hr⟩
    · rw [(w1 d e he).1]
      exact ⟨_, .connect he, by simp [CEvent.serde], .inr ⟨.connectBin e w, rfl, rfl⟩⟩
    · rw [(w3 m r hr).1]
      exact ⟨[], .noConnect hr, by simp, .inl ⟨rfl, rfl⟩⟩
  | ackSer c d w =>
    dsimp only at w1 w2 w3 w4
    simp only [cstep]
    rcases opt c d w4 with ⟨e, he⟩ | ⟨m, r, rfl, hr⟩
    · rw [(w1 d e he).2]
      exact ⟨_, .ack he, by simp [CEvent.serde], .inr ⟨.ackBin e w, rfl, rfl⟩⟩
    · rw [(w3 m r hr).2.1]
      exact ⟨[], .noAck hr, by simp, .inl ⟨rfl, rfl⟩⟩
  | writeSer c m w =>
    dsimp only at w1 w2 w3 w4
    simp only [cstep]
    rcases w4 m with ⟨b, hb⟩ | ⟨r, hr⟩
    · rw [w2 m b hb]
      exact ⟨_, .write hb, by simp [CEvent.serde], .inr ⟨.writeBin _ w, rfl, rfl⟩⟩
    · rw [(w3 m r hr).2.2]
      exact ⟨[], .noWrite hr, by simp, .inl ⟨rfl, rfl⟩⟩
  | readBin b => exact ⟨_, .other rfl, by simp [cstep, CEvent.serde], .inr ⟨.readBin b, rfl, rfl⟩⟩
  | connectBin d w => exact ⟨_, .other rfl, by simp [cstep, CEvent.serde], .inr ⟨.connectBin d w, rfl, rfl⟩⟩
  | ackBin d w => exact ⟨_, .other rfl, by simp [cstep, CEvent.serde], .inr ⟨.ackBin d w, rfl, rfl⟩⟩
  | writeBin d w => exact ⟨_, .other rfl, by simp [cstep, CEvent.serde], .inr ⟨.writeBin d w, rfl, rfl⟩⟩
  | clone => exact ⟨_, .other rfl, by simp [cstep, CEvent.serde], .inr ⟨.clone, rfl, rfl⟩⟩
  | config x => exact ⟨_, .other rfl, by simp [cstep, CEvent.serde], .inr ⟨.config x, rfl, rfl⟩⟩

/-- **C68, histories.** Every history of a layer, in which the two APIs are mixed in any way, amounts to a history of the
binary API that leads to the same state: the same inputs are read and the same bytes are written.  The build's features play no
role for it. -/
theorem C68_history (hr : CRun env f st h sl) :
    ∃ h', Rendering f st.config h h' ∧ (∀ e ∈ h', e.serde = false) ∧ ∀ f', CRun env f' st h' sl := by
  induction hr with
  | init hc => exact ⟨[], .nil, by simp, fun _ => .init hc⟩
  | @call h sl hr op ih =>
    obtain ⟨h', i1, i2, i3⟩ := ih
    obtain ⟨es, j1, j2, j3⟩ := renders_step (env := env) (f := f) sl op
    refine ⟨h' ++ es, .snoc i1 ((C35_complete hr).1 ▸ j1), fun e he => ?_, fun f' => ?_⟩
    · rcases List.mem_append.mp he with he | he
      · exact i2 e he
      · exact j2 e he
    · rcases j3 with ⟨rfl, j4⟩ | ⟨op', rfl, j4⟩
      · rw [j4, List.append_nil]; exact i3 f'
      · have j5 := cstep_features (env := env) (f := f) f' sl (op := op') (j2 _ (by simp))
        have := (i3 f').call op'
        rw [j5, j4] at this
        exact this
  | @cloned h sl c hr hc ih =>
    obtain ⟨h', i1, i2, i3⟩ := ih
    refine ⟨h' ++ [.clone (.ok ())], .snoc i1 (.other rfl), fun e he => ?_, fun f' => (i3 f').cloned hc⟩
    rcases List.mem_append.mp he with he | he
    · exact i2 e he
    · rw [List.mem_singleton.mp he]; rfl

/-- The rendering has the same inputs. -/
theorem Spec.Rendering.inputs {cfg : Config} {h h' : List (CEvent M)} (hr : Rendering f cfg h h') : cinputs h' = cinputs h := by
  induction hr with
  | nil => rfl
  | @snoc h h' es e _ he ih =>
    have h1 : ∀ a b : List (CEvent M), cinputs (a ++ b) = cinputs a ++ cinputs b := by simp [cinputs]
    rw [h1, h1, ih]
    congr 1
    cases he <;> rfl

/-- **C68, at most once.** Counting the user messages that the layer gave to `read` or `read_bin`, whether or not `read` could
decode them: their numbers are pairwise different, so what `read` cannot decode is not given out again. -/
theorem C68_at_most_once (hr : CRun env f st h sl) (hb : env.overflowChecks = true ∨ (cinputs h).length < 2 ^ 64) :
    ∃ h' Ns, Rendering f st.config h h' ∧ (∀ e ∈ h', e.serde = false) ∧ CRun env f st h' sl ∧
      List.Forall₂ (CCarries env.cr f sl.minimal.secret) h' Ns ∧ (Ns.flatten.map Prod.fst).Nodup := by
  obtain ⟨h', h1, h2, h3⟩ := C68_history hr
  obtain ⟨Ns, h4, h5, -⟩ := C55_at_most_once (h3 f) (by rw [h1.inputs]; exact hb)
  exact ⟨h', Ns, h1, h2, h3 f, h4, h5⟩

/-! ## What `read` cannot decode is gone -/

/-- Where a user message that `read` of the minimal mode delivers comes from. -/
theorem read_message_user {s s1 : Layer} {inc : Bytes} {p : Option Bytes} (hd : s.read env inc = (s1, .ok (some (.message p)))) :
    ∃ d n, readerRead env s.secret inc true = .ok d ∧ d.msgTypeHeaders = .userMsg n ∧ s.status = .success ∧
      s1.secret = s.secret := by
  have hcase := read_case env s inc
  rw [hd] at hcase
  generalize hR : (.ok (some (.message p)) : Res (Option Message)) = R at hcase
  generalize hS : s1 = S at hcase
  have hm : ∀ d : DecryptedIncomingData, Layer.getMessage d = .ok (some (.message p)) →
      ∃ n, d.msgTypeHeaders = .userMsg n := by
    intro d hg
    unfold Layer.getMessage at hg
    split at hg
    · simp only [Res.ok.injEq, Option.some.injEq] at hg
      unfold Message.fromBytes at hg
      cases hx : d.msgTypeHeaders with
      | userMsg n => exact ⟨n, rfl⟩
      | connect _ _ _ => rw [hx] at hg; simp at hg
      | ack _ => rw [hx] at hg; simp at hg
    · simp at hg
  cases hcase with
  | @userOk d n S hp hh hn hs hl hv hu =>
    obtain ⟨O', n', st', h1, -⟩ := updateNonces_frame env s n
    rw [hu] at h1
    change S = _ at h1
    exact ⟨_, _, hp, hh, hs, by rw [h1]⟩
  | connectOk hp hh =>
    obtain ⟨n, hn⟩ := hm _ hR.symm
    rw [hh] at hn; simp at hn
  | ackOk hp hh =>
    obtain ⟨n, hn⟩ := hm _ hR.symm
    rw [hh] at hn; simp at hn
  | connectNoKp hp hh =>
    change _ = (if s.secret.isSome = true then Layer.getMessage _ else .panic .secretWithoutKeyPair) at hR
    by_cases hx : s.secret.isSome = true
    · rw [if_pos hx] at hR
      obtain ⟨n, hn⟩ := hm _ hR.symm
      rw [hh] at hn; simp at hn
    · rw [if_neg hx] at hR; simp at hR
  | _ => simp [invalidMsg] at hR

/-- A ciphertext that `read` of the minimal mode has delivered is refused from then on. -/
theorem read_gone (law : env.cr.Lawful) {st : Start} {l l' : List Event} {s s1 s' : Layer} {inc : Bytes} {p : Option Bytes}
    (hr : Run env st l s) (hd : s.read env inc = (s1, .ok (some (.message p)))) (hs : Steps env s1 l' s')
    (hb : env.overflowChecks = true ∨ (inputs l).length + (inputs l').length + 2 < 2 ^ 64) :
    (s'.read env inc).2.isOk = false := by
  have hstep : Steps env s [.read inc (.ok (some (.message p)))] s1 := by
    have := steps_one env s (.read inc)
    simpa [step, hd] using this
  have hr1 := hr.steps hstep
  have hr2 := hr1.steps hs
  obtain ⟨d, n, hp, hh, hsu, hse⟩ := read_message_user hd
  have hsec : s'.secret = s.secret := by
    obtain ⟨Ls, ha, -, -⟩ := C17_at_most_once hr1 (hb.imp id fun hb => by simp [inputs] at hb ⊢; omega)
    obtain ⟨la, l1, lb, -, c1, -⟩ := forall₂_split (b := []) ha
    obtain ⟨k, -, -, -, -, -, hk, -⟩ := carries_read c1
    rw [(C14_secret_stable hr1 hs).2 k hk, ← hk, hse]
  have hover := steps_over (Wf.of_run hr) (hstep.trans hs) (by simp [hsu])
  have hcase' := read_case env s' inc
  have hno : ∀ q, (s'.read env inc).2 ≠ .ok (some (.message q)) := by
    intro q hq
    have hr3 := hr2.call (.read inc)
    refine C17_no_replay law hr3 ?_ (h1 := l) (h2 := l') (h3 := []) (p := p) (q := q) (inc := inc) ?_
    · rcases hb with hb | hb
      · exact .inl hb
      · right
        simp [inputs, step] at hb ⊢
        omega
    · simp [step, hq]
  generalize (s'.read env inc).2 = R at hcase' hno ⊢
  generalize (s'.read env inc).1 = S at hcase'
  have hm : ∀ R', Layer.getMessage d = R' → (∀ q, R' ≠ .ok (some (.message q))) → R'.isOk = false := by
    intro R' hg hn
    unfold Layer.getMessage at hg
    split at hg
    · subst hg
      unfold Message.fromBytes at hn
      rw [hh] at hn
      exact absurd rfl (hn _)
    · subst hg; rfl
  rw [← hsec] at hp
  have hd' : ∀ {d'}, readerRead env s'.secret inc true = .ok d' → d' = d := by
    intro d' h'
    rw [hp] at h'
    simpa using h'.symm
  cases hcase' with
  | userOk hp' => rw [hd' hp'] at hno ⊢; exact hm _ rfl hno
  | userStacked hp' hh' hn hs' => exact absurd hs' (hover _ _)
  | connectOk hp' hh' => rw [hd' hp', hh] at hh'; simp at hh'
  | connectNoKp hp' hh' => rw [hd' hp', hh] at hh'; simp at hh'
  | ackOk hp' hh' => rw [hd' hp', hh] at hh'; simp at hh'
  | ackStored hp' hh' => rw [hd' hp', hh] at hh'; simp at hh'
  | _ => rfl

theorem uncompressUserMsgs_head {cr : Crypto} {ms : List Message} {acc out : List BinMessage}
    (h : SecureLayer.uncompressUserMsgs cr ms acc = .ok out) : acc <+: out := by
  induction ms generalizing acc with
  | nil => simp [SecureLayer.uncompressUserMsgs] at h; rw [h]
  | cons x ms ih =>
    cases x with
    | message d =>
      unfold SecureLayer.uncompressUserMsgs at h
      split at h
      · exact (List.prefix_append _ _).trans (ih h)
      · simp at h
      · simp at h
    | connect => exact ih h
    | ack => exact ih h

/-- What `read_bin` hands over as a single user message was delivered by the layer inside. -/
theorem readBin_single {inc : Bytes} {d : Option Bytes} (h : (sl.readBin env inc).2 = .ok [.message d]) :
    ∃ p, sl.minimal.read env inc = ((sl.readBin env inc).1.minimal, .ok (some (.message p))) := by
  unfold SecureLayer.readBin at h ⊢
  rcases hm : sl.minimal.read env inc with ⟨m, (_ | x) | e | p⟩ <;> rw [hm] at h
  · simp at h
  · cases x with
    | message p =>
      refine ⟨p, ?_⟩
      dsimp only at h ⊢
      split at h <;> simp_all
    | connect a k p =>
      exfalso
      dsimp only at h
      repeat' split at h
      all_goals simp at h
    | ack p =>
      exfalso
      dsimp only at h
      repeat' split at h
      all_goals first | simp at h | skip
      have := uncompressUserMsgs_head h
      simp at this
  · simp at h
  · simp at h

/-- **C68, lost values.** A user message that the application took with `read` and that `read` could not decode, or could, is
gone: whatever happens in between, neither `read_bin` nor `read` accepts it a second time. -/
theorem C68_lost (law : env.cr.Lawful) (hr : CRun env f st h sl) {inc : Bytes} {d : Option Bytes}
    (hd : (sl.readBin env inc).2 = .ok [.message d]) {h' : List (CEvent M)} {sl' : SecureLayer}
    (hs : CSteps env f (sl.readSer env f c inc).1 h' sl')
    (hb : env.overflowChecks = true ∨ (cinputs h).length + (cinputs h').length + 2 < 2 ^ 64) :
    (sl'.readBin env inc).2.isOk = false ∧ ∀ (f' : Features) (c' : Codec M), (sl'.readSer env f' c' inc).2.isOk = false := by
  have hr1 := hr.call (.readSer c inc)
  obtain ⟨⟨l, hl, hlow⟩, -⟩ := hr.lower
  obtain ⟨l', hl', hlow'⟩ := hs.lower hr1
  simp only [cstep] at hl'
  rw [(C68_read sl inc).1] at hl'
  obtain ⟨p, hp⟩ := readBin_single hd
  have h1 : (sl'.readBin env inc).2.isOk = false := by
    have := read_gone law hl hp hl' (by rw [hlow.inputs, hlow'.inputs]; exact hb)
    unfold SecureLayer.readBin
    rcases hx : sl'.minimal.read env inc with ⟨m, x | e | p⟩ <;> rw [hx] at this
    · simp [Res.isOk] at this
    · rfl
    · rfl
  refine ⟨h1, fun f' c' => ?_⟩
  have h2 := ((C68_read (env := env) (f := f') (c := c') sl' inc).2 _).mpr rfl
  generalize (sl'.readSer env f' c' inc).2 = r at h2 ⊢
  generalize (sl'.readBin env inc).2 = r' at h1 h2
  cases h2 with
  | err => rfl
  | panic => rfl
  | ok => simp [Res.isOk] at h1
  | lost => simp [Res.isOk] at h1

/-! ## Peers that use different APIs -/

section
variable {M' : Type} {f' : Features} {stA stB : CStart} {hA : List (CEvent M)} {hB : List (CEvent M')} {a a' b : SecureLayer}
  {w' : BufW} {m : Bytes} {k : SecretKey}

theorem written_length (law : env.cr.Lawful) {d : Bytes} (hcap : 16 < w.cap) (hc : a.writeBin env d w = (a', w', .ok ()))
    (hm : w'.stream = w.stream ++ m) : 26 + (env.cr.deflate (levelFor a.minimal.config d) d).length < m.length := by
  obtain ⟨-, k', h2, h3⟩ := C46_ok_written_bin law hcap hc
  rw [hm, List.append_cancel_left_eq] at h3
  rw [h3]
  unfold cipherOf
  rw [aeadSeal_length _ law]
  simp [userFrame, frame, law.sha256_length]
  omega

/-- **C68, values for a reader of bytes.** What one party writes with `write` is handed over by the other party's `read_bin` as
the tag of the format and the encoded value. -/
theorem C68_value_to_bytes (law : env.cr.Lawful) (ra : CRun env f stA hA a) (rb : CRun env f' stB hB b) {x : M}
    (hc : a.writeSer env c x w = (a', w', .ok ())) (hcap : 16 < w.cap) (hm : w'.stream = w.stream ++ m)
    (hka : a.minimal.secret = some k) (hkb : b.minimal.secret = some k) (hb : b.minimal.status = .success)
    (hlen : m.length < 2 ^ 64)
    (hks : ¬ ∀ i < 4, env.cr.keystream k.key k.nonce i = 0)
    (hnew : ¬ a.minimal.nextNonceSent < b.minimal.nextNonceExpected)
    (hnew' : a.minimal.nextNonceSent ∉ b.minimal.orphanNonces)
    (hroom : a.minimal.nextNonceSent = b.minimal.nextNonceExpected ∨ b.minimal.orphanNonces.card < 10000)
    (hend : b.minimal.nextNonceExpected + b.minimal.orphanNonces.card + 1 < 2 ^ 64) :
    ∃ body, Encodes c (inForce stA.config hA).messageFormat x body ∧
      (b.readBin env m).2 = .ok [.message (some (formatTag (inForce stA.config hA).messageFormat ++ body))] := by
  rw [← (C35_complete ra).1]
  obtain ⟨-, w2, w3, w4⟩ := C68_write (env := env) a c w
  rcases w4 x with ⟨body, hbody⟩ | ⟨r, hr⟩
  · rw [w2 x body hbody] at hc
    have hl : 26 + (env.cr.deflate (levelFor a.minimal.config (formatTag a.minimal.config.messageFormat ++ body))
        (formatTag a.minimal.config.messageFormat ++ body)).length < 2 ^ 64 := by
      have := written_length law hcap hc hm
      omega
    obtain ⟨b', h1, -⟩ := C37_user law ra rb hc hcap hm hka hkb hb hl hks hnew hnew' hroom hend
    exact ⟨body, hbody, by rw [h1]⟩
  · rw [(w3 x r hr).2.2] at hc
    rcases hr.serialize with ⟨e, rfl, -⟩ | ⟨p, rfl, -⟩ <;> simp at hc

/-- **C68, bytes for a reader of values.** What one party writes with `write_bin` reaches the other party's `read` as a value if
it is the tag of a format that this party's build knows, followed by an encoded value, and otherwise as an error, or, for the
tag of plain text, as a panic. -/
theorem C68_bytes_to_value (law : env.cr.Lawful) (ra : CRun env f stA hA a) (rb : CRun env f' stB hB b) {d : Bytes}
    (hc : a.writeBin env d w = (a', w', .ok ())) (hcap : 16 < w.cap) (hm : w'.stream = w.stream ++ m)
    (hka : a.minimal.secret = some k) (hkb : b.minimal.secret = some k) (hb : b.minimal.status = .success)
    (hlen : m.length < 2 ^ 64)
    (hks : ¬ ∀ i < 4, env.cr.keystream k.key k.nonce i = 0)
    (hnew : ¬ a.minimal.nextNonceSent < b.minimal.nextNonceExpected)
    (hnew' : a.minimal.nextNonceSent ∉ b.minimal.orphanNonces)
    (hroom : a.minimal.nextNonceSent = b.minimal.nextNonceExpected ∨ b.minimal.orphanNonces.card < 10000)
    (hend : b.minimal.nextNonceExpected + b.minimal.orphanNonces.card + 1 < 2 ^ 64) (c' : Codec M') :
    (∀ x, Reads f' c' d x → (b.readSer env f' c' m).2 = .ok [.message (some x)]) ∧
    (∀ r, Unreadable f' c' d r → (b.readSer env f' c' m).2 = r) := by
  have hl : 26 + (env.cr.deflate (levelFor a.minimal.config d) d).length < 2 ^ 64 := by
    have := written_length law hcap hc hm
    omega
  obtain ⟨b', h1, -⟩ := C37_user law ra rb hc hcap hm hka hkb hb hl hks hnew hnew' hroom hend
  have hv := (C68_read (env := env) (f := f') (c := c') b m).2
  rw [h1] at hv
  exact ⟨fun x hx => (hv _).mp (.ok (.cons (.message (.some hx)) .nil)),
    fun r hr => (hv _).mp (Views.lost (xs := []) (ys := []) (xs' := []) .nil rfl hr)⟩

end

/-! ## A concrete case -/

/-- The toy parties are negotiated; A is configured for CBOR, B for raw binary.  A writes a value with `write` and bytes with
`write_bin`.  B takes the value with `read_bin`: tag and encoding.  B takes the bytes with `read`, which does not know what to
do with them; after that they are refused by `read_bin`, too.  The hypotheses of `C68_value_to_bytes`, `C68_bytes_to_value` and
`C68_lost` hold. -/
example (oc : Bool) :
    (∃ h : List (CEvent UInt8), CRun (Toy.env oc) ⟨true, true, true⟩ Toy.cstA h (Toy.cborA Toy.a4) ∧
      inForce Toy.cstA.config h = { Config.default with messageFormat := .cbor } ∧
      (∃ a' w', (Toy.cborA Toy.a4).writeSer (Toy.env oc) Toy.codec 7 Toy.sink = (a', w', .ok ()) ∧
        w'.stream = Toy.sink.stream ++ cipherOf Toy.cr Toy.key 0 [0, 0, 0, 0, 3, 2, 7]) ∧
      (∃ a' w', (Toy.cborA Toy.a4).writeBin (Toy.env oc) [9, 9] Toy.sink = (a', w', .ok ()) ∧
        w'.stream = Toy.sink.stream ++ cipherOf Toy.cr Toy.key 0 [0, 9, 9])) ∧
    (∃ h : List (CEvent UInt8), CRun (Toy.env oc) ⟨false, true, true⟩ Toy.cstB h (Toy.csB Toy.b4)) ∧
    ((Toy.csB Toy.b4).readBin (Toy.env oc) (cipherOf Toy.cr Toy.key 0 [0, 0, 0, 0, 3, 2, 7])).2 =
      .ok [.message (some [0, 0, 0, 3, 2, 7])] ∧
    ((Toy.csB Toy.b4).readBin (Toy.env oc) (cipherOf Toy.cr Toy.key 0 [0, 9, 9])).2 = .ok [.message (some [9, 9])] ∧
    ((Toy.csB Toy.b4).readSer (Toy.env oc) ⟨false, true, true⟩ Toy.codec (cipherOf Toy.cr Toy.key 0 [0, 9, 9])).2 =
      .err (.recvInvalidMsg .messageTooShort) ∧
    (((Toy.csB Toy.b4).readSer (Toy.env oc) ⟨false, true, true⟩ Toy.codec
      (cipherOf Toy.cr Toy.key 0 [0, 9, 9])).1.readBin (Toy.env oc) (cipherOf Toy.cr Toy.key 0 [0, 9, 9])).2 =
      .err (.recvInvalidMsg .invalidNonce) := by
  refine ⟨?_, ?_, by cases oc <;> decide +kernel, by cases oc <;> decide +kernel, by cases oc <;> decide +kernel,
    by cases oc <;> decide +kernel⟩
  · obtain ⟨h, hr⟩ := Toy.creach_a4 UInt8 ⟨true, true, true⟩ oc
    have hr' := hr.call (.config { Config.default with messageFormat := .cbor })
    obtain ⟨w', h1, h2, -⟩ := writeBin_good (env := Toy.env oc) (sl := Toy.cborA Toy.a4) Toy.lawful rfl rfl [0, 0, 0, 3, 2, 7]
      (w := Toy.sink) rfl (by decide) (by decide)
    obtain ⟨w'', h3, h4, -⟩ := writeBin_good (env := Toy.env oc) (sl := Toy.cborA Toy.a4) Toy.lawful rfl rfl [9, 9]
      (w := Toy.sink) rfl (by decide) (by decide)
    exact ⟨_, hr', (C35_complete hr').1.symm,
      ⟨_, w', h1, h2.trans (by cases oc <;> decide +kernel)⟩, _, w'', h3, h4.trans (by cases oc <;> decide +kernel)⟩
  · exact Toy.creach_b4 UInt8 ⟨false, true, true⟩ oc

/-- A history in which both APIs are used: `C68_history` applies to it. -/
example (oc : Bool) : ∃ (h : List (CEvent UInt8)) (sl : SecureLayer), CRun (Toy.env oc) ⟨false, true, true⟩ Toy.cstB h sl ∧
    (∃ e ∈ h, e.serde = false) ∧ CEvent.readSer Toy.codec (cipherOf Toy.cr Toy.key 0 [0, 9, 9])
      (.err (.recvInvalidMsg .messageTooShort)) ∈ h := by
  obtain ⟨h, hr⟩ := Toy.creach_b4 UInt8 ⟨false, true, true⟩ oc
  have r1 := (hr.call (.config Config.default)).call (.readSer Toy.codec (cipherOf Toy.cr Toy.key 0 [0, 9, 9]))
  refine ⟨_, _, r1, ⟨(cstep (Toy.env oc) ⟨false, true, true⟩ (Toy.csB Toy.b4) (.config Config.default)).2, by simp, rfl⟩, ?_⟩
  have e : ((Toy.csB Toy.b4).readSer (Toy.env oc) ⟨false, true, true⟩ Toy.codec (cipherOf Toy.cr Toy.key 0 [0, 9, 9])).2 =
      .err (.recvInvalidMsg .messageTooShort) := by cases oc <;> decide +kernel
  rw [← e]
  exact List.mem_append_right _ (List.mem_singleton.mpr rfl)

end Pkstl

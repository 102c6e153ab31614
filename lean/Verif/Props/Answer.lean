import Verif.Lemmas.PanicRead
import Verif.Lemmas.FatalRead
import Verif.Lemmas.Complete
import Verif.Spec.Answer
import Verif.Spec.ToyHistory
import Verif.Spec.ToyComplete
/- C73: the answer of `read` to every input. -/
namespace Pkstl
open Spec

section
variable {env : Env} {st : Start} {s : Layer}

/-! ### frames -/

theorem frame_total (oc : Bool) (x : Bytes) : ∃ F, IsFrame oc x F := by
  by_cases ht : Truncated oc x
  · exact ⟨.truncated, ht⟩
  by_cases hm : x.take 4 = [0xE2, 0xC2, 0xE2, 0xD2]
  swap
  · refine ⟨.magic, ?_, hm⟩
    by_contra hc
    exact ht (.inl (by omega))
  have h8 : 8 ≤ x.length := by
    by_contra hc
    exact ht (.inr ⟨hm, .inl (by omega)⟩)
  by_cases hv : (x.drop 4).take 4 = [0, 0, 0, 1]
  swap
  · refine ⟨.version, (x.drop 4).take 4, x.drop 8, by simp; omega, hv, ?_⟩
    conv => lhs; rw [take_drop_split x 4 4, hm]
    simp
  have h18 : 18 ≤ x.length := by
    by_contra hc
    exact ht (.inr ⟨hm, .inr ⟨hv, .inl (by omega)⟩⟩)
  have hlb : ((x.drop 8).take 8).length = 8 := by simp; omega
  have hn : beNat ((x.drop 8).take 8) < 2 ^ 64 := beNat_lt_u64 hlb
  have hbe : be64 (beNat ((x.drop 8).take 8)) = (x.drop 8).take 8 := be64_beNat hlb
  have hmeas : Measurable oc (beNat ((x.drop 8).take 8)) := by
    refine ⟨hn, fun hoc => ?_⟩
    by_contra hc
    exact ht (.inr ⟨hm, .inr ⟨hv, .inr (.inl ⟨hoc, _, hn, hbe.symm, by omega⟩)⟩⟩)
  generalize beNat ((x.drop 8).take 8) = n at hn hbe hmeas
  have hx : x = wire n ((x.drop 16).take 2) (x.drop 18) := by
    conv => lhs; rw [take_drop_split x 4 4, hm, hv, show 4 + 4 = 8 from rfl]
    conv => lhs; rw [take_drop_split (x.drop 8) 8 2, ← hbe, List.drop_drop, List.drop_drop]
    simp [wire]
  by_cases h0 : (x.drop 16).take 2 = [0, 0]
  · have hl : 26 ≤ x.length := by
      by_contra hc
      exact ht (.inr ⟨hm, .inr ⟨hv, .inr (.inr (.inl ⟨h0, by omega⟩))⟩⟩)
    have hnb : ((x.drop 18).take 8).length = 8 := by simp; omega
    refine ⟨.user n (beNat ((x.drop 18).take 8)), hmeas, beNat_lt_u64 hnb, x.drop 26, ?_⟩
    rw [be64_beNat hnb]
    conv => lhs; rw [hx, h0, ← List.take_append_drop 8 (x.drop 18), List.drop_drop]
    simp [wire]
  by_cases h1 : (x.drop 16).take 2 = [0, 1]
  · have hl : 54 ≤ x.length := by
      by_contra hc
      exact ht (.inr ⟨hm, .inr ⟨hv, .inr (.inr (.inr (.inl ⟨h1, .inl (by omega)⟩)))⟩⟩)
    have hx' : x = wire n ([0, 1] ++ (x.drop 18).take 32 ++ (x.drop 50).take 4) (x.drop 54) := by
      conv => lhs; rw [hx, h1, take_drop_split (x.drop 18) 32 4, List.drop_drop, List.drop_drop]
      simp [wire]
    by_cases ha : (x.drop 50).take 4 = [0, 0, 0, 0]
    · have hl : 86 ≤ x.length := by
        by_contra hc
        exact ht (.inr ⟨hm, .inr ⟨hv, .inr (.inr (.inr (.inl ⟨h1, .inr ⟨ha, by omega⟩⟩)))⟩⟩)
      refine ⟨.connect n ((x.drop 18).take 32) ((x.drop 54).take 32), hmeas, by simp; omega, by simp; omega, x.drop 86, ?_⟩
      conv => lhs; rw [hx', ha, ← List.take_append_drop 32 (x.drop 54), List.drop_drop]
      simp [wire]
    · exact ⟨.algo, n, (x.drop 18).take 32, (x.drop 50).take 4, x.drop 54, hmeas, by simp; omega, by simp; omega, ha, hx'⟩
  by_cases h2 : (x.drop 16).take 2 = [0, 2]
  · have hl : 50 ≤ x.length := by
      by_contra hc
      exact ht (.inr ⟨hm, .inr ⟨hv, .inr (.inr (.inr (.inr ⟨h2, by omega⟩)))⟩⟩)
    refine ⟨.ack n ((x.drop 18).take 32), hmeas, by simp; omega, x.drop 50, ?_⟩
    conv => lhs; rw [hx, h2, ← List.take_append_drop 32 (x.drop 18), List.drop_drop]
    simp [wire]
  · exact ⟨.type, n, _, _, hmeas, by simp; omega, h0, h1, h2, hx⟩

/-- What the header parser says about a frame. -/
def parsed (enc : Bool) (x : Bytes) : Frame → Res DecryptedIncomingData → Prop
  | .truncated, r => ∃ p, r = .panic p
  | .magic, r => r = invalidMsg .invalidMagicValue
  | .version, r => r = invalidMsg .unsupportedVersion
  | .type, r => r = invalidMsg .unknownMessageType
  | .algo, r => r = invalidMsg .unsupportedSigAlgo
  | .connect n epk k, r =>
    r = if enc = true then invalidMsg .unexpectedEncryptionState else .ok ⟨x, 86, endOf n, .connect epk [0, 0, 0, 0] k⟩
  | .ack n c, r => r = if enc = true then invalidMsg .unexpectedEncryptionState else .ok ⟨x, 50, endOf n, .ack c⟩
  | .user n num, r => r = if enc = false then invalidMsg .unexpectedEncryptionState else .ok ⟨x, 26, endOf n, .userMsg num⟩

theorem parse_wire_bad {enc : Bool} {n : Nat} (hm : Measurable env.overflowChecks n) (th : Bytes) {i : IncomingMsgErr}
    (h : readTypeHeaders th = invalidMsg i) : parseClear env enc (wire n th []) true = invalidMsg i := by
  have := parseClear_frame env enc true (be64 n) th (by simp)
  rw [beNat_be64 hm.1, (addU64_endOf hm.1).mpr ⟨rfl, hm.2⟩, h] at this
  simpa [wire] using this

theorem parse_wire_state {enc : Bool} {n : Nat} {h : MsgTypeHeaders} (rest : Bytes)
    (hm : Measurable env.overflowChecks n) (hok : hdrOk h) (he : enc ≠ h.mustBeEncrypted) :
    parseClear env enc (wire n (hdrBytes h) rest) true = invalidMsg .unexpectedEncryptionState := by
  have h1 := parse_wire (env := env) (enc := enc) (chk := false) rest hm.1 hm.2 hok (by simp)
  have e1 : wire n (hdrBytes h) rest = [0xE2, 0xC2, 0xE2, 0xD2] ++ ([0, 0, 0, 1] ++ (be64 n ++ (hdrBytes h ++ rest))) := by
    simp [wire]
  rw [e1, parseClear_frame _ _ _ _ _ (by simp)] at h1 ⊢
  rw [beNat_be64 hm.1, (addU64_endOf hm.1).mpr ⟨rfl, hm.2⟩] at h1 ⊢
  dsimp only at h1 ⊢
  rcases hr : readTypeHeaders (hdrBytes h ++ rest) with ⟨h', l⟩ | e | p <;> rw [hr] at h1
  · simp only [Res.bind_ok, Bool.false_eq_true, false_and, if_false, Res.ok.injEq, DecryptedIncomingData.mk.injEq] at h1
    obtain ⟨-, -, -, rfl⟩ := h1
    simp [he]
  · simp at h1
  · simp at h1

theorem frame_parsed (enc : Bool) {x : Bytes} {F : Frame} (hF : IsFrame env.overflowChecks x F) :
    parsed enc x F (parseClear env enc x true) := by
  cases F with
  | truncated => exact (parseClear_panic_iff env enc true x).mpr hF
  | magic =>
    have e1 : sliceTo x MAGIC_VALUE_END = .ok (x.take 4) := if_pos hF.1
    show parseClear env enc x true = _
    unfold parseClear
    rw [e1]; simp only [Res.bind_ok]; exact if_pos hF.2
  | version =>
    obtain ⟨v, rest, h1, h2, rfl⟩ := hF
    show parseClear env enc _ true = _
    have e1 : sliceTo ([0xE2, 0xC2, 0xE2, 0xD2] ++ v ++ rest) MAGIC_VALUE_END = .ok [0xE2, 0xC2, 0xE2, 0xD2] := by
      rw [List.append_assoc]; exact sliceTo_append _ _ rfl
    have e2 : slice ([0xE2, 0xC2, 0xE2, 0xD2] ++ v ++ rest) MAGIC_VALUE_END VERSION_END = .ok v := by
      rw [List.append_assoc]; exact slice_append3 _ v rest rfl (by simp [h1, VERSION_END, MAGIC_VALUE_END])
    unfold parseClear
    rw [e1]; simp only [Res.bind_ok]; rw [if_neg (by simp [MAGIC_VALUE]), e2]
    simp only [Res.bind_ok]; exact if_pos h2
  | type =>
    obtain ⟨n, t, rest, hm, h1, h2, h3, h4, rfl⟩ := hF
    have e : wire n t rest = wire n (t ++ rest) [] := by simp [wire]
    show parseClear env enc _ true = _
    rw [e]
    refine parse_wire_bad hm _ ?_
    unfold readTypeHeaders
    rw [show sliceTo (t ++ rest) MSG_TYPE_LEN = .ok t from sliceTo_append _ _ h1]
    simp [USER_MSG_TYPE, CONNECT_MSG_TYPE, ACK_MSG_TYPE, h2, h3, h4]
  | algo =>
    obtain ⟨n, epk, a, rest, hm, h1, h2, h3, rfl⟩ := hF
    have e : wire n ([0, 1] ++ epk ++ a) rest = wire n ([0, 1] ++ (epk ++ (a ++ rest))) [] := by simp [wire]
    show parseClear env enc _ true = _
    rw [e]
    refine parse_wire_bad hm _ ?_
    unfold readTypeHeaders
    rw [show sliceTo ([0, 1] ++ (epk ++ (a ++ rest))) MSG_TYPE_LEN = .ok [0, 1] from sliceTo_append _ _ rfl]
    rw [show slice ([0, 1] ++ (epk ++ (a ++ rest))) MSG_TYPE_LEN (MSG_TYPE_LEN + EPK_SIZE) = .ok epk from
      slice_append3 [0, 1] epk _ rfl (by simp [h1, MSG_TYPE_LEN, EPK_SIZE])]
    rw [show slice ([0, 1] ++ (epk ++ (a ++ rest))) (MSG_TYPE_LEN + EPK_SIZE) SIG_PUBKEY_BEGIN = .ok a from by
      have := slice_append3 ([0, 1] ++ epk) a rest (a := MSG_TYPE_LEN + EPK_SIZE) (b := SIG_PUBKEY_BEGIN)
        (by simp [h1, MSG_TYPE_LEN, EPK_SIZE]) (by simp [h1, h2, SIG_PUBKEY_BEGIN, MSG_TYPE_LEN, EPK_SIZE, SIG_ALGO_LEN])
      simpa using this]
    simp [USER_MSG_TYPE, CONNECT_MSG_TYPE, SIG_ALGO_ED25519, h3]
  | connect n epk k =>
    obtain ⟨hm, h1, h2, rest, rfl⟩ := hF
    have hok : hdrOk (.connect epk [0, 0, 0, 0] k) := ⟨h1, rfl, h2⟩
    show parseClear env enc (wire n (hdrBytes (.connect epk [0, 0, 0, 0] k)) rest) true = _
    cases enc with
    | true => exact parse_wire_state rest hm hok (by simp [MsgTypeHeaders.mustBeEncrypted])
    | false =>
      rw [parse_wire rest hm.1 hm.2 hok (by simp [MsgTypeHeaders.mustBeEncrypted])]
      simp [hdrBytes, h1, h2]
  | ack n c =>
    obtain ⟨hm, h1, rest, rfl⟩ := hF
    have hok : hdrOk (.ack c) := h1
    show parseClear env enc (wire n (hdrBytes (.ack c)) rest) true = _
    cases enc with
    | true => exact parse_wire_state rest hm hok (by simp [MsgTypeHeaders.mustBeEncrypted])
    | false =>
      rw [parse_wire rest hm.1 hm.2 hok (by simp [MsgTypeHeaders.mustBeEncrypted])]
      simp [hdrBytes, h1]
  | user n num =>
    obtain ⟨hm, h1, rest, rfl⟩ := hF
    have hok : hdrOk (.userMsg num) := h1
    show parseClear env enc (wire n (hdrBytes (.userMsg num)) rest) true = _
    cases enc with
    | false => exact parse_wire_state rest hm hok (by simp [MsgTypeHeaders.mustBeEncrypted])
    | true =>
      rw [parse_wire rest hm.1 hm.2 hok (by simp [MsgTypeHeaders.mustBeEncrypted])]
      simp [hdrBytes]

/-! ### what is done with a frame -/

theorem reply_getMessage {x : Bytes} {b e : Nat} {h : MsgTypeHeaders} {m : Option Bytes → Message}
    (hm : ∀ p, reported h p = m (present p)) (hl : e ≤ x.length) :
    replyOf (Layer.getMessage ⟨x, b, e, h⟩) = handOver x b e m := by
  unfold Layer.getMessage handOver
  dsimp only
  by_cases hb : e < b
  · rw [if_neg (by omega), if_pos hb]; rfl
  · rw [if_pos ⟨by omega, hl⟩, if_neg hb, fromBytes_eq, hm, List.drop_take]; rfl

theorem reply_connect (hw : Wf env st s) {x epk k : Bytes} {n : Nat} :
    replyOf (s.readConnect env ⟨x, 86, endOf n, .connect epk [0, 0, 0, 0] k⟩ epk k).2 =
      replyClear env st s x (.connect n epk k) := by
  unfold replyClear
  dsimp only
  by_cases hk : s.peerSigPubkey ≠ none ∧ s.peerSigPubkey ≠ some k
  · rw [if_pos hk]
    unfold Layer.readConnect
    rcases hs : s.peerSigPubkey with _ | k'
    · exact absurd hs hk.1
    · dsimp only
      rw [if_pos (by rintro rfl; exact hk.2 hs)]
      rfl
  rw [if_neg hk, readConnect_eval (by tauto)]
  unfold Layer.readConnectVerified
  rw [verifySig_eq]
  dsimp only
  by_cases hl : x.length < endOf n
  · rw [if_neg (by omega), if_pos hl]; rfl
  rw [if_pos (by omega), if_neg hl]
  rcases hv : env.cr.edVerify k (x.take (endOf n)) (x.drop (endOf n)) with _ | _
  · rw [if_pos rfl]; rfl
  rw [if_neg (by simp)]
  have e1 : (s.pin k).status = s.status := rfl
  rw [e1]
  rcases hs : s.status with _ | ⟨loc, rem⟩ | _
  · simp [Status.applyAction, undue, hs, replyOf]
  · cases rem with
    | waitConnectMsg =>
      cases hkp : s.ephemeralKp with
      | none => exact absurd hkp (hw.wait _ hs)
      | some kp =>
        obtain ⟨rfl, -, -⟩ := hw.kp _ hkp
        simp only [Status.applyAction, Layer.computeSharedSecret_eq, Layer.pin, hkp, if_true]
        rcases hsec : sessionKey env.cr st.random (env.cr.xPublic st.random) epk with _ | sec
        · rw [if_pos rfl]; rfl
        · rw [if_neg (by simp)]
          exact reply_getMessage (fun _ => rfl) (by omega)
    | validConnectMsgReceived => simp [Status.applyAction, undue, hs, replyOf, refused, invalidMsg]
    | ackMsgSent => simp [Status.applyAction, undue, hs, replyOf, refused, invalidMsg]
  · simp [Status.applyAction, undue, hs, replyOf, refused, invalidMsg]

theorem reply_ack (hw : Wf env st s) {x c inc : Bytes} {n : Nat} :
    replyOf (s.readAck env inc ⟨x, 50, endOf n, .ack c⟩ c).2 = replyClear env st s x (.ack n c) := by
  unfold replyClear Layer.readAck
  dsimp only
  rw [hw.epub]
  by_cases hc : c ≠ env.cr.sha256 (env.cr.xPublic st.random)
  · rw [if_pos hc, if_pos hc]; rfl
  rw [if_neg hc, if_neg hc]
  rcases hk : s.peerSigPubkey with _ | k
  · rcases ha : s.ackMsgRecvTooEarly with _ | a <;> simp [replyOf, refused, invalidMsg]
  dsimp only
  rw [verifySig_eq]
  by_cases hl : x.length < endOf n
  · rw [if_neg (by omega), if_pos hl]; rfl
  rw [if_pos (by omega), if_neg hl]
  rcases hv : env.cr.edVerify k (x.take (endOf n)) (x.drop (endOf n)) with _ | _
  · rw [if_pos rfl]; rfl
  rw [if_neg (by simp)]
  have hg := reply_getMessage (x := x) (b := 50) (e := endOf n) (h := .ack c) (m := .ack) (fun _ => rfl) (by omega)
  rcases hs : s.status with _ | ⟨loc, rem⟩ | _
  · simp [Status.applyAction, undue, hs, replyOf]
  · cases loc <;> cases rem <;>
      simp [Status.applyAction, undue, hs, replyOf, refused, invalidMsg] <;> exact hg
  · simp [Status.applyAction, undue, hs, replyOf, refused, invalidMsg]

theorem reply_nonces (hw : WinOk s) {num : Nat} (hn : num < 2 ^ 64) (hf : ¬ s.seen num) :
    (num = s.nextNonceExpected ∧ env.overflowChecks = true ∧ s.nextNonceExpected + s.orphanNonces.card + 1 = 2 ^ 64 ∧
      (s.updateNonces env num).2 = .panic .overflow) ∨
    (num = s.nextNonceExpected ∧
      ¬ (env.overflowChecks = true ∧ s.nextNonceExpected + s.orphanNonces.card + 1 = 2 ^ 64) ∧
      (s.updateNonces env num).2 = .ok ()) ∨
    (num ≠ s.nextNonceExpected ∧ 10000 ≤ s.orphanNonces.card ∧
      (s.updateNonces env num).2 = .err .tooManyUnorderedMsgs) ∨
    (num ≠ s.nextNonceExpected ∧ ¬ 10000 ≤ s.orphanNonces.card ∧ (s.updateNonces env num).2 = .ok ()) := by
  have hu : u64Size = 2 ^ 64 := rfl
  by_cases hne : num = s.nextNonceExpected
  · rcases updateNonces_spec env s num hw hn hf with ⟨O', n', h1, h2, -, h4⟩ | ⟨h0, h1, -⟩ | ⟨h0, h1, h2, -⟩ | ⟨h0, -⟩
    · refine .inr (.inl ⟨hne, ?_, by rw [h1]⟩)
      rintro ⟨-, hsum⟩
      have a1 := h2.exp
      have a2 := h2.orph
      have a3 : O'.card ≤ u64Size - 1 - n' := by
        have hsub : O' ⊆ Finset.Ioo n' u64Size := by
          intro x hx
          have := a2 x hx
          simp only [Finset.mem_Ioo]
          exact this
        have := Finset.card_le_card hsub
        rw [Nat.card_Ioo] at this
        omega
      simp only at a1 h4
      omega
    · exact .inr (.inl ⟨hne, by simp [h0], by rw [h1]⟩)
    · exact .inl ⟨hne, h0, h2, by rw [h1]⟩
    · exact absurd hne h0
  · unfold Layer.updateNonces
    rw [if_neg hne]
    by_cases hc : s.orphanNonces.card ≥ MAX_ORPHAN_NONCES
    · rw [if_pos hc]
      exact .inr (.inr (.inl ⟨hne, hc, rfl⟩))
    · rw [if_neg hc]
      exact .inr (.inr (.inr ⟨hne, hc, rfl⟩))

theorem reply_user (hw : Wf env st s) {x : Bytes} {n num : Nat} (hn : num < 2 ^ 64) :
    replyOf (s.readUser env ⟨x, 26, endOf n, .userMsg num⟩ num).2 = replySealed env s x (.user n num) := by
  unfold replySealed Layer.readUser
  dsimp only
  by_cases hf : num < s.nextNonceExpected ∨ num ∈ s.orphanNonces
  · rw [if_pos hf, if_pos hf]; rfl
  rw [if_neg hf, if_neg hf]
  rcases hs : s.status with _ | ⟨loc, rem⟩ | _
  · simp [Status.applyAction, undue, hs, replyOf]
  · cases loc <;> cases rem <;> simp [Status.applyAction, undue, hs, replyOf, refused, invalidMsg]
  have hself : { s with status := Status.success } = s := by rw [← hs]
  simp only [Status.applyAction, sliceTo, sliceFrom, hself]
  by_cases hl : x.length < endOf n
  · rw [if_neg (by omega), if_pos hl]; rfl
  rw [if_pos (by omega), if_pos (by omega), if_neg hl]
  dsimp only
  by_cases hh : x.drop (endOf n) ≠ env.cr.sha256 (x.take (endOf n))
  · rw [if_pos hh, if_pos hh]; rfl
  rw [if_neg hh, if_neg hh]
  have hg := reply_getMessage (x := x) (b := 26) (e := endOf n) (h := .userMsg num) (m := .message) (fun _ => rfl)
    (by omega)
  rcases reply_nonces (env := env) hw.win hn hf with ⟨h1, h2, h3, h4⟩ | ⟨h1, h2, h4⟩ | ⟨h1, h2, h4⟩ | ⟨h1, h2, h4⟩ <;>
    rcases hu : s.updateNonces env num with ⟨s', r⟩ <;> rw [hu] at h4 <;> dsimp only at h4 <;> subst h4 <;> dsimp only
  · rw [if_pos h1, if_pos ⟨h2, h3⟩]; rfl
  · rw [if_pos h1, if_neg h2]; exact hg
  · rw [if_neg h1, if_pos h2]; rfl
  · rw [if_neg h1, if_neg h2]; exact hg

/-! ### `read` -/

theorem replies_read (law : env.cr.Lawful) (hw : Wf env st s) {inc : Bytes} {r : Reply}
    (h : Replies env st s inc r) : replyOf (s.read env inc).2 = r := by
  have pan : (∃ p, readerRead env s.secret inc true = .panic p) → replyOf (s.read env inc).2 = none := by
    rintro ⟨p, hp⟩
    unfold Layer.read Layer.readInner
    rw [hp]; rfl
  have err : ∀ e, readerRead env s.secret inc true = .err e → replyOf (s.read env inc).2 = some (.error e) := by
    intro e hp
    unfold Layer.read Layer.readInner
    rw [hp]; rfl
  cases h with
  | short hl => exact pan ((readerRead_panic_iff law _ _ _).mpr (.inl hl))
  | noTag hk hl hm => exact pan ((readerRead_panic_iff law _ _ _).mpr (.inr (.inl ⟨_, hk, hm, hl⟩)))
  | noKey hk hl hm =>
    refine err (.recvInvalidMsg .unexpectedMessage) ?_
    unfold readerRead openIncoming
    rw [show sliceTo inc MAGIC_VALUE_END = .ok (inc.take 4) from sliceTo_eq_ok.mpr ⟨hl, rfl⟩, hk]
    have hm : inc.take 4 ≠ MAGIC_VALUE := hm
    simp [hm, invalidMsg]
  | @forged k hk hl hm hx =>
    refine err .failToDecryptData ?_
    unfold readerRead openIncoming
    rw [show sliceTo inc MAGIC_VALUE_END = .ok (inc.take 4) from sliceTo_eq_ok.mpr ⟨by simp [MAGIC_VALUE_END]; omega, rfl⟩, hk]
    have hm : inc.take 4 ≠ MAGIC_VALUE := hm
    have hd : decrypt env k inc = .err .failToDecryptData := by
      rcases hd : decrypt env k inc with x | e | p
      · exact absurd ((decrypt_iff law).mp hd) (hx x)
      · rw [decrypt_err hd]
      · exfalso
        unfold decrypt at hd
        rw [if_neg (by simp [CHACHA20_TAG_SIZE]; omega)] at hd
        dsimp only at hd
        split at hd <;> simp at hd
    simp [hm, hd]
  | @clear F hm hF =>
    have hp := frame_parsed false hF
    have hrd : readerRead env s.secret inc true = parseClear env false inc true := readerRead_clear hm
    rw [← hrd] at hp
    cases F with
    | truncated => exact pan hp
    | magic => exact absurd hm hF.2
    | version => exact err _ hp
    | type => exact err _ hp
    | algo => exact err _ hp
    | user n num => exact err _ hp
    | connect n epk k =>
      have hp : readerRead env s.secret inc true = .ok _ := hp
      unfold Layer.read Layer.readInner
      rw [hp]
      exact reply_connect hw
    | ack n c =>
      have hp : readerRead env s.secret inc true = .ok _ := hp
      unfold Layer.read Layer.readInner
      rw [hp]
      exact reply_ack hw
  | @sealed k x F hk hm hx hF =>
    have hp := frame_parsed true hF
    have hrd : readerRead env s.secret inc true = parseClear env true x true := by
      rw [hk, hx]; exact readerRead_sealed law k x (by rw [← hx]; exact hm)
    rw [← hrd] at hp
    cases F with
    | truncated => exact pan hp
    | magic => exact err _ hp
    | version => exact err _ hp
    | type => exact err _ hp
    | algo => exact err _ hp
    | connect n epk k => exact err _ hp
    | ack n c => exact err _ hp
    | user n num =>
      have hp : readerRead env s.secret inc true = .ok _ := hp
      unfold Layer.read Layer.readInner
      rw [hp]
      exact reply_user hw hF.2.1

theorem replies_total (env : Env) (st : Start) (s : Layer) (inc : Bytes) : ∃ r, Replies env st s inc r := by
  by_cases h4 : inc.length < 4
  · exact ⟨_, .short h4⟩
  by_cases hm : inc.take 4 = [0xE2, 0xC2, 0xE2, 0xD2]
  · obtain ⟨F, hF⟩ := frame_total env.overflowChecks inc
    exact ⟨_, .clear hm hF⟩
  rcases hk : s.secret with _ | k
  · exact ⟨_, .noKey hk (by omega) hm⟩
  by_cases h16 : inc.length < 16
  · exact ⟨_, .noTag hk h16 hm⟩
  by_cases hx : ∃ x, inc = aeadSeal env.cr k x
  · obtain ⟨x, hx⟩ := hx
    obtain ⟨F, hF⟩ := frame_total env.overflowChecks x
    exact ⟨_, .sealed hk hm hx hF⟩
  · push Not at hx
    exact ⟨_, .forged hk (by omega) hm hx⟩

/-- **C73.** In every reachable state, the answer of `read` to any input is the one of `Spec.Replies`. -/
theorem C73_read {h : List Event} (law : env.cr.Lawful) (hr : Run env st h s) (inc : Bytes) (r : Reply) :
    replyOf (s.read env inc).2 = r ↔ Replies env st s inc r := by
  refine ⟨?_, replies_read law (Wf.of_run hr)⟩
  rintro rfl
  obtain ⟨r, h⟩ := replies_total env st s inc
  rwa [replies_read law (Wf.of_run hr) h]

/-- Toy party B, negotiated: a message of the other party, garbage, and a CONNECT out of turn. -/
example (oc : Bool) : ∃ h, Run (Toy.env oc) Toy.stB h Toy.b4 ∧
    Replies (Toy.env oc) Toy.stB Toy.b4 (cipherOf Toy.cr Toy.key 3 [5]) (some (.ok (some (.message (some [5]))))) ∧
    Replies (Toy.env oc) Toy.stB Toy.b4 (List.replicate 20 1 ++ List.replicate 20 2) (some (.error .failToDecryptData)) ∧
    Replies (Toy.env oc) Toy.stB Toy.b4 (Toy.sign Toy.seedA Toy.conA) (refused .unexpectedConnectMsg) ∧
    Replies (Toy.env oc) Toy.stB Toy.b4 [1, 2, 3] none := by
  obtain ⟨h, hr, -⟩ := Toy.hist_b4 oc
  refine ⟨h, hr, ?_, ?_, ?_, ?_⟩ <;> refine (C73_read Toy.lawful hr _ _).mp ?_ <;> cases oc <;> decide +kernel

/-- A USER message in the clear is refused whatever its length field says. -/
example {h : List Event} (law : env.cr.Lawful) (hr : Run env st h s) (x : Bytes) {n num : Nat}
    (hF : IsFrame env.overflowChecks x (.user n num)) :
    replyOf (s.read env x).2 = refused .unexpectedEncryptionState := by
  obtain ⟨-, -, rest, hx⟩ := id hF
  exact (C73_read law hr _ _).mpr (.clear (by rw [hx]; exact wire_take4 _ _ _) hF)

/-! ### `read_bin` -/

theorem inflated_none {cr : Crypto} {d : Option Bytes} (h : inflated cr d = none) : SecureLayer.uncompressOpt cr d = .err .zipError := by
  rcases d with _ | b
  · simp [inflated] at h
  · have h : cr.inflate b = none := by simpa [inflated] using h
    simp [SecureLayer.uncompressOpt, SecureLayer.uncompress, h]

theorem inflated_some {cr : Crypto} {d d' : Option Bytes} (h : inflated cr d = some d') : SecureLayer.uncompressOpt cr d = .ok d' := by
  rcases d with _ | b
  · simpa [inflated, SecureLayer.uncompressOpt] using h
  · obtain ⟨x, h1, rfl⟩ : ∃ x, cr.inflate b = some x ∧ some x = d' := by simpa [inflated] using h
    simp [SecureLayer.uncompressOpt, SecureLayer.uncompress, h1]

theorem uncompressUserMsgs_form {cr : Crypto} {ms : List Message} {acc l : List BinMessage}
    (h : SecureLayer.uncompressUserMsgs cr ms acc = .ok l) : ∃ us : List (Option Bytes), l = acc ++ us.map .message := by
  induction ms generalizing acc with
  | nil => exact ⟨[], by simpa [SecureLayer.uncompressUserMsgs] using h.symm⟩
  | cons m ms ih =>
    cases m with
    | connect a b c => exact ih (by simpa [SecureLayer.uncompressUserMsgs] using h)
    | ack c => exact ih (by simpa [SecureLayer.uncompressUserMsgs] using h)
    | message d =>
      unfold SecureLayer.uncompressUserMsgs at h
      rcases hu : SecureLayer.uncompressOpt cr d with d' | e | p <;> rw [hu] at h <;> dsimp only at h
      · obtain ⟨us, hus⟩ := ih h
        exact ⟨d' :: us, by rw [hus]; simp⟩
      · simp at h
      · simp at h

theorem passed_on (sl : SecureLayer) (inc : Bytes) :
    PassedOn env.cr (replyOf (sl.minimal.read env inc).2) (sl.readBin env inc).2 := by
  unfold SecureLayer.readBin
  rcases sl.minimal.read env inc with ⟨m, (_ | msg) | e | p⟩
  · rfl
  · cases msg with
    | message d =>
      rcases hi : inflated env.cr d with _ | d'
      · simp only [replyOf, PassedOn, hi, inflated_none hi]
      · simp only [replyOf, PassedOn, hi, inflated_some hi]
    | connect a k d =>
      rcases hi : inflated env.cr d with _ | d'
      · simp only [replyOf, PassedOn, hi, inflated_none hi]
      · simp only [replyOf, PassedOn, hi, inflated_some hi]
        intro ms hms
        rcases hta : m.takeAck env with ⟨m', (_ | x) | e | p⟩ <;> rw [hta] at hms
        · left; simpa using hms.symm
        · cases x with
          | ack ad =>
            dsimp only at hms
            rcases hu : SecureLayer.uncompressOpt env.cr ad with d'' | e | p <;> rw [hu] at hms <;> dsimp only at hms
            · right; exact ⟨d'', by simpa using hms.symm⟩
            · simp at hms
            · simp at hms
          | connect a b c => left; simpa using hms.symm
          | message c => left; simpa using hms.symm
        · simp at hms
        · simp at hms
    | ack d =>
      rcases hi : inflated env.cr d with _ | d'
      · simp only [replyOf, PassedOn, hi, inflated_none hi]
      · simp only [replyOf, PassedOn, hi, inflated_some hi]
        intro ms hms
        rcases hta : m.drainTmpStack env with ⟨m', x | e | p⟩ <;> rw [hta] at hms
        · obtain ⟨us, hus⟩ := uncompressUserMsgs_form hms
          exact ⟨us, by simpa using hus⟩
        · simp at hms
        · simp at hms
  · rfl
  · exact ⟨p, rfl⟩

/-- **C73**, complete mode: `read_bin` passes on the answer of `Spec.Replies`. -/
theorem C73_complete {M : Type} {f : Features} {cst : CStart} {h : List (CEvent M)} {sl : SecureLayer}
    (law : env.cr.Lawful) (hr : CRun env f cst h sl) (inc : Bytes) :
    ∃ r, Replies env cst.inner sl.minimal inc r ∧ PassedOn env.cr r (sl.readBin env inc).2 := by
  obtain ⟨r, h⟩ := replies_total env cst.inner sl.minimal inc
  refine ⟨r, h, ?_⟩
  have := passed_on (env := env) sl inc
  rwa [replies_read law hr.wf h] at this

/-- Toy party B, negotiated, passes on a message with the content that was compressed and refuses other bytes. -/
example (M : Type) (f : Features) (oc : Bool) : ∃ h, CRun (M := M) (Toy.env oc) f Toy.cstB h (Toy.csB Toy.b4) ∧
    PassedOn (Toy.env oc).cr (some (.ok (some (.message (some (Toy.cr.deflate 0 [5]))))))
      ((Toy.csB Toy.b4).readBin (Toy.env oc) (cipherOf Toy.cr Toy.key 3 (Toy.cr.deflate 0 [5]))).2 ∧
    ((Toy.csB Toy.b4).readBin (Toy.env oc) (cipherOf Toy.cr Toy.key 3 (Toy.cr.deflate 0 [5]))).2 =
      .ok [.message (some [5])] ∧
    ((Toy.csB Toy.b4).readBin (Toy.env oc) (List.replicate 20 1 ++ List.replicate 20 2)).2 = .err .failToDecryptData := by
  obtain ⟨h, hr⟩ := Toy.creach_b4 M f oc
  refine ⟨h, hr, ?_, by cases oc <;> decide +kernel, by cases oc <;> decide +kernel⟩
  have e : replyOf ((Toy.csB Toy.b4).minimal.read (Toy.env oc) (cipherOf Toy.cr Toy.key 3 (Toy.cr.deflate 0 [5]))).2 =
      some (.ok (some (.message (some (Toy.cr.deflate 0 [5]))))) := by cases oc <;> decide +kernel
  rw [← e]
  exact passed_on (env := Toy.env oc) _ _

end
end Pkstl

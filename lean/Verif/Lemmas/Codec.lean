import Verif.Lemmas.ReadCase
/- Parsing well-formed frames, and what parsed data look like, per message type. -/
namespace Pkstl
open Spec

/-- The bytes in front of the payload. -/
def hdrBytes : MsgTypeHeaders → Bytes
  | .connect epk algo k => [0, 1] ++ epk ++ algo ++ k
  | .ack c => [0, 2] ++ c
  | .userMsg n => [0, 0] ++ be64 n

/-- Sizes the parser guarantees. -/
def hdrOk : MsgTypeHeaders → Prop
  | .connect epk algo k => epk.length = 32 ∧ algo = [0, 0, 0, 0] ∧ k.length = 32
  | .ack c => c.length = 32
  | .userMsg n => n < u64Size

theorem readTypeHeaders_iff {th : Bytes} {h : MsgTypeHeaders} {l : Nat} :
    readTypeHeaders th = .ok (h, l) ↔
      hdrOk h ∧ l = (hdrBytes h).length ∧ ∃ rest, th = hdrBytes h ++ rest := by
  constructor
  · intro heq
    rcases readTypeHeaders_inv heq with ⟨nb, rest, hl, rfl, rfl, rfl⟩ | ⟨epk, pk, rest, h1, h2, rfl, rfl, rfl⟩ |
      ⟨c, rest, hl, rfl, rfl, rfl⟩
    · refine ⟨beNat_lt_u64 hl, by simp [hdrBytes], rest, ?_⟩
      simp [hdrBytes, be64_beNat hl]
    · exact ⟨⟨h1, rfl, h2⟩, by simp [hdrBytes, h1, h2], rest, by simp [hdrBytes]⟩
    · exact ⟨hl, by simp [hdrBytes, hl], rest, by simp [hdrBytes]⟩
  · rintro ⟨hok, rfl, rest, rfl⟩
    cases h with
    | connect epk algo k =>
      obtain ⟨h1, rfl, h2⟩ := hok
      have := readTypeHeaders_connect epk k rest h1 h2
      simp [hdrBytes, h1, h2] at this ⊢
      exact this
    | ack c =>
      have hok : c.length = 32 := hok
      have := readTypeHeaders_ack c rest hok
      simp [hdrBytes, hok] at this ⊢
      exact this
    | userMsg n =>
      have := readTypeHeaders_user (be64 n) rest (by simp)
      rw [beNat_be64 hok] at this
      simp [hdrBytes] at this ⊢
      exact this

/-- Exact characterisation of a successful parse. -/
theorem parseClear_iff {env : Env} {enc chk : Bool} {x : Bytes} {d : DecryptedIncomingData} :
    parseClear env enc x chk = .ok d ↔
      d.data = x ∧ hdrOk d.msgTypeHeaders ∧
      d.userMsgBegin = 16 + (hdrBytes d.msgTypeHeaders).length ∧
      (chk = true → enc = d.msgTypeHeaders.mustBeEncrypted) ∧
      ∃ lb rest, lb.length = 8 ∧ addU64 env.overflowChecks 16 (beNat lb) = some d.userMsgEnd ∧
        x = [0xE2, 0xC2, 0xE2, 0xD2] ++ ([0, 0, 0, 1] ++ (lb ++ (hdrBytes d.msgTypeHeaders ++ rest))) := by
  constructor
  · intro h
    obtain ⟨lb, th, hl, hlb, rfl, he, hr, hd, hb, hc⟩ := parseClear_inv h
    obtain ⟨hok, rfl, rest, rfl⟩ := readTypeHeaders_iff.mp hr
    exact ⟨hd, hok, hb, hc, lb, rest, hlb, he, rfl⟩
  · rintro ⟨hd, hok, hb, hc, lb, rest, hlb, he, rfl⟩
    rw [parseClear_frame env enc chk lb _ hlb, he]
    have := (readTypeHeaders_iff (th := hdrBytes d.msgTypeHeaders ++ rest) (h := d.msgTypeHeaders)
      (l := (hdrBytes d.msgTypeHeaders).length)).mpr ⟨hok, rfl, rest, rfl⟩
    rw [this]
    simp only [Res.bind_ok]
    rw [if_neg (by rintro ⟨h1, h2⟩; exact h2 (hc h1))]
    rw [← hd, ← hb]

theorem getMessage_eq_ok {d : DecryptedIncomingData} {m : Option Message}
    (h : Layer.getMessage d = .ok m) :
    d.userMsgBegin ≤ d.userMsgEnd ∧ d.userMsgEnd ≤ d.data.length ∧
    m = some (Message.fromBytes ((d.data.drop d.userMsgBegin).take (d.userMsgEnd - d.userMsgBegin))
      d.msgTypeHeaders) := by
  unfold Layer.getMessage at h
  split at h
  · rename_i hc; simp at h; exact ⟨hc.1, hc.2, h.symm⟩
  · simp at h

theorem getMessage_ne_err {d : DecryptedIncomingData} {e : Error} : Layer.getMessage d ≠ .err e := by
  unfold Layer.getMessage; split <;> simp

theorem getMessage_ne_none {d : DecryptedIncomingData} : Layer.getMessage d ≠ .ok none := by
  unfold Layer.getMessage; split <;> simp

theorem getMessage_panic {d : DecryptedIncomingData} {p : Panic} (h : Layer.getMessage d = .panic p) :
    p = .drainRange ∧ ¬(d.userMsgBegin ≤ d.userMsgEnd ∧ d.userMsgEnd ≤ d.data.length) := by
  unfold Layer.getMessage at h
  split at h
  · simp at h
  · rename_i hc; simp at h; exact ⟨h.symm, hc⟩

/-- The message reported for given headers and payload. -/
def reported (h : MsgTypeHeaders) (payload : Bytes) : Message :=
  match h with
  | .connect _ algo k => .connect algo k (present payload)
  | .ack _ => .ack (present payload)
  | .userMsg _ => .message (present payload)

theorem fromBytes_eq (p : Bytes) (h : MsgTypeHeaders) : Message.fromBytes p h = reported h p := by
  cases p <;> cases h <;> simp [Message.fromBytes, reported, present]

/-- Data from which a message was taken are in canonical form. -/
theorem canonical {env : Env} {enc chk : Bool} {x : Bytes} {d : DecryptedIncomingData} {m : Option Message}
    (h : parseClear env enc x chk = .ok d) (hm : Layer.getMessage d = .ok m) :
    ∃ payload tail, x = frame (hdrBytes d.msgTypeHeaders ++ payload) ++ tail ∧
      d.data = x ∧
      x.take d.userMsgEnd = frame (hdrBytes d.msgTypeHeaders ++ payload) ∧
      x.drop d.userMsgEnd = tail ∧ m = some (reported d.msgTypeHeaders payload) ∧
      (hdrBytes d.msgTypeHeaders ++ payload).length + 16 < u64Size := by
  obtain ⟨hd, hok, hb, hc, lb, rest, hlb, he, hx⟩ := parseClear_iff.mp h
  obtain ⟨h1, h2, rfl⟩ := getMessage_eq_ok hm
  generalize hH : hdrBytes d.msgTypeHeaders = H at *
  have hsz := beNat_lt_u64 hlb
  have hnw : d.userMsgEnd = 16 + beNat lb ∧ 16 + beNat lb < u64Size := by
    unfold addU64 at he
    split at he
    · rename_i hlt; simp at he; exact ⟨he.symm, hlt⟩
    · split at he
      · simp at he
      · simp at he
        exfalso
        have h64 : u64Size = 18446744073709551616 := by simp [u64Size]
        rw [h64] at he
        omega
  obtain ⟨hend, hlt⟩ := hnw
  have hlen : d.data.length = 16 + H.length + rest.length := by
    rw [hd, hx]; simp [hlb]; omega
  have hk : d.userMsgEnd - d.userMsgBegin ≤ rest.length := by omega
  refine ⟨rest.take (d.userMsgEnd - d.userMsgBegin), rest.drop (d.userMsgEnd - d.userMsgBegin), ?_⟩
  have hbody : (H ++ rest.take (d.userMsgEnd - d.userMsgBegin)).length = beNat lb := by
    simp [List.length_take]; omega
  have hfr : frame (H ++ rest.take (d.userMsgEnd - d.userMsgBegin)) =
      [0xE2, 0xC2, 0xE2, 0xD2] ++ ([0, 0, 0, 1] ++ (lb ++ (H ++ rest.take (d.userMsgEnd - d.userMsgBegin)))) := by
    unfold frame
    rw [hbody, be64_beNat hlb]
    simp
  have hx2 : x = frame (H ++ rest.take (d.userMsgEnd - d.userMsgBegin)) ++
      rest.drop (d.userMsgEnd - d.userMsgBegin) := by
    rw [hfr]; conv => lhs; rw [hx, ← List.take_append_drop (d.userMsgEnd - d.userMsgBegin) rest]
    simp
  have hfl : (frame (H ++ rest.take (d.userMsgEnd - d.userMsgBegin))).length = d.userMsgEnd := by
    rw [hfr]; simp only [List.length_append, hlb, List.length_cons, List.length_nil] at hbody ⊢; omega
  refine ⟨hx2, hd, ?_, ?_, ?_, by rw [hbody]; omega⟩
  · conv => lhs; rw [hx2]
    exact List.take_left' hfl
  · conv => lhs; rw [hx2]
    exact List.drop_left' hfl
  · rw [fromBytes_eq]
    have : (d.data.drop d.userMsgBegin).take (d.userMsgEnd - d.userMsgBegin)
        = rest.take (d.userMsgEnd - d.userMsgBegin) := by
      rw [hd, hx, hb]
      congr 1
      rw [show [0xE2, 0xC2, 0xE2, 0xD2] ++ ([0, 0, 0, 1] ++ (lb ++ (H ++ rest)))
        = ([0xE2, 0xC2, 0xE2, 0xD2] ++ [0, 0, 0, 1] ++ lb ++ H) ++ rest by simp]
      exact List.drop_left' (by simp [hlb]; omega)
    rw [this]

/-- Parsing a canonical frame. -/
theorem parse_frame {env : Env} {enc chk : Bool} {h : MsgTypeHeaders} (payload tail : Bytes)
    (hok : hdrOk h) (hc : chk = true → enc = h.mustBeEncrypted)
    (hlen : 16 + (hdrBytes h ++ payload).length < u64Size) :
    ∃ d, parseClear env enc (frame (hdrBytes h ++ payload) ++ tail) chk = .ok d ∧
      d.data = frame (hdrBytes h ++ payload) ++ tail ∧ d.msgTypeHeaders = h ∧
      d.userMsgEnd = (frame (hdrBytes h ++ payload)).length ∧
      Layer.getMessage d = .ok (some (reported h payload)) := by
  let d : DecryptedIncomingData :=
    { data := frame (hdrBytes h ++ payload) ++ tail
      userMsgBegin := 16 + (hdrBytes h).length
      userMsgEnd := 16 + (hdrBytes h ++ payload).length
      msgTypeHeaders := h }
  have hp : parseClear env enc (frame (hdrBytes h ++ payload) ++ tail) chk = .ok d := by
    rw [parseClear_iff]
    refine ⟨rfl, hok, rfl, hc, be64 (hdrBytes h ++ payload).length, payload ++ tail, by simp, ?_, ?_⟩
    · rw [beNat_be64 (by omega), addU64_of_lt hlen]
    · simp [frame, d]
  have hlenf : (frame (hdrBytes h ++ payload)).length = 16 + (hdrBytes h ++ payload).length := by
    simp [frame]; omega
  refine ⟨d, hp, rfl, rfl, hlenf.symm, ?_⟩
  unfold Layer.getMessage
  rw [if_pos]
  · rw [fromBytes_eq]
    congr 3
    simp only [d]
    rw [show frame (hdrBytes h ++ payload) ++ tail
      = ([0xE2, 0xC2, 0xE2, 0xD2] ++ [0, 0, 0, 1] ++ be64 (hdrBytes h ++ payload).length ++ hdrBytes h) ++
        (payload ++ tail) by simp [frame]]
    rw [List.drop_left' (by simp; omega), List.take_left' (by simp; omega)]
  · simp only [d, List.length_append, hlenf]; omega

theorem frame_length (b : Bytes) : (frame b).length = 16 + b.length := by
  simp [frame]; omega

theorem frame_inj {a b : Bytes} (h : frame a = frame b) : a = b := by
  have hl := congrArg List.length h
  simp only [frame_length] at hl
  have := List.append_inj_right' h (by omega)
  exact this

theorem frame_take4 (b t : Bytes) : (frame b ++ t).take 4 = MAGIC_VALUE := by
  simp [frame, MAGIC_VALUE]

theorem connectFrame_eq (epk k p : Bytes) :
    connectFrame epk k p = frame (hdrBytes (.connect epk [0, 0, 0, 0] k) ++ p) := by
  simp [connectFrame, hdrBytes]
theorem ackFrame_eq (c p : Bytes) : ackFrame c p = frame (hdrBytes (.ack c) ++ p) := by
  simp [ackFrame, hdrBytes]
theorem userFrame_eq (n : Nat) (p : Bytes) : userFrame n p = frame (hdrBytes (.userMsg n) ++ p) := by
  simp [userFrame, hdrBytes]

theorem toBytes_connect (cr : Crypto) (k : Bytes) (d : Option Bytes) (epk : Bytes) (peer : Option Bytes) :
    (MessageRef.connect SIG_ALGO_ED25519 k d).toBytes cr epk peer = .ok (connectFrame epk k (d.getD [])) := by
  simp [MessageRef.toBytes, MessageRef.prepare, connectFrame, frame, MAGIC_VALUE, CURRENT_VERSION,
    CONNECT_MSG_TYPE, SIG_ALGO_ED25519, be64_eq]
  congr 1; omega

theorem toBytes_ack (cr : Crypto) (d : Option Bytes) (epk peer : Bytes) :
    (MessageRef.ack d).toBytes cr epk (some peer) = .ok (ackFrame (cr.sha256 peer) (d.getD [])) := by
  simp [MessageRef.toBytes, MessageRef.prepare, ackFrame, frame, MAGIC_VALUE, CURRENT_VERSION,
    ACK_MSG_TYPE, be64_eq, Nat.add_assoc, Nat.add_comm, Nat.add_left_comm]

theorem toBytes_user (cr : Crypto) (d : Bytes) (n : Nat) (epk : Bytes) (peer : Option Bytes) :
    (MessageRef.message (some d) n).toBytes cr epk peer = .ok (userFrame n d) := by
  simp [MessageRef.toBytes, MessageRef.prepare, userFrame, frame, MAGIC_VALUE, CURRENT_VERSION,
    USER_MSG_TYPE, be64_eq, Nat.add_assoc, Nat.add_comm, Nat.add_left_comm]

end Pkstl

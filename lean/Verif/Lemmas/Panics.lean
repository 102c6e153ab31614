import Verif.Lemmas.Delivered
import Verif.Spec.Malformed
/- When parsing and `read` panic. -/
namespace Pkstl
open Spec

theorem slice_panic {d : Bytes} {a b : Nat} {p : Panic} (h : slice d a b = .panic p) :
    p = .sliceIndex := by unfold slice at h; split at h <;> simp_all
theorem sliceTo_panic {d : Bytes} {b : Nat} {p : Panic} (h : sliceTo d b = .panic p) :
    p = .sliceIndex := by unfold sliceTo at h; split at h <;> simp_all
theorem sliceFrom_panic {d : Bytes} {a : Nat} {p : Panic} (h : sliceFrom d a = .panic p) :
    p = .sliceIndex := by unfold sliceFrom at h; split at h <;> simp_all

theorem bind_eq_panic {α β : Type} {r : Res α} {f : α → Res β} {p : Panic} :
    (r >>= f) = .panic p ↔ r = .panic p ∨ ∃ a, r = .ok a ∧ f a = .panic p := by
  cases r with
  | ok a => simp
  | err e => simp
  | panic q => simp

/-- Which headers are truncated. -/
def HdrTruncated (th : Bytes) : Prop :=
  th.length < 2 ∨ (th.take 2 = [0, 0] ∧ th.length < 10) ∨
  (th.take 2 = [0, 1] ∧ (th.length < 38 ∨ ((th.drop 34).take 4 = [0, 0, 0, 0] ∧ th.length < 70))) ∨
  (th.take 2 = [0, 2] ∧ th.length < 34)

theorem readTypeHeaders_panic_iff (th : Bytes) :
    readTypeHeaders th = .panic .sliceIndex ↔ HdrTruncated th := by
  unfold readTypeHeaders HdrTruncated sliceTo slice
  simp only [MSG_TYPE_LEN, USER_MSG_TYPE, NONCE_SIZE, CONNECT_MSG_TYPE, EPK_SIZE, SIG_PUBKEY_BEGIN, SIG_ALGO_LEN,
    SIG_ALGO_ED25519, ACK_MSG_TYPE, CHALLENGE_SIZE]
  by_cases h1 : 2 ≤ th.length
  swap
  · simp [h1]; omega
  simp only [h1, if_true, Res.bind_ok]
  have h1' : ¬ th.length < 2 := by omega
  by_cases hu : th.take 2 = [0, 0]
  · simp only [hu, if_true]
    by_cases h2 : 10 ≤ th.length
    · simp [h2, h1']; try omega
    · simp [h2, h1']; try omega
  by_cases hc : th.take 2 = [0, 1]
  · simp only [hc, if_true]
    by_cases h2 : 34 ≤ th.length
    swap
    · simp [h2, h1']; try omega
    by_cases h3 : 38 ≤ th.length
    swap
    · simp [h2, h3, h1']; try omega
    by_cases h4 : (th.drop 34).take 4 = [0, 0, 0, 0]
    · by_cases h5 : 70 ≤ th.length
      · simp [h2, h3, h4, h5, h1']; try omega
      · simp [h2, h3, h4, h5, h1']; try omega
    · simp [h2, h3, h4, h1', invalidMsg]; try omega
  by_cases ha : th.take 2 = [0, 2]
  · simp only [ha, if_true]
    by_cases h2 : 34 ≤ th.length
    · simp [h2, h1']; try omega
    · simp [h2, h1']; try omega
  · simp [hu, hc, ha, h1', invalidMsg]

theorem readTypeHeaders_panic {th : Bytes} {p : Panic} (h : readTypeHeaders th = .panic p) :
    p = .sliceIndex := by
  unfold readTypeHeaders at h
  rcases bind_eq_panic.mp h with h | ⟨ty, -, h⟩
  · exact sliceTo_panic h
  split at h
  · rcases bind_eq_panic.mp h with h | ⟨_, -, h⟩
    · exact slice_panic h
    · simp at h
  split at h
  · rcases bind_eq_panic.mp h with h | ⟨_, -, h⟩
    · exact slice_panic h
    rcases bind_eq_panic.mp h with h | ⟨_, -, h⟩
    · exact slice_panic h
    split at h
    · rcases bind_eq_panic.mp h with h | ⟨_, -, h⟩
      · exact slice_panic h
      rcases bind_eq_panic.mp h with h | ⟨_, -, h⟩
      · exact slice_panic h
      simp at h
    · simp [invalidMsg] at h
  split at h
  · rcases bind_eq_panic.mp h with h | ⟨_, -, h⟩
    · exact slice_panic h
    · simp at h
  · simp [invalidMsg] at h

theorem parseClear_panic_iff (env : Env) (enc chk : Bool) (x : Bytes) :
    (∃ p, parseClear env enc x chk = .panic p) ↔ Truncated env.overflowChecks x := by
  unfold Truncated
  by_cases h4 : x.length < 4
  · have e1 : sliceTo x MAGIC_VALUE_END = .panic .sliceIndex := if_neg (by simp [MAGIC_VALUE_END]; omega)
    have : parseClear env enc x chk = .panic .sliceIndex := by
      unfold parseClear; rw [e1]; rfl
    simp [this, h4]
  have h4' : 4 ≤ x.length := by omega
  have e1 : sliceTo x MAGIC_VALUE_END = .ok (x.take 4) := if_pos h4'
  simp only [h4, false_or]
  by_cases hm : x.take 4 = [0xE2, 0xC2, 0xE2, 0xD2]
  swap
  · have : parseClear env enc x chk = invalidMsg .invalidMagicValue := by
      unfold parseClear; rw [e1]; simp only [Res.bind_ok]; exact if_pos hm
    simp [this, hm, invalidMsg]
  simp only [hm, true_and]
  rw [hm] at e1
  by_cases h8 : x.length < 8
  · have e2 : slice x MAGIC_VALUE_END VERSION_END = .panic .sliceIndex :=
      if_neg (by simp [MAGIC_VALUE_END, VERSION_END]; omega)
    have : parseClear env enc x chk = .panic .sliceIndex := by
      unfold parseClear; rw [e1]; simp only [Res.bind_ok]; rw [if_neg (by simp [MAGIC_VALUE]), e2]; rfl
    simp [this, h8]
  have e2 : slice x MAGIC_VALUE_END VERSION_END = .ok ((x.drop 4).take 4) :=
    if_pos (by simp [MAGIC_VALUE_END, VERSION_END]; omega)
  simp only [h8, false_or]
  by_cases hv : (x.drop 4).take 4 = [0, 0, 0, 1]
  swap
  · have : parseClear env enc x chk = invalidMsg .unsupportedVersion := by
      unfold parseClear; rw [e1]; simp only [Res.bind_ok]; rw [if_neg (by simp [MAGIC_VALUE]), e2]
      simp only [Res.bind_ok]; exact if_pos hv
    simp [this, hv, invalidMsg]
  simp only [hv, true_and]
  rw [hv] at e2
  by_cases h16 : x.length < 16
  · have e3 : slice x VERSION_END ENCAPSULED_MSG_BEGIN = .panic .sliceIndex :=
      if_neg (by simp [ENCAPSULED_MSG_BEGIN, VERSION_END]; omega)
    have : parseClear env enc x chk = .panic .sliceIndex := by
      unfold parseClear; rw [e1]; simp only [Res.bind_ok]; rw [if_neg (by simp [MAGIC_VALUE]), e2]
      simp only [Res.bind_ok]; rw [if_neg (by simp [CURRENT_VERSION]), e3]; rfl
    simp only [this, Res.panic.injEq, exists_eq', true_iff]
    left; omega
  -- full prefix
  have hx : x = [0xE2, 0xC2, 0xE2, 0xD2] ++ ([0, 0, 0, 1] ++ ((x.drop 8).take 8 ++ x.drop 16)) := by
    conv => lhs; rw [take_drop_split x 4 4, hm, hv, show 4 + 4 = 8 from rfl]
    conv => lhs; rw [← List.take_append_drop 8 (x.drop 8), List.drop_drop]
  have hlb : ((x.drop 8).take 8).length = 8 := by simp; omega
  have hth : (x.drop 16).length = x.length - 16 := by simp
  generalize hlbd : (x.drop 8).take 8 = lb at *
  generalize hthd : x.drop 16 = th at *
  have hlen : x.length = 16 + th.length := by omega
  have h50 : (x.drop 50).take 4 = (th.drop 34).take 4 := by rw [← hthd, List.drop_drop]
  rw [h50]
  have hpar := parseClear_frame env enc chk lb th hlb
  rw [← hx] at hpar
  have htr : (x.length < 18 ∨
      (env.overflowChecks = true ∧ ∃ n < 2 ^ 64, lb = be64 n ∧ 2 ^ 64 ≤ 16 + n) ∨
      (th.take 2 = [0, 0] ∧ x.length < 26) ∨
      (th.take 2 = [0, 1] ∧ (x.length < 54 ∨ ((th.drop 34).take 4 = [0, 0, 0, 0] ∧ x.length < 86))) ∨
      (th.take 2 = [0, 2] ∧ x.length < 50)) ↔
      ((env.overflowChecks = true ∧ 2 ^ 64 ≤ 16 + beNat lb) ∨ HdrTruncated th) := by
    have e1 : (∃ n < 2 ^ 64, lb = be64 n ∧ 2 ^ 64 ≤ 16 + n) ↔ 2 ^ 64 ≤ 16 + beNat lb := by
      constructor
      · rintro ⟨n, h1, h2, h3⟩
        rw [h2, beNat_be64 h1]; exact h3
      · intro h
        exact ⟨beNat lb, beNat_lt_u64 hlb, (be64_beNat hlb).symm, h⟩
    rw [e1]
    unfold HdrTruncated
    rw [hlen]
    have a1 : (16 + th.length < 18) ↔ th.length < 2 := by omega
    have a2 : (16 + th.length < 26) ↔ th.length < 10 := by omega
    have a3 : (16 + th.length < 54) ↔ th.length < 38 := by omega
    have a4 : (16 + th.length < 86) ↔ th.length < 70 := by omega
    have a5 : (16 + th.length < 50) ↔ th.length < 34 := by omega
    rw [a1, a2, a3, a4, a5]
    exact or_left_comm
  rw [htr]
  rw [hpar]
  cases ha : addU64 env.overflowChecks 16 (beNat lb) with
  | none =>
    unfold addU64 at ha
    split at ha
    · simp at ha
    · rename_i hge
      split at ha
      · rename_i hoc
        simp only [Res.panic.injEq, exists_eq', hoc, true_and, true_iff]
        left; simp [u64Size] at hge; omega
      · simp at ha
  | some e =>
    have hno : ¬ (env.overflowChecks = true ∧ 2 ^ 64 ≤ 16 + beNat lb) := by
      rintro ⟨h1, h2⟩
      unfold addU64 at ha
      rw [if_neg (by simp [u64Size]; omega), h1] at ha
      simp at ha
    simp only [hno, false_or]
    rw [← readTypeHeaders_panic_iff]
    constructor
    · rintro ⟨p, hp⟩
      rcases bind_eq_panic.mp hp with h | ⟨_, -, h⟩
      · rw [readTypeHeaders_panic h] at h; exact h
      · split at h <;> simp [invalidMsg] at h
    · intro h
      exact ⟨_, by rw [h]; rfl⟩

theorem parseClear_panic {env : Env} {enc chk : Bool} {x : Bytes} {p : Panic}
    (h : parseClear env enc x chk = .panic p) : p = .sliceIndex ∨ p = .overflow := by
  unfold parseClear at h
  rcases bind_eq_panic.mp h with h | ⟨_, -, h⟩
  · exact .inl (sliceTo_panic h)
  split at h
  · simp [invalidMsg] at h
  rcases bind_eq_panic.mp h with h | ⟨_, -, h⟩
  · exact .inl (slice_panic h)
  split at h
  · simp [invalidMsg] at h
  rcases bind_eq_panic.mp h with h | ⟨_, -, h⟩
  · exact .inl (slice_panic h)
  dsimp only at h
  split at h
  · simp only [Res.panic.injEq] at h; exact .inr h.symm
  rcases bind_eq_panic.mp h with h | ⟨_, -, h⟩
  · exact .inl (sliceFrom_panic h)
  rcases bind_eq_panic.mp h with h | ⟨_, -, h⟩
  · exact .inl (readTypeHeaders_panic h)
  split at h <;> simp [invalidMsg] at h

theorem readerRead_panic {env : Env} {sec : Option SecretKey} {inc : Bytes} {chk : Bool} {p : Panic}
    (h : readerRead env sec inc chk = .panic p) : p = .sliceIndex ∨ p = .overflow := by
  unfold readerRead at h
  rcases bind_eq_panic.mp h with h | ⟨_, -, h⟩
  · unfold openIncoming at h
    rcases bind_eq_panic.mp h with h | ⟨_, -, h⟩
    · exact .inl (sliceTo_panic h)
    split at h
    · simp at h
    split at h
    · rcases bind_eq_panic.mp h with h | ⟨_, -, h⟩
      · unfold decrypt at h
        split at h
        · split at h <;> simp at h
          · exact .inr h.symm
          · exact .inl h.symm
        · dsimp only at h
          split at h <;> simp at h
      · simp at h
    · simp [invalidMsg] at h
  · exact parseClear_panic h

/-- Panics of the reader, exactly. -/
theorem readerRead_panic_iff {env : Env} (law : env.cr.Lawful) (sec : Option SecretKey) (inc : Bytes) (chk : Bool) :
    (∃ p, readerRead env sec inc chk = .panic p) ↔
      inc.length < 4 ∨
      (∃ k, sec = some k ∧ inc.take 4 ≠ MAGIC_VALUE ∧ inc.length < 16) ∨
      (inc.take 4 = MAGIC_VALUE ∧ Truncated env.overflowChecks inc) ∨
      (∃ k x, sec = some k ∧ inc.take 4 ≠ MAGIC_VALUE ∧ inc = aeadSeal env.cr k x ∧
        Truncated env.overflowChecks x) := by
  by_cases h4 : inc.length < 4
  · have : readerRead env sec inc chk = .panic .sliceIndex := by
      unfold readerRead openIncoming sliceTo
      rw [if_neg (by simp [MAGIC_VALUE_END]; omega)]; rfl
    simp [this, h4]
  simp only [h4, false_or]
  by_cases hm : inc.take 4 = MAGIC_VALUE
  · rw [readerRead_clear hm, parseClear_panic_iff]
    simp [hm]
  simp only [hm, false_and, ne_eq, not_false_eq_true, true_and, false_or]
  have hopen : openIncoming env sec inc = match sec with
      | some k => (decrypt env k inc >>= fun d => .ok (true, d))
      | none => invalidMsg .unexpectedMessage := by
    unfold openIncoming sliceTo
    rw [if_pos (by simp [MAGIC_VALUE_END]; omega)]
    simp only [MAGIC_VALUE_END, Res.bind_ok, hm, if_false]
    cases sec <;> rfl
  cases sec with
  | none =>
    have : readerRead env none inc chk = invalidMsg .unexpectedMessage := by
      unfold readerRead; rw [hopen]; rfl
    simp [this]
  | some k =>
    simp only [Option.some.injEq, exists_eq_left']
    unfold readerRead
    rw [hopen]
    dsimp only
    rcases hd : decrypt env k inc with x | e | p
    · simp only [Res.bind_ok, parseClear_panic_iff]
      have hinc := decrypt_inv hd
      have hlen := aeadSeal_length _ law k x
      constructor
      · intro h
        exact .inr ⟨k, x, rfl, hinc, h⟩
      · rintro (h | ⟨k', x', rfl, h1, h2⟩)
        · rw [hinc, hlen] at h; omega
        · rw [h1, decrypt_aeadSeal law] at hd
          simp only [Res.ok.injEq] at hd
          rw [← hd]; exact h2
    · simp only [Res.bind_err]
      have hge : ¬ inc.length < 16 := by
        intro h
        unfold decrypt at hd
        rw [if_pos (show inc.length < CHACHA20_TAG_SIZE from h)] at hd
        simp at hd
      simp only [reduceCtorEq, exists_false, hge, false_or, false_iff]
      rintro ⟨k', x, rfl, rfl, -⟩
      rw [decrypt_aeadSeal law] at hd
      simp at hd
    · simp only [Res.bind_panic, Res.panic.injEq, exists_eq', true_iff]
      left
      unfold decrypt at hd
      split at hd
      · rename_i h; exact h
      · dsimp only at hd
        split at hd <;> simp at hd

end Pkstl

namespace Pkstl
open Spec

theorem addU64_endOf {oc : Bool} {n e : Nat} (hn : n < u64Size) :
    addU64 oc 16 n = some e ↔ e = endOf n ∧ (oc = true → 16 + n < 2 ^ 64) := by
  have hu : u64Size = 2 ^ 64 := rfl
  unfold addU64 endOf
  rw [hu] at *
  by_cases h : 16 + n < 2 ^ 64
  · rw [if_pos h, Nat.mod_eq_of_lt h]
    simp [h]; exact eq_comm
  · rw [if_neg h]
    cases oc with
    | true => simp [h]
    | false => simp; exact eq_comm

/-- A successful parse, in terms of `wire`. -/
theorem parse_wire_inv {env : Env} {enc chk : Bool} {x : Bytes} {d : DecryptedIncomingData}
    (h : parseClear env enc x chk = .ok d) :
    ∃ n rest, n < 2 ^ 64 ∧ (env.overflowChecks = true → 16 + n < 2 ^ 64) ∧
      x = wire n (hdrBytes d.msgTypeHeaders) rest ∧ hdrOk d.msgTypeHeaders ∧ d.data = x ∧
      d.userMsgEnd = endOf n ∧ d.userMsgBegin = 16 + (hdrBytes d.msgTypeHeaders).length := by
  obtain ⟨hd, hok, hb, -, lb, rest, hlb, he, hx⟩ := parseClear_iff.mp h
  obtain ⟨h1, h2⟩ := (addU64_endOf (beNat_lt_u64 hlb)).mp he
  refine ⟨beNat lb, rest, beNat_lt_u64 hlb, h2, ?_, hok, hd, h1, hb⟩
  rw [hx, wire, be64_beNat hlb]
  simp [List.append_assoc]

theorem parse_wire {env : Env} {enc chk : Bool} {n : Nat} {h : MsgTypeHeaders} (rest : Bytes)
    (hn : n < 2 ^ 64) (hoc : env.overflowChecks = true → 16 + n < 2 ^ 64) (hok : hdrOk h)
    (hc : chk = true → enc = h.mustBeEncrypted) :
    parseClear env enc (wire n (hdrBytes h) rest) chk =
      .ok ⟨wire n (hdrBytes h) rest, 16 + (hdrBytes h).length, endOf n, h⟩ := by
  refine parseClear_iff.mpr ⟨rfl, hok, rfl, hc, be64 n, rest, by simp, ?_, ?_⟩
  · rw [beNat_be64 hn]
    exact (addU64_endOf hn).mpr ⟨rfl, hoc⟩
  · simp [wire, List.append_assoc]

theorem wire_take4 (n : Nat) (hdr rest : Bytes) : (wire n hdr rest).take 4 = MAGIC_VALUE := by
  simp [wire, MAGIC_VALUE]

theorem updateNonces_panic {env : Env} {s s' : Layer} {n : Nat} {p : Panic} (hw : WinOk s) (hn : n < u64Size)
    (hfresh : ¬ s.seen n) (h : s.updateNonces env n = (s', .panic p)) :
    p = .overflow ∧ env.overflowChecks = true ∧ n = s.nextNonceExpected ∧
      s.nextNonceExpected + s.orphanNonces.card + 1 = 2 ^ 64 := by
  rcases updateNonces_spec env s n hw hn hfresh with ⟨O', n', h1, -⟩ | ⟨-, h1, -⟩ | ⟨h0, h1, h2, h3⟩ | ⟨-, -, h1⟩
  · rw [h1] at h; simp at h
  · rw [h1] at h; simp at h
  · rw [h1] at h
    simp only [Prod.mk.injEq, Res.panic.injEq] at h
    refine ⟨h.2.symm, h0, ?_, h2⟩
    rcases h3 s.nextNonceExpected hw.exp with h4 | h4
    · exfalso
      rcases h4 with h4 | h4
      · omega
      · exact absurd (hw.orph _ h4).1 (by omega)
    · exact h4.symm
  · rw [h1] at h; simp at h

end Pkstl

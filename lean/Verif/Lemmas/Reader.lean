import Verif.Lemmas.Bytes
import Verif.Spec.Wire
import Verif.Model.Reader
/- The parser on well-formed data, and the inversion of the parser. -/
namespace Pkstl
open Spec

theorem be64_eq (n : Nat) : be64 n = beBytes 8 n := by
  simp [be64, beBytes]

@[simp] theorem be64_length (n : Nat) : (be64 n).length = 8 := by simp [be64]

theorem beNat_be64 {n : Nat} (h : n < u64Size) : beNat (be64 n) = n := by
  rw [be64_eq]; exact beNat_beBytes_of_lt (by rw [← u64Size_eq]; exact h)

theorem beNat_lt_u64 {b : Bytes} (h : b.length = 8) : beNat b < u64Size := by
  have := beNat_lt b; rw [h] at this; rw [u64Size_eq]; exact this

theorem be64_beNat {b : Bytes} (h : b.length = 8) : be64 (beNat b) = b := by
  rw [be64_eq]; exact beBytes_beNat h

theorem take_drop_split (d : Bytes) (a b : Nat) :
    d = d.take a ++ ((d.drop a).take b ++ d.drop (a + b)) := by
  conv => lhs; rw [← List.take_append_drop a d, ← List.take_append_drop b (d.drop a), List.drop_drop]

/-! ### type headers -/

theorem readTypeHeaders_user (nb rest : Bytes) (h : nb.length = 8) :
    readTypeHeaders ([0, 0] ++ (nb ++ rest)) = .ok (.userMsg (beNat nb), 10) := by
  unfold readTypeHeaders
  rw [show sliceTo ([0, 0] ++ (nb ++ rest)) MSG_TYPE_LEN = .ok [0, 0] from sliceTo_append _ _ rfl,
    slice_append3 [0, 0] nb rest (a := MSG_TYPE_LEN) rfl (by simp [h, MSG_TYPE_LEN, NONCE_SIZE])]
  simp [USER_MSG_TYPE, MSG_TYPE_LEN, NONCE_SIZE]

theorem readTypeHeaders_ack (c rest : Bytes) (h : c.length = 32) :
    readTypeHeaders ([0, 2] ++ (c ++ rest)) = .ok (.ack c, 34) := by
  unfold readTypeHeaders
  rw [show sliceTo ([0, 2] ++ (c ++ rest)) MSG_TYPE_LEN = .ok [0, 2] from sliceTo_append _ _ rfl]
  rw [show slice ([0, 2] ++ (c ++ rest)) MSG_TYPE_LEN (MSG_TYPE_LEN + CHALLENGE_SIZE) = .ok c from
    slice_append3 [0, 2] c rest rfl (by simp [h, MSG_TYPE_LEN, CHALLENGE_SIZE])]
  simp [USER_MSG_TYPE, CONNECT_MSG_TYPE, ACK_MSG_TYPE, MSG_TYPE_LEN, CHALLENGE_SIZE]

theorem readTypeHeaders_connect (epk pk rest : Bytes) (h : epk.length = 32) (h' : pk.length = 32) :
    readTypeHeaders ([0, 1] ++ (epk ++ ([0, 0, 0, 0] ++ (pk ++ rest))))
      = .ok (.connect epk [0, 0, 0, 0] pk, 70) := by
  unfold readTypeHeaders
  rw [show sliceTo ([0, 1] ++ (epk ++ ([0, 0, 0, 0] ++ (pk ++ rest)))) MSG_TYPE_LEN = .ok [0, 1] from
    sliceTo_append _ _ rfl]
  rw [show slice ([0, 1] ++ (epk ++ ([0, 0, 0, 0] ++ (pk ++ rest)))) MSG_TYPE_LEN (MSG_TYPE_LEN + EPK_SIZE)
      = .ok epk from slice_append3 [0, 1] epk _ rfl (by simp [h, MSG_TYPE_LEN, EPK_SIZE])]
  have e1 : [0, 1] ++ (epk ++ ([0, 0, 0, 0] ++ (pk ++ rest)))
      = ([0, 1] ++ epk) ++ ([0, 0, 0, 0] ++ (pk ++ rest)) := by simp
  have e2 : [0, 1] ++ (epk ++ ([0, 0, 0, 0] ++ (pk ++ rest)))
      = ([0, 1] ++ epk ++ [0, 0, 0, 0]) ++ (pk ++ rest) := by simp
  rw [show slice ([0, 1] ++ (epk ++ ([0, 0, 0, 0] ++ (pk ++ rest)))) SIG_PUBKEY_BEGIN (SIG_PUBKEY_BEGIN + 32)
      = .ok pk by
    rw [e2]
    exact slice_append3 _ pk _ (by simp [h, MSG_TYPE_LEN, EPK_SIZE, SIG_PUBKEY_BEGIN, SIG_ALGO_LEN])
      (by simp [h'])]
  rw [show slice ([0, 1] ++ (epk ++ ([0, 0, 0, 0] ++ (pk ++ rest)))) (MSG_TYPE_LEN + EPK_SIZE) SIG_PUBKEY_BEGIN
      = .ok [0, 0, 0, 0] by
    rw [e1]
    exact slice_append3 _ [0, 0, 0, 0] _ (by simp [h, MSG_TYPE_LEN, EPK_SIZE])
      (by simp [MSG_TYPE_LEN, EPK_SIZE, SIG_PUBKEY_BEGIN, SIG_ALGO_LEN])]
  rw [show slice ([0, 1] ++ (epk ++ ([0, 0, 0, 0] ++ (pk ++ rest)))) (MSG_TYPE_LEN + EPK_SIZE)
        (MSG_TYPE_LEN + EPK_SIZE + SIG_ALGO_LEN) = .ok [0, 0, 0, 0] by
    rw [e1]
    exact slice_append3 _ [0, 0, 0, 0] _ (by simp [h, MSG_TYPE_LEN, EPK_SIZE])
      (by simp [MSG_TYPE_LEN, EPK_SIZE, SIG_ALGO_LEN])]
  simp [USER_MSG_TYPE, CONNECT_MSG_TYPE, SIG_ALGO_ED25519, SIG_PUBKEY_BEGIN, MSG_TYPE_LEN, EPK_SIZE,
    SIG_ALGO_LEN]

/-- Everything `readTypeHeaders` can return with `Ok`. -/
theorem readTypeHeaders_inv {th : Bytes} {h : MsgTypeHeaders} {l : Nat}
    (heq : readTypeHeaders th = .ok (h, l)) :
    (∃ nb rest, nb.length = 8 ∧ th = [0, 0] ++ (nb ++ rest) ∧ h = .userMsg (beNat nb) ∧ l = 10) ∨
    (∃ epk pk rest, epk.length = 32 ∧ pk.length = 32 ∧
      th = [0, 1] ++ (epk ++ ([0, 0, 0, 0] ++ (pk ++ rest))) ∧
      h = .connect epk [0, 0, 0, 0] pk ∧ l = 70) ∨
    (∃ c rest, c.length = 32 ∧ th = [0, 2] ++ (c ++ rest) ∧ h = .ack c ∧ l = 34) := by
  unfold readTypeHeaders at heq
  cases hty : sliceTo th MSG_TYPE_LEN with
  | err e => exact absurd hty sliceTo_ne_err
  | panic p => simp [hty] at heq
  | ok ty =>
    rw [hty] at heq
    simp only [Res.bind_ok] at heq
    obtain ⟨hl, hty'⟩ := sliceTo_eq_ok.mp hty
    simp only [MSG_TYPE_LEN] at hl hty'
    split at heq
    · rename_i hu
      cases hn : slice th MSG_TYPE_LEN (MSG_TYPE_LEN + NONCE_SIZE) with
      | err e => exact absurd hn slice_ne_err
      | panic p => simp [hn] at heq
      | ok nb =>
        simp only [hn, Res.bind_ok, Res.ok.injEq, Prod.mk.injEq] at heq
        obtain ⟨-, hb, hnb⟩ := slice_eq_ok.mp hn
        simp only [MSG_TYPE_LEN, NONCE_SIZE] at hb hnb heq
        left
        refine ⟨nb, th.drop 10, ?_, ?_, heq.1.symm, heq.2.symm⟩
        · rw [hnb]; simp; omega
        · have := take_drop_split th 2 8
          rw [← hty', hu, USER_MSG_TYPE] at this
          rw [hnb]
          exact this
    · split at heq
      · rename_i hu hc
        cases he : slice th MSG_TYPE_LEN (MSG_TYPE_LEN + EPK_SIZE) with
        | err e => exact absurd he slice_ne_err
        | panic p => simp [he] at heq
        | ok epk =>
          cases ha : slice th (MSG_TYPE_LEN + EPK_SIZE) SIG_PUBKEY_BEGIN with
          | err e => exact absurd ha slice_ne_err
          | panic p => simp [he, ha] at heq
          | ok algo =>
            simp only [he, ha, Res.bind_ok] at heq
            split at heq
            · rename_i halgo
              cases ha' : slice th (MSG_TYPE_LEN + EPK_SIZE) (MSG_TYPE_LEN + EPK_SIZE + SIG_ALGO_LEN) with
              | err e => exact absurd ha' slice_ne_err
              | panic p => simp [ha'] at heq
              | ok algo' =>
                cases hp : slice th SIG_PUBKEY_BEGIN (SIG_PUBKEY_BEGIN + 32) with
                | err e => exact absurd hp slice_ne_err
                | panic p => simp [ha', hp] at heq
                | ok pk =>
                  simp only [ha', hp, Res.bind_ok, Res.ok.injEq, Prod.mk.injEq] at heq
                  obtain ⟨-, hb1, he⟩ := slice_eq_ok.mp he
                  obtain ⟨-, hb2, ha⟩ := slice_eq_ok.mp ha
                  obtain ⟨-, hb3, ha'⟩ := slice_eq_ok.mp ha'
                  obtain ⟨-, hb4, hp⟩ := slice_eq_ok.mp hp
                  simp only [MSG_TYPE_LEN, EPK_SIZE, SIG_PUBKEY_BEGIN, SIG_ALGO_LEN] at *
                  have haa : algo' = [0, 0, 0, 0] := by
                    rw [ha', ← SIG_ALGO_ED25519, ← halgo, ha]
                  right; left
                  refine ⟨epk, pk, th.drop 70, ?_, ?_, ?_, ?_, heq.2.symm⟩
                  · rw [he]; simp; omega
                  · rw [hp]; simp; omega
                  · have s1 := take_drop_split th 2 32
                    have s2 := take_drop_split (th.drop 34) 4 32
                    have e0 : (th.drop 34).take 4 = [0, 0, 0, 0] := by
                      rw [← haa, ha']
                    rw [← hty', hc, CONNECT_MSG_TYPE] at s1
                    simp only [List.drop_drop] at s2
                    rw [s2, e0] at s1
                    rw [he, hp]
                    exact s1
                  · rw [← heq.1, haa]
            · simp at heq
      · split at heq
        · rename_i hu hc hk
          cases hn : slice th MSG_TYPE_LEN (MSG_TYPE_LEN + CHALLENGE_SIZE) with
          | err e => exact absurd hn slice_ne_err
          | panic p => simp [hn] at heq
          | ok c =>
            simp only [hn, Res.bind_ok, Res.ok.injEq, Prod.mk.injEq] at heq
            obtain ⟨-, hb, hnb⟩ := slice_eq_ok.mp hn
            simp only [MSG_TYPE_LEN, CHALLENGE_SIZE] at hb hnb heq
            right; right
            refine ⟨c, th.drop 34, ?_, ?_, heq.1.symm, heq.2.symm⟩
            · rw [hnb]; simp; omega
            · have := take_drop_split th 2 32
              rw [← hty', hk, ACK_MSG_TYPE] at this
              rw [hnb]
              exact this
        · simp at heq

/-! ### the frame -/

/-- The parser on magic, version, any 8 length bytes and anything behind. -/
theorem parseClear_frame (env : Env) (enc chk : Bool) (lb th : Bytes) (hlb : lb.length = 8) :
    parseClear env enc ([0xE2, 0xC2, 0xE2, 0xD2] ++ ([0, 0, 0, 1] ++ (lb ++ th))) chk =
      match addU64 env.overflowChecks 16 (beNat lb) with
      | none => .panic .overflow
      | some e =>
        (readTypeHeaders th >>= fun (p : MsgTypeHeaders × Nat) =>
          if chk = true ∧ enc ≠ p.1.mustBeEncrypted then invalidMsg .unexpectedEncryptionState
          else .ok { data := [0xE2, 0xC2, 0xE2, 0xD2] ++ ([0, 0, 0, 1] ++ (lb ++ th))
                     userMsgBegin := 16 + p.2
                     userMsgEnd := e
                     msgTypeHeaders := p.1 }) := by
  generalize hd : [0xE2, 0xC2, 0xE2, 0xD2] ++ ([0, 0, 0, 1] ++ (lb ++ th)) = d
  unfold parseClear
  rw [show sliceTo d MAGIC_VALUE_END = .ok MAGIC_VALUE by rw [← hd]; exact sliceTo_append _ _ rfl]
  rw [show slice d MAGIC_VALUE_END VERSION_END = .ok CURRENT_VERSION by
    rw [← hd]; exact slice_append3 _ _ _ rfl rfl]
  rw [show slice d VERSION_END ENCAPSULED_MSG_BEGIN = .ok lb by
    rw [← hd, ← List.append_assoc]
    exact slice_append3 _ _ _ rfl (by simp [hlb, VERSION_END, ENCAPSULED_MSG_BEGIN])]
  rw [show sliceFrom d ENCAPSULED_MSG_BEGIN = .ok th by
    rw [← hd, ← List.append_assoc, ← List.append_assoc]
    exact sliceFrom_append _ _ (by simp [hlb, ENCAPSULED_MSG_BEGIN])]
  simp only [ENCAPSULED_MSG_BEGIN, Res.bind_ok, ne_eq, not_true_eq_false, if_false]
  cases addU64 env.overflowChecks 16 (beNat lb) <;> rfl

/-- Everything `parseClear` can return with `Ok`. -/
theorem parseClear_inv {env : Env} {enc chk : Bool} {d : Bytes} {r : DecryptedIncomingData}
    (h : parseClear env enc d chk = .ok r) :
    ∃ lb th hl, lb.length = 8 ∧ d = [0xE2, 0xC2, 0xE2, 0xD2] ++ ([0, 0, 0, 1] ++ (lb ++ th)) ∧
      addU64 env.overflowChecks 16 (beNat lb) = some r.userMsgEnd ∧
      readTypeHeaders th = .ok (r.msgTypeHeaders, hl) ∧
      r.data = d ∧ r.userMsgBegin = 16 + hl ∧
      (chk = true → enc = r.msgTypeHeaders.mustBeEncrypted) := by
  have hsplit : ∃ lb th, lb.length = 8 ∧
      d = [0xE2, 0xC2, 0xE2, 0xD2] ++ ([0, 0, 0, 1] ++ (lb ++ th)) := by
    unfold parseClear at h
    cases h1 : sliceTo d MAGIC_VALUE_END with
    | err e => exact absurd h1 sliceTo_ne_err
    | panic p => simp [h1] at h
    | ok magic =>
      simp only [h1, Res.bind_ok] at h
      split at h
      · simp at h
      rename_i hm
      cases h2 : slice d MAGIC_VALUE_END VERSION_END with
      | err e => exact absurd h2 slice_ne_err
      | panic p => simp [h2] at h
      | ok version =>
        simp only [h2, Res.bind_ok] at h
        split at h
        · simp at h
        rename_i hv
        cases h3 : slice d VERSION_END ENCAPSULED_MSG_BEGIN with
        | err e => exact absurd h3 slice_ne_err
        | panic p => simp [h3] at h
        | ok lb =>
          obtain ⟨g1, h1⟩ := sliceTo_eq_ok.mp h1
          obtain ⟨-, g2, h2⟩ := slice_eq_ok.mp h2
          obtain ⟨-, g3, h3⟩ := slice_eq_ok.mp h3
          simp only [MAGIC_VALUE_END, VERSION_END, ENCAPSULED_MSG_BEGIN, Classical.not_not] at *
          refine ⟨lb, d.drop 16, by rw [h3]; simp; omega, ?_⟩
          have s1 := take_drop_split d 4 4
          have s2 := take_drop_split (d.drop 8) 8 0
          simp at s2
          rw [← h1, hm, MAGIC_VALUE] at s1
          rw [show List.take 4 (List.drop 4 d) = [0, 0, 0, 1] by rw [← CURRENT_VERSION, ← hv, h2]] at s1
          rw [s2, ← h3] at s1
          exact s1
  obtain ⟨lb, th, hlb, rfl⟩ := hsplit
  rw [parseClear_frame env enc chk lb th hlb] at h
  split at h
  · simp at h
  rename_i e he
  cases hr : readTypeHeaders th with
  | err e => simp [hr] at h
  | panic p => simp [hr] at h
  | ok p =>
    obtain ⟨hh, hl⟩ := p
    simp only [hr, Res.bind_ok] at h
    split at h
    · simp at h
    rename_i hc
    simp only [Res.ok.injEq] at h
    subst h
    refine ⟨lb, th, hl, hlb, rfl, he, hr, rfl, rfl, ?_⟩
    intro hchk
    simpa [hchk] using hc

theorem Res.err_of_bind {α β : Type} {x : Res α} {f : α → Res β} {e : Error} (h : (x >>= f) = .err e) :
    x = .err e ∨ ∃ a, x = .ok a ∧ f a = .err e := by
  cases x with
  | ok a => exact .inr ⟨a, rfl, h⟩
  | err e' => left; cases h; rfl
  | panic p => cases h

/-- The ways a header can be refused. -/
def headerErrors : List IncomingMsgErr :=
  [.invalidMagicValue, .unsupportedVersion, .unexpectedEncryptionState, .unknownMessageType,
   .unsupportedSigAlgo, .unexpectedMessage]

theorem readTypeHeaders_err {th : Bytes} {e : Error} (h : readTypeHeaders th = .err e) :
    ∃ i ∈ headerErrors, e = .recvInvalidMsg i := by
  unfold readTypeHeaders at h
  rcases Res.err_of_bind h with h1 | ⟨ty, -, h⟩
  · exact absurd h1 sliceTo_ne_err
  split at h
  · rcases Res.err_of_bind h with h1 | ⟨_, -, h⟩
    · exact absurd h1 slice_ne_err
    · cases h
  split at h
  · rcases Res.err_of_bind h with h1 | ⟨_, -, h⟩
    · exact absurd h1 slice_ne_err
    rcases Res.err_of_bind h with h1 | ⟨_, -, h⟩
    · exact absurd h1 slice_ne_err
    split at h
    · rcases Res.err_of_bind h with h1 | ⟨_, -, h⟩
      · exact absurd h1 slice_ne_err
      rcases Res.err_of_bind h with h1 | ⟨_, -, h⟩
      · exact absurd h1 slice_ne_err
      cases h
    · cases h; exact ⟨_, by simp [headerErrors], rfl⟩
  split at h
  · rcases Res.err_of_bind h with h1 | ⟨_, -, h⟩
    · exact absurd h1 slice_ne_err
    · cases h
  · cases h; exact ⟨_, by simp [headerErrors], rfl⟩

theorem parseClear_err {env : Env} {enc chk : Bool} {d : Bytes} {e : Error}
    (h : parseClear env enc d chk = .err e) : ∃ i ∈ headerErrors, e = .recvInvalidMsg i := by
  unfold parseClear at h
  rcases Res.err_of_bind h with h1 | ⟨_, -, h⟩
  · exact absurd h1 sliceTo_ne_err
  split at h
  · cases h; exact ⟨_, by simp [headerErrors], rfl⟩
  rcases Res.err_of_bind h with h1 | ⟨_, -, h⟩
  · exact absurd h1 slice_ne_err
  split at h
  · cases h; exact ⟨_, by simp [headerErrors], rfl⟩
  rcases Res.err_of_bind h with h1 | ⟨_, -, h⟩
  · exact absurd h1 slice_ne_err
  split at h
  · cases h
  rcases Res.err_of_bind h with h1 | ⟨_, -, h⟩
  · exact absurd h1 sliceFrom_ne_err
  rcases Res.err_of_bind h with h1 | ⟨_, -, h⟩
  · exact readTypeHeaders_err h1
  dsimp only at h
  split at h
  · cases h; exact ⟨_, by simp [headerErrors], rfl⟩
  · cases h

/-- The errors of `reader::read`. -/
theorem readerRead_err {env : Env} {sec : Option SecretKey} {inc : Bytes} {chk : Bool} {e : Error}
    (h : readerRead env sec inc chk = .err e) : e = .failToDecryptData ∨ ∃ i ∈ headerErrors, e = .recvInvalidMsg i := by
  unfold readerRead at h
  rcases Res.err_of_bind h with h1 | ⟨_, -, h⟩
  · unfold openIncoming at h1
    rcases Res.err_of_bind h1 with h1 | ⟨_, -, h⟩
    · exact absurd h1 sliceTo_ne_err
    split at h
    · cases h
    split at h
    · rcases Res.err_of_bind h with h1 | ⟨_, -, h⟩
      · unfold decrypt at h1
        split at h1
        · cases h1
        · dsimp only at h1
          split at h1
          · cases h1
          · cases h1; exact .inl rfl
      · cases h
    · cases h; exact .inr ⟨_, by simp [headerErrors], rfl⟩
  · exact .inr (parseClear_err h)

end Pkstl

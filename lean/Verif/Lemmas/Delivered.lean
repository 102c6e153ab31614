import Verif.Lemmas.Frame
/- What a delivered message says about the input and the state. -/
namespace Pkstl
open Spec

section
variable {env : Env} {st : Start} {s : Layer}

theorem read_connect_inv (h : Wf env st s) {inc algo k : Bytes} {p : Option Bytes}
    (hr : (s.readInner env inc true).2 = .ok (some (.connect algo k p))) :
    ∃ loc epk payload sig sec, s.status = .ongoing loc .waitConnectMsg ∧
      (s.peerSigPubkey = none ∨ s.peerSigPubkey = some k) ∧
      inc = connectFrame epk k payload ++ sig ∧ env.cr.edVerify k (connectFrame epk k payload) sig = true ∧
      p = present payload ∧ epk.length = 32 ∧ k.length = 32 ∧ algo = [0, 0, 0, 0] ∧
      sessionKey env.cr st.random (env.cr.xPublic st.random) epk = some sec ∧
      (s.readInner env inc true).1 = { s with
        peerSigPubkey := some k, status := .ongoing loc .validConnectMsgReceived
        peerEpk := some epk, ephemeralKp := none, secret := some sec } := by
  have hcase := readInner_case env s inc true
  generalize (s.readInner env inc true).1 = s' at hcase
  rw [hr] at hcase
  generalize hrr : (Res.ok (some (Message.connect algo k p)) : Res (Option Message)) = r at hcase
  cases hcase with
  | connectNoKp hp hh hk hl hv hs hkp => exact absurd hkp (h.wait _ hs)
  | @connectOk d epk algo' k' loc kp sec hp hh hk hl hv hs hkp hsec =>
    obtain ⟨-, -, hpc⟩ := connect_clear hp hh (.inl rfl)
    obtain ⟨pl, t, hx, hd, htake, hdrop, hm, -⟩ := canonical hpc hrr.symm
    have hok := (parseClear_iff.mp hpc).2.1
    rw [hh] at hok hx hm htake
    obtain ⟨h1, rfl, h3⟩ := hok
    simp only [reported, Option.some.injEq, Message.connect.injEq] at hm
    obtain ⟨rfl, rfl, rfl⟩ := hm
    rw [hd, hdrop, htake, ← connectFrame_eq] at hv
    rw [← connectFrame_eq] at hx
    obtain ⟨rfl, -, -⟩ := h.kp _ hkp
    exact ⟨loc, epk, pl, t, sec, hs, hk, hx, hv, rfl, h1, h3, rfl, hsec, rfl⟩
  | ackOk hp hh hc hk hl hv hs =>
    rename_i d _ _ _
    rcases getMessage_cases d with ⟨q, hg⟩ | hg <;> rw [hg] at hrr <;> simp [hh, reported] at hrr
  | userOk hp hh hn hs hl hv hu =>
    rename_i d _
    rcases getMessage_cases d with ⟨q, hg⟩ | hg <;> rw [hg] at hrr <;> simp [hh, reported] at hrr
  | _ => simp at hrr

theorem read_ack_inv (h : Wf env st s) {inc : Bytes} {p : Option Bytes}
    (hr : (s.readInner env inc true).2 = .ok (some (.ack p))) :
    ∃ rem payload sig k, s.status = .ongoing .connectMsgSent rem ∧ s.peerSigPubkey = some k ∧
      inc = ackFrame (env.cr.sha256 (env.cr.xPublic st.random)) payload ++ sig ∧
      env.cr.edVerify k (ackFrame (env.cr.sha256 (env.cr.xPublic st.random)) payload) sig = true ∧
      p = present payload ∧
      (s.readInner env inc true).1 = { s with
        status := if rem = .ackMsgSent then .success else .ongoing .validAckMsgReceived rem } := by
  have hcase := readInner_case env s inc true
  generalize (s.readInner env inc true).1 = s' at hcase
  rw [hr] at hcase
  generalize hrr : (Res.ok (some (Message.ack p)) : Res (Option Message)) = r at hcase
  cases hcase with
  | connectNoKp hp hh hk hl hv hs hkp => exact absurd hkp (h.wait _ hs)
  | connectOk hp hh hk hl hv hs hkp hsec =>
    rename_i d _ _ _ _ _ _
    rcases getMessage_cases d with ⟨q, hg⟩ | hg <;> rw [hg] at hrr <;> simp [hh, reported] at hrr
  | @ackOk d c k rem hp hh hc hk hl hv hs =>
    obtain ⟨-, -, hpc⟩ := ack_clear hp hh (.inl rfl)
    obtain ⟨pl, t, hx, hd, htake, hdrop, hm, -⟩ := canonical hpc hrr.symm
    rw [hh] at hx hm htake
    simp only [reported, Option.some.injEq, Message.ack.injEq] at hm
    subst hm
    rw [hd, hdrop, htake, ← ackFrame_eq] at hv
    rw [← ackFrame_eq] at hx
    rw [h.epub] at hc
    subst hc
    exact ⟨rem, pl, t, k, hs, hk, hx, hv, rfl, rfl⟩
  | userOk hp hh hn hs hl hv hu =>
    rename_i d _
    rcases getMessage_cases d with ⟨q, hg⟩ | hg <;> rw [hg] at hrr <;> simp [hh, reported] at hrr
  | _ => simp at hrr

/-- A user message out of the user branch. -/
theorem readUser_inv {d : DecryptedIncomingData} {enc chk : Bool} {b : Bytes} {n : Nat} {m : Message}
    (hp : parseClear env enc b chk = .ok d) (hh : d.msgTypeHeaders = .userMsg n)
    (hr : (s.readUser env d n).2 = .ok (some m)) :
    ∃ payload, s.status = .success ∧ ¬ s.seen n ∧ n < u64Size ∧ b = userPlain env.cr n payload ∧
      m = .message (present payload) ∧ s.updateNonces env n = ((s.readUser env d n).1, .ok ()) := by
  unfold Layer.readUser at hr ⊢
  split at hr
  · simp at hr
  rename_i hns
  rw [if_neg hns]
  cases hs : s.status with
  | fail => simp [hs, Status.applyAction] at hr
  | ongoing loc rem =>
    by_cases hc : rem = .ackMsgSent ∧ loc = .connectMsgSent <;>
      simp [hs, Status.applyAction, hc] at hr
  | success =>
    simp only [hs, Status.applyAction] at hr ⊢
    have hse : { s with status := Status.success } = s := by cases s; simp_all
    rw [hse] at hr ⊢
    simp only [sliceTo, sliceFrom] at hr ⊢
    by_cases hl : d.userMsgEnd ≤ d.data.length
    swap
    · simp [hl] at hr
    simp only [hl, if_true] at hr ⊢
    by_cases hv : d.data.drop d.userMsgEnd = env.cr.sha256 (d.data.take d.userMsgEnd)
    swap
    · simp [hv] at hr
    simp only [hv, ne_eq, not_true_eq_false, if_false] at hr ⊢
    rcases hu : s.updateNonces env n with ⟨s', _ | e | p⟩ <;> rw [hu] at hr <;> simp only at hr
    · obtain ⟨pl, t, hx, hd, htake, hdrop, hm, -⟩ := canonical hp hr
      have hok := (parseClear_iff.mp hp).2.1
      rw [hh] at hok hx hm htake
      simp only [reported, Option.some.injEq] at hm
      refine ⟨pl, trivial, hns, hok, ?_, hm, rfl⟩
      rw [hd, htake, hdrop, ← userFrame_eq] at hv
      rw [← userFrame_eq] at hx
      rw [hx, hv]; rfl
    · simp at hr
    · simp at hr

theorem read_user_inv (h : Wf env st s) {inc : Bytes} {p : Option Bytes}
    (hr : (s.readInner env inc true).2 = .ok (some (.message p))) :
    ∃ k n payload, s.status = .success ∧ s.secret = some k ∧ ¬ s.seen n ∧ n < u64Size ∧
      inc = aeadSeal env.cr k (userPlain env.cr n payload) ∧ inc.take 4 ≠ MAGIC_VALUE ∧
      p = present payload ∧ s.updateNonces env n = ((s.readInner env inc true).1, .ok ()) := by
  have huser : ∃ d n, readerRead env s.secret inc true = .ok d ∧ d.msgTypeHeaders = .userMsg n := by
    have hcase := readInner_case env s inc true
    rw [hr] at hcase
    generalize hrr : (Res.ok (some (Message.message p)) : Res (Option Message)) = r at hcase
    generalize (s.readInner env inc true).1 = s' at hcase
    cases hcase with
    | connectNoKp hp hh hk hl hv hs hkp => exact absurd hkp (h.wait _ hs)
    | connectOk hp hh hk hl hv hs hkp hsec =>
      rename_i d _ _ _ _ _ _
      rcases getMessage_cases d with ⟨q, hg⟩ | hg <;> rw [hg] at hrr <;> simp [hh, reported] at hrr
    | ackOk hp hh hc hk hl hv hs =>
      rename_i d _ _ _
      rcases getMessage_cases d with ⟨q, hg⟩ | hg <;> rw [hg] at hrr <;> simp [hh, reported] at hrr
    | userOk hp hh' hn hs hl hv hu => exact ⟨_, _, hp, hh'⟩
    | _ => simp at hrr
  obtain ⟨d, n, hrd, hh⟩ := huser
  have he : s.readInner env inc true = s.readUser env d n := by
    unfold Layer.readInner; rw [hrd]; dsimp only; rw [hh]
  rw [he] at hr ⊢
  obtain ⟨k, hk, hinc, hm, hpc⟩ := user_sealed hrd hh
  obtain ⟨payload, h1, h2, h3, h4, h5, h6⟩ := readUser_inv hpc hh hr
  simp only [Message.message.injEq] at h5
  exact ⟨k, n, payload, h1, hk, h2, h3, by rw [← h4]; exact hinc, hm, h5, h6⟩

end
end Pkstl

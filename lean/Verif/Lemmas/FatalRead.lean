import Verif.Spec.Fatal
import Verif.Lemmas.PanicRead
/- `read` ends a session exactly on `FatalInput`. -/
namespace Pkstl
open Spec

section
variable {env : Env} {st : Start} {s : Layer}

/-- What clear bytes of a given type look like. -/
def shapeOk (oc : Bool) (enc : Bool) (x : Bytes) : Prop :=
  if enc then UserShape oc x else ConnectShape oc x ∨ AckShape oc x

theorem parseClear_ok_iff (env : Env) (enc : Bool) (x : Bytes) :
    (∃ d, parseClear env enc x true = .ok d) ↔ shapeOk env.overflowChecks enc x := by
  constructor
  · rintro ⟨d, hd⟩
    obtain ⟨n, rest, hn, hoc, hx, hok, -, -, -⟩ := parse_wire_inv hd
    have hc := (parseClear_iff.mp hd).2.2.2.1 rfl
    cases hh : d.msgTypeHeaders with
    | connect epk algo k =>
      rw [hh] at hx hok hc
      obtain ⟨h1, rfl, h2⟩ := hok
      subst hc
      exact .inl ⟨n, epk, k, rest, hn, hoc, h1, h2, hx⟩
    | ack c =>
      rw [hh] at hx hok hc
      subst hc
      exact .inr ⟨n, c, rest, hn, hoc, hok, hx⟩
    | userMsg m =>
      rw [hh] at hx hok hc
      subst hc
      exact ⟨n, m, rest, hn, hok, hoc, hx⟩
  · intro h
    cases enc with
    | true =>
      obtain ⟨n, m, rest, hn, hm, hoc, rfl⟩ := h
      exact ⟨_, parse_wire (h := .userMsg m) rest hn hoc hm (fun _ => rfl)⟩
    | false =>
      rcases h with ⟨n, epk, k, rest, hn, hoc, h1, h2, rfl⟩ | ⟨n, c, rest, hn, hoc, h1, rfl⟩
      · exact ⟨_, parse_wire (h := .connect epk [0, 0, 0, 0] k) rest hn hoc ⟨h1, rfl, h2⟩ (fun _ => rfl)⟩
      · exact ⟨_, parse_wire (h := .ack c) rest hn hoc h1 (fun _ => rfl)⟩

theorem parseClear_err_iff (env : Env) (enc : Bool) (x : Bytes) :
    (∃ e, parseClear env enc x true = .err e) ↔
      ¬ Truncated env.overflowChecks x ∧ ¬ shapeOk env.overflowChecks enc x := by
  rw [← parseClear_ok_iff env enc, ← parseClear_panic_iff env enc true x]
  cases parseClear env enc x true <;> simp

theorem readerRead_err_iff (law : env.cr.Lawful) (sec : Option SecretKey) (inc : Bytes) :
    (∃ e, readerRead env sec inc true = .err e) ↔
      (sec = none ∧ 4 ≤ inc.length ∧ inc.take 4 ≠ MAGIC_VALUE) ∨
      (∃ k, sec = some k ∧ 16 ≤ inc.length ∧ inc.take 4 ≠ MAGIC_VALUE ∧ ∀ x, inc ≠ aeadSeal env.cr k x) ∨
      (inc.take 4 = MAGIC_VALUE ∧ ¬ Truncated env.overflowChecks inc ∧ ¬ shapeOk env.overflowChecks false inc) ∨
      (∃ k x, sec = some k ∧ inc.take 4 ≠ MAGIC_VALUE ∧ inc = aeadSeal env.cr k x ∧
        ¬ Truncated env.overflowChecks x ∧ ¬ shapeOk env.overflowChecks true x) := by
  by_cases hm : inc.take 4 = MAGIC_VALUE
  · rw [readerRead_clear hm, parseClear_err_iff]
    simp [hm]
  simp only [hm, false_and, ne_eq, not_false_eq_true, and_true, true_and, false_or]
  by_cases h4 : inc.length < 4
  · have : readerRead env sec inc true = .panic .sliceIndex := by
      unfold readerRead openIncoming sliceTo
      rw [if_neg (by simp [MAGIC_VALUE_END]; omega)]; rfl
    simp only [this, reduceCtorEq, exists_false, false_iff]
    rintro (⟨-, h⟩ | ⟨k, -, h, -⟩ | ⟨k, x, -, h, -⟩)
    · omega
    · omega
    · have := aeadSeal_length _ law k x
      rw [← h] at this; omega
  have h4' : 4 ≤ inc.length := by omega
  have hopen : openIncoming env sec inc = match sec with
      | some k => (decrypt env k inc >>= fun d => .ok (true, d))
      | none => invalidMsg .unexpectedMessage := by
    unfold openIncoming sliceTo
    rw [if_pos (by simp [MAGIC_VALUE_END]; omega)]
    simp only [MAGIC_VALUE_END, Res.bind_ok, hm, if_false]
    cases sec <;> rfl
  cases sec with
  | none =>
    have : readerRead env none inc true = invalidMsg .unexpectedMessage := by
      unfold readerRead; rw [hopen]; rfl
    simp [this, invalidMsg, h4']
  | some k =>
    simp only [reduceCtorEq, false_and, Option.some.injEq, exists_eq_left', false_or]
    unfold readerRead
    rw [hopen]
    dsimp only
    rcases hd : decrypt env k inc with x | e | p
    · have hinc := decrypt_inv hd
      simp only [Res.bind_ok, parseClear_err_iff]
      constructor
      · rintro ⟨h1, h2⟩
        exact .inr ⟨k, x, rfl, hinc, h1, h2⟩
      · rintro (⟨-, h⟩ | ⟨k', x', rfl, h1, h2⟩)
        · exact absurd hinc (h x)
        · rw [h1, decrypt_aeadSeal law] at hd
          simp only [Res.ok.injEq] at hd
          rw [← hd]; exact h2
    · have hge : 16 ≤ inc.length := by
        by_contra h
        unfold decrypt at hd
        rw [if_pos (show inc.length < CHACHA20_TAG_SIZE by simp [CHACHA20_TAG_SIZE]; omega)] at hd
        simp at hd
      simp only [Res.bind_err, Res.err.injEq, exists_eq', true_iff]
      left
      refine ⟨hge, ?_⟩
      rintro x rfl
      rw [decrypt_aeadSeal law] at hd
      simp at hd
    · have hlt : inc.length < 16 := by
        unfold decrypt at hd
        split at hd
        · rename_i h; exact h
        · dsimp only at hd
          split at hd <;> simp at hd
      simp only [Res.bind_panic, reduceCtorEq, exists_false, false_iff]
      rintro (⟨h, -⟩ | ⟨k', x, rfl, rfl, -⟩)
      · omega
      · rw [decrypt_aeadSeal law] at hd
        simp at hd

theorem read_fatal_input (law : env.cr.Lawful) (h : Wf env st s) {inc : Bytes} (hns : s.status ≠ .fail)
    (hr : (s.read env inc).1.status = .fail) : FatalInput env st s inc := by
  have hcase := readInner_case env s inc true
  unfold Layer.read at hr
  generalize (s.readInner env inc true).1 = s' at hcase hr
  generalize (s.readInner env inc true).2 = r at hcase
  have clear : ∀ {d : DecryptedIncomingData}, readerRead env s.secret inc true = .ok d →
      d.msgTypeHeaders.mustBeEncrypted = false →
      inc.take 4 = MAGIC_VALUE ∧ parseClear env false inc true = .ok d := by
    intro d hp hh
    rcases readerRead_inv hp with ⟨h1, h2, -⟩ | ⟨-, k, -, -, h2⟩
    · exact ⟨h1, h2⟩
    · have := (parseClear_iff.mp h2).2.2.2.1 rfl
      rw [hh] at this; simp at this
  have sealed : ∀ {d : DecryptedIncomingData}, readerRead env s.secret inc true = .ok d →
      d.msgTypeHeaders.mustBeEncrypted = true →
      inc.take 4 ≠ MAGIC_VALUE ∧ ∃ k, s.secret = some k ∧ inc = aeadSeal env.cr k d.data ∧
        parseClear env true d.data true = .ok d := by
    intro d hp hh
    rcases readerRead_inv hp with ⟨h1, h2, -⟩ | h1
    · have := (parseClear_iff.mp h2).2.2.2.1 rfl
      rw [hh] at this; simp at this
    · exact h1
  cases hcase with
  | parseErr hp =>
    rcases (readerRead_err_iff law s.secret inc).mp ⟨_, hp⟩ with ⟨h1, h2, h3⟩ | ⟨k, h1, h2, h3, h4⟩ | ⟨h1, h2, h3⟩ |
      ⟨k, x, h1, h2, h3, h4, h5⟩
    · exact .noSecret h1 h2 h3
    · exact .unsealed h1 h2 h3 h4
    · simp only [shapeOk, Bool.false_eq_true, if_false, not_or] at h3
      exact .header h1 h2 h3.1 h3.2
    · exact .sealedHeader h1 h2 h3 h4 h5
  | @connectLate d epk algo k e hp hh hk hl hv hs he =>
    obtain ⟨-, hp⟩ := clear hp (by rw [hh]; rfl)
    obtain ⟨n, rest, hn, hoc, hx, hok, hd, he, -⟩ := parse_wire_inv hp
    rw [hh] at hx hok
    obtain ⟨h1, rfl, h2⟩ := hok
    rw [hd, he] at hv hl
    exact .connect hn hoc h1 h2 hx hk hl hv hs
  | @ackTwice d c a hp hh hc hk ha =>
    obtain ⟨-, hp⟩ := clear hp (by rw [hh]; rfl)
    obtain ⟨n, rest, hn, hoc, hx, hok, hd, he, -⟩ := parse_wire_inv hp
    rw [hh, hc, h.epub] at hx
    exact .ackTwice hn hoc hx hk ha
  | @ackLate d c k e hp hh hc hk hl hv hs he =>
    obtain ⟨-, hp⟩ := clear hp (by rw [hh]; rfl)
    obtain ⟨n, rest, hn, hoc, hx, hok, hd, he, -⟩ := parse_wire_inv hp
    rw [hh, hc, h.epub] at hx
    rw [hd, he] at hv hl
    exact .ack hn hoc hx hk hl hv hs
  | @userLate d m e hp hh hm hs hs' he =>
    obtain ⟨h4, k, hk, hinc, hp⟩ := sealed hp (by rw [hh]; rfl)
    obtain ⟨n, rest, hn, hoc, hx, hok, hd, he, -⟩ := parse_wire_inv hp
    rw [hh] at hx hok
    refine .early hn hok hoc hk h4 hinc hx ?_
    cases hst : s.status with
    | fail => exact absurd hst hns
    | success => exact absurd hst hs'
    | ongoing loc rem =>
      refine ⟨loc, rem, rfl, ?_⟩
      by_contra hcon
      push Not at hcon
      exact hs (by rw [hst, hcon.1, hcon.2])
  | @userNonceErr d m s' e hp hh hm hs hl hv hu =>
    obtain ⟨h4, k, hk, hinc, hp⟩ := sealed hp (by rw [hh]; rfl)
    obtain ⟨n, rest, hn, hoc, hx, hok, hd, he, -⟩ := parse_wire_inv hp
    rw [hh] at hx hok
    rw [he] at hl hv
    rcases updateNonces_spec env s m h.win hok hm with ⟨O', n', h1, -⟩ | ⟨-, h1, -⟩ | ⟨-, h1, -, -⟩ | ⟨h0, h00, h1⟩
    · rw [h1] at hu; simp at hu
    · rw [h1] at hu; simp at hu
    · rw [h1] at hu; simp at hu
    · push Not at hm
      exact .window hn hok hoc hk h4 hinc hx hs ⟨by omega, hm.2⟩ h00.ge hl hv
  | @userNoncePanic d m s' p hp hh hm hs hl hv hu =>
    exfalso
    obtain ⟨O', n', t, h1, -⟩ := updateNonces_frame env s m
    have hlt := user_number_lt hp hh
    rcases updateNonces_spec env s m h.win hlt hm with ⟨O', n', h1, -⟩ | ⟨-, h1, -⟩ | ⟨-, h1, -, -⟩ | ⟨h0, h00, h1⟩ <;>
    · rw [h1] at hu
      simp only [Prod.mk.injEq, reduceCtorEq, and_false] at hu
      try (rw [← hu.1] at hr; simp [hs] at hr)
  | @userOk d m s' hp hh hm hs hl hv hu =>
    exfalso
    have hlt := user_number_lt hp hh
    rcases updateNonces_spec env s m h.win hlt hm with ⟨O', n', h1, -⟩ | ⟨-, h1, -⟩ | ⟨-, h1, -, -⟩ | ⟨h0, h00, h1⟩ <;>
    · rw [h1] at hu
      simp only [Prod.mk.injEq, reduceCtorEq, and_false, and_true] at hu
      try (rw [← hu] at hr; simp [hs] at hr)
  | @ackOk d c k rem hp hh hc hk hl hv hs =>
    simp only at hr
    split at hr <;> simp at hr
  | _ => simp_all

theorem fatal_input_read (law : env.cr.Lawful) (h : Wf env st s) {inc : Bytes}
    (hi : FatalInput env st s inc) :
    (s.read env inc).1.status = .fail ∧ ∃ e, (s.read env inc).2 = .err e := by
  have parse : (∃ e, readerRead env s.secret inc true = .err e) →
      (s.read env inc).1.status = .fail ∧ ∃ e, (s.read env inc).2 = .err e := by
    rintro ⟨e, hp⟩
    unfold Layer.read Layer.readInner
    rw [hp]
    exact ⟨rfl, e, rfl⟩
  cases hi with
  | noSecret h1 h2 h3 => exact parse ((readerRead_err_iff law _ _).mpr (.inl ⟨h1, h2, h3⟩))
  | unsealed h1 h2 h3 h4 => exact parse ((readerRead_err_iff law _ _).mpr (.inr (.inl ⟨_, h1, h2, h3, h4⟩)))
  | header h1 h2 h3 h4 =>
    exact parse ((readerRead_err_iff law _ _).mpr (.inr (.inr (.inl ⟨h1, h2, by simp [shapeOk, h3, h4]⟩))))
  | sealedHeader h1 h2 h3 h4 h5 =>
    exact parse ((readerRead_err_iff law _ _).mpr (.inr (.inr (.inr ⟨_, _, h1, h2, h3, h4, h5⟩))))
  | @connect n epk k rest hn hoc h1 h2 hx hk hl hv hs =>
    have hok : hdrOk (.connect epk [0, 0, 0, 0] k) := ⟨h1, rfl, h2⟩
    have hp := parse_wire (env := env) (enc := false) (chk := true) rest hn hoc hok (fun _ => rfl)
    change parseClear env false (wire n ([0, 1] ++ epk ++ [0, 0, 0, 0] ++ k) rest) true = _ at hp
    rw [← hx] at hp
    have hrd := (readerRead_clear (env := env) (sec := s.secret) (chk := true)
      (by rw [hx]; exact wire_take4 _ _ _ : inc.take 4 = MAGIC_VALUE)).trans hp
    unfold Layer.read Layer.readInner
    rw [hrd]
    dsimp only
    rw [readConnect_eval hk]
    unfold Layer.readConnectVerified
    rw [verifySig_eq]
    have hwire : (wire n (hdrBytes (.connect epk [0, 0, 0, 0] k)) rest) = inc := hx.symm
    simp only [hwire]
    rw [if_pos hl, hv]
    cases hst : s.status with
    | fail => simp [Status.applyAction]
    | success => simp [Status.applyAction, invalidMsg]
    | ongoing loc rem =>
      have hrem : rem ≠ .waitConnectMsg := fun hc => hs loc (by rw [hst, hc])
      cases rem with
      | waitConnectMsg => exact absurd rfl hrem
      | _ => simp [Status.applyAction, invalidMsg]
  | @ack n k rest hn hoc hx hk hl hv hs =>
    have hc := law.sha256_length (env.cr.xPublic st.random)
    have hok : hdrOk (.ack (env.cr.sha256 (env.cr.xPublic st.random))) := hc
    have hp := parse_wire (env := env) (enc := false) (chk := true) rest hn hoc hok (fun _ => rfl)
    change parseClear env false (wire n ([0, 2] ++ env.cr.sha256 (env.cr.xPublic st.random)) rest) true = _ at hp
    rw [← hx] at hp
    have hrd := (readerRead_clear (env := env) (sec := s.secret) (chk := true)
      (by rw [hx]; exact wire_take4 _ _ _ : inc.take 4 = MAGIC_VALUE)).trans hp
    have hwire : (wire n (hdrBytes (.ack (env.cr.sha256 (env.cr.xPublic st.random)))) rest) = inc := hx.symm
    unfold Layer.read Layer.readInner
    rw [hrd]
    dsimp only
    unfold Layer.readAck
    rw [if_neg (by simp [h.epub]), hk]
    dsimp only
    rw [verifySig_eq]
    simp only [hwire]
    rw [if_pos hl, hv]
    cases hst : s.status with
    | fail => simp [Status.applyAction]
    | success => simp [Status.applyAction, invalidMsg]
    | ongoing loc rem =>
      cases loc with
      | connectMsgSent => exact absurd hst (hs rem)
      | _ => simp [Status.applyAction, invalidMsg]
  | @ackTwice n rest a hn hoc hx hk ha =>
    have hc := law.sha256_length (env.cr.xPublic st.random)
    have hok : hdrOk (.ack (env.cr.sha256 (env.cr.xPublic st.random))) := hc
    have hp := parse_wire (env := env) (enc := false) (chk := true) rest hn hoc hok (fun _ => rfl)
    change parseClear env false (wire n ([0, 2] ++ env.cr.sha256 (env.cr.xPublic st.random)) rest) true = _ at hp
    rw [← hx] at hp
    have hrd := (readerRead_clear (env := env) (sec := s.secret) (chk := true)
      (by rw [hx]; exact wire_take4 _ _ _ : inc.take 4 = MAGIC_VALUE)).trans hp
    unfold Layer.read Layer.readInner
    rw [hrd]
    dsimp only
    unfold Layer.readAck
    rw [if_neg (by simp [h.epub]), hk]
    simp [ha, invalidMsg]
  | @early k x rest n m hn hnum hoc hk hm hinc hx hs =>
    obtain ⟨loc, rem, hst, hne⟩ := hs
    have hok : hdrOk (.userMsg m) := hnum
    have hp := parse_wire (env := env) (enc := true) (chk := true) rest hn hoc hok (fun _ => rfl)
    change parseClear env true (wire n ([0, 0] ++ be64 m) rest) true = _ at hp
    rw [← hx] at hp
    have hrd := (readerRead_sealed (env := env) law k x (chk := true) (by rw [← hinc]; exact hm)).trans hp
    rw [← hinc, ← hk] at hrd
    obtain ⟨-, h0, hO, -⟩ := h.fresh _ _ hst
    unfold Layer.read Layer.readInner
    rw [hrd]
    dsimp only
    unfold Layer.readUser
    rw [if_neg (by simp [h0, hO]), hst]
    cases loc <;> cases rem <;> simp [Status.applyAction, invalidMsg] at hne ⊢
  | @window k x rest n m hn hnum hoc hk hm hinc hx hs hfresh hcard hl hv =>
    have hok : hdrOk (.userMsg m) := hnum
    have hp := parse_wire (env := env) (enc := true) (chk := true) rest hn hoc hok (fun _ => rfl)
    change parseClear env true (wire n ([0, 0] ++ be64 m) rest) true = _ at hp
    rw [← hx] at hp
    have hrd := (readerRead_sealed (env := env) law k x (chk := true) (by rw [← hinc]; exact hm)).trans hp
    rw [← hinc, ← hk] at hrd
    have hwire : (wire n (hdrBytes (.userMsg m)) rest) = x := hx.symm
    unfold Layer.read Layer.readInner
    rw [hrd]
    dsimp only
    have hns : ¬ (m < s.nextNonceExpected ∨ m ∈ s.orphanNonces) := by
      push Not; exact ⟨by omega, hfresh.2⟩
    unfold Layer.readUser
    rw [if_neg hns, hs]
    have hself : { s with status := Status.success } = s := by rw [← hs]
    simp only [Status.applyAction, sliceTo, sliceFrom, hwire, hself]
    rw [if_pos hl, if_pos hl]
    dsimp only
    rw [if_neg (by simpa using hv)]
    have hu : s.updateNonces env m = ({ s with status := .fail }, .err .tooManyUnorderedMsgs) := by
      unfold Layer.updateNonces
      rw [if_neg (by omega), if_pos (by simpa [MAX_ORPHAN_NONCES] using hcard)]
    rw [hu]
    exact ⟨rfl, _, rfl⟩

end
end Pkstl

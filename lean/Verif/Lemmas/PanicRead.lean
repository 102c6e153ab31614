import Verif.Lemmas.Panics
import Mathlib.Order.Interval.Finset.Nat
/- `read` panics exactly on `PanicInput`. -/
namespace Pkstl
open Spec

section
variable {env : Env} {st : Start} {s : Layer}

theorem read_panic_input (law : env.cr.Lawful) (h : Wf env st s) {inc : Bytes} {p : Panic}
    (hr : (s.read env inc).2 = .panic p) : PanicInput env st s inc := by
  have hcase := readInner_case env s inc true
  unfold Layer.read at hr
  rw [hr] at hcase
  generalize (s.readInner env inc true).1 = s' at hcase
  generalize hrr : (Res.panic p : Res (Option Message)) = r at hcase
  have clear : ∀ {d : DecryptedIncomingData}, readerRead env s.secret inc true = .ok d →
      d.msgTypeHeaders.mustBeEncrypted = false →
      inc.take 4 = MAGIC_VALUE ∧ parseClear env false inc true = .ok d := by
    intro d hp hh
    rcases readerRead_inv hp with ⟨h1, h2, -⟩ | ⟨-, k, -, -, h2⟩
    · exact ⟨h1, h2⟩
    · have := (parseClear_iff.mp h2).2.2.2.1 rfl
      rw [hh] at this; simp at this
  have sealed : ∀ {d : DecryptedIncomingData}, readerRead env s.secret inc true = .ok d →
      d.msgTypeHeaders.mustBeEncrypted = true →
      inc.take 4 ≠ MAGIC_VALUE ∧ ∃ k, s.secret = some k ∧ inc = aeadSeal env.cr k d.data ∧
        parseClear env true d.data true = .ok d := by
    intro d hp hh
    rcases readerRead_inv hp with ⟨h1, h2, -⟩ | h1
    · have := (parseClear_iff.mp h2).2.2.2.1 rfl
      rw [hh] at this; simp at this
    · exact h1
  cases hcase with
  | parsePanic hp =>
    rcases (readerRead_panic_iff law s.secret inc true).mp ⟨_, hp⟩ with h1 | ⟨k, h1, h2, h3⟩ | ⟨h1, h2⟩ |
      ⟨k, x, h1, h2, h3, h4⟩
    · exact .short h1
    · exact .sealedShort h1 h2 h3
    · exact .header h1 h2
    · exact .sealedHeader h1 h2 h3 h4
  | parseErr hp => simp at hrr
  | connectKey hp hh hk hne => simp at hrr
  | @connectShort d epk algo k hp hh hk hl =>
    obtain ⟨-, hp⟩ := clear hp (by rw [hh]; rfl)
    obtain ⟨n, rest, hn, hoc, hx, hok, hd, he, -⟩ := parse_wire_inv hp
    rw [hh] at hx hok
    obtain ⟨h1, rfl, h2⟩ := hok
    exact .connect hn hoc h1 h2 hx hk (.inl (by rw [← he]; rw [hd] at hl; exact hl))
  | connectBadSig hp hh hk hl hv => simp [invalidMsg] at hrr
  | connectLate hp hh hk hl hv hs he => simp at hrr
  | connectNoKp hp hh hk hl hv hs hkp => exact absurd hkp (h.wait _ hs)
  | connectNoAgreement hp hh hk hl hv hs hkp hsec => simp at hrr
  | @connectOk d epk algo k loc kp sec hp hh hk hl hv hs hkp hsec =>
    obtain ⟨-, hp⟩ := clear hp (by rw [hh]; rfl)
    obtain ⟨n, rest, hn, hoc, hx, hok, hd, he, hb⟩ := parse_wire_inv hp
    have hg := (getMessage_panic hrr.symm).2
    rw [hh] at hx hok hb
    obtain ⟨h1, rfl, h2⟩ := hok
    rw [hd, he] at hv hl
    obtain ⟨rfl, -, -⟩ := h.kp _ hkp
    refine .connect hn hoc h1 h2 hx hk (.inr ⟨hl, ?_, hv, ⟨loc, hs⟩, by rw [hsec]; rfl⟩)
    rw [hb, he, hd] at hg
    simp [hdrBytes, h1, h2] at hg
    have := mt hg (by omega)
    omega
  | ackChallenge hp hh hc => simp [invalidMsg] at hrr
  | ackStored hp hh hc hk ha => simp at hrr
  | ackTwice hp hh hc hk ha => simp [invalidMsg] at hrr
  | @ackShort d c k hp hh hc hk hl =>
    obtain ⟨-, hp⟩ := clear hp (by rw [hh]; rfl)
    obtain ⟨n, rest, hn, hoc, hx, hok, hd, he, -⟩ := parse_wire_inv hp
    rw [hh, hc, h.epub] at hx
    exact .ack hn hoc hx hk (.inl (by rw [← he]; rw [hd] at hl; exact hl))
  | ackBadSig hp hh hc hk hl hv => simp [invalidMsg] at hrr
  | ackLate hp hh hc hk hl hv hs he => simp at hrr
  | @ackOk d c k rem hp hh hc hk hl hv hs =>
    obtain ⟨-, hp⟩ := clear hp (by rw [hh]; rfl)
    obtain ⟨n, rest, hn, hoc, hx, hok, hd, he, hb⟩ := parse_wire_inv hp
    have hg := (getMessage_panic hrr.symm).2
    rw [hh] at hok hb
    have hok : c.length = 32 := hok
    rw [hh, hc, h.epub] at hx
    rw [hd, he] at hv hl
    refine .ack hn hoc hx hk (.inr ⟨hl, ?_, hv, ⟨rem, hs⟩⟩)
    rw [hb, he, hd] at hg
    simp [hdrBytes, hok] at hg
    have := mt hg (by omega)
    omega
  | userReplay hp hh hn => simp [invalidMsg] at hrr
  | userLate hp hh hn hs hs' he => simp at hrr
  | userStacked hp hh hn hs => simp at hrr
  | @userShort d m hp hh hm hs hl =>
    obtain ⟨h4, k, hk, hinc, hp⟩ := sealed hp (by rw [hh]; rfl)
    obtain ⟨n, rest, hn, hoc, hx, hok, hd, he, -⟩ := parse_wire_inv hp
    rw [hh] at hx hok
    push Not at hm
    exact .user hn hok hoc hk h4 hinc hx hs hm (.inl (by rw [← he]; exact hl))
  | userBadHash hp hh hn hs hl hv => simp [invalidMsg] at hrr
  | userNonceErr hp hh hn hs hl hv hu => simp at hrr
  | @userNoncePanic d m s' p' hp hh hm hs hl hv hu =>
    obtain ⟨h4, k, hk, hinc, hp⟩ := sealed hp (by rw [hh]; rfl)
    obtain ⟨n, rest, hn, hoc, hx, hok, hd, he, -⟩ := parse_wire_inv hp
    rw [hh] at hx hok
    obtain ⟨-, hu1, hu2, hu3⟩ := updateNonces_panic h.win hok hm hu
    push Not at hm
    rw [he] at hl hv
    exact .user hn hok hoc hk h4 hinc hx hs hm (.inr ⟨hl, hv, .inl ⟨hu1, hu2, hu3⟩⟩)
  | @userOk d m s' hp hh hm hs hl hv hu =>
    obtain ⟨h4, k, hk, hinc, hp⟩ := sealed hp (by rw [hh]; rfl)
    obtain ⟨n, rest, hn, hoc, hx, hok, hd, he, hb⟩ := parse_wire_inv hp
    rw [hh] at hx hok hb
    have hg := (getMessage_panic hrr.symm).2
    have hw : m = s.nextNonceExpected ∨ s.orphanNonces.card < 10000 := by
      by_contra hc
      push Not at hc
      have : s.updateNonces env m = ({ s with status := .fail }, .err .tooManyUnorderedMsgs) := by
        unfold Layer.updateNonces
        rw [if_neg hc.1, if_pos (by simpa [MAX_ORPHAN_NONCES] using hc.2)]
      rw [this] at hu; simp at hu
    push Not at hm
    rw [he] at hl hv
    refine .user hn hok hoc hk h4 hinc hx hs hm (.inr ⟨hl, hv, .inr ⟨?_, hw⟩⟩)
    rw [hb, he] at hg
    simp [hdrBytes] at hg
    have := mt hg (by omega)
    omega

theorem readConnect_eval {d : DecryptedIncomingData} {epk k : Bytes}
    (hk : s.peerSigPubkey = none ∨ s.peerSigPubkey = some k) :
    s.readConnect env d epk k = (s.pin k).readConnectVerified env d epk k := by
  unfold Layer.readConnect
  rcases hk with hk | hk
  · rw [hk]
  · have hpin : s.pin k = s := by cases s; simp_all [Layer.pin]
    rw [hpin, hk]; simp

theorem getMessage_of_lt {d : DecryptedIncomingData} (h : d.userMsgEnd < d.userMsgBegin) :
    Layer.getMessage d = .panic .drainRange := by
  unfold Layer.getMessage
  rw [if_neg (by omega)]

theorem panic_input_read (law : env.cr.Lawful) (h : Wf env st s) {inc : Bytes}
    (hi : PanicInput env st s inc) : ∃ p, (s.read env inc).2 = .panic p := by
  have parse : (∃ p, readerRead env s.secret inc true = .panic p) → ∃ p, (s.read env inc).2 = .panic p := by
    rintro ⟨p, hp⟩
    refine ⟨p, ?_⟩
    unfold Layer.read Layer.readInner
    rw [hp]
  cases hi with
  | short h1 => exact parse ((readerRead_panic_iff law _ _ _).mpr (.inl h1))
  | sealedShort hk hm h1 => exact parse ((readerRead_panic_iff law _ _ _).mpr (.inr (.inl ⟨_, hk, hm, h1⟩)))
  | header hm h1 => exact parse ((readerRead_panic_iff law _ _ _).mpr (.inr (.inr (.inl ⟨hm, h1⟩))))
  | sealedHeader hk hm hx h1 =>
    exact parse ((readerRead_panic_iff law _ _ _).mpr (.inr (.inr (.inr ⟨_, _, hk, hm, hx, h1⟩))))
  | @connect n epk k rest hn hoc h1 h2 hx hk hlen =>
    have hok : hdrOk (.connect epk [0, 0, 0, 0] k) := ⟨h1, rfl, h2⟩
    have hp := parse_wire (env := env) (enc := false) (chk := true) rest hn hoc hok (fun _ => rfl)
    change parseClear env false (wire n ([0, 1] ++ epk ++ [0, 0, 0, 0] ++ k) rest) true = _ at hp
    rw [← hx] at hp
    have hrd := (readerRead_clear (env := env) (sec := s.secret) (chk := true)
      (by rw [hx]; exact wire_take4 _ _ _ : inc.take 4 = MAGIC_VALUE)).trans hp
    unfold Layer.read Layer.readInner
    rw [hrd]
    dsimp only
    rw [readConnect_eval hk]
    unfold Layer.readConnectVerified
    rw [verifySig_eq]
    have hwire : (wire n (hdrBytes (.connect epk [0, 0, 0, 0] k)) rest) = inc := hx.symm
    simp only [hwire]
    rcases hlen with hlen | ⟨hle, hlt, hv, ⟨loc, hs⟩, hsome⟩
    · rw [if_neg (by omega)]
      exact ⟨_, rfl⟩
    · rw [if_pos hle, hv]
      cases hkp : s.ephemeralKp with
      | none => exact absurd hkp (h.wait _ hs)
      | some kp =>
        obtain ⟨rfl, -, -⟩ := h.kp _ hkp
        obtain ⟨sec, hsec⟩ := Option.isSome_iff_exists.mp hsome
        simp only [hs, Status.applyAction, Layer.computeSharedSecret_eq, hkp, hsec]
        exact ⟨_, getMessage_of_lt (by simp [hdrBytes, h1, h2]; omega)⟩
  | @ack n k rest hn hoc hx hk hlen =>
    have hc := law.sha256_length (env.cr.xPublic st.random)
    have hok : hdrOk (.ack (env.cr.sha256 (env.cr.xPublic st.random))) := hc
    have hp := parse_wire (env := env) (enc := false) (chk := true) rest hn hoc hok (fun _ => rfl)
    change parseClear env false (wire n ([0, 2] ++ env.cr.sha256 (env.cr.xPublic st.random)) rest) true = _ at hp
    rw [← hx] at hp
    have hrd := (readerRead_clear (env := env) (sec := s.secret) (chk := true)
      (by rw [hx]; exact wire_take4 _ _ _ : inc.take 4 = MAGIC_VALUE)).trans hp
    have hwire : (wire n (hdrBytes (.ack (env.cr.sha256 (env.cr.xPublic st.random)))) rest) = inc := hx.symm
    unfold Layer.read Layer.readInner
    rw [hrd]
    dsimp only
    unfold Layer.readAck
    rw [if_neg (by simp [h.epub]), hk]
    dsimp only
    rw [verifySig_eq]
    simp only [hwire]
    rcases hlen with hlen | ⟨hle, hlt, hv, ⟨rem, hs⟩⟩
    · rw [if_neg (by omega)]
      exact ⟨_, rfl⟩
    · rw [if_pos hle, hv]
      simp only [hs, Status.applyAction]
      by_cases hrem : rem = .ackMsgSent
      · subst hrem
        exact ⟨_, getMessage_of_lt (by simp [hdrBytes, hc]; omega)⟩
      · have := getMessage_of_lt (d := ⟨inc, 16 + (hdrBytes (.ack (env.cr.sha256 (env.cr.xPublic st.random)))).length,
            endOf n, .ack (env.cr.sha256 (env.cr.xPublic st.random))⟩) (by simp [hdrBytes, hc]; omega)
        cases rem <;> exact ⟨_, this⟩
  | @user k x rest n m hn hnum hoc hk hm hinc hx hs hfresh hlen =>
    have hok : hdrOk (.userMsg m) := hnum
    have hp := parse_wire (env := env) (enc := true) (chk := true) rest hn hoc hok (fun _ => rfl)
    change parseClear env true (wire n ([0, 0] ++ be64 m) rest) true = _ at hp
    rw [← hx] at hp
    have hrd := (readerRead_sealed (env := env) law k x (chk := true) (by rw [← hinc]; exact hm)).trans hp
    rw [← hinc, ← hk] at hrd
    have hwire : (wire n (hdrBytes (.userMsg m)) rest) = x := hx.symm
    unfold Layer.read Layer.readInner
    rw [hrd]
    dsimp only
    have hns : ¬ (m < s.nextNonceExpected ∨ m ∈ s.orphanNonces) := by
      push Not; exact hfresh
    unfold Layer.readUser
    rw [if_neg hns, hs]
    have hself : { s with status := Status.success } = s := by rw [← hs]
    simp only [Status.applyAction, sliceTo, sliceFrom, hwire, hself]
    rcases hlen with hlen | ⟨hle, hv, hlast⟩
    · rw [if_neg (by omega)]
      exact ⟨_, rfl⟩
    · rw [if_pos hle, if_pos hle]
      dsimp only
      rw [if_neg (by simpa using hv)]
      rcases hlast with ⟨hoc', hexp, hsum⟩ | ⟨hlt, hwin⟩
      · rcases updateNonces_spec env s m h.win hnum hns with ⟨O', n', h1, h2, -, h4⟩ | ⟨h0, -⟩ | ⟨-, h1, -, -⟩ |
          ⟨h0, -⟩
        · exfalso
          have a1 := h2.exp
          have a2 := h2.orph
          have a3 : O'.card ≤ u64Size - 1 - n' := by
            have hsub : O' ⊆ Finset.Ioo n' u64Size := by
              intro x hx
              have := a2 x hx
              simp only [Finset.mem_Ioo]
              exact this
            have := Finset.card_le_card hsub
            rw [Nat.card_Ioo] at this
            omega
          have a4 : u64Size = 2 ^ 64 := rfl
          simp only at a1 h4
          omega
        · rw [hoc'] at h0; simp at h0
        · rw [h1]; exact ⟨_, rfl⟩
        · exact absurd hexp h0
      · have hg := getMessage_of_lt (d := ⟨x, 16 + (hdrBytes (.userMsg m)).length, endOf n, .userMsg m⟩)
          (by simp [hdrBytes]; omega)
        rcases updateNonces_spec env s m h.win hnum hns with ⟨O', n', h1, -⟩ | ⟨-, h1, -⟩ | ⟨-, h1, -, -⟩ |
          ⟨h0, h00, h1⟩
        · rw [h1]; exact ⟨_, hg⟩
        · rw [h1]; exact ⟨_, hg⟩
        · rw [h1]; exact ⟨_, rfl⟩
        · exfalso
          rcases hwin with h2 | h2
          · exact h0 h2
          · omega

end
end Pkstl

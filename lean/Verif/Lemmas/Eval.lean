import Verif.Lemmas.Wf
/- What `read` does with well-formed messages, as equations. -/
namespace Pkstl
open Spec

section
variable {env : Env} {b : Layer}

theorem read_connect_eval {epk pk p sig : Bytes} {loc : LocalNego} {kp : EphemeralKeyPair} {sec : SecretKey}
    (hepk : epk.length = 32) (hpk : pk.length = 32) (hlen : 86 + p.length < u64Size)
    (hsig : env.cr.edVerify pk (connectFrame epk pk p) sig = true)
    (hkey : b.peerSigPubkey = none ∨ b.peerSigPubkey = some pk)
    (hwait : b.status = .ongoing loc .waitConnectMsg)
    (hkp : b.ephemeralKp = some kp) (hsec : sessionKey env.cr kp.privkey kp.pubkey epk = some sec) :
    b.read env (connectFrame epk pk p ++ sig) =
      ({ b with
        peerSigPubkey := some pk, status := .ongoing loc .validConnectMsgReceived
        peerEpk := some epk, ephemeralKp := none, secret := some sec },
       .ok (some (.connect [0, 0, 0, 0] pk (present p)))) := by
  obtain ⟨d, hp, hd, hh, hend, hget⟩ := parse_frame (env := env) (enc := false) (chk := true)
    (h := .connect epk [0, 0, 0, 0] pk) p sig
    ⟨hepk, rfl, hpk⟩ (by simp [MsgTypeHeaders.mustBeEncrypted])
    (by simp [hdrBytes, hepk, hpk, u64Size] at hlen ⊢; omega)
  rw [← connectFrame_eq] at hp hd hend
  have hrd : readerRead env b.secret (connectFrame epk pk p ++ sig) true = .ok d := by
    rw [readerRead_clear (by exact frame_take4 _ _), hp]
  have hl : d.userMsgEnd ≤ d.data.length := by rw [hd, hend]; simp
  have hv : env.cr.edVerify pk (d.data.take d.userMsgEnd) (d.data.drop d.userMsgEnd) = true := by
    rw [hd, hend]; simpa using hsig
  unfold Layer.read Layer.readInner
  rw [hrd]
  dsimp only
  rw [hh]
  dsimp only
  have hver : (b.pin pk).readConnectVerified env d epk pk =
      ({ b with
        peerSigPubkey := some pk, status := .ongoing loc .validConnectMsgReceived
        peerEpk := some epk, ephemeralKp := none, secret := some sec },
       .ok (some (.connect [0, 0, 0, 0] pk (present p)))) := by
    unfold Layer.readConnectVerified
    rw [verifySig_eq]
    simp only [hl, if_true, hv, hwait, Status.applyAction, Layer.computeSharedSecret_eq, hkp, hsec, hget]
    rfl
  unfold Layer.readConnect
  rcases hkey with hk | hk
  · rw [hk]; exact hver
  · have hpin : b.pin pk = b := by cases b; simp_all [Layer.pin]
    rw [hpin] at hver
    rw [hver, hk]
    simp

theorem read_ack_eval {c k p sig : Bytes} {rem : RemoteNego}
    (hc : c = env.cr.sha256 b.ephemeralPubkey) (hcl : c.length = 32) (hlen : 50 + p.length < u64Size)
    (hsig : env.cr.edVerify k (ackFrame c p) sig = true)
    (hkey : b.peerSigPubkey = some k)
    (hs : b.status = .ongoing .connectMsgSent rem) :
    b.read env (ackFrame c p ++ sig) =
      ({ b with status := if rem = .ackMsgSent then .success else .ongoing .validAckMsgReceived rem },
       .ok (some (.ack (present p)))) := by
  obtain ⟨d, hp, hd, hh, hend, hget⟩ := parse_frame (env := env) (enc := false) (chk := true)
    (h := .ack c) p sig hcl (by simp [MsgTypeHeaders.mustBeEncrypted])
    (by simp [hdrBytes, hcl, u64Size] at hlen ⊢; omega)
  rw [← ackFrame_eq] at hp hd hend
  have hrd : readerRead env b.secret (ackFrame c p ++ sig) true = .ok d := by
    rw [readerRead_clear (by exact frame_take4 _ _), hp]
  have hl : d.userMsgEnd ≤ d.data.length := by rw [hd, hend]; simp
  have hv : env.cr.edVerify k (d.data.take d.userMsgEnd) (d.data.drop d.userMsgEnd) = true := by
    rw [hd, hend]; simpa using hsig
  unfold Layer.read Layer.readInner
  rw [hrd]
  dsimp only
  rw [hh]
  dsimp only
  unfold Layer.readAck
  rw [if_neg (by simp [hc]), hkey]
  dsimp only
  rw [verifySig_eq]
  simp only [hl, if_true, hv, hs, Status.applyAction, hget]
  rw [← hkey]
  by_cases hr : rem = .ackMsgSent <;> simp [hr, reported]

/-- An ACK for this layer that comes before the peer key is known is kept. -/
theorem read_ack_early_eval {c p sig : Bytes}
    (hc : c = env.cr.sha256 b.ephemeralPubkey) (hcl : c.length = 32) (hlen : 50 + p.length < u64Size)
    (hkey : b.peerSigPubkey = none) (ha : b.ackMsgRecvTooEarly = none) :
    b.read env (ackFrame c p ++ sig) =
      ({ b with ackMsgRecvTooEarly := some (ackFrame c p ++ sig) }, .ok none) := by
  obtain ⟨d, hp, hd, hh, hend, hget⟩ := parse_frame (env := env) (enc := false) (chk := true)
    (h := .ack c) p sig hcl (by simp [MsgTypeHeaders.mustBeEncrypted])
    (by simp [hdrBytes, hcl, u64Size] at hlen ⊢; omega)
  rw [← ackFrame_eq] at hp hd hend
  have hrd : readerRead env b.secret (ackFrame c p ++ sig) true = .ok d := by
    rw [readerRead_clear (by exact frame_take4 _ _), hp]
  unfold Layer.read Layer.readInner
  rw [hrd]
  dsimp only
  rw [hh]
  dsimp only
  unfold Layer.readAck
  rw [if_neg (by simp [hc]), hkey]
  dsimp only
  rw [ha]

/-- Parsing a user plaintext. -/
theorem parse_userPlain {enc chk : Bool} {n : Nat} (p : Bytes) (law : env.cr.Lawful) (hn : n < u64Size)
    (hlen : 26 + p.length < u64Size) (hc : chk = true → enc = true) :
    ∃ d, parseClear env enc (userPlain env.cr n p) chk = .ok d ∧
      d.data = userPlain env.cr n p ∧ d.msgTypeHeaders = .userMsg n ∧
      d.userMsgEnd ≤ d.data.length ∧
      d.data.drop d.userMsgEnd = env.cr.sha256 (d.data.take d.userMsgEnd) ∧
      Layer.getMessage d = .ok (some (.message (present p))) := by
  obtain ⟨d, hp, hd, hh, hend, hget⟩ := parse_frame (env := env) (enc := enc) (chk := chk)
    (h := .userMsg n) p (env.cr.sha256 (userFrame n p)) hn (by simpa [MsgTypeHeaders.mustBeEncrypted] using hc)
    (by simp [hdrBytes, u64Size] at hlen ⊢; omega)
  rw [← userFrame_eq] at hp hd hend
  refine ⟨d, hp, hd, hh, ?_, ?_, hget⟩
  · rw [hd, hend]; simp
  · rw [hd, hend]; simp

theorem userPlain_take4 (cr : Crypto) (n : Nat) (p : Bytes) :
    (userPlain cr n p).take 4 = MAGIC_VALUE := frame_take4 _ _

/-- The first bytes of a sealed user message are not the magic value, unless the keystream starts with
four zero bytes. -/
theorem sealed_take4 {cr : Crypto} {k : SecretKey} {n : Nat} {p : Bytes}
    (hks : ¬ ∀ i < 4, cr.keystream k.key k.nonce i = 0) :
    (aeadSeal cr k (userPlain cr n p)).take 4 ≠ MAGIC_VALUE := by
  intro h
  apply hks
  have e : (userPlain cr n p) = 0xE2 :: 0xC2 :: 0xE2 :: 0xD2 :: (userPlain cr n p).drop 4 := by
    have := List.take_append_drop 4 (userPlain cr n p)
    rw [userPlain_take4] at this
    rw [← this]; simp [MAGIC_VALUE]
  rw [e] at h
  simp only [aeadSeal, xorKeystream, List.mapIdx_cons, MAGIC_VALUE, List.cons_append, List.take_succ_cons,
    List.take_zero, List.cons.injEq, and_true] at h
  obtain ⟨h0, h1, h2, h3⟩ := h
  have z : ∀ x y : UInt8, x ^^^ y = x → y = 0 := by
    intro x y h
    have := congrArg (x ^^^ ·) h
    simpa [← UInt8.xor_assoc] using this
  intro i hi
  match i, hi with
  | 0, _ => exact z _ _ h0
  | 1, _ => exact z _ _ h1
  | 2, _ => exact z _ _ h2
  | 3, _ => exact z _ _ h3

/-- The converse: with such a keystream every sealed user message looks like a clear one. -/
theorem sealed_take4_conv {cr : Crypto} {k : SecretKey} {n : Nat} {p : Bytes}
    (hks : ∀ i < 4, cr.keystream k.key k.nonce i = 0) :
    (aeadSeal cr k (userPlain cr n p)).take 4 = MAGIC_VALUE := by
  have e : (userPlain cr n p) = 0xE2 :: 0xC2 :: 0xE2 :: 0xD2 :: (userPlain cr n p).drop 4 := by
    have := List.take_append_drop 4 (userPlain cr n p)
    rw [userPlain_take4] at this
    rw [← this]; simp [MAGIC_VALUE]
  rw [e]
  simp [aeadSeal, xorKeystream, List.mapIdx_cons, MAGIC_VALUE, hks]

/-- Reader result on a sealed user message. -/
theorem readerRead_user {k : SecretKey} {n : Nat} (p : Bytes) (law : env.cr.Lawful) (hn : n < u64Size)
    (hlen : 26 + p.length < u64Size) (hks : ¬ ∀ i < 4, env.cr.keystream k.key k.nonce i = 0) :
    ∃ d, readerRead env (some k) (aeadSeal env.cr k (userPlain env.cr n p)) true = .ok d ∧
      d.data = userPlain env.cr n p ∧ d.msgTypeHeaders = .userMsg n ∧
      d.userMsgEnd ≤ d.data.length ∧
      d.data.drop d.userMsgEnd = env.cr.sha256 (d.data.take d.userMsgEnd) ∧
      Layer.getMessage d = .ok (some (.message (present p))) := by
  obtain ⟨d, h1, h2⟩ := parse_userPlain (env := env) (enc := true) (chk := true) p law hn hlen (by simp)
  exact ⟨d, by rw [readerRead_sealed law k _ (sealed_take4 hks)]; exact h1, h2⟩

/-- Behaviour of the user branch once the data are parsed. -/
theorem readUser_eval {d : DecryptedIncomingData} {n : Nat} {m : Message}
    (hs : b.status = .success) (hfresh : ¬ b.seen n) (hl : d.userMsgEnd ≤ d.data.length)
    (hv : d.data.drop d.userMsgEnd = env.cr.sha256 (d.data.take d.userMsgEnd))
    (hget : Layer.getMessage d = .ok (some m)) :
    b.readUser env d n =
      match b.updateNonces env n with
      | (s, .ok ()) => (s, .ok (some m))
      | (s, .err e) => (s, .err e)
      | (s, .panic p) => (s, .panic p) := by
  unfold Layer.readUser
  unfold Layer.seen at hfresh
  rw [if_neg hfresh, hs]
  simp only [Status.applyAction, sliceTo, sliceFrom, hl, if_true, hv, ne_eq, not_true_eq_false, if_false]
  have hse : { b with status := Status.success } = b := by cases b; simp_all
  rw [hse, hget]
  rcases b.updateNonces env n with ⟨s, _ | _ | _⟩ <;> rfl

theorem read_user_eval {k : SecretKey} {n : Nat} (p : Bytes) (law : env.cr.Lawful) (hn : n < u64Size)
    (hlen : 26 + p.length < u64Size) (hks : ¬ ∀ i < 4, env.cr.keystream k.key k.nonce i = 0)
    (hk : b.secret = some k) (hs : b.status = .success) (hfresh : ¬ b.seen n) :
    b.read env (aeadSeal env.cr k (userPlain env.cr n p)) =
      match b.updateNonces env n with
      | (s, .ok ()) => (s, .ok (some (.message (present p))))
      | (s, .err e) => (s, .err e)
      | (s, .panic p) => (s, .panic p) := by
  obtain ⟨d, h1, h2, h3, h4, h5, h6⟩ := readerRead_user p law hn hlen hks
  unfold Layer.read Layer.readInner
  rw [hk, h1]
  dsimp only
  rw [h3]
  exact readUser_eval hs hfresh h4 h5 h6

theorem read_user_replay_eval {k : SecretKey} {n : Nat} (p : Bytes) (law : env.cr.Lawful) (hn : n < u64Size)
    (hlen : 26 + p.length < u64Size) (hks : ¬ ∀ i < 4, env.cr.keystream k.key k.nonce i = 0)
    (hk : b.secret = some k) (hseen : b.seen n) :
    b.read env (aeadSeal env.cr k (userPlain env.cr n p)) = (b, invalidMsg .invalidNonce) := by
  obtain ⟨d, h1, h2, h3, h4, h5, h6⟩ := readerRead_user p law hn hlen hks
  unfold Layer.read Layer.readInner
  rw [hk, h1]
  dsimp only
  rw [h3]
  dsimp only
  unfold Layer.readUser
  unfold Layer.seen at hseen
  rw [if_pos hseen]

theorem read_user_stack_eval {k : SecretKey} {n : Nat} (p : Bytes) (law : env.cr.Lawful) (hn : n < u64Size)
    (hlen : 26 + p.length < u64Size) (hks : ¬ ∀ i < 4, env.cr.keystream k.key k.nonce i = 0)
    (hk : b.secret = some k) (hs : b.status = .ongoing .connectMsgSent .ackMsgSent) (hfresh : ¬ b.seen n) :
    b.read env (aeadSeal env.cr k (userPlain env.cr n p)) =
      ({ b with tmpStack := b.tmpStack ++ [userPlain env.cr n p] }, .ok none) := by
  obtain ⟨d, h1, h2, h3, h4, h5, h6⟩ := readerRead_user p law hn hlen hks
  unfold Layer.read Layer.readInner
  rw [hk, h1]
  dsimp only
  rw [h3]
  dsimp only
  unfold Layer.readUser
  unfold Layer.seen at hfresh
  rw [if_neg hfresh, hs]
  simp only [Status.applyAction, and_self, if_true, h2]
  rw [← hs, ← hk]

/-- Reading back a stacked plaintext on a negotiated layer. -/
theorem readInner_stacked_eval {n : Nat} (p : Bytes) (law : env.cr.Lawful) (hn : n < u64Size)
    (hlen : 26 + p.length < u64Size) (hs : b.status = .success) (hfresh : ¬ b.seen n) :
    b.readInner env (userPlain env.cr n p) false =
      match b.updateNonces env n with
      | (s, .ok ()) => (s, .ok (some (.message (present p))))
      | (s, .err e) => (s, .err e)
      | (s, .panic p) => (s, .panic p) := by
  obtain ⟨d, h1, h2, h3, h4, h5, h6⟩ := parse_userPlain (env := env) (enc := false) (chk := false)
    p law hn hlen (by simp)
  unfold Layer.readInner
  rw [readerRead_clear (userPlain_take4 _ _ _), h1]
  dsimp only
  rw [h3]
  exact readUser_eval hs hfresh h4 h5 h6

end

theorem getD_present (data : Option Bytes) : present (data.getD []) = data.bind present := by
  cases data <;> simp [present]

end Pkstl

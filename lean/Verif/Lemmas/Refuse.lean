import Verif.Lemmas.Eval
/- What `read` does with well-formed messages it refuses, as equations. -/
namespace Pkstl
open Spec

section
variable {env : Env} {b : Layer}

theorem reader_connect {epk pk p sig : Bytes} (sec : Option SecretKey)
    (hepk : epk.length = 32) (hpk : pk.length = 32) (hlen : 86 + p.length < u64Size) :
    ∃ d, readerRead env sec (connectFrame epk pk p ++ sig) true = .ok d ∧
      d.msgTypeHeaders = .connect epk [0, 0, 0, 0] pk ∧ d.userMsgEnd ≤ d.data.length ∧
      d.data.take d.userMsgEnd = connectFrame epk pk p ∧ d.data.drop d.userMsgEnd = sig := by
  obtain ⟨d, hp, hd, hh, hend, hget⟩ := parse_frame (env := env) (enc := false) (chk := true)
    (h := .connect epk [0, 0, 0, 0] pk) p sig
    ⟨hepk, rfl, hpk⟩ (by simp [MsgTypeHeaders.mustBeEncrypted])
    (by simp [hdrBytes, hepk, hpk, u64Size] at hlen ⊢; omega)
  rw [← connectFrame_eq] at hp hd hend
  refine ⟨d, by rw [readerRead_clear (by exact frame_take4 _ _), hp], hh, ?_, ?_, ?_⟩ <;>
  · rw [hd, hend]; simp

/-- A CONNECT from a key other than the pinned one. -/
theorem read_connect_key_eval {epk pk p sig k : Bytes}
    (hepk : epk.length = 32) (hpk : pk.length = 32) (hlen : 86 + p.length < u64Size)
    (hkey : b.peerSigPubkey = some k) (hne : pk ≠ k) :
    b.read env (connectFrame epk pk p ++ sig) = (b, .err .unexpectedRemoteSigPubKey) := by
  obtain ⟨d, h1, h2, h3, h4, h5⟩ := reader_connect (env := env) (sig := sig) b.secret hepk hpk hlen
  unfold Layer.read Layer.readInner
  rw [h1]
  dsimp only
  rw [h2]
  dsimp only
  unfold Layer.readConnect
  rw [hkey]
  simp [hne]

/-- A CONNECT with an invalid signature. -/
theorem read_connect_sig_eval {epk pk p sig : Bytes}
    (hepk : epk.length = 32) (hpk : pk.length = 32) (hlen : 86 + p.length < u64Size)
    (hkey : b.peerSigPubkey = none) (hsig : env.cr.edVerify pk (connectFrame epk pk p) sig = false) :
    b.read env (connectFrame epk pk p ++ sig) = (b.pin pk, invalidMsg .invalidHashOrSig) := by
  obtain ⟨d, h1, h2, h3, h4, h5⟩ := reader_connect (env := env) (sig := sig) b.secret hepk hpk hlen
  unfold Layer.read Layer.readInner
  rw [h1]
  dsimp only
  rw [h2]
  dsimp only
  unfold Layer.readConnect
  rw [hkey]
  dsimp only
  unfold Layer.readConnectVerified
  rw [verifySig_eq, h4, h5]
  simp only [h3, if_true, hsig]

/-- A correctly signed CONNECT with a useless ephemeral key. -/
theorem read_connect_agree_eval {epk pk p sig : Bytes} {loc : LocalNego} {kp : EphemeralKeyPair}
    (hepk : epk.length = 32) (hpk : pk.length = 32) (hlen : 86 + p.length < u64Size)
    (hsig : env.cr.edVerify pk (connectFrame epk pk p) sig = true)
    (hkey : b.peerSigPubkey = none ∨ b.peerSigPubkey = some pk)
    (hwait : b.status = .ongoing loc .waitConnectMsg)
    (hkp : b.ephemeralKp = some kp) (hsec : sessionKey env.cr kp.privkey kp.pubkey epk = none) :
    b.read env (connectFrame epk pk p ++ sig) =
      ({ b with
        peerSigPubkey := some pk, status := .ongoing loc .validConnectMsgReceived
        peerEpk := some epk, ephemeralKp := none }, .err .failToComputeAgreement) := by
  obtain ⟨d, h1, h2, h3, h4, h5⟩ := reader_connect (env := env) (sig := sig) b.secret hepk hpk hlen
  unfold Layer.read Layer.readInner
  rw [h1]
  dsimp only
  rw [h2]
  dsimp only
  have hver : (b.pin pk).readConnectVerified env d epk pk =
      ({ b with
        peerSigPubkey := some pk, status := .ongoing loc .validConnectMsgReceived
        peerEpk := some epk, ephemeralKp := none }, .err .failToComputeAgreement) := by
    unfold Layer.readConnectVerified
    rw [verifySig_eq, h4, h5]
    simp only [h3, if_true, hsig, hwait, Status.applyAction, Layer.computeSharedSecret_eq, hkp, hsec]
  unfold Layer.readConnect
  rcases hkey with hk | hk
  · rw [hk]; exact hver
  · have hpin : b.pin pk = b := by cases b; simp_all [Layer.pin]
    rw [hpin] at hver
    rw [hver, hk]
    simp

/-- A correctly signed CONNECT when none is expected. -/
theorem read_connect_late_eval {epk pk p sig : Bytes}
    (hepk : epk.length = 32) (hpk : pk.length = 32) (hlen : 86 + p.length < u64Size)
    (hsig : env.cr.edVerify pk (connectFrame epk pk p) sig = true)
    (hkey : b.peerSigPubkey = none ∨ b.peerSigPubkey = some pk)
    (hs : ∀ loc, b.status ≠ .ongoing loc .waitConnectMsg) (hf : b.status ≠ .fail) :
    b.read env (connectFrame epk pk p ++ sig) =
      ({ b with peerSigPubkey := some pk, status := .fail }, invalidMsg .unexpectedConnectMsg) := by
  obtain ⟨d, h1, h2, h3, h4, h5⟩ := reader_connect (env := env) (sig := sig) b.secret hepk hpk hlen
  unfold Layer.read Layer.readInner
  rw [h1]
  dsimp only
  rw [h2]
  dsimp only
  have hver : (b.pin pk).readConnectVerified env d epk pk =
      ({ b with peerSigPubkey := some pk, status := .fail }, invalidMsg .unexpectedConnectMsg) := by
    unfold Layer.readConnectVerified
    rw [verifySig_eq, h4, h5]
    rcases hb : b.status with _ | ⟨loc, rem⟩ | _
    · exact absurd hb hf
    · have : rem ≠ .waitConnectMsg := fun h => hs loc (by rw [hb, h])
      simp only [h3, if_true, hsig, hb, Status.applyAction, this, if_false]
    · simp only [h3, if_true, hsig, hb, Status.applyAction]
  unfold Layer.readConnect
  rcases hkey with hk | hk
  · rw [hk]; exact hver
  · have hpin : b.pin pk = b := by cases b; simp_all [Layer.pin]
    rw [hpin] at hver
    rw [hver, hk]
    simp

end
end Pkstl

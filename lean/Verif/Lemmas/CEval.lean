import Verif.Lemmas.Eval
import Verif.Model.Complete
/- `read_bin` on messages made by an honest peer. -/
namespace Pkstl
open Spec

variable {env : Env} {b : SecureLayer}

/-- A CONNECT, no ACK has arrived before. -/
theorem readBin_connect_eval {epk pk p sig : Bytes} {loc : LocalNego} {kp : EphemeralKeyPair} {sec : SecretKey}
    {d : Option Bytes} (hepk : epk.length = 32) (hpk : pk.length = 32) (hlen : 86 + p.length < u64Size)
    (hsig : env.cr.edVerify pk (connectFrame epk pk p) sig = true)
    (hkey : b.minimal.peerSigPubkey = none ∨ b.minimal.peerSigPubkey = some pk)
    (hwait : b.minimal.status = .ongoing loc .waitConnectMsg)
    (hkp : b.minimal.ephemeralKp = some kp) (hsec : sessionKey env.cr kp.privkey kp.pubkey epk = some sec)
    (hun : SecureLayer.uncompressOpt env.cr (present p) = .ok d) (hearly : b.minimal.ackMsgRecvTooEarly = none) :
    b.readBin env (connectFrame epk pk p ++ sig) =
      ({ b with minimal := { b.minimal with
          peerSigPubkey := some pk, status := .ongoing loc .validConnectMsgReceived
          peerEpk := some epk, ephemeralKp := none, secret := some sec } },
       .ok [.connect d pk]) := by
  unfold SecureLayer.readBin
  rw [read_connect_eval hepk hpk hlen hsig hkey hwait hkp hsec]
  dsimp only
  rw [hun]
  dsimp only
  unfold Layer.takeAck
  dsimp only
  rw [hearly]

/-- A CONNECT after an ACK that arrived too early. -/
theorem readBin_connect_early_eval {epk pk p sig c q sig' : Bytes} {kp : EphemeralKeyPair}
    {sec : SecretKey} {d d' : Option Bytes} (hepk : epk.length = 32) (hpk : pk.length = 32)
    (hlen : 86 + p.length < u64Size) (hsig : env.cr.edVerify pk (connectFrame epk pk p) sig = true)
    (hkey : b.minimal.peerSigPubkey = none ∨ b.minimal.peerSigPubkey = some pk)
    (hwait : b.minimal.status = .ongoing .connectMsgSent .waitConnectMsg)
    (hkp : b.minimal.ephemeralKp = some kp) (hsec : sessionKey env.cr kp.privkey kp.pubkey epk = some sec)
    (hun : SecureLayer.uncompressOpt env.cr (present p) = .ok d)
    (hearly : b.minimal.ackMsgRecvTooEarly = some (ackFrame c q ++ sig'))
    (hc : c = env.cr.sha256 b.minimal.ephemeralPubkey) (hcl : c.length = 32) (hlen' : 50 + q.length < u64Size)
    (hsig' : env.cr.edVerify pk (ackFrame c q) sig' = true)
    (hun' : SecureLayer.uncompressOpt env.cr (present q) = .ok d') :
    b.readBin env (connectFrame epk pk p ++ sig) =
      ({ b with minimal := { b.minimal with
          peerSigPubkey := some pk, status := .ongoing .validAckMsgReceived .validConnectMsgReceived
          peerEpk := some epk, ephemeralKp := none, secret := some sec, ackMsgRecvTooEarly := none } },
       .ok [.connect d pk, .ack d']) := by
  unfold SecureLayer.readBin
  rw [read_connect_eval hepk hpk hlen hsig hkey hwait hkp hsec]
  dsimp only
  rw [hun]
  dsimp only
  unfold Layer.takeAck
  dsimp only
  rw [hearly]
  dsimp only
  have := read_ack_eval (env := env)
    (b := { b.minimal with
      peerSigPubkey := some pk, status := .ongoing .connectMsgSent .validConnectMsgReceived
      peerEpk := some epk, ephemeralKp := none, secret := some sec, ackMsgRecvTooEarly := none })
    (c := c) (k := pk) (p := q) (sig := sig') (rem := .validConnectMsgReceived) hc hcl hlen' hsig' rfl rfl
  simp only [reduceCtorEq, if_false] at this
  rw [this]
  dsimp only
  rw [hun']

/-- An ACK before the CONNECT, the peer's key unknown. -/
theorem readBin_ack_early_eval {c p sig : Bytes} (hc : c = env.cr.sha256 b.minimal.ephemeralPubkey)
    (hcl : c.length = 32) (hlen : 50 + p.length < u64Size)
    (hkey : b.minimal.peerSigPubkey = none) (ha : b.minimal.ackMsgRecvTooEarly = none) :
    b.readBin env (ackFrame c p ++ sig) =
      ({ b with minimal := { b.minimal with ackMsgRecvTooEarly := some (ackFrame c p ++ sig) } }, .ok []) := by
  unfold SecureLayer.readBin
  rw [read_ack_early_eval hc hcl hlen hkey ha]

/-- A second ACK before the CONNECT. -/
theorem read_ack_twice_eval {b : Layer} {c p sig x : Bytes} (hc : c = env.cr.sha256 b.ephemeralPubkey)
    (hcl : c.length = 32) (hlen : 50 + p.length < u64Size)
    (hkey : b.peerSigPubkey = none) (ha : b.ackMsgRecvTooEarly = some x) :
    b.read env (ackFrame c p ++ sig) = ({ b with status := .fail }, invalidMsg .unexpectedAckMsg) := by
  obtain ⟨d, hp, hd, hh, hend, hget⟩ := parse_frame (env := env) (enc := false) (chk := true)
    (h := .ack c) p sig hcl (by simp [MsgTypeHeaders.mustBeEncrypted])
    (by simp [hdrBytes, hcl, u64Size] at hlen ⊢; omega)
  rw [← ackFrame_eq] at hp hd hend
  have hrd : readerRead env b.secret (ackFrame c p ++ sig) true = .ok d := by
    rw [readerRead_clear (by exact frame_take4 _ _), hp]
  unfold Layer.read Layer.readInner
  rw [hrd]
  dsimp only
  rw [hh]
  dsimp only
  unfold Layer.readAck
  rw [if_neg (by simp [hc]), hkey]
  dsimp only
  rw [ha]

/-- An ACK: it is delivered, followed by the early user messages. -/
theorem readBin_ack_eval {c k p sig : Bytes} {rem : RemoteNego} {d : Option Bytes} {m : Layer} {ms : List Message}
    (hc : c = env.cr.sha256 b.minimal.ephemeralPubkey) (hcl : c.length = 32) (hlen : 50 + p.length < u64Size)
    (hsig : env.cr.edVerify k (ackFrame c p) sig = true)
    (hkey : b.minimal.peerSigPubkey = some k) (hs : b.minimal.status = .ongoing .connectMsgSent rem)
    (hun : SecureLayer.uncompressOpt env.cr (present p) = .ok d)
    (hdr : { b.minimal with status := if rem = RemoteNego.ackMsgSent then .success else .ongoing .validAckMsgReceived rem }.drainTmpStack
      env = (m, .ok ms)) :
    b.readBin env (ackFrame c p ++ sig) =
      ({ b with minimal := m }, SecureLayer.uncompressUserMsgs env.cr ms [.ack d]) := by
  unfold SecureLayer.readBin
  rw [read_ack_eval hc hcl hlen hsig hkey hs]
  dsimp only
  rw [hun]
  dsimp only
  rw [hdr]

/-- An ACK when there are no early user messages. -/
theorem readBin_ack_nil_eval {c k p sig : Bytes} {rem : RemoteNego} {d : Option Bytes}
    (hc : c = env.cr.sha256 b.minimal.ephemeralPubkey) (hcl : c.length = 32) (hlen : 50 + p.length < u64Size)
    (hsig : env.cr.edVerify k (ackFrame c p) sig = true)
    (hkey : b.minimal.peerSigPubkey = some k) (hs : b.minimal.status = .ongoing .connectMsgSent rem)
    (hun : SecureLayer.uncompressOpt env.cr (present p) = .ok d) (hst : b.minimal.tmpStack = []) :
    b.readBin env (ackFrame c p ++ sig) =
      ({ b with minimal := { b.minimal with
          status := if rem = RemoteNego.ackMsgSent then .success else .ongoing .validAckMsgReceived rem } }, .ok [.ack d]) := by
  rw [readBin_ack_eval (ms := []) hc hcl hlen hsig hkey hs hun]
  · rfl
  · unfold Layer.drainTmpStack
    dsimp only
    rw [hst, Layer.drainLoop]

/-- A user message on a negotiated layer. -/
theorem readBin_user_eval {k : SecretKey} {n : Nat} {p : Bytes} {d : Option Bytes} {s : Layer} (law : env.cr.Lawful)
    (hn : n < u64Size) (hlen : 26 + p.length < u64Size) (hks : ¬ ∀ i < 4, env.cr.keystream k.key k.nonce i = 0)
    (hk : b.minimal.secret = some k) (hs : b.minimal.status = .success) (hfresh : ¬ b.minimal.seen n)
    (hun : SecureLayer.uncompressOpt env.cr (present p) = .ok d)
    (hup : b.minimal.updateNonces env n = (s, .ok ())) :
    b.readBin env (aeadSeal env.cr k (userPlain env.cr n p)) = ({ b with minimal := s }, .ok [.message d]) := by
  unfold SecureLayer.readBin
  rw [read_user_eval p law hn hlen hks hk hs hfresh, hup]
  dsimp only
  rw [hun]

/-- A user message that overtakes the ACK. -/
theorem readBin_user_stack_eval {k : SecretKey} {n : Nat} {p : Bytes} (law : env.cr.Lawful)
    (hn : n < u64Size) (hlen : 26 + p.length < u64Size) (hks : ¬ ∀ i < 4, env.cr.keystream k.key k.nonce i = 0)
    (hk : b.minimal.secret = some k) (hs : b.minimal.status = .ongoing .connectMsgSent .ackMsgSent)
    (hfresh : ¬ b.minimal.seen n) :
    b.readBin env (aeadSeal env.cr k (userPlain env.cr n p)) =
      ({ b with minimal := { b.minimal with tmpStack := b.minimal.tmpStack ++ [userPlain env.cr n p] } }, .ok []) := by
  unfold SecureLayer.readBin
  rw [read_user_stack_eval p law hn hlen hks hk hs hfresh]

/-- An ACK whose signature does not verify. -/
theorem read_ack_sig_eval {b : Layer} {c k p sig : Bytes} (hc : c = env.cr.sha256 b.ephemeralPubkey)
    (hcl : c.length = 32) (hlen : 50 + p.length < u64Size)
    (hsig : env.cr.edVerify k (ackFrame c p) sig = false) (hkey : b.peerSigPubkey = some k) :
    b.read env (ackFrame c p ++ sig) = (b, invalidMsg .invalidHashOrSig) := by
  obtain ⟨d, hp, hd, hh, hend, hget⟩ := parse_frame (env := env) (enc := false) (chk := true)
    (h := .ack c) p sig hcl (by simp [MsgTypeHeaders.mustBeEncrypted])
    (by simp [hdrBytes, hcl, u64Size] at hlen ⊢; omega)
  rw [← ackFrame_eq] at hp hd hend
  have hrd : readerRead env b.secret (ackFrame c p ++ sig) true = .ok d := by
    rw [readerRead_clear (by exact frame_take4 _ _), hp]
  have hl : d.userMsgEnd ≤ d.data.length := by rw [hd, hend]; simp
  have hv : env.cr.edVerify k (d.data.take d.userMsgEnd) (d.data.drop d.userMsgEnd) = false := by
    rw [hd, hend]; simpa using hsig
  unfold Layer.read Layer.readInner
  rw [hrd]
  dsimp only
  rw [hh]
  dsimp only
  unfold Layer.readAck
  rw [if_neg (by simp [hc]), hkey]
  dsimp only
  rw [verifySig_eq]
  simp only [hl, if_true, hv]

/-- A CONNECT after a forged ACK that arrived too early. -/
theorem readBin_connect_forged_eval {epk pk p sig c q sig' : Bytes} {kp : EphemeralKeyPair} {loc : LocalNego}
    {sec : SecretKey} {d : Option Bytes} (hepk : epk.length = 32) (hpk : pk.length = 32)
    (hlen : 86 + p.length < u64Size) (hsig : env.cr.edVerify pk (connectFrame epk pk p) sig = true)
    (hkey : b.minimal.peerSigPubkey = none ∨ b.minimal.peerSigPubkey = some pk)
    (hwait : b.minimal.status = .ongoing loc .waitConnectMsg)
    (hkp : b.minimal.ephemeralKp = some kp) (hsec : sessionKey env.cr kp.privkey kp.pubkey epk = some sec)
    (hun : SecureLayer.uncompressOpt env.cr (present p) = .ok d)
    (hearly : b.minimal.ackMsgRecvTooEarly = some (ackFrame c q ++ sig'))
    (hc : c = env.cr.sha256 b.minimal.ephemeralPubkey) (hcl : c.length = 32) (hlen' : 50 + q.length < u64Size)
    (hsig' : env.cr.edVerify pk (ackFrame c q) sig' = false) :
    b.readBin env (connectFrame epk pk p ++ sig) =
      ({ b with minimal := { b.minimal with
          peerSigPubkey := some pk, status := .ongoing loc .validConnectMsgReceived
          peerEpk := some epk, ephemeralKp := none, secret := some sec, ackMsgRecvTooEarly := none } },
       invalidMsg .invalidHashOrSig) := by
  unfold SecureLayer.readBin
  rw [read_connect_eval hepk hpk hlen hsig hkey hwait hkp hsec]
  dsimp only
  rw [hun]
  dsimp only
  unfold Layer.takeAck
  dsimp only
  rw [hearly]
  dsimp only
  have := read_ack_sig_eval (env := env)
    (b := { b.minimal with
      peerSigPubkey := some pk, status := .ongoing loc .validConnectMsgReceived
      peerEpk := some epk, ephemeralKp := none, secret := some sec, ackMsgRecvTooEarly := none })
    (c := c) (k := pk) (p := q) (sig := sig') hc hcl hlen' hsig' rfl
  rw [this]

end Pkstl

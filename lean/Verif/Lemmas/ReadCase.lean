import Verif.Lemmas.Crypto
import Verif.Model.Minimal
/- Case analysis of `read_inner`: every way one call can go, with its effect on the state. -/
namespace Pkstl
open Spec

/-- The layer after looking at a CONNECT from key `k`. -/
abbrev Layer.pin (s : Layer) (k : Bytes) : Layer := { s with peerSigPubkey := some k }

/-- All outcomes of `read_inner`. -/
inductive ReadCase (env : Env) (s : Layer) (inc : Bytes) (chk : Bool) :
    Layer → Res (Option Message) → Prop where
  | parsePanic {p : Panic} (hp : readerRead env s.secret inc chk = .panic p) :
      ReadCase env s inc chk s (.panic p)
  | parseErr {e : Error} (hp : readerRead env s.secret inc chk = .err e) :
      ReadCase env s inc chk { s with status := .fail } (.err e)
  | connectKey {d : DecryptedIncomingData} {epk algo k k' : Bytes}
      (hp : readerRead env s.secret inc chk = .ok d) (hh : d.msgTypeHeaders = .connect epk algo k)
      (hk : s.peerSigPubkey = some k') (hne : k ≠ k') :
      ReadCase env s inc chk s (.err .unexpectedRemoteSigPubKey)
  | connectShort {d : DecryptedIncomingData} {epk algo k : Bytes}
      (hp : readerRead env s.secret inc chk = .ok d) (hh : d.msgTypeHeaders = .connect epk algo k)
      (hk : s.peerSigPubkey = none ∨ s.peerSigPubkey = some k)
      (hl : d.data.length < d.userMsgEnd) :
      ReadCase env s inc chk (s.pin k) (.panic .sliceIndex)
  | connectBadSig {d : DecryptedIncomingData} {epk algo k : Bytes}
      (hp : readerRead env s.secret inc chk = .ok d) (hh : d.msgTypeHeaders = .connect epk algo k)
      (hk : s.peerSigPubkey = none ∨ s.peerSigPubkey = some k)
      (hl : d.userMsgEnd ≤ d.data.length)
      (hv : env.cr.edVerify k (d.data.take d.userMsgEnd) (d.data.drop d.userMsgEnd) = false) :
      ReadCase env s inc chk (s.pin k) (invalidMsg .invalidHashOrSig)
  | connectLate {d : DecryptedIncomingData} {epk algo k : Bytes} {e : Error}
      (hp : readerRead env s.secret inc chk = .ok d) (hh : d.msgTypeHeaders = .connect epk algo k)
      (hk : s.peerSigPubkey = none ∨ s.peerSigPubkey = some k)
      (hl : d.userMsgEnd ≤ d.data.length)
      (hv : env.cr.edVerify k (d.data.take d.userMsgEnd) (d.data.drop d.userMsgEnd) = true)
      (hs : ∀ loc, s.status ≠ .ongoing loc .waitConnectMsg)
      (he : e = if s.status = .fail then .connectionHadFail
        else .recvInvalidMsg .unexpectedConnectMsg) :
      ReadCase env s inc chk { s.pin k with status := .fail } (.err e)
  | connectNoKp {d : DecryptedIncomingData} {epk algo k : Bytes} {loc : LocalNego}
      (hp : readerRead env s.secret inc chk = .ok d) (hh : d.msgTypeHeaders = .connect epk algo k)
      (hk : s.peerSigPubkey = none ∨ s.peerSigPubkey = some k)
      (hl : d.userMsgEnd ≤ d.data.length)
      (hv : env.cr.edVerify k (d.data.take d.userMsgEnd) (d.data.drop d.userMsgEnd) = true)
      (hs : s.status = .ongoing loc .waitConnectMsg) (hkp : s.ephemeralKp = none) :
      ReadCase env s inc chk
        { s.pin k with status := .ongoing loc .validConnectMsgReceived, peerEpk := some epk }
        (if s.secret.isSome then Layer.getMessage d else .panic .secretWithoutKeyPair)
  | connectNoAgreement {d : DecryptedIncomingData} {epk algo k : Bytes} {loc : LocalNego}
      {kp : EphemeralKeyPair}
      (hp : readerRead env s.secret inc chk = .ok d) (hh : d.msgTypeHeaders = .connect epk algo k)
      (hk : s.peerSigPubkey = none ∨ s.peerSigPubkey = some k)
      (hl : d.userMsgEnd ≤ d.data.length)
      (hv : env.cr.edVerify k (d.data.take d.userMsgEnd) (d.data.drop d.userMsgEnd) = true)
      (hs : s.status = .ongoing loc .waitConnectMsg) (hkp : s.ephemeralKp = some kp)
      (hsec : sessionKey env.cr kp.privkey kp.pubkey epk = none) :
      ReadCase env s inc chk
        { s.pin k with
          status := .ongoing loc .validConnectMsgReceived, peerEpk := some epk, ephemeralKp := none }
        (.err .failToComputeAgreement)
  | connectOk {d : DecryptedIncomingData} {epk algo k : Bytes} {loc : LocalNego}
      {kp : EphemeralKeyPair} {sec : SecretKey}
      (hp : readerRead env s.secret inc chk = .ok d) (hh : d.msgTypeHeaders = .connect epk algo k)
      (hk : s.peerSigPubkey = none ∨ s.peerSigPubkey = some k)
      (hl : d.userMsgEnd ≤ d.data.length)
      (hv : env.cr.edVerify k (d.data.take d.userMsgEnd) (d.data.drop d.userMsgEnd) = true)
      (hs : s.status = .ongoing loc .waitConnectMsg) (hkp : s.ephemeralKp = some kp)
      (hsec : sessionKey env.cr kp.privkey kp.pubkey epk = some sec) :
      ReadCase env s inc chk
        { s.pin k with
          status := .ongoing loc .validConnectMsgReceived, peerEpk := some epk, ephemeralKp := none,
          secret := some sec }
        (Layer.getMessage d)
  | ackChallenge {d : DecryptedIncomingData} {c : Bytes}
      (hp : readerRead env s.secret inc chk = .ok d) (hh : d.msgTypeHeaders = .ack c)
      (hc : c ≠ env.cr.sha256 s.ephemeralPubkey) :
      ReadCase env s inc chk s (invalidMsg .invalidChallenge)
  | ackStored {d : DecryptedIncomingData} {c : Bytes}
      (hp : readerRead env s.secret inc chk = .ok d) (hh : d.msgTypeHeaders = .ack c)
      (hc : c = env.cr.sha256 s.ephemeralPubkey) (hk : s.peerSigPubkey = none)
      (ha : s.ackMsgRecvTooEarly = none) :
      ReadCase env s inc chk { s with ackMsgRecvTooEarly := some inc } (.ok none)
  | ackTwice {d : DecryptedIncomingData} {c a : Bytes}
      (hp : readerRead env s.secret inc chk = .ok d) (hh : d.msgTypeHeaders = .ack c)
      (hc : c = env.cr.sha256 s.ephemeralPubkey) (hk : s.peerSigPubkey = none)
      (ha : s.ackMsgRecvTooEarly = some a) :
      ReadCase env s inc chk { s with status := .fail } (invalidMsg .unexpectedAckMsg)
  | ackShort {d : DecryptedIncomingData} {c k : Bytes}
      (hp : readerRead env s.secret inc chk = .ok d) (hh : d.msgTypeHeaders = .ack c)
      (hc : c = env.cr.sha256 s.ephemeralPubkey) (hk : s.peerSigPubkey = some k)
      (hl : d.data.length < d.userMsgEnd) :
      ReadCase env s inc chk s (.panic .sliceIndex)
  | ackBadSig {d : DecryptedIncomingData} {c k : Bytes}
      (hp : readerRead env s.secret inc chk = .ok d) (hh : d.msgTypeHeaders = .ack c)
      (hc : c = env.cr.sha256 s.ephemeralPubkey) (hk : s.peerSigPubkey = some k)
      (hl : d.userMsgEnd ≤ d.data.length)
      (hv : env.cr.edVerify k (d.data.take d.userMsgEnd) (d.data.drop d.userMsgEnd) = false) :
      ReadCase env s inc chk s (invalidMsg .invalidHashOrSig)
  | ackLate {d : DecryptedIncomingData} {c k : Bytes} {e : Error}
      (hp : readerRead env s.secret inc chk = .ok d) (hh : d.msgTypeHeaders = .ack c)
      (hc : c = env.cr.sha256 s.ephemeralPubkey) (hk : s.peerSigPubkey = some k)
      (hl : d.userMsgEnd ≤ d.data.length)
      (hv : env.cr.edVerify k (d.data.take d.userMsgEnd) (d.data.drop d.userMsgEnd) = true)
      (hs : ∀ rem, s.status ≠ .ongoing .connectMsgSent rem)
      (he : e = if s.status = .fail then .connectionHadFail
        else .recvInvalidMsg .unexpectedAckMsg) :
      ReadCase env s inc chk { s with status := .fail } (.err e)
  | ackOk {d : DecryptedIncomingData} {c k : Bytes} {rem : RemoteNego}
      (hp : readerRead env s.secret inc chk = .ok d) (hh : d.msgTypeHeaders = .ack c)
      (hc : c = env.cr.sha256 s.ephemeralPubkey) (hk : s.peerSigPubkey = some k)
      (hl : d.userMsgEnd ≤ d.data.length)
      (hv : env.cr.edVerify k (d.data.take d.userMsgEnd) (d.data.drop d.userMsgEnd) = true)
      (hs : s.status = .ongoing .connectMsgSent rem) :
      ReadCase env s inc chk
        { s with status :=
            if rem = .ackMsgSent then .success else .ongoing .validAckMsgReceived rem }
        (Layer.getMessage d)
  | userReplay {d : DecryptedIncomingData} {n : Nat}
      (hp : readerRead env s.secret inc chk = .ok d) (hh : d.msgTypeHeaders = .userMsg n)
      (hn : n < s.nextNonceExpected ∨ n ∈ s.orphanNonces) :
      ReadCase env s inc chk s (invalidMsg .invalidNonce)
  | userLate {d : DecryptedIncomingData} {n : Nat} {e : Error}
      (hp : readerRead env s.secret inc chk = .ok d) (hh : d.msgTypeHeaders = .userMsg n)
      (hn : ¬(n < s.nextNonceExpected ∨ n ∈ s.orphanNonces))
      (hs : s.status ≠ .ongoing .connectMsgSent .ackMsgSent) (hs' : s.status ≠ .success)
      (he : e = if s.status = .fail then .connectionHadFail
        else .recvInvalidMsg .unexpectedMessage) :
      ReadCase env s inc chk { s with status := .fail } (.err e)
  | userStacked {d : DecryptedIncomingData} {n : Nat}
      (hp : readerRead env s.secret inc chk = .ok d) (hh : d.msgTypeHeaders = .userMsg n)
      (hn : ¬(n < s.nextNonceExpected ∨ n ∈ s.orphanNonces))
      (hs : s.status = .ongoing .connectMsgSent .ackMsgSent) :
      ReadCase env s inc chk { s with tmpStack := s.tmpStack ++ [d.data] } (.ok none)
  | userShort {d : DecryptedIncomingData} {n : Nat}
      (hp : readerRead env s.secret inc chk = .ok d) (hh : d.msgTypeHeaders = .userMsg n)
      (hn : ¬(n < s.nextNonceExpected ∨ n ∈ s.orphanNonces)) (hs : s.status = .success)
      (hl : d.data.length < d.userMsgEnd) :
      ReadCase env s inc chk s (.panic .sliceIndex)
  | userBadHash {d : DecryptedIncomingData} {n : Nat}
      (hp : readerRead env s.secret inc chk = .ok d) (hh : d.msgTypeHeaders = .userMsg n)
      (hn : ¬(n < s.nextNonceExpected ∨ n ∈ s.orphanNonces)) (hs : s.status = .success)
      (hl : d.userMsgEnd ≤ d.data.length)
      (hv : d.data.drop d.userMsgEnd ≠ env.cr.sha256 (d.data.take d.userMsgEnd)) :
      ReadCase env s inc chk s (invalidMsg .invalidHashOrSig)
  | userNonceErr {d : DecryptedIncomingData} {n : Nat} {s' : Layer} {e : Error}
      (hp : readerRead env s.secret inc chk = .ok d) (hh : d.msgTypeHeaders = .userMsg n)
      (hn : ¬(n < s.nextNonceExpected ∨ n ∈ s.orphanNonces)) (hs : s.status = .success)
      (hl : d.userMsgEnd ≤ d.data.length)
      (hv : d.data.drop d.userMsgEnd = env.cr.sha256 (d.data.take d.userMsgEnd))
      (hu : s.updateNonces env n = (s', .err e)) :
      ReadCase env s inc chk s' (.err e)
  | userNoncePanic {d : DecryptedIncomingData} {n : Nat} {s' : Layer} {p : Panic}
      (hp : readerRead env s.secret inc chk = .ok d) (hh : d.msgTypeHeaders = .userMsg n)
      (hn : ¬(n < s.nextNonceExpected ∨ n ∈ s.orphanNonces)) (hs : s.status = .success)
      (hl : d.userMsgEnd ≤ d.data.length)
      (hv : d.data.drop d.userMsgEnd = env.cr.sha256 (d.data.take d.userMsgEnd))
      (hu : s.updateNonces env n = (s', .panic p)) :
      ReadCase env s inc chk s' (.panic p)
  | userOk {d : DecryptedIncomingData} {n : Nat} {s' : Layer}
      (hp : readerRead env s.secret inc chk = .ok d) (hh : d.msgTypeHeaders = .userMsg n)
      (hn : ¬(n < s.nextNonceExpected ∨ n ∈ s.orphanNonces)) (hs : s.status = .success)
      (hl : d.userMsgEnd ≤ d.data.length)
      (hv : d.data.drop d.userMsgEnd = env.cr.sha256 (d.data.take d.userMsgEnd))
      (hu : s.updateNonces env n = (s', .ok ())) :
      ReadCase env s inc chk s' (Layer.getMessage d)

theorem verifySig_eq (cr : Crypto) (data k : Bytes) (e : Nat) :
    Layer.verifySig cr data k e =
      if e ≤ data.length then .ok (cr.edVerify k (data.take e) (data.drop e)) else .panic .sliceIndex := by
  unfold Layer.verifySig sliceTo sliceFrom
  split <;> simp

theorem Layer.computeSharedSecret_eq (cr : Crypto) (s : Layer) (epk : Bytes) :
    s.computeSharedSecret cr epk =
      match s.ephemeralKp with
      | some kp =>
        match sessionKey cr kp.privkey kp.pubkey epk with
        | some k => ({ s with ephemeralKp := none, secret := some k }, .ok ())
        | none => ({ s with ephemeralKp := none }, .err .failToComputeAgreement)
      | none => (s, if s.secret.isSome then .ok () else .panic .secretWithoutKeyPair) := by
  unfold Layer.computeSharedSecret
  cases hkp : s.ephemeralKp with
  | none => dsimp only; split <;> rfl
  | some kp =>
    have h := Pkstl.computeSharedSecret_eq cr kp epk s.config.encryptAlgo
    dsimp only
    cases hs : kp.computeSharedSecret cr epk s.config.encryptAlgo.sharedSecretLen with
    | ok a =>
      simp only [hs, Res.bind_ok] at h
      simp only [h]
      cases sessionKey cr kp.privkey kp.pubkey epk <;> rfl
    | err e =>
      simp only [hs, Res.bind_err] at h
      cases hk : sessionKey cr kp.privkey kp.pubkey epk <;> simp_all
    | panic p =>
      simp only [hs, Res.bind_panic] at h
      cases hk : sessionKey cr kp.privkey kp.pubkey epk <;> simp_all

theorem readConnectVerified_case {env : Env} {s : Layer} {inc : Bytes} {chk : Bool}
    {d : DecryptedIncomingData} {epk algo k : Bytes}
    (hp : readerRead env s.secret inc chk = .ok d) (hh : d.msgTypeHeaders = .connect epk algo k)
    (hk : s.peerSigPubkey = none ∨ s.peerSigPubkey = some k) :
    ReadCase env s inc chk ((s.pin k).readConnectVerified env d epk k).1
      ((s.pin k).readConnectVerified env d epk k).2 := by
  unfold Layer.readConnectVerified
  rw [verifySig_eq]
  by_cases hl : d.userMsgEnd ≤ d.data.length
  swap
  · simp only [hl, if_false]
    exact .connectShort hp hh hk (by omega)
  simp only [hl, if_true]
  cases hv : env.cr.edVerify k (d.data.take d.userMsgEnd) (d.data.drop d.userMsgEnd) with
  | false => exact .connectBadSig hp hh hk hl hv
  | true =>
    dsimp only
    cases hs : s.status with
    | fail =>
      simp only [Status.applyAction]
      exact .connectLate hp hh hk hl hv (by simp [hs]) (by simp [hs])
    | success =>
      simp only [Status.applyAction]
      exact .connectLate hp hh hk hl hv (by simp [hs]) (by simp [hs])
    | ongoing loc rem =>
      by_cases hr : rem = .waitConnectMsg
      swap
      · simp only [Status.applyAction, hr, if_false]
        exact .connectLate hp hh hk hl hv (by simp [hs, hr]) (by simp [hs])
      · subst hr
        simp only [Status.applyAction, if_true, Layer.computeSharedSecret_eq]
        cases hkp : s.ephemeralKp with
        | none =>
          have := ReadCase.connectNoKp hp hh hk hl hv hs hkp
          cases hsec : s.secret <;> simpa [hsec, hkp] using this
        | some kp =>
          dsimp only
          cases hsec : sessionKey env.cr kp.privkey kp.pubkey epk with
          | none => exact .connectNoAgreement hp hh hk hl hv hs hkp hsec
          | some sec => exact .connectOk hp hh hk hl hv hs hkp hsec

/-- Completeness of the case analysis. -/
theorem readInner_case (env : Env) (s : Layer) (inc : Bytes) (chk : Bool) :
    ReadCase env s inc chk (s.readInner env inc chk).1 (s.readInner env inc chk).2 := by
  unfold Layer.readInner
  cases hp : readerRead env s.secret inc chk with
  | panic p => exact .parsePanic hp
  | err e => exact .parseErr hp
  | ok d =>
    dsimp only
    cases hh : d.msgTypeHeaders with
    | connect epk algo k =>
      dsimp only
      unfold Layer.readConnect
      cases hk : s.peerSigPubkey with
      | none => exact readConnectVerified_case hp hh (.inl hk)
      | some k' =>
        dsimp only
        by_cases hne : k = k'
        · subst hne
          simp only [ne_eq, not_true_eq_false, if_false]
          have hpin : s.pin k = s := by cases s; simp_all [Layer.pin]
          have := readConnectVerified_case hp hh (.inr hk)
          rwa [hpin] at this
        · simp only [ne_eq, hne, not_false_eq_true, if_true]
          exact .connectKey hp hh hk hne
    | ack c =>
      dsimp only
      unfold Layer.readAck
      by_cases hc : c = env.cr.sha256 s.ephemeralPubkey
      swap
      · simp only [ne_eq, hc, not_false_eq_true, if_true]
        exact .ackChallenge hp hh hc
      simp only [ne_eq, hc, not_true_eq_false, if_false]
      cases hk : s.peerSigPubkey with
      | none =>
        dsimp only
        cases ha : s.ackMsgRecvTooEarly with
        | none => simpa [hk, ha] using ReadCase.ackStored hp hh hc hk ha
        | some a => simpa [hk, ha] using ReadCase.ackTwice hp hh hc hk ha
      | some k =>
        dsimp only
        rw [← hk, verifySig_eq]
        by_cases hl : d.userMsgEnd ≤ d.data.length
        swap
        · simp only [hl, if_false]
          exact .ackShort hp hh hc hk (by omega)
        simp only [hl, if_true]
        cases hv : env.cr.edVerify k (d.data.take d.userMsgEnd) (d.data.drop d.userMsgEnd) with
        | false => exact .ackBadSig hp hh hc hk hl hv
        | true =>
          dsimp only
          cases hs : s.status with
          | fail =>
            simp only [Status.applyAction]
            exact .ackLate hp hh hc hk hl hv (by simp [hs]) (by simp [hs])
          | success =>
            simp only [Status.applyAction]
            exact .ackLate hp hh hc hk hl hv (by simp [hs]) (by simp [hs])
          | ongoing loc rem =>
            by_cases hr : loc = .connectMsgSent
            swap
            · simp only [Status.applyAction, hr, if_false]
              exact .ackLate hp hh hc hk hl hv (by simp [hs, hr]) (by simp [hs])
            · subst hr
              have := ReadCase.ackOk hp hh hc hk hl hv hs
              by_cases hr2 : rem = .ackMsgSent
              · simpa [Status.applyAction, hr2] using this
              · simpa [Status.applyAction, hr2] using this
    | userMsg n =>
      dsimp only
      unfold Layer.readUser
      by_cases hn : n < s.nextNonceExpected ∨ n ∈ s.orphanNonces
      · simp only [hn, if_true]
        exact .userReplay hp hh hn
      simp only [hn, if_false]
      cases hs : s.status with
      | fail =>
        simp only [Status.applyAction]
        exact .userLate hp hh hn (by simp [hs]) (by simp [hs]) (by simp [hs])
      | ongoing loc rem =>
        by_cases hr : rem = .ackMsgSent ∧ loc = .connectMsgSent
        swap
        · simp only [Status.applyAction, hr, if_false]
          exact .userLate hp hh hn (by simp only [hs, ne_eq, Status.ongoing.injEq]; tauto)
            (by simp [hs]) (by simp [hs])
        · obtain ⟨rfl, rfl⟩ := hr
          simp only [Status.applyAction, and_self, if_true]
          have := ReadCase.userStacked hp hh hn hs
          rw [← hs]
          exact this
      | success =>
        simp only [Status.applyAction]
        have hse : { s with status := Status.success } = s := by cases s; simp_all
        rw [hse]
        unfold sliceTo sliceFrom
        by_cases hl : d.userMsgEnd ≤ d.data.length
        swap
        · simp only [hl, if_false]
          exact .userShort hp hh hn hs (by omega)
        simp only [hl, if_true]
        by_cases hv : d.data.drop d.userMsgEnd = env.cr.sha256 (d.data.take d.userMsgEnd)
        swap
        · simp only [hv, ne_eq, not_false_eq_true, if_true]
          exact .userBadHash hp hh hn hs hl hv
        simp only [hv, ne_eq, not_true_eq_false, if_false]
        rcases hu : s.updateNonces env n with ⟨s', r⟩
        cases r with
        | ok a => exact .userOk hp hh hn hs hl hv hu
        | err e => exact .userNonceErr hp hh hn hs hl hv hu
        | panic p => exact .userNoncePanic hp hh hn hs hl hv hu

theorem read_case (env : Env) (s : Layer) (inc : Bytes) :
    ReadCase env s inc true (s.read env inc).1 (s.read env inc).2 :=
  readInner_case env s inc true

end Pkstl

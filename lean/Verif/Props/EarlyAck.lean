import Verif.Lemmas.CKeep
import Verif.Lemmas.Zip
import Verif.Lemmas.Refuse
import Verif.Lemmas.Early
import Verif.Spec.Malformed
import Verif.Props.Complete
/- C41, C42, C51: an ACK before the CONNECT, decompression failures. -/
namespace Pkstl
open Spec

variable {M : Type} {env : Env} {f : Features}

/-! ## C41 -/

section
variable {st : CStart} {h h' : List (CEvent M)} {b b' : SecureLayer}

/-- **C41.** An ACK that arrives before the CONNECT while the peer's key is unknown is silently kept, whatever is done with
the layer while it waits for the CONNECT, and `read_bin` delivers it right after the CONNECT, both with their exact custom
data. -/
theorem C41_delivered (law : env.cr.Lawful) (hr : CRun env f st h b) (hkey : b.minimal.peerSigPubkey = none)
    (hno : b.minimal.ackMsgRecvTooEarly = none) {seed rnd : Bytes} {ca cc : Config} {da dc : Option Bytes} {ack con : Bytes}
    (hack : ack = ackWire env.cr ca (env.cr.xPublic st.random) da) (hla : 50 + (packed env.cr ca da).length < 2 ^ 64)
    (hcon : con = connectWire env.cr cc (env.cr.xPublic rnd) seed dc) (hlc : 86 + (packed env.cr cc dc).length < 2 ^ 64)
    (hag : (env.cr.xAgree st.random (env.cr.xPublic rnd)).isSome = true) :
    (b.readBin env (ack ++ env.cr.edSign seed ack)).2 = .ok [] ∧
    ∀ h' b', CSteps (M := M) env f (b.readBin env (ack ++ env.cr.edSign seed ack)).1 h' b' →
      b'.minimal.status = .ongoing .connectMsgSent .waitConnectMsg →
      (b'.minimal.peerSigPubkey = none ∨ b'.minimal.peerSigPubkey = some (env.cr.edPublic seed)) →
      ∃ b'', b'.readBin env (con ++ env.cr.edSign seed con) =
          (b'', .ok [.connect dc (env.cr.edPublic seed), .ack da]) ∧
        b''.minimal.status = .ongoing .validAckMsgReceived .validConnectMsgReceived := by
  have hc : env.cr.sha256 (env.cr.xPublic st.random) = env.cr.sha256 b.minimal.ephemeralPubkey := by
    rw [hr.wf.epub]; rfl
  have e1 := readBin_ack_early_eval (env := env) (b := b) (p := packed env.cr ca da) (sig := env.cr.edSign seed ack)
    hc (law.sha256_length _) hla hkey hno
  have hf : ackFrame (env.cr.sha256 (env.cr.xPublic st.random)) (packed env.cr ca da) = ack := hack.symm
  rw [hf] at e1
  refine ⟨by rw [e1], fun h' b' hs hst hk => ?_⟩
  have r1 : CRun env f st (h ++ [_]) (b.readBin env (ack ++ env.cr.edSign seed ack)).1 := hr.call (.readBin _)
  have hx := CSteps_early (x := ack ++ env.cr.edSign seed ack) r1 hs (by rw [e1]) hst
  have hw := (r1.steps hs).wf
  obtain ⟨kp, hkp⟩ := Option.ne_none_iff_exists'.mp (hw.wait _ hst)
  obtain ⟨rfl, -, -⟩ := hw.kp _ hkp
  obtain ⟨z, hz⟩ := Option.isSome_iff_exists.mp hag
  obtain ⟨sec, hsec⟩ : ∃ sec, sessionKey env.cr st.random (env.cr.xPublic st.random) (env.cr.xPublic rnd) = some sec :=
    ⟨_, by rw [sessionKey, hz, Option.map_some]⟩
  have e2 := readBin_connect_early_eval (env := env) (b := b') (p := packed env.cr cc dc) (sig := env.cr.edSign seed con)
    (q := packed env.cr ca da) (sig' := env.cr.edSign seed ack)
    (law.xPublic_length rnd) (law.edPublic_length seed) hlc (by subst hcon; exact law.edVerify_sign seed _) hk hst hkp hsec
    (uncompress_packed law cc dc) (by rw [hx, ← hf]) (by rw [hw.epub]; rfl) (law.sha256_length _) hla
    (by rw [hf]; exact law.edVerify_sign seed _) (uncompress_packed law ca da)
  have hf2 : connectFrame (env.cr.xPublic rnd) (env.cr.edPublic seed) (packed env.cr cc dc) = con := hcon.symm
  rw [hf2] at e2
  exact ⟨_, e2, rfl⟩

/-- **C41.** While an ACK is kept, a second one for this layer, genuine or not, fails the layer for good. -/
theorem C41_second (law : env.cr.Lawful) (hr : CRun env f st h b) {x : Bytes}
    (hx : b.minimal.ackMsgRecvTooEarly = some x) (hs : CSteps env f b h' b') {loc : LocalNego}
    (hst : b'.minimal.status = .ongoing loc .waitConnectMsg) (hkey : b'.minimal.peerSigPubkey = none) {p sig : Bytes}
    (hl : 50 + p.length < 2 ^ 64) :
    ∃ b'', b'.readBin env (ackFrame (env.cr.sha256 (env.cr.xPublic st.random)) p ++ sig) =
        (b'', .err (.recvInvalidMsg .unexpectedAckMsg)) ∧ b''.minimal.status = .fail := by
  have hx' := CSteps_early hr hs hx hst
  have hw := (hr.steps hs).wf
  have e := read_ack_twice_eval (env := env) (b := b'.minimal) (p := p) (sig := sig)
    (c := env.cr.sha256 (env.cr.xPublic st.random)) (by rw [hw.epub]; rfl) (law.sha256_length _) hl hkey hx'
  refine ⟨{ b' with minimal := { b'.minimal with status := .fail } }, ?_, rfl⟩
  unfold SecureLayer.readBin
  rw [e]

/-- A toy session where the ACK overtakes the CONNECT: the hypotheses of `C41_delivered` and `C41_second` hold, and both
messages are delivered. -/
example (oc : Bool) : ∃ (h : List (CEvent Unit)) (b1 : SecureLayer),
    CRun (Toy.env oc) ⟨true, true, true⟩ Toy.cstA h (Toy.csA Toy.a1) ∧
    Toy.a1.peerSigPubkey = none ∧ Toy.a1.ackMsgRecvTooEarly = none ∧
    Toy.cackB = ackWire Toy.cr Config.default (Toy.cr.xPublic Toy.cstA.random) none ++
      Toy.cr.edSign Toy.seedB (ackWire Toy.cr Config.default (Toy.cr.xPublic Toy.cstA.random) none) ∧
    (Toy.csA Toy.a1).readBin (Toy.env oc) Toy.cackB = (b1, .ok []) ∧
    b1.minimal.status = .ongoing .connectMsgSent .waitConnectMsg ∧ b1.minimal.peerSigPubkey = none ∧
    (b1.readBin (Toy.env oc) Toy.cconB).2 = .ok [.connect none Toy.pkB, .ack none] ∧
    (b1.readBin (Toy.env oc) Toy.cackB).2 = .err (.recvInvalidMsg .unexpectedAckMsg) := by
  obtain ⟨h, hr⟩ := Toy.creach_a1 Unit ⟨true, true, true⟩ oc
  refine ⟨h, ((Toy.csA Toy.a1).readBin (Toy.env oc) Toy.cackB).1, hr, rfl, rfl, by decide +kernel, ?_⟩
  refine ⟨Prod.ext rfl (by cases oc <;> decide +kernel), ?_⟩
  cases oc <;> decide +kernel

end

/-! ## C51 -/

section
variable {st : CStart} {h h' : List (CEvent M)} {b b' : SecureLayer}

/-- **C51 (refuted).** Whoever has seen a layer's CONNECT can put an unsigned ACK before the peer's messages: it is
accepted like a genuine one, and the genuine ACK then fails the layer. -/
theorem C51_refuted_second (law : env.cr.Lawful) (hr : CRun env f st h b) (hkey : b.minimal.peerSigPubkey = none)
    (hno : b.minimal.ackMsgRecvTooEarly = none) {loc : LocalNego} (hst : b.minimal.status = .ongoing loc .waitConnectMsg)
    (p sig p' sig' : Bytes) (hl : 50 + p.length < 2 ^ 64) (hl' : 50 + p'.length < 2 ^ 64) :
    ∃ b1 b2, b.readBin env (ackFrame (env.cr.sha256 (env.cr.xPublic st.random)) p ++ sig) = (b1, .ok []) ∧
      b1.readBin env (ackFrame (env.cr.sha256 (env.cr.xPublic st.random)) p' ++ sig') =
        (b2, .err (.recvInvalidMsg .unexpectedAckMsg)) ∧ b2.minimal.status = .fail := by
  have e1 := readBin_ack_early_eval (env := env) (b := b) (p := p) (sig := sig)
    (c := env.cr.sha256 (env.cr.xPublic st.random)) (by rw [hr.wf.epub]; rfl) (law.sha256_length _) hl hkey hno
  have r1 := hr.call (.readBin (ackFrame (env.cr.sha256 (env.cr.xPublic st.random)) p ++ sig))
  simp only [cstep, e1] at r1
  obtain ⟨b2, h1, h2⟩ := C41_second law r1 (x := ackFrame (env.cr.sha256 (env.cr.xPublic st.random)) p ++ sig) rfl
    (.refl _) hst hkey (p := p') (sig := sig') hl'
  exact ⟨_, b2, e1, h1, h2⟩

/-- **C51 (refuted).** After a forged ACK the genuine CONNECT is consumed, but `read_bin` returns an error instead of
delivering it; reading it again fails the layer. -/
theorem C51_refuted_swallowed (law : env.cr.Lawful) (hr : CRun env f st h b) (hkey : b.minimal.peerSigPubkey = none)
    (hno : b.minimal.ackMsgRecvTooEarly = none) {loc : LocalNego} (hst : b.minimal.status = .ongoing loc .waitConnectMsg)
    {seed rnd p sig con : Bytes} {c : Config} {d : Option Bytes} (hl : 50 + p.length < 2 ^ 64)
    (hforged : env.cr.edVerify (env.cr.edPublic seed) (ackFrame (env.cr.sha256 (env.cr.xPublic st.random)) p) sig = false)
    (hcon : con = connectWire env.cr c (env.cr.xPublic rnd) seed d) (hlc : 86 + (packed env.cr c d).length < 2 ^ 64)
    (hag : (env.cr.xAgree st.random (env.cr.xPublic rnd)).isSome = true) :
    ∃ b1 b2 b3, b.readBin env (ackFrame (env.cr.sha256 (env.cr.xPublic st.random)) p ++ sig) = (b1, .ok []) ∧
      b1.readBin env (con ++ env.cr.edSign seed con) = (b2, .err (.recvInvalidMsg .invalidHashOrSig)) ∧
      b2.minimal.status = .ongoing loc .validConnectMsgReceived ∧
      b2.readBin env (con ++ env.cr.edSign seed con) = (b3, .err (.recvInvalidMsg .unexpectedConnectMsg)) ∧
      b3.minimal.status = .fail := by
  have hw := hr.wf
  have e1 := readBin_ack_early_eval (env := env) (b := b) (p := p) (sig := sig)
    (c := env.cr.sha256 (env.cr.xPublic st.random)) (by rw [hw.epub]; rfl) (law.sha256_length _) hl hkey hno
  obtain ⟨kp, hkp⟩ := Option.ne_none_iff_exists'.mp (hw.wait _ hst)
  obtain ⟨rfl, -, -⟩ := hw.kp _ hkp
  obtain ⟨z, hz⟩ := Option.isSome_iff_exists.mp hag
  obtain ⟨sec, hsec⟩ : ∃ sec, sessionKey env.cr st.random (env.cr.xPublic st.random) (env.cr.xPublic rnd) = some sec :=
    ⟨_, by rw [sessionKey, hz, Option.map_some]⟩
  have hf2 : connectFrame (env.cr.xPublic rnd) (env.cr.edPublic seed) (packed env.cr c d) = con := hcon.symm
  have e2 := readBin_connect_forged_eval (env := env)
    (b := { b with minimal := { b.minimal with ackMsgRecvTooEarly := some (ackFrame (env.cr.sha256 (env.cr.xPublic st.random)) p ++ sig) } })
    (p := packed env.cr c d) (sig := env.cr.edSign seed con) (q := p) (sig' := sig)
    (law.xPublic_length rnd) (law.edPublic_length seed) hlc (by rw [hf2]; exact law.edVerify_sign seed _)
    (.inl hkey) hst hkp hsec (uncompress_packed law c d) rfl (by rw [hw.epub]; rfl) (law.sha256_length _) hl hforged
  rw [hf2] at e2
  have e3 : ∀ b2 : SecureLayer, b2.minimal.peerSigPubkey = some (env.cr.edPublic seed) →
      b2.minimal.status = .ongoing loc .validConnectMsgReceived →
      ∃ b3, b2.readBin env (con ++ env.cr.edSign seed con) = (b3, .err (.recvInvalidMsg .unexpectedConnectMsg)) ∧
        b3.minimal.status = .fail := by
    intro b2 h1 h2
    have e := read_connect_late_eval (env := env) (b := b2.minimal) (law.xPublic_length rnd) (law.edPublic_length seed) hlc
      (law.edVerify_sign seed _) (.inr h1) (by simp [h2]) (by simp [h2])
    rw [hf2] at e
    refine ⟨{ b2 with minimal := { b2.minimal with peerSigPubkey := some (env.cr.edPublic seed), status := .fail } }, ?_, rfl⟩
    unfold SecureLayer.readBin
    rw [e]
  generalize hx : SecureLayer.readBin env _ (con ++ _) = x at e2
  have h5 : x.1.minimal.status = .ongoing loc .validConnectMsgReceived := by rw [e2]
  obtain ⟨b3, h3, h4⟩ := e3 x.1 (by rw [e2]) h5
  exact ⟨_, x.1, b3, e1, hx.trans (Prod.ext rfl (by rw [e2])), h5, h3, h4⟩

/-- **C51 (partial).** With the peer's key configured, an ACK whose signature does not verify under it has no effect at
all, at any time. -/
theorem C51_pinned_partial (law : env.cr.Lawful) (hr : CRun env f st h b) {k : Bytes} (hexp : st.expected = some k)
    (hcl : b.minimal.cloned = false) {p sig : Bytes} (hl : 50 + p.length < 2 ^ 64)
    (hforged : env.cr.edVerify k (ackFrame (env.cr.sha256 (env.cr.xPublic st.random)) p) sig = false) :
    b.readBin env (ackFrame (env.cr.sha256 (env.cr.xPublic st.random)) p ++ sig) =
      (b, .err (.recvInvalidMsg .invalidHashOrSig)) := by
  have hw := hr.wf
  have e := read_ack_sig_eval (env := env) (b := b.minimal) (p := p) (sig := sig)
    (c := env.cr.sha256 (env.cr.xPublic st.random)) (by rw [hw.epub]; rfl) (law.sha256_length _) hl hforged
    (hw.expc k hexp hcl)
  unfold SecureLayer.readBin
  rw [e]

/-- **C51 (partial), exact.** What reading an ACK that is not signed with the peer's key (no matter how, if that key is not
known) does, in every state: nothing is delivered; the layer changes if and only if it does not know the peer's key, leaving
aside a failed layer that has stored an ACK already; and the layer ends if and only if, besides, an ACK is stored. -/
theorem C51_effect_partial (law : env.cr.Lawful) (hr : CRun env f st h b) {p sig : Bytes} (hl : 50 + p.length < 2 ^ 64)
    (hforged : ∀ k, b.minimal.peerSigPubkey = some k →
      env.cr.edVerify k (ackFrame (env.cr.sha256 (env.cr.xPublic st.random)) p) sig = false) {r : Res (List BinMessage)}
    (hrd : b.readBin env (ackFrame (env.cr.sha256 (env.cr.xPublic st.random)) p ++ sig) = (b', r)) :
    (∀ ms, r = .ok ms → ms = []) ∧
      (b' ≠ b ↔ b.minimal.peerSigPubkey = none ∧ (b.minimal.ackMsgRecvTooEarly = none ∨ b.minimal.status ≠ .fail)) ∧
      (b.minimal.status ≠ .fail → (b'.minimal.status = .fail ↔
        b.minimal.peerSigPubkey = none ∧ b.minimal.ackMsgRecvTooEarly ≠ none)) := by
  have hw := hr.wf
  have hc : env.cr.sha256 (env.cr.xPublic st.random) = env.cr.sha256 b.minimal.ephemeralPubkey := by rw [hw.epub]; rfl
  cases hk : b.minimal.peerSigPubkey with
  | some k =>
    have e := read_ack_sig_eval (env := env) (b := b.minimal) (p := p) (sig := sig) hc (law.sha256_length _) hl
      (hforged k hk) hk
    unfold SecureLayer.readBin at hrd
    rw [e] at hrd
    simp only [invalidMsg, Prod.mk.injEq] at hrd
    obtain ⟨rfl, rfl⟩ := hrd
    simp
  | none =>
    cases ha : b.minimal.ackMsgRecvTooEarly with
    | none =>
      rw [readBin_ack_early_eval hc (law.sha256_length _) hl hk ha] at hrd
      simp only [Prod.mk.injEq] at hrd
      obtain ⟨rfl, rfl⟩ := hrd
      refine ⟨by simp, ?_, by simp⟩
      simp only [true_or, and_self, iff_true]
      intro he
      have := congrArg (fun x => x.minimal.ackMsgRecvTooEarly) he
      simp [ha] at this
    | some x =>
      have e := read_ack_twice_eval (env := env) (b := b.minimal) (p := p) (sig := sig) hc (law.sha256_length _) hl hk ha
      unfold SecureLayer.readBin at hrd
      rw [e] at hrd
      simp only [invalidMsg, Prod.mk.injEq] at hrd
      obtain ⟨rfl, rfl⟩ := hrd
      refine ⟨by simp, ?_, by simp⟩
      simp only [reduceCtorEq, false_or, true_and]
      refine not_congr ⟨fun he => ?_, fun he => ?_⟩
      · exact (congrArg (fun x => x.minimal.status) he).symm
      · rw [← he]

/-- Parsing an ACK whose length field points behind its end. -/
theorem parse_ack_overlong {c rest : Bytes} {n : Nat} (hc : c.length = 32) (hn : 16 + n < 2 ^ 64) :
    ∃ d, parseClear env false (wire n ([0, 2] ++ c) rest) true = .ok d ∧ d.data = wire n ([0, 2] ++ c) rest ∧
      d.msgTypeHeaders = .ack c ∧ d.userMsgEnd = 16 + n := by
  refine ⟨⟨wire n ([0, 2] ++ c) rest, 16 + (hdrBytes (.ack c)).length, 16 + n, .ack c⟩, parseClear_iff.mpr ⟨rfl, hc, rfl,
    by simp [MsgTypeHeaders.mustBeEncrypted], be64 n, rest, by simp, ?_, ?_⟩, rfl, rfl, rfl⟩
  · rw [beNat_be64 (by simp only [u64Size]; omega)]
    exact if_pos hn
  · simp [wire, hdrBytes]

/-- **C51 (refuted).** A forged ACK whose length field points behind its end, kept while the CONNECT is awaited, makes the
call that reads the genuine CONNECT panic; without it that CONNECT would have been delivered. -/
theorem C51_refuted_panic (law : env.cr.Lawful) (hr : CRun env f st h b) (hkey : b.minimal.peerSigPubkey = none)
    (hno : b.minimal.ackMsgRecvTooEarly = none) {loc : LocalNego} (hst : b.minimal.status = .ongoing loc .waitConnectMsg)
    {seed rnd con rest : Bytes} {n : Nat} {c : Config} {d : Option Bytes} (hn : 16 + n < 2 ^ 64) (hl : 34 + rest.length < n)
    (hcon : con = connectWire env.cr c (env.cr.xPublic rnd) seed d) (hlc : 86 + (packed env.cr c d).length < 2 ^ 64)
    (hag : (env.cr.xAgree st.random (env.cr.xPublic rnd)).isSome = true) :
    ∃ b1, b.readBin env (wire n ([0, 2] ++ env.cr.sha256 (env.cr.xPublic st.random)) rest) = (b1, .ok []) ∧
      (b1.readBin env (con ++ env.cr.edSign seed con)).2 = .panic .sliceIndex ∧
      (b.readBin env (con ++ env.cr.edSign seed con)).2 = .ok [.connect d (env.cr.edPublic seed)] := by
  have hw := hr.wf
  obtain ⟨kp, hkp⟩ := Option.ne_none_iff_exists'.mp (hw.wait _ hst)
  obtain ⟨rfl, -, -⟩ := hw.kp _ hkp
  obtain ⟨z, hz⟩ := Option.isSome_iff_exists.mp hag
  obtain ⟨sec, hsec⟩ : ∃ sec, sessionKey env.cr st.random (env.cr.xPublic st.random) (env.cr.xPublic rnd) = some sec :=
    ⟨_, by rw [sessionKey, hz, Option.map_some]⟩
  have hf2 : connectFrame (env.cr.xPublic rnd) (env.cr.edPublic seed) (packed env.cr c d) = con := hcon.symm
  have hep : b.minimal.ephemeralPubkey = env.cr.xPublic st.random := hw.epub
  obtain ⟨dd, hp, hd, hh, he⟩ := parse_ack_overlong (env := env) (rest := rest)
    (law.sha256_length (env.cr.xPublic st.random)) hn
  generalize hx : wire n ([0, 2] ++ env.cr.sha256 (env.cr.xPublic st.random)) rest = x at hp hd
  have hrd : ∀ sec, readerRead env sec x true = .ok dd := fun sec => by
    rw [readerRead_clear (by rw [← hx]; rfl), hp]
  have hxl : x.length = 50 + rest.length := by rw [← hx]; simp [wire, law.sha256_length]; omega
  have hc : ∀ a, connectFrame (env.cr.xPublic rnd) (env.cr.edPublic seed) (packed env.cr c d) = con → _ := fun a _ =>
    read_connect_eval (env := env) (b := { b.minimal with ackMsgRecvTooEarly := a }) (p := packed env.cr c d)
      (sig := env.cr.edSign seed con) (law.xPublic_length rnd) (law.edPublic_length seed) hlc
      (by rw [hf2]; exact law.edVerify_sign seed _) (.inl hkey) hst hkp hsec
  refine ⟨{ b with minimal := { b.minimal with ackMsgRecvTooEarly := some x } }, ?_, ?_, ?_⟩
  · unfold SecureLayer.readBin Layer.read Layer.readInner
    rw [hrd]
    dsimp only
    rw [hh]
    dsimp only
    unfold Layer.readAck
    rw [if_neg (by simp [hep]), hkey]
    dsimp only
    rw [hno]
  · have e := hc (some x) hf2
    rw [hf2] at e
    unfold SecureLayer.readBin
    rw [e]
    dsimp only
    rw [uncompress_packed law c d]
    dsimp only
    unfold Layer.takeAck
    dsimp only
    unfold Layer.read Layer.readInner
    rw [hrd]
    dsimp only
    rw [hh]
    dsimp only
    unfold Layer.readAck
    rw [if_neg (by simp [hep])]
    dsimp only
    unfold Layer.verifySig
    rw [hd, he]
    rw [show sliceTo x (16 + n) = .panic .sliceIndex from if_neg (by omega)]
    rfl
  · have e := hc b.minimal.ackMsgRecvTooEarly hf2
    rw [hf2] at e
    unfold SecureLayer.readBin
    rw [e]
    dsimp only
    rw [uncompress_packed law c d]
    dsimp only
    unfold Layer.takeAck
    dsimp only
    rw [hno]

/-- A toy layer that waits for the CONNECT and a forged ACK: the hypotheses of `C51_refuted_second`,
`C51_refuted_swallowed` and `C51_refuted_panic` hold. -/
example (oc : Bool) : Toy.CReach Unit (Toy.env oc) ⟨true, true, true⟩ Toy.cstA (Toy.csA Toy.a1) ∧
    Toy.a1.peerSigPubkey = none ∧ Toy.a1.ackMsgRecvTooEarly = none ∧
    Toy.a1.status = .ongoing .connectMsgSent .waitConnectMsg ∧
    Toy.cr.edVerify (Toy.cr.edPublic Toy.seedB) (ackFrame (Toy.cr.sha256 (Toy.cr.xPublic Toy.cstA.random)) [9]) [1, 2] = false ∧
    Toy.cconB = connectWire Toy.cr Config.default (Toy.cr.xPublic [2]) Toy.seedB none ++
      Toy.cr.edSign Toy.seedB (connectWire Toy.cr Config.default (Toy.cr.xPublic [2]) Toy.seedB none) ∧
    (Toy.cr.xAgree Toy.cstA.random (Toy.cr.xPublic [2])).isSome = true :=
  ⟨Toy.creach_a1 _ _ _, rfl, rfl, rfl, by decide +kernel, by decide +kernel, by decide +kernel⟩

/-- The hypotheses of `C51_effect_partial` hold for a toy layer that waits for the CONNECT, and for one that has pinned B's
key. -/
example (oc : Bool) : Toy.CReach Unit (Toy.env oc) ⟨true, true, true⟩ Toy.cstA (Toy.csA Toy.a1) ∧
    Toy.a1.peerSigPubkey = none ∧ Toy.CReach Unit (Toy.env oc) ⟨true, true, true⟩ Toy.cstA (Toy.csA Toy.a2) ∧
    Toy.a2.peerSigPubkey = some Toy.pkB ∧
    Toy.cr.edVerify Toy.pkB (ackFrame (Toy.cr.sha256 (Toy.cr.xPublic Toy.cstA.random)) [9]) [1, 2] = false :=
  ⟨Toy.creach_a1 _ _ _, rfl, Toy.creach_a2 _ _ _, by decide +kernel, by decide +kernel⟩

/-- A toy layer that expects B's key and a forged ACK: the hypotheses of `C51_pinned_partial` hold. -/
example (oc : Bool) : ∃ (h : List (CEvent Unit)) (b : SecureLayer),
    CRun (Toy.env oc) ⟨true, true, true⟩ { Toy.cstA with expected := some Toy.pkB } h b ∧ b.minimal.cloned = false ∧
    Toy.cr.edVerify Toy.pkB (ackFrame (Toy.cr.sha256 (Toy.cr.xPublic [1])) [9]) [1, 2] = false :=
  ⟨[], Toy.csA (Toy.layer0 [1] (some Toy.pkB)), .init rfl, rfl, by decide +kernel⟩

end

/-! ## C42 -/

theorem uncompressOpt_err {cr : Crypto} {d : Option Bytes} {e : Error} (h : SecureLayer.uncompressOpt cr d = .err e) :
    e = .zipError ∧ ∃ p, d = some p ∧ cr.inflate p = none := by
  cases d with
  | none => simp [SecureLayer.uncompressOpt] at h
  | some p =>
    unfold SecureLayer.uncompressOpt SecureLayer.uncompress at h
    cases hi : cr.inflate p with
    | none => simp [hi] at h; exact ⟨h.symm, p, rfl, hi⟩
    | some x => simp [hi] at h

theorem present_some {p q : Bytes} (h : present p = some q) : q = p ∧ p ≠ [] := by
  unfold present at h
  split at h
  · simp at h
  · rename_i hp
    simp at h
    exact ⟨h.symm, by rintro rfl; simp at hp⟩

section
variable {st : CStart} {h h' : List (CEvent M)} {b b' : SecureLayer}

/-- A failed decompression among drained messages. -/
theorem uncompressUserMsgs_err {cr : Crypto} {ms : List Message} {acc : List BinMessage} {e : Error}
    (h : SecureLayer.uncompressUserMsgs cr ms acc = .err e) :
    ∃ p, .message (some p) ∈ ms ∧ cr.inflate p = none := by
  induction ms generalizing acc with
  | nil => simp [SecureLayer.uncompressUserMsgs] at h
  | cons m ms ih =>
    cases m with
    | connect a k d =>
      obtain ⟨p, h1, h2⟩ := ih (by simpa [SecureLayer.uncompressUserMsgs] using h)
      exact ⟨p, .tail _ h1, h2⟩
    | ack d =>
      obtain ⟨p, h1, h2⟩ := ih (by simpa [SecureLayer.uncompressUserMsgs] using h)
      exact ⟨p, .tail _ h1, h2⟩
    | message d =>
      rw [SecureLayer.uncompressUserMsgs] at h
      cases hu : SecureLayer.uncompressOpt cr d with
      | err e =>
        obtain ⟨-, p, rfl, hi⟩ := uncompressOpt_err hu
        exact ⟨p, .head _, hi⟩
      | panic p => simp [hu] at h
      | ok x =>
        obtain ⟨p, h1, h2⟩ := ih (by simpa [hu] using h)
        exact ⟨p, .tail _ h1, h2⟩

/-- What is on the stack came in encrypted. -/
theorem stack_input (hr : CRun env f st h b) {x : Bytes} (hx : x ∈ b.minimal.tmpStack) :
    ∃ k, b.minimal.secret = some k ∧ aeadSeal env.cr k x ∈ cinputs h := by
  obtain ⟨⟨l, hl, hlow⟩, -⟩ := hr.lower
  obtain ⟨k, hk, hm⟩ := (Prov.of_run hl).stack x hx
  exact ⟨k, hk, hlow.counts.2.2.2 ▸ hm⟩

/-- **C42.** If `read_bin` returns `ZipError`, the layer has not failed, something that does not decompress has arrived, and
everything that was processed is authentic.  Either it was the payload of a user message on a negotiated layer; or the layer
waited for a CONNECT and it was the custom data of that CONNECT, or of an ACK that had been kept for it; or the layer waited
for an ACK and it was the custom data of that ACK, or the payload of a user message that had arrived before it.  The
negotiation proceeds as if the message had been delivered. -/
theorem C42_zip (hr : CRun env f st h b) {inc : Bytes} (he : b.readBin env inc = (b', .err .zipError)) :
    (∃ k n p, b.minimal.secret = some k ∧ n < 2 ^ 64 ∧ inc = cipherOf env.cr k n p ∧ p ≠ [] ∧ env.cr.inflate p = none ∧
      b.minimal.status = .success ∧ b'.minimal.status = .success) ∨
    (∃ loc epk k p sig, inc = connectFrame epk k p ++ sig ∧ env.cr.edVerify k (connectFrame epk k p) sig = true ∧
      b.minimal.status = .ongoing loc .waitConnectMsg ∧
      ((p ≠ [] ∧ env.cr.inflate p = none ∧ b'.minimal.status = .ongoing loc .validConnectMsgReceived) ∨
       (loc = .connectMsgSent ∧ ∃ q sig', b.minimal.ackMsgRecvTooEarly =
          some (ackFrame (env.cr.sha256 (env.cr.xPublic st.random)) q ++ sig') ∧
        env.cr.edVerify k (ackFrame (env.cr.sha256 (env.cr.xPublic st.random)) q) sig' = true ∧
        q ≠ [] ∧ env.cr.inflate q = none ∧
        b'.minimal.status = .ongoing .validAckMsgReceived .validConnectMsgReceived))) ∨
    (∃ k p sig rem, inc = ackFrame (env.cr.sha256 (env.cr.xPublic st.random)) p ++ sig ∧
      b.minimal.peerSigPubkey = some k ∧
      env.cr.edVerify k (ackFrame (env.cr.sha256 (env.cr.xPublic st.random)) p) sig = true ∧
      b.minimal.status = .ongoing .connectMsgSent rem ∧
      (b'.minimal.status = if rem = .ackMsgSent then .success else .ongoing .validAckMsgReceived rem) ∧
      ((p ≠ [] ∧ env.cr.inflate p = none) ∨
       (rem = .ackMsgSent ∧ ∃ key n q, b.minimal.secret = some key ∧ n < 2 ^ 64 ∧ cipherOf env.cr key n q ∈ cinputs h ∧
        q ≠ [] ∧ env.cr.inflate q = none))) := by
  have hw := hr.wf
  have hw1 := hw.read inc
  have hz := readInner_ne_zip (env := env) (s := b.minimal) inc true
  have ci := fun a k d => read_connect_inv (inc := inc) (algo := a) (k := k) (p := d) hw
  have ai := fun d => read_ack_inv (inc := inc) (p := d) hw
  have ui := fun d => read_user_inv (inc := inc) (p := d) hw
  unfold SecureLayer.readBin at he
  have hrr : b.minimal.readInner env inc true = b.minimal.read env inc := rfl
  rw [hrr] at hz ci ai
  simp only [hrr] at ui
  rcases hrd : b.minimal.read env inc with ⟨m, (_ | mm) | e | p⟩ <;> rw [hrd] at he hz ci ai ui hw1
  · simp at he
  · cases mm with
    | connect a k d =>
      obtain ⟨loc, epk, pl, sig, sec, h1, -, h2, h3, h8, -, -, -, -, h4⟩ := ci a k d rfl
      simp only at h4
      right; left
      dsimp only at he
      have h5 : m.status = .ongoing loc .validConnectMsgReceived := by rw [h4]
      refine ⟨loc, epk, k, pl, sig, h2, h3, h1, ?_⟩
      cases hu : SecureLayer.uncompressOpt env.cr d with
      | err e =>
        simp only [hu, Prod.mk.injEq, Res.err.injEq] at he
        obtain ⟨-, q, hd, hi⟩ := uncompressOpt_err hu
        rw [h8] at hd
        obtain ⟨rfl, hne⟩ := present_some hd
        exact .inl ⟨hne, hi, by rw [← he.1]; exact h5⟩
      | panic p => simp [hu] at he
      | ok cd =>
        simp only [hu] at he
        right
        rcases takeAck_cases env m with ⟨-, h6⟩ | ⟨x, hx, h6⟩ <;> rw [h6] at he
        · simp at he
        have hw2 : Wf env st.inner { m with ackMsgRecvTooEarly := none } := { hw1 with ackP := by simp, win := hw1.win.congr rfl rfl }
        have hz2 := readInner_ne_zip (env := env) (s := { m with ackMsgRecvTooEarly := none }) x true
        have ai2 := fun d => read_ack_inv (inc := x) (p := d) hw2
        have hx' : b.minimal.ackMsgRecvTooEarly = some x := by rw [← hx, h4]
        rcases ht : Layer.readInner env { m with ackMsgRecvTooEarly := none } x true with ⟨m2, (_ | mm) | e | p⟩ <;>
          rw [ht] at he hz2 ai2
        · simp at he
        · cases mm with
          | ack d2 =>
            obtain ⟨rem, q, sig', k', h9, h10, h11, h12, h13, h14⟩ := ai2 d2 rfl
            simp only at h9 h10 h14
            rw [h5] at h9
            simp only [Status.ongoing.injEq] at h9
            obtain ⟨h9, rfl⟩ := h9
            dsimp only at he
            cases hu2 : SecureLayer.uncompressOpt env.cr d2 with
            | err e =>
              simp only [hu2, Prod.mk.injEq, Res.err.injEq] at he
              obtain ⟨-, q', hd, hi⟩ := uncompressOpt_err hu2
              rw [h13] at hd
              obtain ⟨rfl, hne⟩ := present_some hd
              have hk : k' = k := by
                rw [h4] at h10
                exact (Option.some.inj h10).symm
              subst hk
              refine ⟨h9, q', sig', by rw [hx', h11]; rfl, h12, hne, hi, ?_⟩
              rw [← he.1]
              show m2.status = _
              rw [h14]
              rfl
            | panic p => simp [hu2] at he
            | ok x => simp [hu2] at he
          | connect _ _ _ => simp at he
          | message _ => simp at he
        · simp only [Prod.mk.injEq, Res.err.injEq] at he
          rw [he.2] at hz2
          simp at hz2
        · simp at he
    | ack d =>
      obtain ⟨rem, pl, sig, k, h1, h2, h3, h4, h8, h5⟩ := ai d rfl
      simp only at h5
      right; right
      have h6 : m.status = if rem = .ackMsgSent then .success else .ongoing .validAckMsgReceived rem := by rw [h5]
      refine ⟨k, pl, sig, rem, h3, h2, h4, h1, ?_⟩
      dsimp only at he
      cases hu : SecureLayer.uncompressOpt env.cr d with
      | err e =>
        simp only [hu, Prod.mk.injEq, Res.err.injEq] at he
        obtain ⟨-, q, hd, hi⟩ := uncompressOpt_err hu
        rw [h8] at hd
        obtain ⟨rfl, hne⟩ := present_some hd
        exact ⟨by rw [← he.1]; exact h6, .inl ⟨hne, hi⟩⟩
      | panic p => simp [hu] at he
      | ok cd =>
        simp only [hu] at he
        have hz2 := drainLoop_ne_zip (env := env) (s := { m with tmpStack := [] }) m.tmpStack []
        have hst := fun ms => drainLoop_ok_status (env := env) (s := { m with tmpStack := [] }) m.tmpStack [] ms hw1.stackP
        have hor := fun ms => drainLoop_origin (env := env) (s := { m with tmpStack := [] }) m.tmpStack [] ms hw1.stackP
        change (m.drainTmpStack env).2 ≠ _ at hz2
        change ∀ ms, (m.drainTmpStack env).2 = _ → (m.drainTmpStack env).1.status = m.status at hst
        change ∀ ms, (m.drainTmpStack env).2 = _ → _ at hor
        rcases ht : m.drainTmpStack env with ⟨m2, ms | e | p⟩ <;> rw [ht] at he hz2 hst hor
        · simp only [Prod.mk.injEq] at he
          refine ⟨by rw [← he.1]; exact (hst _ rfl).trans h6, .inr ?_⟩
          obtain ⟨q, hq, hi⟩ := uncompressUserMsgs_err he.2
          rcases hor ms rfl _ hq with hn | ⟨n, q', hn, hm, hmem⟩
          · simp at hn
          simp only [Message.message.injEq] at hm
          obtain ⟨rfl, hne⟩ := present_some hm.symm
          have hmem' : userPlain env.cr n q ∈ b.minimal.tmpStack := by
            have : m.tmpStack = b.minimal.tmpStack := by rw [h5]
            rw [← this]; exact hmem
          obtain ⟨key, hk, hin⟩ := stack_input hr hmem'
          refine ⟨?_, key, n, q, hk, hn, hin, hne, hi⟩
          have := hw.stack (List.ne_nil_of_mem hmem')
          rw [h1] at this
          simpa using this
        · simp only [Prod.mk.injEq, Res.err.injEq] at he
          rw [he.2] at hz2
          simp at hz2
        · simp at he
    | message d =>
      obtain ⟨k, n, pl, h1, h2, h3, h4, h5, -, h6, h7⟩ := ui d rfl
      left
      dsimp only at he
      cases hu : SecureLayer.uncompressOpt env.cr d with
      | err e =>
        simp only [hu, Prod.mk.injEq, Res.err.injEq] at he
        obtain ⟨-, q, hd, hi⟩ := uncompressOpt_err hu
        rw [h6] at hd
        obtain ⟨rfl, hne⟩ := present_some hd
        refine ⟨k, n, q, h2, h4, h5, hne, hi, h1, ?_⟩
        obtain ⟨O', n', st', h8, -, h9, -⟩ := updateNonces_frame env b.minimal n
        rw [h7] at h8 h9
        simp only at h8
        rw [← he.1]
        show m.status = _
        rw [h8]
        exact (h9 rfl).trans h1
      | panic p => simp [hu] at he
      | ok cd => simp [hu] at he
  · simp only [Prod.mk.injEq, Res.err.injEq] at he
    rw [he.2] at hz
    simp at hz
  · simp at he

/-- Two deliveries by `read` never carry the same number. -/
theorem no_second {env : Env} {st : Start} {h : List Event} {s : Layer} (law : env.cr.Lawful) (hr : Run env st h s)
    (hb : env.overflowChecks = true ∨ (inputs h).length < 2 ^ 64) {h1 h2 h3 : List Event} {k : SecretKey} {n : Nat}
    {p1 p2 : Bytes} {p q : Option Bytes} (hn : n < 2 ^ 64) (hk : s.secret = some k)
    (he : h = h1 ++ .read (cipherOf env.cr k n p1) (.ok (some (.message p))) ::
      (h2 ++ .read (cipherOf env.cr k n p2) (.ok (some (.message q))) :: h3)) : False := by
  obtain ⟨Ls, ha, hnd, -⟩ := C17_at_most_once hr hb
  rw [he] at ha
  obtain ⟨la, l1, lb, rfl, c1, hb1⟩ := forall₂_split ha
  obtain ⟨lc, l2, ld, rfl, c2, -⟩ := forall₂_split hb1
  obtain ⟨k1, n1, q1, rfl, -, hn1, hk1, e1⟩ := carries_read c1
  obtain ⟨k2, n2, q2, rfl, -, hn2, hk2, e2⟩ := carries_read c2
  rw [hk] at hk1 hk2
  simp only [Option.some.injEq] at hk1 hk2
  subst hk1 hk2
  obtain ⟨rfl, -⟩ := cipherOf_inj law hn hn1 e1
  obtain ⟨rfl, -⟩ := cipherOf_inj law hn hn2 e2
  simp only [List.flatten_append, List.flatten_cons, List.map_append, List.map_cons,
    List.singleton_append] at hnd
  have := (List.nodup_append.mp hnd).2.1
  rw [List.nodup_cons] at this
  exact this.1 (by simp)

/-- On a negotiated layer `read_bin` is `read` followed by decompression. -/
theorem readBin_success (hr : CRun env f st h b) (hs : ∀ loc rem, b.minimal.status ≠ .ongoing loc rem) (inc : Bytes) :
    (∃ d, b.minimal.read env inc = ((b.readBin env inc).1.minimal, .ok (some (.message d))) ∧
      (b.readBin env inc).2 = (SecureLayer.uncompressOpt env.cr d).bind fun x => .ok [.message x]) ∨
    ((∀ m, (b.minimal.read env inc).2 ≠ .ok (some m)) ∧ (b.readBin env inc).2 ≠ .err .zipError ∧
      ∀ ms, (b.readBin env inc).2 = .ok ms → ms = []) := by
  have hw := hr.wf
  have hz := readInner_ne_zip (env := env) (s := b.minimal) inc true
  have ci := fun a k d => read_connect_inv (inc := inc) (algo := a) (k := k) (p := d) hw
  have ai := fun d => read_ack_inv (inc := inc) (p := d) hw
  have hrr : b.minimal.readInner env inc true = b.minimal.read env inc := rfl
  rw [hrr] at hz ci ai
  unfold SecureLayer.readBin
  rcases hrd : b.minimal.read env inc with ⟨m, (_ | mm) | e | p⟩ <;> rw [hrd] at hz ci ai
  · right; simp
  · cases mm with
    | connect a k d =>
      obtain ⟨loc, epk, pl, sig, sec, h2, -⟩ := ci a k d rfl
      exact absurd h2 (hs _ _)
    | ack d =>
      obtain ⟨rem, pl, sig, k, h2, -⟩ := ai d rfl
      exact absurd h2 (hs _ _)
    | message d =>
      left
      refine ⟨d, ?_⟩
      dsimp only
      cases hu : SecureLayer.uncompressOpt env.cr d <;> exact ⟨rfl, rfl⟩
  · right
    refine ⟨by simp, ?_, by simp⟩
    dsimp only
    simp only [ne_eq, Res.err.injEq] at hz ⊢
    exact hz
  · right; simp

/-- **C42, user messages.** A user message that could not be decompressed is consumed: whatever happens later, no message
with its number is ever delivered. -/
theorem C42_user_consumed (law : env.cr.Lawful) (hr : CRun env f st h b) {inc : Bytes} (hs : b.minimal.status = .success)
    (he : b.readBin env inc = (b', .err .zipError)) :
    ∃ k n p, b.minimal.secret = some k ∧ n < 2 ^ 64 ∧ inc = cipherOf env.cr k n p ∧
      ∀ h' b'', CSteps (M := M) env f b' h' b'' →
        (env.overflowChecks = true ∨ (cinputs h).length + (cinputs h').length + 2 < 2 ^ 64) →
        ∀ p' ms, (b''.readBin env (cipherOf env.cr k n p')).2 = .ok ms → ms = [] := by
  have hno : ∀ loc rem, b.minimal.status ≠ .ongoing loc rem := by simp [hs]
  rcases readBin_success hr hno inc with ⟨d, h1, h2⟩ | ⟨-, h2, -⟩
  swap
  · rw [he] at h2; simp at h2
  rw [he] at h1
  obtain ⟨k, n, p, h3, h4, -, h5, h6, -, h7, -⟩ :=
    read_user_inv (inc := inc) (p := d) hr.wf (by show (b.minimal.read env inc).2 = _; rw [h1])
  refine ⟨k, n, p, h4, h5, h6, ?_⟩
  intro h' b'' hst hb p' ms hms
  have hr' : CRun env f st (h ++ [.readBin inc (.err .zipError)]) b' := by
    have := hr.call (.readBin inc)
    simpa only [cstep, he] using this
  obtain ⟨⟨l, hl, hla⟩, -⟩ := hr.lower
  have hl1 : Run env st.inner (l ++ [.read inc (.ok (some (.message d)))]) b'.minimal := by
    have := hl.call (.read inc)
    simpa only [step, h1] using this
  obtain ⟨l', hl', hla'⟩ := hst.lower hr'
  have hover1 : ∀ loc rem, b'.minimal.status ≠ .ongoing loc rem := by
    have h8 := steps_one env b.minimal (.read inc)
    have h9 : (step env b.minimal (.read inc)).1 = b'.minimal := by simp only [step, h1]
    rw [h9] at h8
    exact steps_over hr.wf h8 hno
  have hover := (CSteps_stack hr' hst hover1).2
  have hr'' := hr'.steps hst
  rcases readBin_success hr'' hover (cipherOf env.cr k n p') with ⟨d', h8, h9⟩ | ⟨-, -, h9⟩
  swap
  · exact h9 ms hms
  exfalso
  have hk1 : b''.minimal.secret = some k := by
    refine (C14_secret_stable hl1 hl').2 k ?_
    have := (stepFrame hr.wf (.read inc)).secret k h4
    simpa only [step, h1] using this
  have hl2 := hl1.steps hl'
  have hl3 := hl2.call (.read (cipherOf env.cr k n p'))
  simp only [step, h8] at hl3
  have hk2 : (b''.readBin env (cipherOf env.cr k n p')).1.minimal.secret = some k := by
    have := (stepFrame hr''.wf (.read (cipherOf env.cr k n p'))).secret k hk1
    simpa only [step, h8] using this
  refine no_second law hl3 (hb.imp_right fun hb => ?_) (h1 := l) (h2 := l') (h3 := []) (p1 := p) (p2 := p') (p := d)
    (q := d') h5 hk2 ?_
  · have e1 := hla.counts.2.2.2
    have e2 := hla'.counts.2.2.2
    simp only [inputs, List.filterMap_append, List.length_append] at e1 e2 ⊢
    rw [e1, e2]
    simp
    omega
  · rw [h6]
    simp [cipherOf_eq]

/-- **C42, CONNECT.** If the custom data of the awaited CONNECT cannot be decompressed, the CONNECT is consumed all the
same: reading it once more fails the layer. -/
theorem C42_connect_lost (hr : CRun env f st h b) {loc : LocalNego}
    (hs : b.minimal.status = .ongoing loc .waitConnectMsg) {epk pk p sig : Bytes} (hepk : epk.length = 32)
    (hpk : pk.length = 32) (hl : 86 + p.length < 2 ^ 64) (hsig : env.cr.edVerify pk (connectFrame epk pk p) sig = true)
    (hkey : b.minimal.peerSigPubkey = none ∨ b.minimal.peerSigPubkey = some pk)
    (hag : (env.cr.xAgree st.random epk).isSome = true) (hp : p ≠ []) (hz : env.cr.inflate p = none) :
    ∃ b1 b2, b.readBin env (connectFrame epk pk p ++ sig) = (b1, .err .zipError) ∧
      b1.minimal.status = .ongoing loc .validConnectMsgReceived ∧
      b1.readBin env (connectFrame epk pk p ++ sig) = (b2, .err (.recvInvalidMsg .unexpectedConnectMsg)) ∧
      b2.minimal.status = .fail := by
  have hw := hr.wf
  obtain ⟨kp, hkp⟩ := Option.ne_none_iff_exists'.mp (hw.wait _ hs)
  obtain ⟨rfl, -, -⟩ := hw.kp _ hkp
  obtain ⟨z, hz'⟩ := Option.isSome_iff_exists.mp hag
  obtain ⟨sec, hsec⟩ : ∃ sec, sessionKey env.cr st.random (env.cr.xPublic st.random) epk = some sec :=
    ⟨_, by rw [sessionKey, hz', Option.map_some]⟩
  have e1 := read_connect_eval (env := env) (b := b.minimal) hepk hpk hl hsig hkey hs hkp hsec
  have hpr : present p = some p := by
    unfold present
    cases p with
    | nil => exact absurd rfl hp
    | cons x l => rfl
  rw [hpr] at e1
  have e2 : ∃ b1, b.readBin env (connectFrame epk pk p ++ sig) = (b1, .err .zipError) ∧
      b1.minimal.status = .ongoing loc .validConnectMsgReceived ∧ b1.minimal.peerSigPubkey = some pk := by
    unfold SecureLayer.readBin
    rw [e1]
    simp only [SecureLayer.uncompressOpt, SecureLayer.uncompress, hz]
    exact ⟨_, rfl, rfl, rfl⟩
  obtain ⟨b1, h1, h2, h3⟩ := e2
  have e := read_connect_late_eval (env := env) (b := b1.minimal) hepk hpk hl hsig (.inr h3) (by simp [h2]) (by simp [h2])
  refine ⟨b1, { b1 with minimal := { b1.minimal with peerSigPubkey := some pk, status := .fail } }, h1, h2, ?_, rfl⟩
  unfold SecureLayer.readBin
  rw [e]

/-- **C42, ACK.** If the custom data of the ACK that completes the negotiation cannot be decompressed, the early user
messages are stuck: no later call touches them, and `read_bin` returns nothing but the user message it is given. -/
theorem C42_ack_stuck (law : env.cr.Lawful) (hr : CRun env f st h b) {p sig k : Bytes}
    (hs : b.minimal.status = .ongoing .connectMsgSent .ackMsgSent) (hl : 50 + p.length < 2 ^ 64)
    (hkey : b.minimal.peerSigPubkey = some k)
    (hsig : env.cr.edVerify k (ackFrame (env.cr.sha256 (env.cr.xPublic st.random)) p) sig = true)
    (hp : p ≠ []) (hz : env.cr.inflate p = none) :
    ∃ b', b.readBin env (ackFrame (env.cr.sha256 (env.cr.xPublic st.random)) p ++ sig) = (b', .err .zipError) ∧
      b'.minimal.status = .success ∧ ∀ h' b'', CSteps (M := M) env f b' h' b'' →
      b''.minimal.tmpStack = b.minimal.tmpStack ∧
      ∀ x ms, (b''.readBin env x).2 = .ok ms → ms = [] ∨ ∃ k n q d, b''.minimal.secret = some k ∧ n < 2 ^ 64 ∧
        x = cipherOf env.cr k n q ∧ ms = [.message d] := by
  have hw := hr.wf
  have e1 := read_ack_eval (env := env) (b := b.minimal) (p := p) (sig := sig)
    (c := env.cr.sha256 (env.cr.xPublic st.random)) (by rw [hw.epub]; rfl) (law.sha256_length _) hl hsig hkey hs
  have hpr : present p = some p := by
    unfold present
    cases p with
    | nil => exact absurd rfl hp
    | cons x l => rfl
  rw [hpr] at e1
  have e2 : ∃ b1, b.readBin env (ackFrame (env.cr.sha256 (env.cr.xPublic st.random)) p ++ sig) = (b1, .err .zipError) ∧
      b1.minimal.status = .success ∧ b1.minimal.tmpStack = b.minimal.tmpStack := by
    unfold SecureLayer.readBin
    rw [e1]
    simp only [SecureLayer.uncompressOpt, SecureLayer.uncompress, hz]
    exact ⟨_, rfl, rfl, rfl⟩
  obtain ⟨b1, h1, h2, h3⟩ := e2
  refine ⟨b1, h1, h2, ?_⟩
  intro h' b'' hst
  have hr' : CRun env f st (h ++ [.readBin (ackFrame (env.cr.sha256 (env.cr.xPublic st.random)) p ++ sig) (.err .zipError)]) b1 := by
    have := hr.call (.readBin (ackFrame (env.cr.sha256 (env.cr.xPublic st.random)) p ++ sig))
    simpa only [cstep, h1] using this
  obtain ⟨h4, h5⟩ := CSteps_stack hr' hst (by simp [h2])
  refine ⟨h4.trans h3, ?_⟩
  intro x ms hms
  rcases readBin_success (hr'.steps hst) h5 x with ⟨d, h6, h7⟩ | ⟨-, -, h7⟩
  swap
  · exact .inl (h7 ms hms)
  right
  obtain ⟨k, n, q, -, h8, -, h9, h10, -⟩ :=
    read_user_inv (inc := x) (p := d) (hr'.steps hst).wf (by show (b''.minimal.read env x).2 = _; rw [h6])
  rw [hms] at h7
  cases hu : SecureLayer.uncompressOpt env.cr d <;> rw [hu] at h7 <;> simp [Res.bind] at h7
  exact ⟨k, n, q, _, h8, h9, h10, h7⟩

/-- Early user messages are kept one after the other. -/
theorem readBinAll_early (law : env.cr.Lawful) {k : SecretKey} (hks : ¬ ∀ i < 4, env.cr.keystream k.key k.nonce i = 0)
    (l : List (Nat × Bytes)) (hl : ∀ x ∈ l, x.1 < 2 ^ 64 ∧ 26 + x.2.length < 2 ^ 64) {b : SecureLayer}
    (hk : b.minimal.secret = some k) (hs : b.minimal.status = .ongoing .connectMsgSent .ackMsgSent)
    (h0 : b.minimal.nextNonceExpected = 0) (h1 : b.minimal.orphanNonces = ∅) :
    readBinAll env b (l.map fun x => cipherOf env.cr k x.1 x.2) =
      ({ b with minimal := { b.minimal with tmpStack := b.minimal.tmpStack ++ l.map fun x => userPlain env.cr x.1 x.2 } },
       l.map fun _ => .ok []) := by
  induction l generalizing b with
  | nil => simp [readBinAll]
  | cons x l ih =>
    have hx := hl x (by simp)
    have e := readBin_user_stack_eval (p := x.2) law hx.1 hx.2 hks hk hs (by simp [Layer.seen, h0, h1])
    have e' : b.readBin env (cipherOf env.cr k x.1 x.2) = _ := e
    simp only [List.map_cons, readBinAll, e']
    have e2 := ih (fun y hy => hl y (by simp [hy]))
      (b := { b with minimal := { b.minimal with tmpStack := b.minimal.tmpStack ++ [userPlain env.cr x.1 x.2] } }) hk hs h0 h1
    rw [e2]
    simp

theorem uncompressUserMsgs_none {cr : Crypto} (ms : List Message) (acc : List BinMessage) {p : Bytes}
    (hm : .message (some p) ∈ ms) (hz : cr.inflate p = none) : SecureLayer.uncompressUserMsgs cr ms acc = .err .zipError := by
  induction ms generalizing acc with
  | nil => simp at hm
  | cons m ms ih =>
    rcases List.mem_cons.mp hm with rfl | hm'
    · simp [SecureLayer.uncompressUserMsgs, SecureLayer.uncompressOpt, SecureLayer.uncompress, hz]
    · cases m with
      | connect a k d => simp [SecureLayer.uncompressUserMsgs, ih _ hm']
      | ack d => simp [SecureLayer.uncompressUserMsgs, ih _ hm']
      | message d =>
        rw [SecureLayer.uncompressUserMsgs]
        cases hu : SecureLayer.uncompressOpt cr d with
        | ok x => simp [ih _ hm']
        | err e =>
          obtain ⟨rfl, -⟩ := uncompressOpt_err hu
          rfl
        | panic q =>
          unfold SecureLayer.uncompressOpt SecureLayer.uncompress at hu
          split at hu
          · simp at hu
          · rename_i b
            cases hi : cr.inflate b <;> simp [hi] at hu

/-- **C42, early messages.** One user message among those that overtook the ACK that does not decompress makes `read_bin`
return `ZipError` for the ACK: the layer is negotiated, but the ACK and all the early messages are lost, and none of them is
accepted again. -/
theorem C42_drain_lost (law : env.cr.Lawful) (hr : CRun env f st h b)
    (hs : b.minimal.status = .ongoing .connectMsgSent .ackMsgSent) (hst : b.minimal.tmpStack = []) {key : SecretKey}
    (hk : b.minimal.secret = some key) (hks : ¬ ∀ i < 4, env.cr.keystream key.key key.nonce i = 0) {p sig pk : Bytes}
    (hlp : 50 + p.length < 2 ^ 64) (hkey : b.minimal.peerSigPubkey = some pk)
    (hsig : env.cr.edVerify pk (ackFrame (env.cr.sha256 (env.cr.xPublic st.random)) p) sig = true)
    (hp : p = [] ∨ (env.cr.inflate p).isSome = true) (l : List (Nat × Bytes))
    (hl : ∀ x ∈ l, x.1 < 2 ^ 64 ∧ 26 + x.2.length < 2 ^ 64) (hlen : l.length < 2 ^ 64) (hnd : (l.map Prod.fst).Nodup)
    (hov : ∀ m, (overtakers (l.map Prod.fst) m).length ≤ 10000) {x : Nat × Bytes} (hx : x ∈ l) (hne : x.2 ≠ [])
    (hz : env.cr.inflate x.2 = none) :
    ∃ b1 b2, readBinAll env b (l.map fun x => cipherOf env.cr key x.1 x.2) = (b1, l.map fun _ => .ok []) ∧
      b1.readBin env (ackFrame (env.cr.sha256 (env.cr.xPublic st.random)) p ++ sig) = (b2, .err .zipError) ∧
      b2.minimal.status = .success ∧ b2.minimal.drainTmpStack env = (b2.minimal, .ok []) ∧
      ∀ y ∈ l, b2.readBin env (cipherOf env.cr key y.1 y.2) = (b2, .err (.recvInvalidMsg .invalidNonce)) := by
  have hw := hr.wf
  obtain ⟨-, z0, z1, -⟩ := hw.fresh _ _ hs
  have e1 := readBinAll_early law hks l hl hk hs z0 z1
  rw [hst, List.nil_append] at e1
  have hD : Knows { b.minimal with status := .success, tmpStack := [] } [] := by
    refine ⟨by simp, fun m => ?_⟩
    simp [Layer.seen, z0, z1]
  obtain ⟨e', O, d1, d2, d3⟩ := drainLoop_flow (env := env) law l [] (s := { b.minimal with status := .success, tmpStack := [] })
    (D := []) rfl (hw.win.congr rfl rfl) hD hl (by simpa [u64Size] using hlen)
    ((flow_iff [] (l.map Prod.fst) (by simpa using hnd) (by simp)).mpr fun m _ => by simpa using hov m)
  obtain ⟨d, hun⟩ : ∃ d, SecureLayer.uncompressOpt env.cr (present p) = .ok d := by
    rcases hp with rfl | hp
    · exact ⟨none, rfl⟩
    · obtain ⟨y, hy⟩ := Option.isSome_iff_exists.mp hp
      unfold present
      split
      · exact ⟨none, rfl⟩
      · exact ⟨some y, by simp [SecureLayer.uncompressOpt, SecureLayer.uncompress, hy]⟩
  have e2 := readBin_ack_eval (env := env) (p := p) (sig := sig) (d := d)
    (b := { b with minimal := { b.minimal with tmpStack := l.map fun x => userPlain env.cr x.1 x.2 } })
    (c := env.cr.sha256 (env.cr.xPublic st.random)) (k := pk)
    (m := { b.minimal with status := .success, tmpStack := [], nextNonceExpected := e', orphanNonces := O })
    (ms := l.map msgOf) (by simp only [hw.epub]; rfl) (law.sha256_length _) hlp hsig hkey hs hun
    (by unfold Layer.drainTmpStack; exact d1)
  rw [uncompressUserMsgs_none (p := x.2) _ _ (List.mem_map.mpr ⟨x, hx, by
    unfold msgOf present
    split
    · rename_i h; exact absurd h hne
    · rfl⟩) hz] at e2
  refine ⟨_, _, e1, e2, rfl, rfl, fun y hy => ?_⟩
  have e3 := read_user_replay_eval (env := env) y.2 law (hl y hy).1 (hl y hy).2 hks
    (b := { b.minimal with status := .success, tmpStack := [], nextNonceExpected := e', orphanNonces := O }) hk
    ((d3.seen y.1).mpr (by simpa using ⟨_, hy⟩))
  unfold SecureLayer.readBin
  have e4 : Layer.read env { b.minimal with status := .success, tmpStack := [], nextNonceExpected := e', orphanNonces := O }
    (cipherOf env.cr key y.1 y.2) = _ := e3
  simp only [e4]

/-- Two early messages, the second one not decompressing, and the ACK. -/
example (oc : Bool) : Toy.CReach Unit (Toy.env oc) ⟨true, true, true⟩ Toy.cstB (Toy.csB Toy.b3) ∧
    Toy.b3.status = .ongoing .connectMsgSent .ackMsgSent ∧ Toy.b3.tmpStack = [] ∧ Toy.b3.secret = some Toy.key ∧
    (¬ ∀ i < 4, Toy.cr.keystream Toy.key.key Toy.key.nonce i = 0) ∧ Toy.b3.peerSigPubkey = some Toy.pkA ∧
    Toy.cr.edVerify Toy.pkA (ackFrame (Toy.cr.sha256 (Toy.cr.xPublic Toy.cstB.random)) [])
      (Toy.cr.edSign Toy.seedA (ackFrame (Toy.cr.sha256 (Toy.cr.xPublic Toy.cstB.random)) [])) = true ∧
    (([(1, [0, 5]), (0, [9])] : List (Nat × Bytes)).map Prod.fst).Nodup ∧
    (∀ m, (overtakers (([(1, [0, 5]), (0, [9])] : List (Nat × Bytes)).map Prod.fst) m).length ≤ 10000) ∧
    Toy.cr.inflate [9] = none :=
  ⟨Toy.creach_b3 _ _ oc, rfl, rfl, rfl, Toy.key_stream, rfl, by decide +kernel, by decide,
    fun m => by
      unfold overtakers
      exact (List.length_filter_le _ _).trans ((List.takeWhile_sublist _).length_le.trans (by decide)), rfl⟩

/-- Toy messages with custom data or payload `[9]`, which does not decompress: the hypotheses of `C42_zip`,
`C42_user_consumed`, `C42_connect_lost` and `C42_ack_stuck` hold; in the last case with an early message pending. -/
example (oc : Bool) : Toy.cr.inflate [9] = none ∧
    (Toy.CReach Unit (Toy.env oc) ⟨true, true, true⟩ Toy.cstB (Toy.csB Toy.b4) ∧ Toy.b4.status = .success ∧
      ((Toy.csB Toy.b4).readBin (Toy.env oc) (cipherOf Toy.cr Toy.key 3 [9])).2 = .err .zipError) ∧
    (Toy.CReach Unit (Toy.env oc) ⟨true, true, true⟩ Toy.cstB (Toy.csB (Toy.layer0 [2] none)) ∧
      Toy.cr.edVerify Toy.pkA (connectFrame (Toy.xpub [1]) Toy.pkA [9])
        (Toy.cr.edSign Toy.seedA (connectFrame (Toy.xpub [1]) Toy.pkA [9])) = true ∧
      (Toy.cr.xAgree Toy.cstB.random (Toy.xpub [1])).isSome = true) ∧
    ∃ b, Toy.CReach Unit (Toy.env oc) ⟨true, true, true⟩ Toy.cstB b ∧
      b.minimal.status = .ongoing .connectMsgSent .ackMsgSent ∧ b.minimal.peerSigPubkey = some Toy.pkA ∧
      b.minimal.tmpStack.length = 1 ∧
      Toy.cr.edVerify Toy.pkA (ackFrame (Toy.cr.sha256 (Toy.cr.xPublic Toy.cstB.random)) [9])
        (Toy.cr.edSign Toy.seedA (ackFrame (Toy.cr.sha256 (Toy.cr.xPublic Toy.cstB.random)) [9])) = true := by
  refine ⟨rfl, ⟨Toy.creach_b4 _ _ _, rfl, by cases oc <;> decide +kernel⟩,
    ⟨Toy.creach_b0 _ _ _, by decide +kernel, by decide +kernel⟩, ?_⟩
  exact ⟨_, (Toy.creach_b3 _ _ oc).read (b := cipherOf Toy.cr Toy.key 3 [0, 5]) rfl, by cases oc <;> decide +kernel,
    by cases oc <;> decide +kernel, by cases oc <;> decide +kernel, by decide +kernel⟩

end
end Pkstl

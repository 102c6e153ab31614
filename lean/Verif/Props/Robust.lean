import Verif.Spec.Errors
import Verif.Props.Early
import Verif.Props.Negotiation
import Verif.Lemmas.Refuse
import Verif.Lemmas.Conf
import Verif.Model.Serde
/- C29–C32, C50: effects of failing calls. -/
namespace Pkstl
open Spec

section
variable {env : Env} {st : Start} {h : List Event} {s s' : Layer}

/-- Effect of an error of `read`. -/
theorem read_err {inc : Bytes} {e : Error} (hr : s.read env inc = (s', .err e)) :
    (nonFatal e = false ∧ s'.status = .fail) ∨
    (nonFatal e = true ∧ s' = s) ∨
    (e = .recvInvalidMsg .invalidHashOrSig ∧ s.peerSigPubkey = none ∧ ClearConnect inc ∧
      ∃ k, k = (inc.drop 54).take 32 ∧ s' = s.pin k) ∨
    (e = .failToComputeAgreement ∧ ∃ loc epk k, s.status = .ongoing loc .waitConnectMsg ∧
      SignedConnect env.cr inc epk k ∧
      s' = { s.pin k with
        status := .ongoing loc .validConnectMsgReceived, peerEpk := some epk, ephemeralKp := none }) := by
  have hcase := read_case env s inc
  rw [hr] at hcase
  dsimp only at hcase
  generalize hre : (Res.err e : Res (Option Message)) = r at hcase
  have pin : ∀ {k}, s.peerSigPubkey = some k → s.pin k = s := by
    intro k hk; cases s; simp_all [Layer.pin]
  cases hcase with
  | parseErr hp =>
    cases hre
    left
    refine ⟨?_, rfl⟩
    rcases readerRead_err hp with rfl | ⟨i, hi, rfl⟩
    · rfl
    · simp only [headerErrors, List.mem_cons, List.not_mem_nil, or_false] at hi
      rcases hi with rfl | rfl | rfl | rfl | rfl | rfl <;> rfl
  | connectKey => cases hre; exact .inr (.inl ⟨rfl, rfl⟩)
  | @connectBadSig d epk algo k hp hh hk hl hv =>
    simp only [Res.err.injEq] at hre
    subst hre
    right
    rcases hk with hk | hk
    · right; left
      obtain ⟨hd, h1, h2, h3, h4⟩ := connect_fields hp hh
      exact ⟨rfl, hk, ⟨h1, h2⟩, k, h4.symm, rfl⟩
    · left; exact ⟨rfl, pin hk⟩
  | connectLate hp hh hk hl hv hs he =>
    cases hre
    left
    refine ⟨?_, rfl⟩
    rw [he]
    split <;> rfl
  | connectNoKp =>
    split at hre
    · exact absurd hre.symm getMessage_ne_err
    · cases hre
  | connectNoAgreement hp hh hk hl hv hs hkp hsec =>
    simp only [Res.err.injEq] at hre
    subst hre
    exact .inr (.inr (.inr ⟨rfl, _, _, _, hs, signedConnect_of hp hh hv, rfl⟩))
  | connectOk => exact absurd hre.symm getMessage_ne_err
  | ackChallenge => cases hre; exact .inr (.inl ⟨rfl, rfl⟩)
  | ackTwice => cases hre; exact .inl ⟨rfl, rfl⟩
  | ackBadSig => cases hre; exact .inr (.inl ⟨rfl, rfl⟩)
  | ackLate hp hh hc hk hl hv hs he =>
    cases hre
    left
    refine ⟨?_, rfl⟩
    rw [he]
    split <;> rfl
  | ackOk => exact absurd hre.symm getMessage_ne_err
  | userReplay => cases hre; exact .inr (.inl ⟨rfl, rfl⟩)
  | userLate hp hh hn hs hs' he =>
    cases hre
    left
    refine ⟨?_, rfl⟩
    rw [he]
    split <;> rfl
  | userBadHash => cases hre; exact .inr (.inl ⟨rfl, rfl⟩)
  | @userNonceErr d n s1 e1 hp hh hn hs hl hv hu =>
    cases hre
    obtain ⟨O', n', t, h1, -, -, -, h5⟩ := updateNonces_frame env s n
    rw [hu] at h1 h5
    obtain ⟨rfl, rfl⟩ := h5 e rfl
    left
    refine ⟨rfl, ?_⟩
    dsimp only at h1
    rw [h1]
  | userOk => exact absurd hre.symm getMessage_ne_err
  | _ => cases hre

/-- **C29.** After an error that is not one of the five non-fatal ones, every later call on the layer and
on its clones is inert. -/
theorem C29_fatal (hr : Run env st h s) {inc : Bytes} {e : Error} (hrd : s.read env inc = (s', .err e))
    (hf : nonFatal e = false) {h' : List Event} {s'' : Layer} (hs : Steps env s' h' s'') :
    s''.status = .fail ∧ ∀ ev ∈ h', Inert ev := by
  have hr' : Run env st (h ++ [.read inc (.err e)]) s' := by
    have := hr.call (.read inc)
    simp only [step, hrd] at this
    exact this
  refine C09_fail_forever hr' ?_ hs
  rcases read_err hrd with ⟨-, h⟩ | ⟨h, -⟩ | ⟨rfl, -⟩ | ⟨rfl, -⟩
  · exact h
  · rw [hf] at h; simp at h
  · simp [nonFatal] at hf
  · simp [nonFatal] at hf

/-- A fatal error in the toy session: a second CONNECT. -/
example (oc : Bool) : Toy.Reach (Toy.env oc) Toy.stB Toy.b4 ∧
    (Toy.b4.read (Toy.env oc) (Toy.sign Toy.seedA Toy.conA)).2 =
      .err (.recvInvalidMsg .unexpectedConnectMsg) ∧
    nonFatal (.recvInvalidMsg .unexpectedConnectMsg) = false :=
  ⟨Toy.reach_b4 oc, by cases oc <;> decide +kernel, rfl⟩

/-- **C29.** The five non-fatal errors do not fail a layer: negotiated stays negotiated, ongoing stays
ongoing. -/
theorem C29_nonfatal {inc : Bytes} {e : Error} (hrd : s.read env inc = (s', .err e)) (hf : nonFatal e = true) :
    (s'.status = .fail ↔ s.status = .fail) ∧ (s'.status = .success ↔ s.status = .success) := by
  rcases read_err hrd with ⟨h, -⟩ | ⟨-, rfl⟩ | ⟨-, -, -, k, -, rfl⟩ | ⟨-, loc, epk, k, h1, -, rfl⟩
  · rw [hf] at h; simp at h
  · simp
  · simp
  · simp [h1]

/-- **C30 (partial).** An input rejected with a non-fatal error leaves the layer unchanged, except for a
clear CONNECT with an invalid signature on a layer that has no key pinned yet, and for a correctly signed
CONNECT whose ephemeral key admits no agreement. -/
theorem C30_unchanged_partial {inc : Bytes} {e : Error} (hrd : s.read env inc = (s', .err e))
    (hf : nonFatal e = true) (hag : e ≠ .failToComputeAgreement)
    (hc : ¬ (ClearConnect inc ∧ e = .recvInvalidMsg .invalidHashOrSig ∧ s.peerSigPubkey = none)) : s' = s := by
  rcases read_err hrd with ⟨h, -⟩ | ⟨-, h⟩ | ⟨h1, h2, h3, -⟩ | ⟨h, -⟩
  · rw [hf] at h; simp at h
  · exact h
  · exact absurd ⟨h3, h1, h2⟩ hc
  · exact absurd h hag

/-- **C30 (partial), exact.** The two exceptions are exceptions always: an input rejected with a non-fatal error changes the
layer if and only if it is one of them. -/
theorem C30_changed_iff_partial {inc : Bytes} {e : Error} (hrd : s.read env inc = (s', .err e)) (hf : nonFatal e = true) :
    s' ≠ s ↔ e = .failToComputeAgreement ∨
      (ClearConnect inc ∧ e = .recvInvalidMsg .invalidHashOrSig ∧ s.peerSigPubkey = none) := by
  refine ⟨fun h => by_contra fun hn => h (C30_unchanged_partial hrd hf (fun h => hn (.inl h)) fun h => hn (.inr h)), fun hx hss => ?_⟩
  have hcase := read_case env s inc
  rw [hrd] at hcase
  dsimp only at hcase
  generalize hre : (Res.err e : Res (Option Message)) = r at hcase
  cases hcase with
  | parseErr hp =>
    cases hre
    have hq := congrArg Layer.status hss
    rcases readerRead_err hp with rfl | ⟨i, hi, rfl⟩
    · simp at hx
    · simp only [headerErrors, List.mem_cons, List.not_mem_nil, or_false] at hi
      rcases hi with rfl | rfl | rfl | rfl | rfl | rfl <;> simp at hx
  | connectBadSig hp hh hk hl hv =>
    have hq := congrArg Layer.peerSigPubkey hss
    simp only [Res.err.injEq] at hre
    subst hre
    simp [Layer.pin] at hx hq
    rw [hx.2] at hq
    simp at hq
  | connectLate hp hh hk hl hv hs he =>
    cases hre
    rw [he] at hx
    split at hx <;> simp at hx
  | connectNoKp =>
    split at hre
    · exact absurd hre.symm getMessage_ne_err
    · cases hre
  | connectNoAgreement hp hh hk hl hv hs hkp hsec =>
    have hq := congrArg Layer.status hss
    simp [hs] at hq
  | connectOk => exact absurd hre.symm getMessage_ne_err
  | ackBadSig hp hh hc hk => cases hre; simp [hk] at hx
  | ackLate hp hh hc hk hl hv hs he =>
    cases hre
    rw [he] at hx
    split at hx <;> simp at hx
  | ackOk => exact absurd hre.symm getMessage_ne_err
  | userLate hp hh hn hs hs' he =>
    cases hre
    rw [he] at hx
    split at hx <;> simp at hx
  | userBadHash hp hh =>
    cases hre
    obtain ⟨-, -, -, hm, -⟩ := user_sealed hp hh
    simp at hx
    exact hm hx.1.1
  | userNonceErr hp hh hn hs hl hv hu =>
    cases hre
    obtain ⟨O', n', t, h1, -, -, -, h5⟩ := updateNonces_frame env s ‹Nat›
    rw [hu] at h5
    obtain ⟨rfl, rfl⟩ := h5 e rfl
    simp at hx
  | userOk => exact absurd hre.symm getMessage_ne_err
  | _ => cases hre <;> simp at hx

/-- The toy party B refuses an ACK whose challenge is wrong. -/
example (oc : Bool) : (Toy.b3.read (Toy.env oc) (Toy.sign Toy.seedA Toy.ackB)).2 =
    .err (.recvInvalidMsg .invalidChallenge) ∧ nonFatal (.recvInvalidMsg .invalidChallenge) = true :=
  ⟨by cases oc <;> decide +kernel, rfl⟩

/-- **C30 (refuted).** On any layer that waits for a CONNECT and has no key configured, a CONNECT with an
invalid signature is rejected but pins the key it names: from then on every CONNECT of anybody else, however
valid, is refused, whatever happens in between. -/
theorem C30_refuted_pin (hr : Run env st h s) (hkey : s.peerSigPubkey = none)
    {epk pk p sig : Bytes} (hepk : epk.length = 32) (hpk : pk.length = 32) (hlen : 86 + p.length < 2 ^ 64)
    (hsig : env.cr.edVerify pk (connectFrame epk pk p) sig = false) :
    ∃ s', s.read env (connectFrame epk pk p ++ sig) = (s', .err (.recvInvalidMsg .invalidHashOrSig)) ∧
      (s'.status = s.status) ∧
      ∀ {h' : List Event} {s'' : Layer}, Steps env s' h' s'' → s''.cloned = false →
        ∀ {epk' pk' p' sig' : Bytes}, epk'.length = 32 → pk'.length = 32 → 86 + p'.length < 2 ^ 64 → pk' ≠ pk →
          s''.read env (connectFrame epk' pk' p' ++ sig') = (s'', .err .unexpectedRemoteSigPubKey) := by
  have he := read_connect_sig_eval (env := env) (b := s) (sig := sig) hepk hpk hlen hkey hsig
  refine ⟨_, he, rfl, ?_⟩
  have hr' : Run env st (h ++ [.read (connectFrame epk pk p ++ sig) (invalidMsg .invalidHashOrSig)]) (s.pin pk) := by
    have := hr.call (.read (connectFrame epk pk p ++ sig))
    simp only [step, he] at this
    exact this
  intro h' s'' hs hcl epk' pk' p' sig' h1 h2 h3 h4
  refine read_connect_key_eval h1 h2 h3 (k := pk) ?_ h4
  clear he
  induction hs with
  | refl => rfl
  | @call s1 h1 hs op ih =>
    have hw := Wf.of_run (hr'.steps hs)
    have hcl1 : s1.cloned = false := by
      by_contra hne
      have := ((step_conf hw op).1 (by simpa using hne)).1
      rw [hcl] at this; simp at this
    exact (stepFrame hw op).psk _ (ih hcl1)
  | @cloned s1 c h1 hs hc ih =>
    obtain ⟨-, rfl⟩ := tryClone_ok hc
    simp at hcl

/-- A fresh toy layer and a forged CONNECT. -/
example (oc : Bool) : Run (Toy.env oc) Toy.stB [] (Toy.layer0 [2] none) ∧
    (Toy.layer0 [2] none).peerSigPubkey = none ∧
    Toy.cr.edVerify Toy.pkA (connectFrame (Toy.xpub [3]) Toy.pkA []) (List.replicate 64 0) = false ∧
    Toy.pkB ≠ Toy.pkA :=
  ⟨Toy.run0 oc _ _, rfl, by decide +kernel, by decide +kernel⟩

/-- **C30 (refuted).** A correctly signed CONNECT whose ephemeral key admits no agreement is rejected with a
non-fatal error, but the step of the negotiation is consumed: the peer's next CONNECT, however valid, fails
the layer. -/
theorem C30_refuted_agreement (hr : Run env st h s) {loc : LocalNego} (hwait : s.status = .ongoing loc .waitConnectMsg)
    {epk pk p sig : Bytes} (hkey : s.peerSigPubkey = none ∨ s.peerSigPubkey = some pk)
    (hepk : epk.length = 32) (hpk : pk.length = 32) (hlen : 86 + p.length < 2 ^ 64)
    (hsig : env.cr.edVerify pk (connectFrame epk pk p) sig = true)
    (hag : env.cr.xAgree st.random epk = none) :
    ∃ s', s.read env (connectFrame epk pk p ++ sig) = (s', .err .failToComputeAgreement) ∧ s'.secret = none ∧
      ∀ {epk' p' sig' : Bytes}, epk'.length = 32 → 86 + p'.length < 2 ^ 64 →
        env.cr.edVerify pk (connectFrame epk' pk p') sig' = true →
        ∃ s'', s'.read env (connectFrame epk' pk p' ++ sig') = (s'', .err (.recvInvalidMsg .unexpectedConnectMsg)) ∧
          s''.status = .fail := by
  have hw := Wf.of_run hr
  obtain ⟨kp, hkp⟩ := Option.ne_none_iff_exists'.mp (hw.wait _ hwait)
  obtain ⟨rfl, -, hsec⟩ := hw.kp _ hkp
  refine ⟨_, read_connect_agree_eval hepk hpk hlen hsig hkey hwait hkp (by simp [sessionKey, hag]), hsec, ?_⟩
  intro epk' p' sig' h1 h2 h3
  exact ⟨_, read_connect_late_eval h1 hpk h2 h3 (.inr rfl) (by simp) (by simp), rfl⟩

/-- A fresh toy layer and a CONNECT with the all-zero ephemeral key. -/
example (oc : Bool) : Run (Toy.env oc) Toy.stB [] (Toy.layer0 [2] none) ∧
    (Toy.layer0 [2] none).status = .ongoing .created .waitConnectMsg ∧
    Toy.cr.edVerify Toy.pkA (connectFrame (List.replicate 32 0) Toy.pkA [])
      (Toy.cr.edSign Toy.seedA (connectFrame (List.replicate 32 0) Toy.pkA [])) = true ∧
    Toy.cr.xAgree Toy.stB.random (List.replicate 32 0) = none :=
  ⟨Toy.run0 oc _ _, rfl, by decide +kernel, by decide +kernel⟩

/-- **C31 (refuted).** Between the two ACKs, presenting one recorded user message `N` times is accepted
`N` times and stores `N` copies, for every `N`. -/
theorem C31_refuted (law : env.cr.Lawful) (hr : Run env st h s)
    (hs : s.status = .ongoing .connectMsgSent .ackMsgSent) {k : SecretKey} (hk : s.secret = some k)
    (hks : ¬ ∀ i < 4, env.cr.keystream k.key k.nonce i = 0) {n : Nat} {p : Bytes} (hn : n < 2 ^ 64)
    (hlen : 26 + p.length < 2 ^ 64) (N : Nat) :
    ∃ s', Steps env s (List.replicate N (.read (cipherOf env.cr k n p) (.ok none))) s' ∧
      s'.tmpStack = s.tmpStack ++ List.replicate N (userFrame n p ++ env.cr.sha256 (userFrame n p)) := by
  obtain ⟨-, h0, h1, -⟩ := (Wf.of_run hr).fresh _ _ hs
  suffices H : ∃ s', Steps env s (List.replicate N (.read (cipherOf env.cr k n p) (.ok none))) s' ∧
      s' = { s with tmpStack := s.tmpStack ++ List.replicate N (userPlain env.cr n p) } by
    obtain ⟨s', h2, rfl⟩ := H
    exact ⟨_, h2, rfl⟩
  induction N with
  | zero => exact ⟨s, .refl s, by simp⟩
  | succ N ih =>
    obtain ⟨s', h2, rfl⟩ := ih
    have := h2.call (.read (cipherOf env.cr k n p))
    simp only [step] at this
    have hrd := read_user_stack_eval (b := { s with tmpStack := s.tmpStack ++ List.replicate N (userPlain env.cr n p) })
      p law hn hlen hks hk hs (by simp [Layer.seen, h0, h1])
    rw [← cipherOf_eq] at hrd
    rw [hrd] at this
    rw [List.replicate_succ', List.replicate_succ']
    exact ⟨_, this, by simp⟩

/-- Toy party B is between the two ACKs. -/
example : Toy.Reach (Toy.env true) Toy.stB Toy.b3 ∧ Toy.b3.status = .ongoing .connectMsgSent .ackMsgSent ∧
    Toy.b3.secret = some Toy.key ∧ (¬ ∀ i < 4, Toy.cr.keystream Toy.key.key Toy.key.nonce i = 0) :=
  ⟨Toy.reach_b3 _, rfl, rfl, Toy.key_stream⟩

/-- **C31 (partial).** Only authentic user messages are stored, and only before the peer's ACK: what a layer
stores was received under its session key, and outside that phase the store does not grow. -/
theorem C31_stored_partial (hr : Run env st h s) :
    (∀ b ∈ s.tmpStack, ∃ k, s.secret = some k ∧ aeadSeal env.cr k b ∈ inputs h) ∧
    (s.status ≠ .ongoing .connectMsgSent .ackMsgSent → ∀ op,
      (step env s op).1.tmpStack.length ≤ s.tmpStack.length) := by
  refine ⟨(Prov.of_run hr).stack, fun hs op => ?_⟩
  have hw := Wf.of_run hr
  cases op with
  | read b =>
    rcases (readFrame env s b true).stack with h | ⟨h, -⟩
    · exact Nat.le_of_eq (congrArg List.length h)
    · exact absurd h hs
  | takeAck =>
    simp only [step]
    rcases takeAck_cases env s with ⟨-, he⟩ | ⟨b, -, he⟩
    · rw [he]
    · rw [he]
      rcases (readFrame env { s with ackMsgRecvTooEarly := none } b true).stack with h | ⟨h, -⟩
      · exact Nat.le_of_eq (congrArg List.length h)
      · exact absurd h hs
  | drain =>
    have := (drainLoop_stack (env := env) { s with tmpStack := [] } s.tmpStack [] hw.stackP).2
    simp only [step]
    unfold Layer.drainTmpStack
    simpa using this
  | connect pk d =>
    simp only [step]
    rcases createConnect_cases env s pk d with ⟨rem, hs, he⟩ | ⟨-, he⟩ <;> rw [he] <;> exact Nat.le_refl _
  | ack d =>
    simp only [step]
    rcases createAck_cases env s d with ⟨loc, hs, he⟩ | ⟨-, he⟩ <;> rw [he] <;> exact Nat.le_refl _
  | write d w =>
    simp only [step]
    rcases writeMessage_cases env s d w with ⟨-, he⟩ | ⟨_, _, -, he⟩ | ⟨-, -, he⟩ |
      ⟨hs, k, hk, ⟨w', e, -, he⟩ | ⟨w', -, ⟨n, hn, he⟩ | ⟨-, he⟩⟩⟩ <;> rw [he] <;> exact Nat.le_refl _
  | clone =>
    simp only [step]
    unfold Layer.tryClone
    split <;> exact Nat.le_refl _
  | config c =>
    simp only [step]
    unfold Layer.changeConfig
    split <;> exact Nat.le_refl _

theorem drainLoop_append (a b : List Bytes) (ms : List Message) :
    s.drainLoop env (a ++ b) ms =
      match s.drainLoop env a ms with
      | (s', .ok ms') => s'.drainLoop env b ms'
      | (s', .err e) => (s', .err e)
      | (s', .panic p) => (s', .panic p) := by
  induction a generalizing s ms with
  | nil => simp [Layer.drainLoop]
  | cons x a ih =>
    rw [List.cons_append]
    rw [Layer.drainLoop, Layer.drainLoop]
    rcases s.readInner env x false with ⟨s', (_ | m) | e | p⟩
    · exact ih _
    · exact ih _
    · rfl
    · rfl

/-- **C32 (refuted).** Take any history that ends with the ACK that completes the negotiation, in which
different early messages arrived followed by a replay of one of them.  Draining fails, delivers nothing,
empties the stack, and every one of these messages is refused as a replay from then on. -/
theorem C32_refuted (law : env.cr.Lawful) (hr : Run env st h s) {e : Event} {h1 : List Event}
    (he : h = h1 ++ [e]) (hack : ∃ m ∈ e.delivers, isAck m = true) (hs : s.status = .success)
    {k : SecretKey} (hk : s.secret = some k) (l : List (Nat × Bytes)) {x : Nat × Bytes} (hx : x ∈ l)
    (hl : ∀ x ∈ l, x.1 < 2 ^ 64 ∧ 26 + x.2.length < 2 ^ 64) (hlen : l.length < 2 ^ 64)
    (hearly : early h1 = (l ++ [x]).map fun x => cipherOf env.cr k x.1 x.2)
    (hnd : (l.map Prod.fst).Nodup) (hov : ∀ m, (overtakers (l.map Prod.fst) m).length ≤ 10000) :
    ∃ s', s.drainTmpStack env = (s', .err (.recvInvalidMsg .invalidNonce)) ∧
      s'.status = .success ∧ s'.drainTmpStack env = (s', .ok []) ∧
      ((¬ ∀ i < 4, env.cr.keystream k.key k.nonce i = 0) → ∀ x ∈ l,
        s'.read env (cipherOf env.cr k x.1 x.2) = (s', .err (.recvInvalidMsg .invalidNonce))) := by
  obtain ⟨s1, hr1, hs1, t1, t2, t3, t4⟩ := ack_completes hr he hack hs
  have hw1 := Wf.of_run hr1
  obtain ⟨-, z0, z1, -⟩ := hw1.fresh _ _ hs1
  have hst := stack_eq hr1 _ _ hs1
  rw [← t2, hk, hearly] at hst
  have hst' : s1.tmpStack = (l ++ [x]).map fun x => userPlain env.cr x.1 x.2 := by
    apply seal_map_inj law (k := k)
    rw [List.map_map]
    exact hst
  have hD : Knows { s with tmpStack := [] } [] := by
    refine ⟨by simp, fun m => ?_⟩
    simp [Layer.seen, t3, t4, z0, z1]
  obtain ⟨e', O, d1, d2, d3⟩ := drainLoop_flow law l [] (s := { s with tmpStack := [] }) (D := []) hs
    ((Wf.of_run hr).win.congr rfl rfl) hD hl (by simpa [u64Size] using hlen)
    ((flow_iff [] (l.map Prod.fst) (by simpa using hnd) (by simp)).mpr fun m _ => by simpa using hov m)
  have hseen : ∀ y ∈ l, ({ s with tmpStack := [], nextNonceExpected := e', orphanNonces := O } : Layer).seen y.1 := by
    intro y hy
    have := d3.seen y.1
    simp only [List.nil_append] at this
    exact this.mpr (List.mem_map.mpr ⟨y, hy, rfl⟩)
  have hdr : s.drainTmpStack env =
      ({ s with tmpStack := [], nextNonceExpected := e', orphanNonces := O },
        .err (.recvInvalidMsg .invalidNonce)) := by
    unfold Layer.drainTmpStack
    rw [t1, hst', List.map_append, drainLoop_append, d1]
    dsimp only
    simp only [List.map_cons, List.map_nil]
    unfold Layer.drainLoop
    obtain ⟨d, g1, g2, g3, -⟩ := parse_userPlain (env := env) (enc := true) (chk := true) x.2 law (hl x hx).1
      (hl x hx).2 (by simp)
    rw [readInner_stacked _ g1 g3]
    have : Layer.readUser env { s with tmpStack := [], nextNonceExpected := e', orphanNonces := O } d x.1 =
        ({ s with tmpStack := [], nextNonceExpected := e', orphanNonces := O }, invalidMsg .invalidNonce) := by
      unfold Layer.readUser
      exact if_pos (hseen x hx)
    rw [this]
  refine ⟨_, hdr, hs, rfl, fun hks y hy => ?_⟩
  exact read_user_replay_eval y.2 law (hl y hy).1 (hl y hy).2 hks hk (hseen y hy)

/-- Toy party B receives two early messages, a replay of the first, and the ACK. -/
example (oc : Bool) : ∃ h1 e s, Run (Toy.env oc) Toy.stB (h1 ++ [e]) s ∧ (∃ m ∈ e.delivers, isAck m = true) ∧
    s.status = .success ∧ s.secret = some Toy.key ∧
    early h1 = (([(1, [5]), (0, [6])] : List (Nat × Bytes)) ++ [(1, [5])]).map (fun x : Nat × Bytes => cipherOf Toy.cr Toy.key x.1 x.2) ∧
    (∀ m, (overtakers ([(1, [5]), (0, [6])].map Prod.fst) m).length ≤ 10000) := by
  obtain ⟨h, hr, hz⟩ := Toy.hist_b3 oc
  have r := (((hr.call (.read (cipherOf Toy.cr Toy.key 1 [5]))).call
    (.read (cipherOf Toy.cr Toy.key 0 [6]))).call (.read (cipherOf Toy.cr Toy.key 1 [5]))).call
    (.read (Toy.sign Toy.seedA Toy.ackA))
  refine ⟨_, _, _, r, ?_, ?_, ?_, ?_, ?_⟩
  · cases oc <;> decide +kernel
  · cases oc <;> decide +kernel
  · cases oc <;> decide +kernel
  · rw [early_append, early_append, early_append, hz]
    cases oc <;> decide +kernel
  · intro m
    unfold overtakers
    exact (List.length_filter_le _ _).trans ((List.takeWhile_sublist _).length_le.trans (by decide))

/-- A successful drain hands out everything. -/
theorem drainLoop_all (bs : List Bytes) (ms r : List Message) (hb : Stackable env bs) (hs : s.status = .success)
    (hd : (s.drainLoop env bs ms).2 = .ok r) :
    (∃ l : List (Nat × Bytes), bs = l.map (fun x => userPlain env.cr x.1 x.2) ∧ r = ms ++ l.map msgOf) ∧
      (s.drainLoop env bs ms).1.tmpStack = s.tmpStack := by
  induction bs generalizing s ms with
  | nil =>
    unfold Layer.drainLoop at hd
    simp only [Res.ok.injEq] at hd
    exact ⟨⟨[], rfl, by simp [hd]⟩, rfl⟩
  | cons b bs ih =>
    obtain ⟨n, d, hp, hh⟩ := hb b (by simp)
    have hb2 : Stackable env bs := fun b hm => hb b (by simp [hm])
    rw [Layer.drainLoop, readInner_stacked s hp hh] at hd
    rw [Layer.drainLoop, readInner_stacked s hp hh]
    have hnone : (s.readUser env d n).2 ≠ .ok none := by
      unfold Layer.readUser
      rw [hs]
      split
      · simp
      · simp only [Status.applyAction]
        split
        · split
          · simp
          · split
            · simp
            · simp
            · exact getMessage_ne_none
        · simp
    rcases hq : s.readUser env d n with ⟨s', (_ | m') | e | q⟩ <;> rw [hq] at hd
    · rw [hq] at hnone; exact absurd rfl hnone
    · obtain ⟨payload, h1, h2, h3, h4, h5, h6⟩ := readUser_inv hp hh (by rw [hq])
      rw [hq] at h6
      obtain ⟨O', n', t, g1, -, g2, -⟩ := updateNonces_frame env s n
      rw [h6] at g1 g2
      dsimp only at g1 g2
      obtain ⟨⟨l, i1, i2⟩, i3⟩ := ih _ hb2 (by rw [g1]; exact (g2 rfl).trans hs) hd
      refine ⟨⟨(n, payload) :: l, by simp [i1, h4], ?_⟩, ?_⟩
      · rw [i2, h5]; simp [msgOf]
      · dsimp only
        rw [i3, g1]
    · simp at hd
    · simp at hd

/-- **C32 (partial).** If draining a negotiated layer succeeds, every stored message is delivered, in order of
arrival, and nothing stays behind. -/
theorem C32_all_partial (hr : Run env st h s) (hs : s.status = .success) {ms : List Message}
    (hd : s.drainTmpStack env = (s', .ok ms)) :
    (∃ l : List (Nat × Bytes), s.tmpStack = l.map (fun x => userFrame x.1 x.2 ++ env.cr.sha256 (userFrame x.1 x.2)) ∧
      ms = l.map fun x => .message (present x.2)) ∧
    s'.drainTmpStack env = (s', .ok []) := by
  have hw := Wf.of_run hr
  unfold Layer.drainTmpStack at hd
  obtain ⟨⟨l, h1, h2⟩, h3⟩ := drainLoop_all s.tmpStack [] ms hw.stackP (s := { s with tmpStack := [] }) hs
    (by rw [hd])
  refine ⟨⟨l, h1, by simpa using h2⟩, ?_⟩
  rw [hd] at h3
  unfold Layer.drainTmpStack
  dsimp only at h3
  rw [h3, Layer.drainLoop]
  cases s'
  simp only at h3
  rw [h3]

/-- Toy party B receives two early messages and the ACK. -/
example (oc : Bool) : ∃ h s, Run (Toy.env oc) Toy.stB h s ∧ s.status = .success ∧
    s.tmpStack = ([(2, [5]), (1, [6])] : List (Nat × Bytes)).map (fun x => userFrame x.1 x.2 ++ Toy.cr.sha256 (userFrame x.1 x.2)) ∧
    (s.drainTmpStack (Toy.env oc)).2 = .ok [.message (some [5]), .message (some [6])] := by
  obtain ⟨h, hr, -⟩ := Toy.hist_b3 oc
  have r := ((hr.call (.read (cipherOf Toy.cr Toy.key 2 [5]))).call
    (.read (cipherOf Toy.cr Toy.key 1 [6]))).call (.read (Toy.sign Toy.seedA Toy.ackA))
  exact ⟨_, _, r, by cases oc <;> decide +kernel, by cases oc <;> decide +kernel, by cases oc <;> decide +kernel⟩

end
end Pkstl

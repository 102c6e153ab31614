import Verif.Lemmas.Nonce
import Verif.Spec.History
/- The invariant of all reachable states. -/
namespace Pkstl
open Spec

/-- Holds in every state reachable from `st`. -/
structure Wf (env : Env) (st : Start) (s : Layer) : Prop where
  epub : s.ephemeralPubkey = env.cr.xPublic st.random
  kp : ∀ kp, s.ephemeralKp = some kp → kp = ⟨st.random, env.cr.xPublic st.random⟩ ∧ s.peerEpk = none ∧
    s.secret = none
  wait : ∀ loc, s.status = .ongoing loc .waitConnectMsg → s.ephemeralKp ≠ none
  past : ∀ loc rem, s.status = .ongoing loc rem → rem ≠ .waitConnectMsg →
    s.peerEpk ≠ none ∧ s.peerSigPubkey ≠ none
  peer : ∀ epk, s.peerEpk = some epk →
    s.secret = sessionKey env.cr st.random (env.cr.xPublic st.random) epk
  secr : ∀ k, s.secret = some k →
    ∃ epk, sessionKey env.cr st.random (env.cr.xPublic st.random) epk = some k
  fresh : ∀ loc rem, s.status = .ongoing loc rem →
    s.cloned = false ∧ s.nextNonceExpected = 0 ∧ s.orphanNonces = ∅ ∧ s.nextNonceSent = 0
  win : WinOk s
  stack : s.tmpStack ≠ [] →
    s.status = .ongoing .connectMsgSent .ackMsgSent ∨ s.status = .success ∨ s.status = .fail
  stackP : ∀ b ∈ s.tmpStack, ∃ n d, parseClear env true b true = .ok d ∧ d.msgTypeHeaders = .userMsg n
  ackP : ∀ b, s.ackMsgRecvTooEarly = some b → b.take 4 = MAGIC_VALUE ∧
    ∃ d, parseClear env false b true = .ok d ∧
      d.msgTypeHeaders = .ack (env.cr.sha256 (env.cr.xPublic st.random))
  expc : ∀ k, st.expected = some k → s.cloned = false → s.peerSigPubkey = some k
  sent : s.nextNonceSent < u64Size

section
variable {env : Env} {st : Start} {s : Layer}

theorem WinOk.congr {s s' : Layer} (h : WinOk s) (h1 : s'.nextNonceExpected = s.nextNonceExpected)
    (h2 : s'.orphanNonces = s.orphanNonces) : WinOk s' :=
  ⟨h1 ▸ h.exp, by rw [h1, h2]; exact h.orph, h2 ▸ h.card⟩

theorem Wf.fail (h : Wf env st s) : Wf env st { s with status := .fail } where
  epub := h.epub
  kp := h.kp
  wait := by simp
  past := by simp
  peer := h.peer
  secr := h.secr
  fresh := by simp
  win := h.win.congr rfl rfl
  stack := by simp
  stackP := h.stackP
  ackP := h.ackP
  expc := h.expc
  sent := h.sent

theorem Wf.pin (h : Wf env st s) {k : Bytes} (hk : s.peerSigPubkey = none ∨ s.peerSigPubkey = some k) :
    Wf env st (s.pin k) where
  epub := h.epub
  kp := h.kp
  wait := h.wait
  past := fun loc rem h1 h2 => ⟨(h.past loc rem h1 h2).1, by simp [Layer.pin]⟩
  peer := h.peer
  secr := h.secr
  fresh := h.fresh
  win := h.win.congr rfl rfl
  stack := h.stack
  stackP := h.stackP
  ackP := h.ackP
  expc := fun k' h1 h2 => by
    have := h.expc k' h1 h2
    rcases hk with hk | hk
    · simp_all
    · simp_all [Layer.pin]
  sent := h.sent

/-- With a number from a parsed message the window stays well formed. -/
theorem Wf.nonces (h : Wf env st s) (hs : s.status = .success) {n : Nat} (hn : n < u64Size)
    (hfresh : ¬ s.seen n) : Wf env st (s.updateNonces env n).1 := by
  have key : ∀ n' O', WinOk { s with nextNonceExpected := n', orphanNonces := O' } →
      Wf env st { s with nextNonceExpected := n', orphanNonces := O' } := by
    intro n' O' hw
    exact {
      epub := h.epub, kp := h.kp, wait := h.wait, past := h.past, peer := h.peer, secr := h.secr
      fresh := by simp [hs]
      win := hw
      stack := h.stack, stackP := h.stackP, ackP := h.ackP, expc := h.expc, sent := h.sent }
  rcases updateNonces_spec env s n h.win hn hfresh with
    ⟨O', n', he, hw, -, -⟩ | ⟨-, he, -, -⟩ | ⟨-, he, -, -⟩ | ⟨-, -, he⟩
  · rw [he]; exact key _ _ hw
  · rw [he]; exact key _ _ ⟨by simp [u64Size], by simp, by simp⟩
  · rw [he]; exact key _ _ ⟨by simp [u64Size], by simp, by simp⟩
  · rw [he]; exact h.fail

theorem user_number_lt {sec : Option SecretKey} {inc : Bytes} {chk : Bool} {d : DecryptedIncomingData}
    {n : Nat} (hp : readerRead env sec inc chk = .ok d) (hh : d.msgTypeHeaders = .userMsg n) :
    n < u64Size := by
  rcases readerRead_inv hp with ⟨-, h, -⟩ | ⟨-, k, -, -, h⟩ <;>
  · have := (parseClear_iff.mp h).2.1
    rw [hh] at this
    exact this

theorem user_stackable {sec : Option SecretKey} {inc : Bytes} {chk : Bool} {d : DecryptedIncomingData}
    {n : Nat} (hp : readerRead env sec inc chk = .ok d) (hh : d.msgTypeHeaders = .userMsg n) :
    parseClear env true d.data true = .ok d := by
  rcases readerRead_inv hp with ⟨-, h, -⟩ | ⟨-, k, -, -, h⟩ <;>
  · obtain ⟨hd, hok, hb, -, hrest⟩ := parseClear_iff.mp h
    rw [parseClear_iff]
    refine ⟨rfl, hok, hb, fun _ => by rw [hh]; rfl, ?_⟩
    rwa [hd]

theorem ack_clear {sec : Option SecretKey} {inc : Bytes} {chk : Bool} {d : DecryptedIncomingData}
    {c : Bytes} (hp : readerRead env sec inc chk = .ok d) (hh : d.msgTypeHeaders = .ack c)
    (hc : chk = true ∨ inc.take 4 = MAGIC_VALUE) :
    inc.take 4 = MAGIC_VALUE ∧ d.data = inc ∧ parseClear env false inc true = .ok d := by
  rcases readerRead_inv hp with ⟨hm, h, hd⟩ | ⟨hm, k, -, -, h⟩
  · obtain ⟨_, hok, hb, -, hrest⟩ := parseClear_iff.mp h
    refine ⟨hm, hd, parseClear_iff.mpr ⟨hd, hok, hb, fun _ => by rw [hh]; rfl, hrest⟩⟩
  · rcases hc with hc | hc
    · have := (parseClear_iff.mp h).2.2.2.1 hc
      rw [hh] at this
      simp [MsgTypeHeaders.mustBeEncrypted] at this
    · exact absurd hc hm

theorem connect_clear {sec : Option SecretKey} {inc : Bytes} {chk : Bool} {d : DecryptedIncomingData}
    {epk algo k : Bytes} (hp : readerRead env sec inc chk = .ok d)
    (hh : d.msgTypeHeaders = .connect epk algo k) (hc : chk = true ∨ inc.take 4 = MAGIC_VALUE) :
    inc.take 4 = MAGIC_VALUE ∧ d.data = inc ∧ parseClear env false inc true = .ok d := by
  rcases readerRead_inv hp with ⟨hm, h, hd⟩ | ⟨hm, k, -, -, h⟩
  · obtain ⟨_, hok, hb, -, hrest⟩ := parseClear_iff.mp h
    refine ⟨hm, hd, parseClear_iff.mpr ⟨hd, hok, hb, fun _ => by rw [hh]; rfl, hrest⟩⟩
  · rcases hc with hc | hc
    · have := (parseClear_iff.mp h).2.2.2.1 hc
      rw [hh] at this
      simp [MsgTypeHeaders.mustBeEncrypted] at this
    · exact absurd hc hm

/-- A user message read with the encryption check was encrypted under the session key. -/
theorem user_sealed {sec : Option SecretKey} {inc : Bytes} {d : DecryptedIncomingData}
    {n : Nat} (hp : readerRead env sec inc true = .ok d) (hh : d.msgTypeHeaders = .userMsg n) :
    ∃ k, sec = some k ∧ inc = aeadSeal env.cr k d.data ∧ inc.take 4 ≠ MAGIC_VALUE ∧
      parseClear env true d.data true = .ok d := by
  rcases readerRead_inv hp with ⟨hm, h, hd⟩ | ⟨hm, k, hk, hs, h⟩
  · have := (parseClear_iff.mp h).2.2.2.1 rfl
    rw [hh] at this
    simp [MsgTypeHeaders.mustBeEncrypted] at this
  · exact ⟨k, hk, hs, hm, h⟩

theorem Wf.readInner (h : Wf env st s) (inc : Bytes) (chk : Bool)
    (hchk : chk = true ∨ inc.take 4 = MAGIC_VALUE) : Wf env st (s.readInner env inc chk).1 := by
  have hcase := readInner_case env s inc chk
  generalize (s.readInner env inc chk).2 = r at hcase
  generalize (s.readInner env inc chk).1 = s' at hcase
  cases hcase with
  | parsePanic hp => exact h
  | parseErr hp => exact h.fail
  | connectKey hp hh hk hne => exact h
  | connectShort hp hh hk hl => exact h.pin hk
  | connectBadSig hp hh hk hl hv => exact h.pin hk
  | connectLate hp hh hk hl hv hs he => exact (h.pin hk).fail
  | connectNoKp hp hh hk hl hv hs hkp => exact absurd hkp (h.wait _ hs)
  | @connectNoAgreement d epk algo k loc kp hp hh hk hl hv hs hkp hsec =>
    have h2 := h.pin hk
    obtain ⟨hkp1, hkp2, hkp3⟩ := h.kp _ hkp
    obtain ⟨f1, f2, f3, f4⟩ := h.fresh _ _ hs
    have hst : s.tmpStack = [] := by
      by_contra hne
      have := h.stack hne
      simp [hs] at this
    exact {
      epub := h.epub
      kp := by simp
      wait := by simp
      past := by simp
      peer := by
        intro e he
        simp only [Option.some.injEq] at he
        subst he
        subst hkp1
        simpa [hkp3] using hsec.symm
      secr := h.secr
      fresh := fun _ _ _ => ⟨f1, f2, f3, f4⟩
      win := h.win.congr rfl rfl
      stack := by simp [hst]
      stackP := h.stackP
      ackP := h.ackP
      expc := h2.expc
      sent := h.sent }
  | @connectOk d epk algo k loc kp sec hp hh hk hl hv hs hkp hsec =>
    have h2 := h.pin hk
    obtain ⟨hkp1, hkp2, hkp3⟩ := h.kp _ hkp
    obtain ⟨f1, f2, f3, f4⟩ := h.fresh _ _ hs
    have hst : s.tmpStack = [] := by
      by_contra hne
      have := h.stack hne
      simp [hs] at this
    subst hkp1
    exact {
      epub := h.epub
      kp := by simp
      wait := by simp
      past := by simp
      peer := by
        intro e he
        simp only [Option.some.injEq] at he
        subst he
        exact hsec.symm
      secr := by
        intro e he
        simp only [Option.some.injEq] at he
        subst he
        exact ⟨epk, hsec⟩
      fresh := fun _ _ _ => ⟨f1, f2, f3, f4⟩
      win := h.win.congr rfl rfl
      stack := by simp [hst]
      stackP := h.stackP
      ackP := h.ackP
      expc := h2.expc
      sent := h.sent }
  | ackChallenge hp hh hc => exact h
  | ackStored hp hh hc hk ha =>
    exact {
      epub := h.epub, kp := h.kp, wait := h.wait, past := h.past, peer := h.peer, secr := h.secr
      fresh := h.fresh, win := h.win.congr rfl rfl
      stack := h.stack, stackP := h.stackP
      ackP := by
        intro b hb
        simp only [Option.some.injEq] at hb
        subst hb
        obtain ⟨h1, h2, h3⟩ := ack_clear hp hh hchk
        exact ⟨h1, _, h3, by rw [hh, hc, h.epub]⟩
      expc := h.expc, sent := h.sent }
  | ackTwice hp hh hc hk ha => exact h.fail
  | ackShort hp hh hc hk hl => exact h
  | ackBadSig hp hh hc hk hl hv => exact h
  | ackLate hp hh hc hk hl hv hs he => exact h.fail
  | @ackOk d c k rem hp hh hc hk hl hv hs =>
    obtain ⟨f1, f2, f3, f4⟩ := h.fresh _ _ hs
    exact {
      epub := h.epub, kp := h.kp
      wait := by
        intro loc h1
        dsimp only at h1
        split at h1
        · simp at h1
        · simp only [Status.ongoing.injEq] at h1
          exact h.wait _ (h1.2 ▸ hs)
      past := by
        intro loc rem' h1 h2
        dsimp only at h1
        split at h1
        · simp at h1
        · simp only [Status.ongoing.injEq] at h1
          exact h.past _ _ hs (h1.2 ▸ h2)
      peer := h.peer, secr := h.secr
      fresh := fun _ _ _ => ⟨f1, f2, f3, f4⟩
      win := h.win.congr rfl rfl
      stack := by
        intro hne
        have := h.stack hne
        simp [hs] at this
        subst this
        simp
      stackP := h.stackP, ackP := h.ackP, expc := h.expc, sent := h.sent }
  | userReplay hp hh hn => exact h
  | userLate hp hh hn hs hs' he => exact h.fail
  | @userStacked d n hp hh hn hs =>
    exact {
      epub := h.epub, kp := h.kp, wait := h.wait, past := h.past, peer := h.peer, secr := h.secr
      fresh := h.fresh, win := h.win.congr rfl rfl
      stack := fun _ => .inl hs
      stackP := by
        intro b hb
        rcases List.mem_append.mp hb with hb | hb
        · exact h.stackP b hb
        · simp only [List.mem_singleton] at hb
          subst hb
          exact ⟨n, d, user_stackable hp hh, hh⟩
      ackP := h.ackP, expc := h.expc, sent := h.sent }
  | userShort hp hh hn hs hl => exact h
  | userBadHash hp hh hn hs hl hv => exact h
  | userNonceErr hp hh hn hs hl hv hu =>
    have := h.nonces hs (user_number_lt hp hh) hn
    rwa [hu] at this
  | userNoncePanic hp hh hn hs hl hv hu =>
    have := h.nonces hs (user_number_lt hp hh) hn
    rwa [hu] at this
  | userOk hp hh hn hs hl hv hu =>
    have := h.nonces hs (user_number_lt hp hh) hn
    rwa [hu] at this

theorem Wf.read (h : Wf env st s) (inc : Bytes) : Wf env st (s.read env inc).1 :=
  h.readInner inc true (.inl rfl)

theorem Wf.takeAck (h : Wf env st s) : Wf env st (s.takeAck env).1 := by
  unfold Layer.takeAck
  cases ha : s.ackMsgRecvTooEarly with
  | none => exact h
  | some b =>
    dsimp only
    apply Wf.read
    exact {
      epub := h.epub, kp := h.kp, wait := h.wait, past := h.past, peer := h.peer, secr := h.secr
      fresh := h.fresh, win := h.win.congr rfl rfl, stack := h.stack, stackP := h.stackP
      ackP := by simp
      expc := h.expc, sent := h.sent }

theorem parse_magic {enc chk : Bool} {b : Bytes} {d : DecryptedIncomingData}
    (h : parseClear env enc b chk = .ok d) : b.take 4 = MAGIC_VALUE := by
  obtain ⟨-, -, -, -, lb, rest, -, -, hx⟩ := parseClear_iff.mp h
  rw [hx]
  simp [MAGIC_VALUE]

theorem Wf.drainLoop (bs : List Bytes) (ms : List Message) (h : Wf env st s)
    (hb : ∀ b ∈ bs, ∃ n d, parseClear env true b true = .ok d ∧ d.msgTypeHeaders = .userMsg n) :
    Wf env st (s.drainLoop env bs ms).1 := by
  induction bs generalizing s ms with
  | nil => exact h
  | cons b bs ih =>
    obtain ⟨n, d, hp, -⟩ := hb b (by simp)
    have h2 := h.readInner b false (.inr (parse_magic hp))
    have hb2 : ∀ b ∈ bs, ∃ n d, parseClear env true b true = .ok d ∧ d.msgTypeHeaders = .userMsg n :=
      fun b hm => hb b (by simp [hm])
    unfold Layer.drainLoop
    rcases hr : s.readInner env b false with ⟨s', r⟩
    rw [hr] at h2
    rcases r with (_ | m) | e | p
    · exact ih _ h2 hb2
    · exact ih _ h2 hb2
    · exact h2
    · exact h2

theorem Wf.drain (h : Wf env st s) : Wf env st (s.drainTmpStack env).1 := by
  unfold Layer.drainTmpStack
  apply Wf.drainLoop _ _ _ h.stackP
  exact {
    epub := h.epub, kp := h.kp, wait := h.wait, past := h.past, peer := h.peer, secr := h.secr
    fresh := h.fresh, win := h.win.congr rfl rfl
    stack := by simp
    stackP := by simp
    ackP := h.ackP
    expc := h.expc, sent := h.sent }

theorem createConnect_eq (env : Env) (s : Layer) (pk : Bytes) (d : Option Bytes) :
    s.createConnect env pk d =
      match s.status.applyAction (.create .connect) with
      | (st, .ok _) => ({ s with status := st }, .ok (connectFrame s.ephemeralPubkey pk (d.getD [])))
      | (st, .err e) => ({ s with status := st }, .err e)
      | (st, .panic p) => ({ s with status := st }, .panic p) := by
  unfold Layer.createConnect
  rw [toBytes_connect]
  rcases s.status.applyAction (.create .connect) with ⟨a, _ | _ | _⟩ <;> rfl

theorem createConnect_cases (env : Env) (s : Layer) (pk : Bytes) (d : Option Bytes) :
    (∃ rem, s.status = .ongoing .created rem ∧ s.createConnect env pk d =
      ({ s with status := .ongoing .connectMsgSent rem },
        .ok (connectFrame s.ephemeralPubkey pk (d.getD [])))) ∨
    ((∀ rem, s.status ≠ .ongoing .created rem) ∧ s.createConnect env pk d =
      (s, .err (if s.status = .fail then .connectionHadFail else .connectMsgAlreadyWritten))) := by
  rw [createConnect_eq]
  cases hs : s.status with
  | fail =>
    right
    refine ⟨by simp, ?_⟩
    simp [Status.applyAction]
    cases s; simp_all
  | success =>
    right
    refine ⟨by simp, ?_⟩
    simp [Status.applyAction]
    cases s; simp_all
  | ongoing loc rem =>
    by_cases hl : loc = .created
    · subst hl
      left
      exact ⟨rem, rfl, by simp [Status.applyAction]⟩
    · right
      refine ⟨by simp [hl], ?_⟩
      simp [Status.applyAction, hl]
      cases s; simp_all

theorem createAck_cases (env : Env) (s : Layer) (d : Option Bytes) :
    (∃ loc, s.status = .ongoing loc .validConnectMsgReceived ∧ s.createAck env d =
      ({ s with status :=
          if loc = .validAckMsgReceived then .success else .ongoing loc .ackMsgSent },
        match s.peerEpk with
        | some e => .ok (ackFrame (env.cr.sha256 e) (d.getD []))
        | none => .panic .ackWithoutPeerEpk)) ∨
    ((∀ loc, s.status ≠ .ongoing loc .validConnectMsgReceived) ∧ s.createAck env d =
      (s, .err (if s.status = .fail then .connectionHadFail else .forbidWriteAckMsgNow))) := by
  unfold Layer.createAck
  cases hs : s.status with
  | fail =>
    right
    refine ⟨by simp, ?_⟩
    simp [Status.applyAction]
    cases s; simp_all
  | success =>
    right
    refine ⟨by simp, ?_⟩
    simp [Status.applyAction]
    cases s; simp_all
  | ongoing loc rem =>
    by_cases hl : rem = .validConnectMsgReceived
    · subst hl
      left
      refine ⟨loc, rfl, ?_⟩
      cases hp : s.peerEpk with
      | none =>
        by_cases h : loc = .validAckMsgReceived <;>
          simp [Status.applyAction, h, MessageRef.toBytes, MessageRef.prepare, hp]
      | some e =>
        by_cases h : loc = .validAckMsgReceived <;>
          simp [Status.applyAction, h, toBytes_ack, hp]
    · right
      refine ⟨by simp [hl], ?_⟩
      simp [Status.applyAction, hl]
      cases s; simp_all

/-- What `write_message` hands to the encryption. -/
def userPlain (cr : Crypto) (n : Nat) (d : Bytes) : Bytes :=
  userFrame n d ++ cr.sha256 (userFrame n d)

theorem writeMessage_cases (env : Env) (s : Layer) (d : Bytes) (w : BufW) :
    (s.status = .fail ∧ s.writeMessage env d w = (s, w, .err .connectionHadFail)) ∨
    (∃ loc rem, s.status = .ongoing loc rem ∧
      s.writeMessage env d w = ({ s with status := .fail }, w, .err .negoMustHaveBeenSuccessful)) ∨
    (s.status = .success ∧ s.secret = none ∧
      s.writeMessage env d w = (s, w, .panic .encryptWithoutSecret)) ∨
    (s.status = .success ∧ ∃ k, s.secret = some k ∧
      ((∃ w' e, encrypt env k (userPlain env.cr s.nextNonceSent d) w = (w', .err e) ∧
        s.writeMessage env d w = ({ s with status := .fail }, w', .err e)) ∨
       (∃ w', encrypt env k (userPlain env.cr s.nextNonceSent d) w = (w', .ok ()) ∧
        ((∃ n, addU64 env.overflowChecks s.nextNonceSent 1 = some n ∧
          s.writeMessage env d w = ({ s with nextNonceSent := n }, w', .ok ())) ∨
         (addU64 env.overflowChecks s.nextNonceSent 1 = none ∧
          s.writeMessage env d w = (s, w', .panic .overflow)))))) := by
  unfold Layer.writeMessage
  cases hs : s.status with
  | fail => left; refine ⟨rfl, ?_⟩; simp [Status.applyAction]; cases s; simp_all
  | ongoing loc rem =>
    right; left; exact ⟨loc, rem, rfl, by simp [Status.applyAction]⟩
  | success =>
    right; right
    have hse : { s with status := Status.success } = s := by cases s; simp_all
    simp only [Status.applyAction, hse]
    unfold Layer.encapsulateEncryptWrite
    rw [toBytes_user]
    unfold Layer.encryptAndWrite
    cases hk : s.secret with
    | none => left; simp
    | some k =>
      right
      refine ⟨trivial, k, rfl, ?_⟩
      dsimp only
      rw [← userPlain]
      have hno : ∀ p, (encrypt env k (userPlain env.cr s.nextNonceSent d) w).2 ≠ .panic p := by
        intro p
        unfold encrypt
        dsimp only
        split
        · simp
        · split <;> simp
      rcases he : encrypt env k (userPlain env.cr s.nextNonceSent d) w with ⟨w', _ | e | p⟩
      · right
        refine ⟨w', rfl, ?_⟩
        dsimp only
        cases ha : addU64 env.overflowChecks s.nextNonceSent 1 with
        | none => right; exact ⟨rfl, rfl⟩
        | some n =>
          left
          refine ⟨n, rfl, ?_⟩
          rw [← hk, ← hs]
      · left; exact ⟨w', e, rfl, by rw [← hk]⟩
      · rw [he] at hno; exact absurd rfl (hno p)

theorem addU64_lt {oc : Bool} {a b c : Nat} (h : addU64 oc a b = some c) : c < u64Size := by
  unfold addU64 at h
  split at h
  · simp at h; omega
  · split at h
    · simp at h
    · simp at h; rw [← h]; exact Nat.mod_lt _ (by simp [u64Size])

theorem Wf.createConnect (h : Wf env st s) (pk : Bytes) (d : Option Bytes) :
    Wf env st (s.createConnect env pk d).1 := by
  rcases createConnect_cases env s pk d with ⟨rem, hs, he⟩ | ⟨-, he⟩
  · rw [he]
    exact {
      epub := h.epub, kp := h.kp
      wait := by
        intro loc h1
        simp only [Status.ongoing.injEq] at h1
        exact h.wait _ (h1.2 ▸ hs)
      past := by
        intro loc rem' h1 h2
        simp only [Status.ongoing.injEq] at h1
        exact h.past _ _ hs (h1.2 ▸ h2)
      peer := h.peer, secr := h.secr
      fresh := fun _ _ _ => h.fresh _ _ hs
      win := h.win.congr rfl rfl
      stack := by
        intro hne
        have := h.stack hne
        simp [hs] at this
      stackP := h.stackP, ackP := h.ackP, expc := h.expc, sent := h.sent }
  · rw [he]; exact h

theorem Wf.createAck (h : Wf env st s) (d : Option Bytes) : Wf env st (s.createAck env d).1 := by
  rcases createAck_cases env s d with ⟨loc, hs, he⟩ | ⟨-, he⟩
  · rw [he]
    obtain ⟨f1, f2, f3, f4⟩ := h.fresh _ _ hs
    have hp := h.past _ _ hs (by simp)
    exact {
      epub := h.epub, kp := h.kp
      wait := by
        intro l h1
        dsimp only at h1
        split at h1 <;> simp at h1
      past := fun _ _ _ _ => hp
      peer := h.peer, secr := h.secr
      fresh := fun _ _ _ => ⟨f1, f2, f3, f4⟩
      win := h.win.congr rfl rfl
      stack := by
        intro hne
        have := h.stack hne
        simp [hs] at this
      stackP := h.stackP, ackP := h.ackP, expc := h.expc, sent := h.sent }
  · rw [he]; exact h

theorem Wf.write (h : Wf env st s) (d : Bytes) (w : BufW) : Wf env st (s.writeMessage env d w).1 := by
  rcases writeMessage_cases env s d w with ⟨-, he⟩ | ⟨_, _, -, he⟩ | ⟨-, -, he⟩ |
    ⟨hs, k, hk, ⟨w', e, -, he⟩ | ⟨w', -, ⟨n, hn, he⟩ | ⟨-, he⟩⟩⟩
  · rw [he]; exact h
  · rw [he]; exact h.fail
  · rw [he]; exact h
  · rw [he]; exact h.fail
  · rw [he]
    exact {
      epub := h.epub, kp := h.kp, wait := h.wait, past := h.past, peer := h.peer, secr := h.secr
      fresh := by simp [hs]
      win := h.win.congr rfl rfl
      stack := h.stack, stackP := h.stackP, ackP := h.ackP, expc := h.expc
      sent := addU64_lt hn }
  · rw [he]; exact h

theorem Wf.tryClone (h : Wf env st s) : Wf env st s.tryClone.1 := by
  unfold Layer.tryClone
  split
  · rename_i hs
    exact {
      epub := h.epub, kp := h.kp, wait := h.wait, past := h.past, peer := h.peer, secr := h.secr
      fresh := by simp [hs]
      win := h.win.congr rfl rfl
      stack := h.stack, stackP := h.stackP, ackP := h.ackP
      expc := by simp
      sent := h.sent }
  · exact h

theorem tryClone_ok {c : Layer} (hc : s.tryClone.2 = .ok c) :
    s.status = .success ∧
    c = { s with ackMsgRecvTooEarly := none, cloned := true, ephemeralKp := none, peerEpk := none,
                 peerSigPubkey := none } := by
  unfold Layer.tryClone at hc
  split at hc
  · rename_i hs
    simp only [Res.ok.injEq] at hc
    exact ⟨hs, by rw [← hc, ← hs]⟩
  · simp at hc

theorem Wf.clone (h : Wf env st s) {c : Layer} (hc : s.tryClone.2 = .ok c) : Wf env st c := by
  obtain ⟨hs, rfl⟩ := tryClone_ok hc
  exact {
    epub := h.epub
    kp := by simp
    wait := by simp [hs]
    past := by simp [hs]
    peer := by simp
    secr := h.secr
    fresh := by simp [hs]
    win := h.win.congr rfl rfl
    stack := fun _ => .inr (.inl hs)
    stackP := h.stackP
    ackP := by simp
    expc := by simp
    sent := h.sent }

theorem Wf.changeConfig (h : Wf env st s) (c : Config) : Wf env st (s.changeConfig c).1 := by
  unfold Layer.changeConfig
  split
  · exact {
      epub := h.epub, kp := h.kp, wait := h.wait, past := h.past, peer := h.peer, secr := h.secr
      fresh := h.fresh
      win := h.win.congr rfl rfl
      stack := h.stack, stackP := h.stackP, ackP := h.ackP, expc := h.expc, sent := h.sent }
  · exact h

theorem Wf.step (h : Wf env st s) (op : Op) : Wf env st (step env s op).1 := by
  cases op with
  | read b => exact h.read b
  | takeAck => exact h.takeAck
  | drain => exact h.drain
  | connect pk d => exact h.createConnect pk d
  | ack d => exact h.createAck d
  | write d w => exact h.write d w
  | clone => exact h.tryClone
  | config c => exact h.changeConfig c

end

theorem Wf.of_run {env : Env} {st : Start} {h : List Event} {s : Layer} (hr : Run env st h s) :
    Wf env st s := by
  induction hr with
  | init h =>
    simp only [Layer.create, EphemeralKeyPair.generate, Res.bind_ok, Res.ok.injEq] at h
    subst h
    exact {
      epub := rfl
      kp := by simp
      wait := by simp
      past := by simp [Status.init]
      peer := by simp
      secr := by simp
      fresh := by simp
      win := ⟨by simp [u64Size], by simp, by simp⟩
      stack := by simp
      stackP := by simp
      ackP := by simp
      expc := fun k h1 _ => h1
      sent := by simp [u64Size] }
  | call hr op ih => exact ih.step op
  | cloned hr hc ih => exact ih.clone hc

end Pkstl

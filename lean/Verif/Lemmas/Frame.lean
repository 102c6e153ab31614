import Verif.Lemmas.Trace
/- What a call leaves alone, and where the stored data come from. -/
namespace Pkstl
open Spec

/-- What one `read_inner` call may change. -/
structure ReadFrame (env : Env) (s : Layer) (inc : Bytes) (chk : Bool) (s' : Layer) : Prop where
  config : s'.config = s.config
  cloned : s'.cloned = s.cloned
  epub : s'.ephemeralPubkey = s.ephemeralPubkey
  sent : s'.nextNonceSent = s.nextNonceSent
  psk : ∀ k, s.peerSigPubkey = some k → s'.peerSigPubkey = some k
  epk : s'.peerEpk = s.peerEpk ∨ ∃ loc, s.status = .ongoing loc .waitConnectMsg
  secret : s'.secret = s.secret ∨ (∃ loc, s.status = .ongoing loc .waitConnectMsg) ∧ s.ephemeralKp ≠ none
  ack : s'.ackMsgRecvTooEarly = s.ackMsgRecvTooEarly ∨
    s'.ackMsgRecvTooEarly = some inc ∧ s.ackMsgRecvTooEarly = none ∧ s.peerSigPubkey = none ∧
      ∃ d c, readerRead env s.secret inc chk = .ok d ∧ d.msgTypeHeaders = .ack c
  stack : s'.tmpStack = s.tmpStack ∨
    s.status = .ongoing .connectMsgSent .ackMsgSent ∧
      ∃ d n, readerRead env s.secret inc chk = .ok d ∧ d.msgTypeHeaders = .userMsg n ∧
        s' = { s with tmpStack := s.tmpStack ++ [d.data] }

theorem readFrame (env : Env) (s : Layer) (inc : Bytes) (chk : Bool) :
    ReadFrame env s inc chk (s.readInner env inc chk).1 := by
  have hcase := readInner_case env s inc chk
  generalize (s.readInner env inc chk).2 = r at hcase
  generalize (s.readInner env inc chk).1 = s' at hcase
  have same : ∀ st, ReadFrame env s inc chk { s with status := st } := fun st =>
    ⟨rfl, rfl, rfl, rfl, fun _ h => h, .inl rfl, .inl rfl, .inl rfl, .inl rfl⟩
  have pin : ∀ {k} st, (s.peerSigPubkey = none ∨ s.peerSigPubkey = some k) →
      ReadFrame env s inc chk { s.pin k with status := st } := fun st hk =>
    ⟨rfl, rfl, rfl, rfl, fun k' h => by
      rcases hk with hk | hk
      · rw [hk] at h; simp at h
      · rw [hk] at h; exact h, .inl rfl, .inl rfl, .inl rfl, .inl rfl⟩
  have nonces : ∀ {n s1 r1}, s.updateNonces env n = (s1, r1) → ReadFrame env s inc chk s1 := by
    intro n s1 r1 hu
    obtain ⟨O', n', st, h1, -⟩ := updateNonces_frame env s n
    rw [hu] at h1
    have h1 : s1 = _ := h1
    subst h1
    exact ⟨rfl, rfl, rfl, rfl, fun _ h => h, .inl rfl, .inl rfl, .inl rfl, .inl rfl⟩
  cases hcase with
  | parsePanic hp => exact same s.status
  | parseErr hp => exact same _
  | connectKey hp hh hk hne => exact same s.status
  | connectShort hp hh hk hl => exact pin s.status hk
  | connectBadSig hp hh hk hl hv => exact pin s.status hk
  | connectLate hp hh hk hl hv hs he => exact pin _ hk
  | connectNoKp hp hh hk hl hv hs hkp =>
    have := pin s.status hk
    exact ⟨rfl, rfl, rfl, rfl, this.psk, .inr ⟨_, hs⟩, .inl rfl, .inl rfl, .inl rfl⟩
  | connectNoAgreement hp hh hk hl hv hs hkp hsec =>
    have := pin s.status hk
    exact ⟨rfl, rfl, rfl, rfl, this.psk, .inr ⟨_, hs⟩, .inl rfl, .inl rfl, .inl rfl⟩
  | connectOk hp hh hk hl hv hs hkp hsec =>
    have := pin s.status hk
    exact ⟨rfl, rfl, rfl, rfl, this.psk, .inr ⟨_, hs⟩, .inr ⟨⟨_, hs⟩, by simp [hkp]⟩, .inl rfl, .inl rfl⟩
  | ackChallenge hp hh hc => exact same s.status
  | ackStored hp hh hc hk ha =>
    exact ⟨rfl, rfl, rfl, rfl, fun _ h => h, .inl rfl, .inl rfl, .inr ⟨rfl, ha, hk, _, _, hp, hh⟩, .inl rfl⟩
  | ackTwice hp hh hc hk ha => exact same _
  | ackShort hp hh hc hk hl => exact same s.status
  | ackBadSig hp hh hc hk hl hv => exact same s.status
  | ackLate hp hh hc hk hl hv hs he => exact same _
  | ackOk hp hh hc hk hl hv hs => exact same _
  | userReplay hp hh hn => exact same s.status
  | userLate hp hh hn hs hs' he => exact same _
  | userStacked hp hh hn hs =>
    exact ⟨rfl, rfl, rfl, rfl, fun _ h => h, .inl rfl, .inl rfl, .inl rfl, .inr ⟨hs, _, _, hp, hh, rfl⟩⟩
  | userShort hp hh hn hs hl => exact same s.status
  | userBadHash hp hh hn hs hl hv => exact same s.status
  | userNonceErr hp hh hn hs hl hv hu => exact nonces hu
  | userNoncePanic hp hh hn hs hl hv hu => exact nonces hu
  | userOk hp hh hn hs hl hv hu => exact nonces hu

/-- Messages that can be on the stack of early messages. -/
def Stackable (env : Env) (bs : List Bytes) : Prop :=
  ∀ b ∈ bs, ∃ n d, parseClear env true b true = .ok d ∧ d.msgTypeHeaders = .userMsg n

/-- `read_inner` on a stacked message. -/
theorem readInner_stacked {env : Env} (s : Layer) {b : Bytes} {d : DecryptedIncomingData} {n : Nat}
    (hp : parseClear env true b true = .ok d) (hh : d.msgTypeHeaders = .userMsg n) :
    s.readInner env b false = s.readUser env d n := by
  unfold Layer.readInner
  have : parseClear env false b false = .ok d := by
    obtain ⟨h1, h2, h3, -, h5⟩ := parseClear_iff.mp hp
    exact parseClear_iff.mpr ⟨h1, h2, h3, by simp, h5⟩
  rw [readerRead_clear (parse_magic hp), this]
  dsimp only
  rw [hh]

/-- What draining may change: the window, the status, and the stack. -/
structure DrainFrame (s s' : Layer) : Prop where
  config : s'.config = s.config
  cloned : s'.cloned = s.cloned
  epub : s'.ephemeralPubkey = s.ephemeralPubkey
  kp : s'.ephemeralKp = s.ephemeralKp
  sent : s'.nextNonceSent = s.nextNonceSent
  psk : s'.peerSigPubkey = s.peerSigPubkey
  epk : s'.peerEpk = s.peerEpk
  secret : s'.secret = s.secret
  ack : s'.ackMsgRecvTooEarly = s.ackMsgRecvTooEarly

theorem DrainFrame.refl (s : Layer) : DrainFrame s s := ⟨rfl, rfl, rfl, rfl, rfl, rfl, rfl, rfl, rfl⟩

theorem DrainFrame.trans {a b c : Layer} (h : DrainFrame a b) (h' : DrainFrame b c) : DrainFrame a c :=
  ⟨h'.config.trans h.config, h'.cloned.trans h.cloned, h'.epub.trans h.epub, h'.kp.trans h.kp,
   h'.sent.trans h.sent, h'.psk.trans h.psk, h'.epk.trans h.epk, h'.secret.trans h.secret,
   h'.ack.trans h.ack⟩

theorem readUser_frame (env : Env) (s : Layer) (d : DecryptedIncomingData) (n : Nat) :
    DrainFrame s (s.readUser env d n).1 := by
  unfold Layer.readUser
  split
  · exact .refl s
  split
  · exact ⟨rfl, rfl, rfl, rfl, rfl, rfl, rfl, rfl, rfl⟩
  · exact ⟨rfl, rfl, rfl, rfl, rfl, rfl, rfl, rfl, rfl⟩
  · exact ⟨rfl, rfl, rfl, rfl, rfl, rfl, rfl, rfl, rfl⟩
  · rename_i st' _
    dsimp only
    have hu : DrainFrame s (Layer.updateNonces env { s with status := st' } n).1 := by
      obtain ⟨O', n', st, h1, -⟩ := updateNonces_frame env { s with status := st' } n
      rw [h1]
      exact ⟨rfl, rfl, rfl, rfl, rfl, rfl, rfl, rfl, rfl⟩
    split
    · split
      · exact ⟨rfl, rfl, rfl, rfl, rfl, rfl, rfl, rfl, rfl⟩
      · split <;> (rename_i he; rw [he] at hu; exact hu)
    · exact ⟨rfl, rfl, rfl, rfl, rfl, rfl, rfl, rfl, rfl⟩

theorem drainLoop_frame {env : Env} (s : Layer) (bs : List Bytes) (ms : List Message) (hb : Stackable env bs) :
    DrainFrame s (s.drainLoop env bs ms).1 := by
  induction bs generalizing s ms with
  | nil => exact .refl s
  | cons b bs ih =>
    obtain ⟨n, d, hp, hh⟩ := hb b (by simp)
    have hb2 : Stackable env bs := fun b hm => hb b (by simp [hm])
    have hf := readUser_frame env s d n
    unfold Layer.drainLoop
    rw [readInner_stacked s hp hh]
    rcases hr : s.readUser env d n with ⟨s', (_ | m) | e | p⟩ <;> rw [hr] at hf
    · exact hf.trans (ih _ _ hb2)
    · exact hf.trans (ih _ _ hb2)
    · exact hf
    · exact hf

theorem drain_frame {env : Env} {st : Start} {s : Layer} (h : Wf env st s) :
    DrainFrame s (s.drainTmpStack env).1 := by
  have := drainLoop_frame { s with tmpStack := [] } s.tmpStack [] h.stackP
  exact ⟨this.config, this.cloned, this.epub, this.kp, this.sent, this.psk, this.epk, this.secret, this.ack⟩

/-- Reading an early ACK again. -/
theorem takeAck_cases (env : Env) (s : Layer) :
    (s.ackMsgRecvTooEarly = none ∧ s.takeAck env = (s, .ok none)) ∨
    (∃ b, s.ackMsgRecvTooEarly = some b ∧
      s.takeAck env = { s with ackMsgRecvTooEarly := none }.readInner env b true) := by
  unfold Layer.takeAck
  cases h : s.ackMsgRecvTooEarly with
  | none => left; exact ⟨rfl, rfl⟩
  | some b => right; exact ⟨b, rfl, rfl⟩

/-- What a call may change. -/
structure StepFrame (s : Layer) (s' : Layer) : Prop where
  epub : s'.ephemeralPubkey = s.ephemeralPubkey
  psk : ∀ k, s.peerSigPubkey = some k → s'.peerSigPubkey = some k
  epk : ∀ k, s.peerEpk = some k → s'.peerEpk = some k
  secret : ∀ k, s.secret = some k → s'.secret = some k

theorem stepFrame {env : Env} {st : Start} {s : Layer} (h : Wf env st s) (op : Op) :
    StepFrame s (step env s op).1 := by
  have rd : ∀ {s : Layer} {inc : Bytes}, Wf env st s → StepFrame s (s.readInner env inc true).1 := by
    intro s inc h
    have hf := readFrame env s inc true
    refine ⟨hf.epub, hf.psk, ?_, ?_⟩
    · intro k hk
      rcases hf.epk with he | ⟨loc, hs⟩
      · rw [he]; exact hk
      · obtain ⟨kp, hkp⟩ := Option.ne_none_iff_exists'.mp (h.wait _ hs)
        have := (h.kp kp hkp).2.1
        rw [hk] at this; simp at this
    · intro k hk
      rcases hf.secret with he | ⟨-, hkp⟩
      · rw [he]; exact hk
      · obtain ⟨kp, hkp⟩ := Option.ne_none_iff_exists'.mp hkp
        have := (h.kp kp hkp).2.2
        rw [hk] at this; simp at this
  have same : ∀ s' : Layer, s'.ephemeralPubkey = s.ephemeralPubkey → s'.peerSigPubkey = s.peerSigPubkey →
      s'.peerEpk = s.peerEpk → s'.secret = s.secret → StepFrame s s' := fun s' h1 h2 h3 h4 =>
    ⟨h1, fun _ h => h2 ▸ h, fun _ h => h3 ▸ h, fun _ h => h4 ▸ h⟩
  cases op with
  | read b => exact rd h
  | takeAck =>
    show StepFrame s (s.takeAck env).1
    rcases takeAck_cases env s with ⟨-, he⟩ | ⟨b, -, he⟩
    · rw [he]; exact same _ rfl rfl rfl rfl
    · rw [he]
      have := rd (inc := b) (clear_ack h)
      exact ⟨this.epub, this.psk, this.epk, this.secret⟩
  | drain =>
    have := drain_frame h
    exact same _ this.epub this.psk this.epk this.secret
  | connect pk d =>
    show StepFrame s (s.createConnect env pk d).1
    rcases createConnect_cases env s pk d with ⟨rem, hs, he⟩ | ⟨-, he⟩ <;> rw [he] <;> exact same _ rfl rfl rfl rfl
  | ack d =>
    show StepFrame s (s.createAck env d).1
    rcases createAck_cases env s d with ⟨loc, hs, he⟩ | ⟨-, he⟩ <;> rw [he] <;> exact same _ rfl rfl rfl rfl
  | write d w =>
    show StepFrame s (s.writeMessage env d w).1
    rcases writeMessage_cases env s d w with ⟨-, he⟩ | ⟨_, _, -, he⟩ | ⟨-, -, he⟩ |
      ⟨hs, k, hk, ⟨w', e, -, he⟩ | ⟨w', -, ⟨n, hn, he⟩ | ⟨-, he⟩⟩⟩ <;> rw [he] <;> exact same _ rfl rfl rfl rfl
  | clone =>
    show StepFrame s s.tryClone.1
    unfold Layer.tryClone
    split <;> exact same _ rfl rfl rfl rfl
  | config c =>
    show StepFrame s (s.changeConfig c).1
    unfold Layer.changeConfig
    split <;> exact same _ rfl rfl rfl rfl

/-- Where the stored data come from. -/
structure Prov (env : Env) (h : List Event) (s : Layer) : Prop where
  ack : ∀ b, s.ackMsgRecvTooEarly = some b → b ∈ inputs h
  stack : ∀ b ∈ s.tmpStack, ∃ k, s.secret = some k ∧ aeadSeal env.cr k b ∈ inputs h

theorem inputs_append (h h' : List Event) : inputs (h ++ h') = inputs h ++ inputs h' := by
  simp [inputs]

theorem drainLoop_stack {env : Env} (s : Layer) (bs : List Bytes) (ms : List Message) (hb : Stackable env bs) :
    (∀ b ∈ (s.drainLoop env bs ms).1.tmpStack, b ∈ s.tmpStack ∨ b ∈ bs) ∧
    ((s.drainLoop env bs ms).1.tmpStack.length ≤ s.tmpStack.length + bs.length) := by
  induction bs generalizing s ms with
  | nil => exact ⟨fun b h => .inl h, by simp [Layer.drainLoop]⟩
  | cons b bs ih =>
    obtain ⟨n, d, hp, hh⟩ := hb b (by simp)
    have hb2 : Stackable env bs := fun b hm => hb b (by simp [hm])
    have hd : d.data = b := (parseClear_iff.mp hp).1
    have hf : (s.readInner env b false).1.tmpStack = s.tmpStack ∨
        (s.readInner env b false).1.tmpStack = s.tmpStack ++ [b] := by
      rcases (readFrame env s b false).stack with h | ⟨-, d', n', hp', -, h⟩
      · exact .inl h
      · right
        rw [h, stacked_header hp hh hp', hd]
    unfold Layer.drainLoop
    have fin : ∀ s' : Layer, (s'.tmpStack = s.tmpStack ∨ s'.tmpStack = s.tmpStack ++ [b]) →
        (∀ x ∈ s'.tmpStack, x ∈ s.tmpStack ∨ x ∈ b :: bs) ∧
        s'.tmpStack.length ≤ s.tmpStack.length + (b :: bs).length := by
      rintro s' (h | h) <;> rw [h]
      · exact ⟨fun x hx => .inl hx, by omega⟩
      · refine ⟨fun x hx => ?_, by simp⟩
        rcases List.mem_append.mp hx with hx | hx
        · exact .inl hx
        · simp at hx; subst hx; exact .inr (by simp)
    have more : ∀ (s' : Layer) (ms : List Message), (s'.tmpStack = s.tmpStack ∨ s'.tmpStack = s.tmpStack ++ [b]) →
        (∀ x ∈ (s'.drainLoop env bs ms).1.tmpStack, x ∈ s.tmpStack ∨ x ∈ b :: bs) ∧
        (s'.drainLoop env bs ms).1.tmpStack.length ≤ s.tmpStack.length + (b :: bs).length := by
      intro s' ms h
      obtain ⟨i1, i2⟩ := ih s' ms hb2
      refine ⟨fun x hx => ?_, ?_⟩
      · rcases i1 x hx with hx | hx
        · rcases h with h | h
          · exact .inl (h ▸ hx)
          · rw [h] at hx
            rcases List.mem_append.mp hx with hx | hx
            · exact .inl hx
            · simp at hx; subst hx; exact .inr (by simp)
        · exact .inr (by simp [hx])
      · rcases h with h | h <;> rw [h] at i2 <;> simp at i2 ⊢ <;> omega
    rcases hr : s.readInner env b false with ⟨s', (_ | m) | e | p⟩ <;> rw [hr] at hf
    · exact more s' _ hf
    · exact more s' _ hf
    · exact fin s' hf
    · exact fin s' hf

theorem Prov.of_run {env : Env} {st : Start} {h : List Event} {s : Layer} (hr : Run env st h s) :
    Prov env h s := by
  induction hr with
  | init h =>
    simp only [Layer.create, EphemeralKeyPair.generate, Res.bind_ok, Res.ok.injEq] at h
    subst h
    exact ⟨by simp, by simp⟩
  | @cloned h s c hr hc ih =>
    obtain ⟨-, rfl⟩ := tryClone_ok hc
    refine ⟨by simp, ?_⟩
    intro b hb
    obtain ⟨k, h1, h2⟩ := ih.stack b hb
    exact ⟨k, h1, by simp [inputs_append, h2]⟩
  | @call h s hr op ih =>
    have hw := Wf.of_run hr
    have hsf := stepFrame hw op
    have same : ∀ s' : Layer, (∀ b, s'.ackMsgRecvTooEarly = some b → s.ackMsgRecvTooEarly = some b) →
        (∀ b ∈ s'.tmpStack, b ∈ s.tmpStack) → (∀ k, s.secret = some k → s'.secret = some k) →
        ∀ e, Prov env (h ++ [e]) s' := by
      intro s' h1 h2 h3 e
      refine ⟨fun b hb => by simp [inputs_append, ih.ack b (h1 b hb)], fun b hb => ?_⟩
      obtain ⟨k, k1, k2⟩ := ih.stack b (h2 b hb)
      exact ⟨k, h3 k k1, by simp [inputs_append, k2]⟩
    cases op with
    | read inc =>
      have hf := readFrame env s inc true
      refine ⟨?_, ?_⟩
      · intro b hb
        rcases hf.ack with h1 | ⟨h1, -⟩
        · have hb : (s.readInner env inc true).1.ackMsgRecvTooEarly = some b := hb
          rw [h1] at hb
          simp [inputs_append, ih.ack b hb]
        · have hb : (s.readInner env inc true).1.ackMsgRecvTooEarly = some b := hb
          rw [h1] at hb
          simp only [Option.some.injEq] at hb
          subst hb
          simp [inputs_append, inputs, step]
      · intro b hb
        have old : b ∈ s.tmpStack → ∃ k, (step env s (.read inc)).1.secret = some k ∧
            aeadSeal env.cr k b ∈ inputs (h ++ [(step env s (.read inc)).2]) := by
          intro hb
          obtain ⟨k, k1, k2⟩ := ih.stack b hb
          exact ⟨k, hsf.secret k k1, by simp [inputs_append, k2]⟩
        have hb : b ∈ (s.readInner env inc true).1.tmpStack := hb
        rcases hf.stack with h1 | ⟨-, d, n, hp, hh, h1⟩
        · rw [h1] at hb; exact old hb
        · rw [h1] at hb
          rcases List.mem_append.mp hb with hb | hb
          · exact old hb
          · simp only [List.mem_singleton] at hb
            subst hb
            obtain ⟨k, k1, k2, -, -⟩ := user_sealed hp hh
            exact ⟨k, hsf.secret k k1, by rw [← k2]; simp [inputs_append, inputs, step]⟩
    | takeAck =>
      rcases takeAck_cases env s with ⟨h1, he⟩ | ⟨b, h1, he⟩
      · refine same _ (fun b hb => ?_) (fun b hb => ?_) hsf.secret _
        · simpa only [step, he] using hb
        · simpa only [step, he] using hb
      · have hf := readFrame env { s with ackMsgRecvTooEarly := none } b true
        refine same _ (fun b' hb => ?_) (fun b' hb => ?_) hsf.secret _
        · simp only [step, he] at hb
          rcases hf.ack with h2 | ⟨h2, -⟩
          · rw [h2] at hb; simp at hb
          · rw [h2] at hb; rw [h1]; exact hb
        · simp only [step, he] at hb
          rcases hf.stack with h2 | ⟨-, d, n, hp, hh, -⟩
          · rw [h2] at hb; exact hb
          · obtain ⟨hm, d0, hp0, hh0⟩ := hw.ackP b h1
            rw [readerRead_clear hm, hp0] at hp
            simp only [Res.ok.injEq] at hp
            rw [← hp, hh0] at hh
            simp at hh
    | drain =>
      have hf := drain_frame hw
      refine same _ (fun b hb => ?_) (fun b hb => ?_) hsf.secret _
      · simp only [step] at hb; rw [hf.ack] at hb; exact hb
      · rcases (drainLoop_stack { s with tmpStack := [] } s.tmpStack [] hw.stackP).1 b hb with h | h
        · simp at h
        · exact h
    | connect pk d =>
      refine same _ (fun b hb => ?_) (fun b hb => ?_) hsf.secret _ <;>
      · rcases createConnect_cases env s pk d with ⟨rem, hs, he⟩ | ⟨-, he⟩ <;> simp only [step, he] at hb <;> exact hb
    | ack d =>
      refine same _ (fun b hb => ?_) (fun b hb => ?_) hsf.secret _ <;>
      · rcases createAck_cases env s d with ⟨rem, hs, he⟩ | ⟨-, he⟩ <;> simp only [step, he] at hb <;> exact hb
    | write d w =>
      refine same _ (fun b hb => ?_) (fun b hb => ?_) hsf.secret _ <;>
      · rcases writeMessage_cases env s d w with ⟨-, he⟩ | ⟨_, _, -, he⟩ | ⟨-, -, he⟩ |
          ⟨hs, k, hk, ⟨w', e, -, he⟩ | ⟨w', -, ⟨n, hn, he⟩ | ⟨-, he⟩⟩⟩ <;> simp only [step, he] at hb <;> exact hb
    | clone =>
      refine same _ (fun b hb => ?_) (fun b hb => ?_) hsf.secret _ <;>
      · simp only [step, Layer.tryClone] at hb
        split at hb <;> exact hb
    | config c =>
      refine same _ (fun b hb => ?_) (fun b hb => ?_) hsf.secret _ <;>
      · simp only [step, Layer.changeConfig] at hb
        split at hb <;> exact hb

/-- The call made at some point of a continuation. -/
theorem Spec.Steps.at {env : Env} {h : List Event} {s s' : Layer} (hr : Steps env s h s') :
    ∀ {h1 h2 : List Event} {e : Event}, h = h1 ++ e :: h2 →
    ∃ s1 s2, Steps env s h1 s1 ∧ Steps env s2 h2 s' ∧
      ((∃ op, e = (step env s1 op).2 ∧ s2 = (step env s1 op).1) ∨
       (e = .clone (.ok ()) ∧ s1.tryClone.2 = .ok s2)) := by
  induction hr with
  | refl => intro h1 h2 e hh; simp at hh
  | @call s' h hs op ih =>
    intro h1 h2 e hh
    rcases List.eq_nil_or_concat h2 with rfl | ⟨l, y, rfl⟩
    · obtain ⟨rfl, h3⟩ := List.append_inj' hh rfl
      simp only [List.cons.injEq, and_true] at h3
      exact ⟨_, _, hs, .refl _, .inl ⟨op, h3.symm, rfl⟩⟩
    · rw [List.concat_eq_append, ← List.cons_append, ← List.append_assoc] at hh
      obtain ⟨rfl, h3⟩ := List.append_inj' hh rfl
      obtain ⟨s1, s2, i1, i2, i3⟩ := ih rfl
      simp only [List.cons.injEq, and_true] at h3
      exact ⟨s1, s2, i1, by rw [List.concat_eq_append, ← h3]; exact .call i2 op, i3⟩
  | @cloned s' c h hs hc ih =>
    intro h1 h2 e hh
    rcases List.eq_nil_or_concat h2 with rfl | ⟨l, y, rfl⟩
    · obtain ⟨rfl, h3⟩ := List.append_inj' hh rfl
      simp only [List.cons.injEq, and_true] at h3
      exact ⟨_, _, hs, .refl _, .inr ⟨h3.symm, hc⟩⟩
    · rw [List.concat_eq_append, ← List.cons_append, ← List.append_assoc] at hh
      obtain ⟨rfl, h3⟩ := List.append_inj' hh rfl
      obtain ⟨s1, s2, i1, i2, i3⟩ := ih rfl
      simp only [List.cons.injEq, and_true] at h3
      exact ⟨s1, s2, i1, by rw [List.concat_eq_append, ← h3]; exact .cloned i2 hc, i3⟩

/-- The call made at some point of a history. -/
theorem Spec.Run.at {env : Env} {st : Start} {h h1 h2 : List Event} {s : Layer} {e : Event}
    (hr : Run env st h s) (hh : h = h1 ++ e :: h2) :
    ∃ s1 s2, Run env st h1 s1 ∧ Steps env s2 h2 s ∧ Run env st (h1 ++ [e]) s2 ∧
      ((∃ op, e = (step env s1 op).2 ∧ s2 = (step env s1 op).1) ∨
       (e = .clone (.ok ()) ∧ s1.tryClone.2 = .ok s2)) := by
  obtain ⟨s2, hr2, hs2⟩ := hr.prefix (h1 ++ [e]) h2 (by simp [hh])
  generalize hl : h1 ++ [e] = l at hr2
  cases hr2 with
  | init => simp at hl
  | call hr1 op =>
    obtain ⟨rfl, h3⟩ := List.append_inj' hl rfl
    simp only [List.cons.injEq, and_true] at h3
    exact ⟨_, _, hr1, hs2, hl ▸ .call hr1 op, .inl ⟨op, h3, rfl⟩⟩
  | cloned hr1 hc =>
    obtain ⟨rfl, h3⟩ := List.append_inj' hl rfl
    simp only [List.cons.injEq, and_true] at h3
    exact ⟨_, _, hr1, hs2, hl ▸ .cloned hr1 hc, .inr ⟨h3, hc⟩⟩

end Pkstl

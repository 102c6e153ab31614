import Verif.Spec.ToyComplete
import Verif.Lemmas.CFrame
import Verif.Lemmas.Script
import Verif.Lemmas.CKeep
import Verif.Lemmas.Clone
import Verif.Props.Sessions
import Verif.Props.Negotiation
import Verif.Props.Window
/- C46–C49: what reaches the writer, failing writers, the last sequence numbers. -/
namespace Pkstl
open Spec

variable {M : Type} {env : Env} {f : Features}

/-! ## C46: user messages -/

/-- The compression level that the configuration prescribes for a payload. -/
def Spec.levelFor (c : Config) (d : Bytes) : Nat :=
  if d.length < c.compressionMinSize then 0 else c.compression

/-- **C46.** Whatever the writer below does: if `write_message` returns `Ok` through a buffer of more than 16 bytes, then
the stream has grown by exactly the ciphertext and tag of the message. -/
theorem C46_ok_written (law : env.cr.Lawful) {s s' : Layer} {d : Bytes} {w w' : BufW} (hcap : 16 < w.cap)
    (h : s.writeMessage env d w = (s', w', .ok ())) :
    s.status = .success ∧ ∃ k, s.secret = some k ∧ w'.stream = w.stream ++ cipherOf env.cr k s.nextNonceSent d := by
  rcases writeMessage_cases env s d w with ⟨-, he⟩ | ⟨_, _, -, he⟩ | ⟨-, -, he⟩ |
    ⟨hs, k', hk', ⟨w'', e, -, he⟩ | ⟨w'', hen, ⟨n, hn, he⟩ | ⟨-, he⟩⟩⟩ <;> rw [h] at he <;>
    simp only [Prod.mk.injEq, reduceCtorEq, and_false] at he
  obtain ⟨-, rfl, -⟩ := he
  exact ⟨hs, k', hk', (encrypt_ok law hcap hen).1⟩

/-- Whatever the outcome, what is added to the stream is a prefix of one ciphertext. -/
theorem C46_any_outcome (law : env.cr.Lawful) (s : Layer) (d : Bytes) (w : BufW) :
    (s.writeMessage env d w).2.1.stream = w.stream ∨
      ∃ k q, s.status = .success ∧ s.secret = some k ∧ q <+: cipherOf env.cr k s.nextNonceSent d ∧
        (s.writeMessage env d w).2.1.stream = w.stream ++ q := by
  rcases writeMessage_cases env s d w with ⟨-, he⟩ | ⟨_, _, -, he⟩ | ⟨-, -, he⟩ |
    ⟨hs, k', hk', ⟨w'', e, hen, he⟩ | ⟨w'', hen, ⟨n, hn, he⟩ | ⟨-, he⟩⟩⟩ <;> rw [he]
  · exact .inl rfl
  · exact .inl rfl
  · exact .inl rfl
  all_goals
    obtain ⟨⟨q, h1, h2⟩, -⟩ := encrypt_prefix law k' (userPlain env.cr s.nextNonceSent d) w
    rw [hen] at h2
    exact .inr ⟨k', q, hs, hk', h1, h2⟩

/-- `write_bin`: the ciphertext of the payload compressed as configured. -/
theorem C46_ok_written_bin (law : env.cr.Lawful) {s s' : SecureLayer} {d : Bytes} {w w' : BufW} (hcap : 16 < w.cap)
    (h : s.writeBin env d w = (s', w', .ok ())) :
    s.minimal.status = .success ∧ ∃ k, s.minimal.secret = some k ∧
      w'.stream = w.stream ++
        cipherOf env.cr k s.minimal.nextNonceSent (env.cr.deflate (levelFor s.minimal.config d) d) := by
  unfold SecureLayer.writeBin SecureLayer.writeBinRaw at h
  rcases hm : s.minimal.writeMessage env (s.compress env.cr d) w with ⟨m, w1, r⟩
  rw [hm] at h
  simp only [Prod.mk.injEq] at h
  obtain ⟨-, rfl, rfl⟩ := h
  exact C46_ok_written law hcap hm

/-- With a buffer of at most 16 bytes the tag can be cut anywhere although `write_message` returns `Ok`: for every
negotiated layer, every payload and every `j ≤ 16` some writer ends up with only the first `j` bytes of the tag. -/
theorem C46_small_buffer (law : env.cr.Lawful) {s : Layer} {k : SecretKey} (hs : s.status = .success)
    (hk : s.secret = some k) (hn : s.nextNonceSent + 1 < 2 ^ 64) (d : Bytes) {cap j : Nat} (hcap : cap ≤ 16) (hj : j < 16) :
    ∃ w s' w', w.cap = cap ∧ w.stream = [] ∧ s.writeMessage env d w = (s', w', .ok ()) ∧
      w'.stream = (cipherOf env.cr k s.nextNonceSent d).take
        ((cipherOf env.cr k s.nextNonceSent d).length - 16 + j) ∧
      w'.stream.length < (cipherOf env.cr k s.nextNonceSent d).length := by
  obtain ⟨script, w', h1, h2⟩ := encrypt_truncated env law k (userPlain env.cr s.nextNonceSent d) hcap (le_of_lt hj)
  have hl : (cipherOf env.cr k s.nextNonceSent d).length = (userPlain env.cr s.nextNonceSent d).length + 16 := by
    rw [cipherOf_eq, aeadSeal]
    simp [xorKeystream, law.polyTag_length]
  have h3 : w'.stream = (cipherOf env.cr k s.nextNonceSent d).take
      ((cipherOf env.cr k s.nextNonceSent d).length - 16 + j) := by
    rw [h2, cipherOf_eq, ← cipherOf_eq, hl]
    rfl
  refine ⟨⟨cap, [], ⟨[], script⟩⟩, { s with nextNonceSent := s.nextNonceSent + 1 }, w', rfl, rfl, ?_, h3, ?_⟩
  · rcases writeMessage_cases env s d ⟨cap, [], ⟨[], script⟩⟩ with ⟨h, -⟩ | ⟨_, _, h, -⟩ | ⟨-, h, -⟩ |
      ⟨-, k', hk', ⟨w1, e, he, -⟩ | ⟨w1, he, ⟨n, hn', hm⟩ | ⟨hn', -⟩⟩⟩
    · simp [hs] at h
    · simp [hs] at h
    · simp [hk] at h
    · rw [hk] at hk'
      simp only [Option.some.injEq] at hk'
      subst hk'
      rw [h1] at he
      simp at he
    · rw [hk] at hk'
      simp only [Option.some.injEq] at hk'
      subst hk'
      rw [h1] at he
      simp only [Prod.mk.injEq, and_true] at he
      subst he
      rw [addU64_of_lt hn] at hn'
      simp only [Option.some.injEq] at hn'
      subst hn'
      exact hm
    · rw [addU64_of_lt hn] at hn'
      simp at hn'
  · rw [h3, List.length_take]
    omega

/-- The hypotheses are met by the toy session; the buffer may hold anything and the writer may be as slow as it likes. -/
example : ∃ s' w', (Toy.a4).writeMessage (Toy.env true) [1, 2, 3] ⟨17, [9], ⟨[8], []⟩⟩ = (s', w', .ok ()) ∧
    w'.stream = [8, 9] ++ cipherOf Toy.cr Toy.key 0 [1, 2, 3] := by
  obtain ⟨w', h1, h2, -⟩ := writeMessage_good (env := Toy.env true) Toy.lawful (s := Toy.a4) (k := Toy.key) [1, 2, 3]
    (w := ⟨17, [9], ⟨[8], []⟩⟩) rfl rfl rfl (by decide) (by decide)
  exact ⟨_, w', h1, h2⟩

example : ∃ w s' w', w.cap = 16 ∧ (Toy.a4).writeMessage (Toy.env false) [1, 2, 3] w = (s', w', .ok ()) ∧
    w'.stream.length < (cipherOf Toy.cr Toy.key 0 [1, 2, 3]).length := by
  obtain ⟨w, s', w', h1, -, h2, -, h3⟩ := C46_small_buffer (env := Toy.env false) Toy.lawful (s := Toy.a4)
    (k := Toy.key) rfl rfl (by decide) [1, 2, 3] (cap := 16) (j := 0) (by omega) (by omega)
  exact ⟨w, s', w', h1, h2, h3⟩

/-! ## C47: CONNECT and ACK -/

/-- What `write_connect_msg_bin` has to put into the stream. -/
def Spec.connectWire (cr : Crypto) (c : Config) (epk seed : Bytes) (data : Option Bytes) : Bytes :=
  connectFrame epk (cr.edPublic seed) ((data.map fun d => cr.deflate (levelFor c d) d).getD [])

/-- What `write_ack_msg_bin` has to put into the stream. -/
def Spec.ackWire (cr : Crypto) (c : Config) (peerEpk : Bytes) (data : Option Bytes) : Bytes :=
  ackFrame (cr.sha256 peerEpk) ((data.map fun d => cr.deflate (levelFor c d) d).getD [])

/-- **C47, CONNECT.** If message and signature are shorter than the buffer, `Ok` means that the stream has grown by exactly
the message and its signature, whatever the writer below does. -/
theorem C47_connect_partial (law : env.cr.Lawful) {sl sl' : SecureLayer} {d : Option Bytes} {w w' : BufW} {seed : Bytes}
    (hseed : sl.sigSeed = some seed)
    (hb : (connectWire env.cr sl.minimal.config sl.minimal.ephemeralPubkey seed d).length < w.cap) (h64 : 64 < w.cap)
    (h : sl.writeConnectBin env d w = (sl', w', .ok ())) :
    w'.stream = w.stream ++ (connectWire env.cr sl.minimal.config sl.minimal.ephemeralPubkey seed d ++
      env.cr.edSign seed (connectWire env.cr sl.minimal.config sl.minimal.ephemeralPubkey seed d)) := by
  unfold SecureLayer.writeConnectBin at h
  rcases writeConnectRaw_cases env sl (d.map (sl.compress env.cr)) w with ⟨h1, -⟩ | ⟨seed', h1, h2, he⟩ |
    ⟨seed', rem, h1, h2, he⟩
  · simp [hseed] at h1
  · rw [h] at he; simp at he
  · rw [hseed] at h1
    simp only [Option.some.injEq] at h1
    subst h1
    rw [h] at he
    simp only [Prod.mk.injEq] at he
    refine (writeSigned_ok (cr := env.cr) (seed := seed) hb (by rw [law.edSign_length]; exact h64) (w' := w') ?_).1
    exact Prod.ext he.2.1.symm he.2.2.symm

/-- **C47, ACK.** -/
theorem C47_ack_partial (law : env.cr.Lawful) {st : CStart} {h : List (CEvent M)} {sl sl' : SecureLayer}
    (hr : CRun env f st h sl) {d : Option Bytes} {w w' : BufW} {seed epk : Bytes} (hseed : sl.sigSeed = some seed)
    (hepk : sl.minimal.peerEpk = some epk) (hb : (ackWire env.cr sl.minimal.config epk d).length < w.cap)
    (h64 : 64 < w.cap) (h' : sl.writeAckBin env d w = (sl', w', .ok ())) :
    w'.stream = w.stream ++ (ackWire env.cr sl.minimal.config epk d ++
      env.cr.edSign seed (ackWire env.cr sl.minimal.config epk d)) := by
  unfold SecureLayer.writeAckBin at h'
  rcases writeAckRaw_cases hr.wf (d.map (sl.compress env.cr)) w with ⟨h1, -⟩ | ⟨seed', h1, h2, he⟩ |
    ⟨seed', loc, epk', h1, h2, h3, he⟩
  · simp [hseed] at h1
  · rw [h'] at he; simp at he
  · rw [hseed] at h1
    rw [hepk] at h3
    simp only [Option.some.injEq] at h1 h3
    subst h1 h3
    rw [h'] at he
    simp only [Prod.mk.injEq] at he
    refine (writeSigned_ok (cr := env.cr) (seed := seed) hb (by rw [law.edSign_length]; exact h64) (w' := w') ?_).1
    exact Prod.ext he.2.1.symm he.2.2.symm

/-- **The expected property fails.** For every layer that may send its CONNECT and every buffer not larger than the
message there is a writer, one that accepts only `j` bytes of one call, for which `write_connect_msg_bin` returns `Ok`
although everything between byte `j` of the message and its signature is missing. -/
theorem C47_refuted_connect {sl : SecureLayer} {seed : Bytes} {rem : RemoteNego} (hseed : sl.sigSeed = some seed)
    (hs : sl.minimal.status = .ongoing .created rem) (d : Option Bytes) {cap j : Nat}
    (hcap : cap ≤ (connectWire env.cr sl.minimal.config sl.minimal.ephemeralPubkey seed d).length)
    (hj : j < (connectWire env.cr sl.minimal.config sl.minimal.ephemeralPubkey seed d).length) :
    ∃ w sl' w', w.cap = cap ∧ w.stream = [] ∧ sl.writeConnectBin env d w = (sl', w', .ok ()) ∧
      w'.stream = (connectWire env.cr sl.minimal.config sl.minimal.ephemeralPubkey seed d).take j ++
        env.cr.edSign seed (connectWire env.cr sl.minimal.config sl.minimal.ephemeralPubkey seed d) := by
  obtain ⟨w', h1, h2⟩ := writeSigned_truncated env.cr seed _ hcap (le_of_lt hj)
  rcases writeConnectRaw_cases env sl (d.map (sl.compress env.cr)) ⟨cap, [], ⟨[], [.accept j]⟩⟩ with ⟨h3, -⟩ |
    ⟨seed', h3, h4, he⟩ | ⟨seed', rem', h3, h4, he⟩
  · simp [hseed] at h3
  · exact absurd hs (h4 rem)
  · rw [hseed] at h3
    simp only [Option.some.injEq] at h3
    subst h3
    exact ⟨_, _, w', rfl, rfl, he.trans (congrArg (Prod.mk _) h1), h2⟩

theorem C47_refuted_ack {st : CStart} {h : List (CEvent M)} {sl : SecureLayer} (hr : CRun env f st h sl)
    {seed epk : Bytes}
    {loc : LocalNego} (hseed : sl.sigSeed = some seed)
    (hs : sl.minimal.status = .ongoing loc .validConnectMsgReceived) (hepk : sl.minimal.peerEpk = some epk)
    (d : Option Bytes) {cap j : Nat} (hcap : cap ≤ (ackWire env.cr sl.minimal.config epk d).length)
    (hj : j < (ackWire env.cr sl.minimal.config epk d).length) :
    ∃ w sl' w', w.cap = cap ∧ w.stream = [] ∧ sl.writeAckBin env d w = (sl', w', .ok ()) ∧
      w'.stream = (ackWire env.cr sl.minimal.config epk d).take j ++
        env.cr.edSign seed (ackWire env.cr sl.minimal.config epk d) := by
  obtain ⟨w', h1, h2⟩ := writeSigned_truncated env.cr seed _ hcap (le_of_lt hj)
  rcases writeAckRaw_cases hr.wf (d.map (sl.compress env.cr)) ⟨cap, [], ⟨[], [.accept j]⟩⟩ with ⟨h3, -⟩ |
    ⟨seed', h3, h4, he⟩ | ⟨seed', loc', epk', h3, h4, h5, he⟩
  · simp [hseed] at h3
  · exact absurd hs (h4 loc)
  · rw [hseed] at h3
    rw [hepk] at h5
    simp only [Option.some.injEq] at h3 h5
    subst h3 h5
    exact ⟨_, _, w', rfl, rfl, he.trans (congrArg (Prod.mk _) h1), h2⟩

/-- The signature, too, is cut if the buffer holds at most 64 bytes. -/
theorem C47_refuted_signature (law : env.cr.Lawful) {sl : SecureLayer} {seed : Bytes} {rem : RemoteNego}
    (hseed : sl.sigSeed = some seed) (hs : sl.minimal.status = .ongoing .created rem) (d : Option Bytes) {cap j : Nat}
    (hcap : cap ≤ 64) (hj : j < 64)
    (hlen : 64 ≤ (connectWire env.cr sl.minimal.config sl.minimal.ephemeralPubkey seed d).length) :
    ∃ w sl' w', w.cap = cap ∧ w.stream = [] ∧ sl.writeConnectBin env d w = (sl', w', .ok ()) ∧
      w'.stream = connectWire env.cr sl.minimal.config sl.minimal.ephemeralPubkey seed d ++
        (env.cr.edSign seed (connectWire env.cr sl.minimal.config sl.minimal.ephemeralPubkey seed d)).take j := by
  obtain ⟨w', h1, h2⟩ := writeSigned_truncated_sig env.cr seed
    (connectWire env.cr sl.minimal.config sl.minimal.ephemeralPubkey seed d) (cap := cap) (j := j) (by omega)
    (by rw [law.edSign_length]; exact hcap) (by rw [law.edSign_length]; omega)
  rcases writeConnectRaw_cases env sl (d.map (sl.compress env.cr)) ⟨cap, [], ⟨[], [.accept _, .accept j]⟩⟩ with
    ⟨h3, -⟩ | ⟨seed', h3, h4, he⟩ | ⟨seed', rem', h3, h4, he⟩
  · simp [hseed] at h3
  · exact absurd hs (h4 rem)
  · rw [hseed] at h3
    simp only [Option.some.injEq] at h3
    subst h3
    exact ⟨_, _, w', rfl, rfl, he.trans (congrArg (Prod.mk _) h1), h2⟩

/-- A toy layer about to send its CONNECT. -/
def Toy.slA : SecureLayer := ⟨Toy.layer0 [1] none, some Toy.seedA⟩

/-- With the default buffer of 8192 bytes and 9000 bytes of custom data the message can be lost although the call returns
`Ok`. -/
example (d : Bytes) (hd : 9000 ≤ d.length) : ∃ w sl' w', w.cap = 8192 ∧
    Toy.slA.writeConnectBin (Toy.env true) (some d) w = (sl', w', .ok ()) ∧ w'.stream.length = 64 := by
  have hl : 9000 ≤ (connectWire Toy.cr Config.default (Toy.xpub [1]) Toy.seedA (some d)).length := by
    simp only [connectWire, connectFrame, frame, Toy.cr, Option.map_some, Option.getD_some, List.length_append,
      List.length_cons]
    omega
  obtain ⟨w, sl', w', h1, -, h2, h3⟩ := C47_refuted_connect (env := Toy.env true) (sl := Toy.slA) (rem := .waitConnectMsg)
    rfl rfl (some d) (cap := 8192) (j := 0) (le_trans (by omega) hl) (lt_of_lt_of_le (by omega) hl)
  refine ⟨w, sl', w', h1, h2, ?_⟩
  rw [h3, List.take_zero, List.nil_append]
  exact Toy.lawful.edSign_length _ _

/-- A short CONNECT through the default buffer is written whole. -/
example : ∃ sl' w', Toy.slA.writeConnectBin (Toy.env true) (some [1, 2, 3]) Toy.sink = (sl', w', .ok ()) ∧
    w'.stream = connectWire Toy.cr Config.default (Toy.xpub [1]) Toy.seedA (some [1, 2, 3]) ++
      Toy.cr.edSign Toy.seedA (connectWire Toy.cr Config.default (Toy.xpub [1]) Toy.seedA (some [1, 2, 3])) := by
  exact ⟨_, _, rfl, by decide +kernel⟩

/-! ## C48: failing writers -/

/-- **C48, user messages.** If `write_message` returns an error, from the writer or any other, the layer has failed for good:
no later call writes anything or delivers anything. -/
theorem C48_write_error {st : Start} {h h1 h2 : List Event} {s : Layer} (hr : Run env st h s) {d : Bytes} {w w' : BufW}
    {e : Error} (he : h = h1 ++ .write d w w' (.err e) :: h2) : s.status = .fail ∧ ∀ e' ∈ h2, Inert e' := by
  obtain ⟨s1, s2, hr1, hs2, hr2, ⟨op, he1, he2⟩ | ⟨he1, -⟩⟩ := hr.at he
  swap
  · simp at he1
  cases op with
  | write d' v =>
    simp only [step, Event.write.injEq] at he1 he2
    obtain ⟨rfl, rfl, rfl, herr⟩ := he1
    have hf : s2.status = .fail := by
      rcases writeMessage_cases env s1 d w with ⟨h, he⟩ | ⟨_, _, -, he⟩ | ⟨-, -, he⟩ |
        ⟨-, k, -, ⟨w', e, -, he⟩ | ⟨w', -, ⟨n, -, he⟩ | ⟨-, he⟩⟩⟩ <;> rw [he] at he2 herr <;> simp at herr <;> rw [he2]
      exact h
    exact C09_fail_forever hr2 hf hs2
  | _ => simp [step] at he1

/-- The session key never changes. -/
theorem steps_secret {st : Start} {s s' : Layer} {es : List Event} (h : Wf env st s) (hs : Steps env s es s') {k : SecretKey}
    (hk : s.secret = some k) : s'.secret = some k := by
  induction hs with
  | refl => exact hk
  | call hst op ih => exact (stepFrame (h.steps hst) op).secret k ih
  | cloned _ hc ih =>
    obtain ⟨-, rfl⟩ := tryClone_iff.mp hc
    exact ih

/-- **C48.** What a write that failed in the writer has put into the stream is a prefix of the ciphertext of its number under
the session key, and no number is used twice: no later write adds a single byte. -/
theorem C48_number_not_reused (law : env.cr.Lawful) {st : Start} {h h1 h2 : List Event} {s : Layer} (hr : Run env st h s)
    {d : Bytes} {w w' : BufW} {e : Error} (he : h = h1 ++ .write d w w' (.err e) :: h2) :
    (w'.stream = w.stream ∨ ∃ k q, s.secret = some k ∧ q <+: cipherOf env.cr k (h1.countP Event.writes % 2 ^ 64) d ∧
      w'.stream = w.stream ++ q) ∧
    ∀ d' v v' r, Event.write d' v v' r ∈ h2 → v' = v := by
  refine ⟨?_, fun d' v v' r hm => ((C48_write_error hr he).2 _ hm).1⟩
  obtain ⟨s1, s2, hr1, hs2, hr2, ⟨op, he1, he2⟩ | ⟨he1, -⟩⟩ := hr.at he
  swap
  · simp at he1
  cases op with
  | write d' v =>
    simp only [step, Event.write.injEq] at he1 he2
    obtain ⟨rfl, rfl, rfl, herr⟩ := he1
    rcases C46_any_outcome law s1 d w with h | ⟨k, q, -, h2, h3, h4⟩
    · exact .inl h
    · exact .inr ⟨k, q, steps_secret (Wf.of_run hr2) hs2 (by
        rw [he2]; exact (stepFrame (Wf.of_run hr1) (.write d w)).secret k h2), sent_eq hr1 ▸ h3, h4⟩
  | _ => simp [step] at he1

/-- Calls that try to write a CONNECT. -/
def Spec.CEvent.isConnectCall : CEvent M → Bool
  | .connectBin .. => true
  | .connectSer .. => true
  | _ => false

/-- Calls that try to write an ACK. -/
def Spec.CEvent.isAckCall : CEvent M → Bool
  | .ackBin .. => true
  | .ackSer .. => true
  | _ => false

/-- A call that tries to write a CONNECT or an ACK either gets as far as handing bytes to the writer or does not touch it. -/
theorem negotiates_unless {st : CStart} {sl : SecureLayer} {h : List (CEvent M)} (hr : CRun env f st h sl) (op : COp M) :
    ((cstep env f sl op).2.isConnectCall → (cstep env f sl op).2.consumesConnect = false →
      ∃ w, (cstep env f sl op).2.writers = some (w, w) ∧ (cstep env f sl op).1 = sl) ∧
    ((cstep env f sl op).2.isAckCall → (cstep env f sl op).2.consumesAck = false →
      ∃ w, (cstep env f sl op).2.writers = some (w, w) ∧ (cstep env f sl op).1 = sl) := by
  have hw := hr.wf
  have hcon : ∀ d w, (sl.writeConnectRaw env d w).2.2 ≠ .ok () → (sl.writeConnectRaw env d w).2.2 ≠ .err .bufferFlushError →
      (sl.writeConnectRaw env d w).1 = sl ∧ (sl.writeConnectRaw env d w).2.1 = w := by
    intro d w h1 h2
    rcases writeConnectRaw_cases env sl d w with ⟨-, he⟩ | ⟨seed', -, -, he⟩ | ⟨seed', rem, -, -, he⟩
    · rw [he]; exact ⟨rfl, rfl⟩
    · rw [he]; exact ⟨rfl, rfl⟩
    · rw [he] at h1 h2
      rcases writeSigned_res env.cr seed' (connectFrame sl.minimal.ephemeralPubkey (env.cr.edPublic seed') (d.getD [])) w
        with h | h
      · exact absurd h h1
      · exact absurd h h2
  have hack : ∀ d w, (sl.writeAckRaw env d w).2.2 ≠ .ok () → (sl.writeAckRaw env d w).2.2 ≠ .err .bufferFlushError →
      (sl.writeAckRaw env d w).1 = sl ∧ (sl.writeAckRaw env d w).2.1 = w := by
    intro d w h1 h2
    rcases writeAckRaw_cases hw d w with ⟨-, he⟩ | ⟨seed', -, -, he⟩ | ⟨seed', loc, epk, -, -, -, he⟩
    · rw [he]; exact ⟨rfl, rfl⟩
    · rw [he]; exact ⟨rfl, rfl⟩
    · rw [he] at h1 h2
      rcases writeSigned_res env.cr seed' (ackFrame (env.cr.sha256 epk) (d.getD [])) w with h | h
      · exact absurd h h1
      · exact absurd h h2
  constructor
  · cases op with
    | connectBin d w =>
      intro _ hc
      simp only [cstep, CEvent.consumesConnect, decide_eq_false_iff_not, not_or] at hc
      obtain ⟨h1, h2⟩ := hcon (d.map (sl.compress env.cr)) w hc.1 hc.2
      refine ⟨w, ?_, h1⟩
      simp only [cstep, CEvent.writers, SecureLayer.writeConnectBin, h2]
    | connectSer c d w =>
      intro _ hc
      simp only [cstep, CEvent.consumesConnect, decide_eq_false_iff_not, not_or, CEvent.writers,
        SecureLayer.writeConnectSer] at hc ⊢
      cases hs : SecureLayer.serializeOpt env.cr c sl d with
      | err e => exact ⟨w, rfl, rfl⟩
      | panic p => exact ⟨w, rfl, rfl⟩
      | ok d' =>
        rw [hs] at hc
        obtain ⟨h1, h2⟩ := hcon d' w hc.1 hc.2
        exact ⟨w, by simp [h2], h1⟩
    | _ => simp [cstep, CEvent.isConnectCall]
  · cases op with
    | ackBin d w =>
      intro _ hc
      simp only [cstep, CEvent.consumesAck, decide_eq_false_iff_not, not_or] at hc
      obtain ⟨h1, h2⟩ := hack (d.map (sl.compress env.cr)) w hc.1 hc.2
      refine ⟨w, ?_, h1⟩
      simp only [cstep, CEvent.writers, SecureLayer.writeAckBin, h2]
    | ackSer c d w =>
      intro _ hc
      simp only [cstep, CEvent.consumesAck, decide_eq_false_iff_not, not_or, CEvent.writers,
        SecureLayer.writeAckSer] at hc ⊢
      cases hs : SecureLayer.serializeOpt env.cr c sl d with
      | err e => exact ⟨w, rfl, rfl⟩
      | panic p => exact ⟨w, rfl, rfl⟩
      | ok d' =>
        rw [hs] at hc
        obtain ⟨h1, h2⟩ := hack d' w hc.1 hc.2
        exact ⟨w, by simp [h2], h1⟩
    | _ => simp [cstep, CEvent.isAckCall]

/-- **C48, CONNECT.** Once `write_connect_msg*` has handed bytes to the writer, successfully or not, no later attempt on this
layer or on its clones succeeds or writes anything: a CONNECT lost in the writer cannot be sent again. -/
theorem C48_connect_consumed {st : CStart} {h h1 h2 : List (CEvent M)} {sl : SecureLayer} (hr : CRun env f st h sl)
    {e : CEvent M} (he : h = h1 ++ e :: h2) (hc : e.consumesConnect = true) :
    ∀ e' ∈ h2, e'.isConnectCall → e'.consumesConnect = false ∧ ∃ w, e'.writers = some (w, w) := by
  intro e' hm hcall
  obtain ⟨⟨l, hl, hla⟩, -⟩ := hr.lower
  have hcnt := (C08_once_each hl).1
  rw [hla.counts.1, he, List.countP_append, List.countP_cons_of_pos hc] at hcnt
  have h0 : h2.countP CEvent.consumesConnect = 0 := by omega
  have hno : e'.consumesConnect = false := by
    have := List.countP_eq_zero.mp h0 e' hm
    simpa using this
  refine ⟨hno, ?_⟩
  obtain ⟨a, b, rfl⟩ := List.append_of_mem hm
  obtain ⟨s1, s2, hr1, -, -, ⟨op, he1, -⟩ | ⟨he1, -⟩⟩ := hr.at (h1 := h1 ++ e :: a) (e := e') (h2 := b) (by simp [he])
  · subst he1
    obtain ⟨w, hw, -⟩ := (negotiates_unless hr1 op).1 hcall hno
    exact ⟨w, hw⟩
  · subst he1
    simp [CEvent.isConnectCall] at hcall

/-- **C48, ACK.** -/
theorem C48_ack_consumed {st : CStart} {h h1 h2 : List (CEvent M)} {sl : SecureLayer} (hr : CRun env f st h sl)
    {e : CEvent M} (he : h = h1 ++ e :: h2) (hc : e.consumesAck = true) :
    ∀ e' ∈ h2, e'.isAckCall → e'.consumesAck = false ∧ ∃ w, e'.writers = some (w, w) := by
  intro e' hm hcall
  obtain ⟨⟨l, hl, hla⟩, -⟩ := hr.lower
  have hcnt := (C08_once_each hl).2.1
  rw [hla.counts.2.1, he, List.countP_append, List.countP_cons_of_pos hc] at hcnt
  have h0 : h2.countP CEvent.consumesAck = 0 := by omega
  have hno : e'.consumesAck = false := by
    have := List.countP_eq_zero.mp h0 e' hm
    simpa using this
  refine ⟨hno, ?_⟩
  obtain ⟨a, b, rfl⟩ := List.append_of_mem hm
  obtain ⟨s1, s2, hr1, -, -, ⟨op, he1, -⟩ | ⟨he1, -⟩⟩ := hr.at (h1 := h1 ++ e :: a) (e := e') (h2 := b) (by simp [he])
  · subst he1
    obtain ⟨w, hw, -⟩ := (negotiates_unless hr1 op).2 hcall hno
    exact ⟨w, hw⟩
  · subst he1
    simp [CEvent.isAckCall] at hcall

/-- A writer that refuses the very first write. -/
def Toy.broken : BufW := ⟨0, [], ⟨[], [.fail]⟩⟩

theorem Toy.crun0 (f : Features) (oc : Bool) : CRun (M := Unit) (Toy.env oc) f Toy.cstA [] Toy.slA := .init rfl

/-- A CONNECT is lost in the writer, and then again refused. -/
example : ∃ (h : List (CEvent Unit)) (sl : SecureLayer) (h1 h2 : List (CEvent Unit)) (e : CEvent Unit),
    CRun (Toy.env true) ⟨true, true, true⟩ Toy.cstA h sl ∧ h = h1 ++ e :: h2 ∧ e.consumesConnect = true ∧
    ∃ e' ∈ h2, e'.isConnectCall := by
  have r1 := (Toy.crun0 ⟨true, true, true⟩ true).call (.connectBin none Toy.broken)
  have r2 := r1.call (.connectBin none Toy.sink)
  refine ⟨_, _, [], [_], _, r2, rfl, ?_, ?_⟩
  · decide +kernel
  · exact ⟨_, List.mem_singleton.mpr rfl, rfl⟩

/-! ## C49: sequence numbers at the end of their range -/

section
variable {s : Layer} {k : SecretKey}

/-- A negotiated layer can write any number of messages: all sequence numbers are reached. -/
theorem steps_write (law : env.cr.Lawful) (hs : s.status = .success) (hk : s.secret = some k) (n : Nat)
    (hn : s.nextNonceSent + n < 2 ^ 64) :
    ∃ h, Steps env s h { s with nextNonceSent := s.nextNonceSent + n } ∧ ∀ e ∈ h, e.writes = true := by
  induction n with
  | zero => exact ⟨[], .refl _, by simp⟩
  | succ n ih =>
    obtain ⟨h, h1, h2⟩ := ih (by omega)
    obtain ⟨w', h3, -⟩ := writeMessage_good (env := env) law (s := { s with nextNonceSent := s.nextNonceSent + n })
      (k := k) [] (w := Toy.sink) hs hk rfl (by decide) hn
    have h4 := h1.call (.write [] Toy.sink)
    simp only [step, h3] at h4
    refine ⟨_, h4, ?_⟩
    intro e he
    rcases List.mem_append.mp he with he | he
    · exact h2 e he
    · rw [List.mem_singleton.mp he]; rfl

/-- The last number, in a build with overflow checks: the call panics after the ciphertext was written, and the number is
not consumed. -/
theorem C49_last_checked (law : env.cr.Lawful) (hoc : env.overflowChecks = true) (hs : s.status = .success)
    (hk : s.secret = some k) (hn : s.nextNonceSent = 2 ^ 64 - 1) (d : Bytes) {w : BufW} (hw : w.sink.script = [])
    (hcap : 16 < w.cap) :
    ∃ w', s.writeMessage env d w = (s, w', .panic .overflow) ∧
      w'.stream = w.stream ++ cipherOf env.cr k (2 ^ 64 - 1) d := by
  obtain ⟨h1, h2⟩ := encrypt_good (env := env) k (userPlain env.cr s.nextNonceSent d) w hw
  have ha : addU64 env.overflowChecks s.nextNonceSent 1 = none := by rw [hoc, hn]; decide
  rcases writeMessage_cases env s d w with ⟨h, -⟩ | ⟨_, _, h, -⟩ | ⟨-, h, -⟩ |
    ⟨-, k', hk', ⟨w', e, he, -⟩ | ⟨w', he, ⟨n, hn', hm⟩ | ⟨-, hm⟩⟩⟩
  · simp [hs] at h
  · simp [hs] at h
  · simp [hk] at h
  · rw [hk] at hk'
    simp only [Option.some.injEq] at hk'
    subst hk'
    rw [he] at h1
    simp at h1
  · rw [ha] at hn'; simp at hn'
  · rw [hk] at hk'
    simp only [Option.some.injEq] at hk'
    subst hk'
    refine ⟨w', hm, ?_⟩
    rw [← hn]
    exact (encrypt_ok law hcap he).1

/-- The last number, in a build without overflow checks: the counter starts again at 0. -/
theorem C49_last_unchecked (law : env.cr.Lawful) (hoc : env.overflowChecks = false) (hs : s.status = .success)
    (hk : s.secret = some k) (hn : s.nextNonceSent = 2 ^ 64 - 1) (d : Bytes) {w : BufW} (hw : w.sink.script = [])
    (hcap : 16 < w.cap) :
    ∃ w', s.writeMessage env d w = ({ s with nextNonceSent := 0 }, w', .ok ()) ∧
      w'.stream = w.stream ++ cipherOf env.cr k (2 ^ 64 - 1) d := by
  obtain ⟨h1, h2⟩ := encrypt_good (env := env) k (userPlain env.cr s.nextNonceSent d) w hw
  have ha : addU64 env.overflowChecks s.nextNonceSent 1 = some 0 := by rw [hoc, hn]; decide
  rcases writeMessage_cases env s d w with ⟨h, -⟩ | ⟨_, _, h, -⟩ | ⟨-, h, -⟩ |
    ⟨-, k', hk', ⟨w', e, he, -⟩ | ⟨w', he, ⟨n, hn', hm⟩ | ⟨hn', -⟩⟩⟩
  · simp [hs] at h
  · simp [hs] at h
  · simp [hk] at h
  · rw [hk] at hk'
    simp only [Option.some.injEq] at hk'
    subst hk'
    rw [he] at h1
    simp at h1
  · rw [hk] at hk'
    simp only [Option.some.injEq] at hk'
    subst hk'
    rw [ha] at hn'
    simp only [Option.some.injEq] at hn'
    subst hn'
    refine ⟨w', hm, ?_⟩
    rw [← hn]
    exact (encrypt_ok law hcap he).1
  · rw [ha] at hn'; simp at hn'

end

/-- **The expected property fails, build with overflow checks.** Every negotiated layer reaches a point where two different
messages are written under the same number. -/
theorem C49_refuted_checked (law : env.cr.Lawful) (hoc : env.overflowChecks = true) {st : Start} {h : List Event} {s : Layer}
    (hr : Run env st h s) {k : SecretKey} (hs : s.status = .success) (hk : s.secret = some k) (d d' : Bytes) :
    ∃ l s' w1 w2, Run env st (h ++ l ++ [.write d Toy.sink w1 (.panic .overflow),
        .write d' Toy.sink w2 (.panic .overflow)]) s' ∧
      w1.stream = cipherOf env.cr k (2 ^ 64 - 1) d ∧ w2.stream = cipherOf env.cr k (2 ^ 64 - 1) d' := by
  have hsent : s.nextNonceSent < 2 ^ 64 := (Wf.of_run hr).sent
  obtain ⟨l, h1, -⟩ := steps_write (env := env) law hs hk (2 ^ 64 - 1 - s.nextNonceSent) (by omega)
  have hr1 := hr.steps h1
  generalize hs1 : { s with nextNonceSent := s.nextNonceSent + (2 ^ 64 - 1 - s.nextNonceSent) } = s1 at hr1
  have e1 : s1.status = .success := by rw [← hs1]; exact hs
  have e2 : s1.secret = some k := by rw [← hs1]; exact hk
  have e3 : s1.nextNonceSent = 2 ^ 64 - 1 := by rw [← hs1]; show s.nextNonceSent + _ = _; omega
  obtain ⟨w1, h3, h4⟩ := C49_last_checked law hoc e1 e2 e3 d (w := Toy.sink) rfl (by decide)
  obtain ⟨w2, h5, h6⟩ := C49_last_checked law hoc e1 e2 e3 d' (w := Toy.sink) rfl (by decide)
  have hr2 := hr1.call (.write d Toy.sink)
  simp only [step, h3] at hr2
  have hr3 := hr2.call (.write d' Toy.sink)
  simp only [step, h5] at hr3
  refine ⟨l, s1, w1, w2, ?_, h4, h6⟩
  rwa [show h ++ l ++ [.write d Toy.sink w1 (.panic .overflow), .write d' Toy.sink w2 (.panic .overflow)] =
    h ++ l ++ [.write d Toy.sink w1 (.panic .overflow)] ++ [.write d' Toy.sink w2 (.panic .overflow)] by simp]

/-- **The expected property fails, build without overflow checks.** Every negotiated layer reaches a point where two
different messages are written under the same number. -/
theorem C49_refuted_unchecked (law : env.cr.Lawful) (hoc : env.overflowChecks = false) {st : Start} {h : List Event}
    {s : Layer} (hr : Run env st h s) {k : SecretKey} (hs : s.status = .success) (hk : s.secret = some k) (d d' : Bytes) :
    ∃ l l' s' w1 w2, Run env st (h ++ l ++ .write d Toy.sink w1 (.ok ()) :: l' ++ [.write d' Toy.sink w2 (.ok ())]) s' ∧
      w1.stream = cipherOf env.cr k (2 ^ 64 - 1) d ∧ w2.stream = cipherOf env.cr k (2 ^ 64 - 1) d' := by
  have hsent : s.nextNonceSent < 2 ^ 64 := (Wf.of_run hr).sent
  obtain ⟨l, h1, -⟩ := steps_write (env := env) law hs hk (2 ^ 64 - 1 - s.nextNonceSent) (by omega)
  have hr1 := hr.steps h1
  generalize hs1 : { s with nextNonceSent := s.nextNonceSent + (2 ^ 64 - 1 - s.nextNonceSent) } = s1 at hr1
  have e1 : s1.status = .success := by rw [← hs1]; exact hs
  have e2 : s1.secret = some k := by rw [← hs1]; exact hk
  have e3 : s1.nextNonceSent = 2 ^ 64 - 1 := by rw [← hs1]; show s.nextNonceSent + _ = _; omega
  obtain ⟨w1, h3, h4⟩ := C49_last_unchecked law hoc e1 e2 e3 d (w := Toy.sink) rfl (by decide)
  have hr2 := hr1.call (.write d Toy.sink)
  simp only [step, h3] at hr2
  obtain ⟨l', h5, -⟩ := steps_write (env := env) law (s := { s1 with nextNonceSent := 0 }) e1 e2 (2 ^ 64 - 1) (by
    show 0 + _ < _; omega)
  have hr3 := hr2.steps h5
  generalize hs2 : ({ s1 with nextNonceSent := 0 + (2 ^ 64 - 1) } : Layer) = s2 at hr3
  have f1 : s2.status = .success := by rw [← hs2]; exact e1
  have f2 : s2.secret = some k := by rw [← hs2]; exact e2
  have f3 : s2.nextNonceSent = 2 ^ 64 - 1 := by rw [← hs2]
  obtain ⟨w2, h6, h7⟩ := C49_last_unchecked law hoc f1 f2 f3 d' (w := Toy.sink) rfl (by decide)
  have hr4 := hr3.call (.write d' Toy.sink)
  simp only [step, h6] at hr4
  refine ⟨l, l', { s2 with nextNonceSent := 0 }, w1, w2, ?_, h4, h7⟩
  rwa [show h ++ l ++ .write d Toy.sink w1 (.ok ()) :: l' ++ [.write d' Toy.sink w2 (.ok ())] =
    h ++ l ++ [.write d Toy.sink w1 (.ok ())] ++ l' ++ [.write d' Toy.sink w2 (.ok ())] by simp]

/-- Below the end of the range no number is ever used twice: the number of a successful write is the count of successful
writes before it. -/
theorem C49_below_partial (law : env.cr.Lawful) {st : Start} {h h1 h2 : List Event} {s : Layer} (hr : Run env st h s)
    {d : Bytes} {w w' : BufW} (he : h = h1 ++ .write d w w' (.ok ()) :: h2) (hcap : 16 < w.cap)
    (hlen : h.countP Event.writes ≤ 2 ^ 64) :
    ∃ k, s.secret = some k ∧ h1.countP Event.writes < 2 ^ 64 ∧
      w'.stream = w.stream ++ cipherOf env.cr k (h1.countP Event.writes) d := by
  obtain ⟨k, h3, h4⟩ := C20_numbering law hr he hcap
  rw [he, List.countP_append, List.countP_cons_of_pos rfl] at hlen
  have hlt : h1.countP Event.writes < 2 ^ 64 := by omega
  rw [Nat.mod_eq_of_lt hlt] at h4
  exact ⟨k, h3, hlt, h4⟩

section
variable {s : Layer} {k : SecretKey}

theorem updateNonces_next {n m : Nat} (hn : s.nextNonceExpected = n) (ho : s.orphanNonces = ∅)
    (hm : addU64 env.overflowChecks n 1 = some m) :
    s.updateNonces env n = ({ s with nextNonceExpected := m }, .ok ()) := by
  unfold Layer.updateNonces
  rw [if_pos hn.symm, hn, hm]
  dsimp only
  rw [ho, Layer.advance]
  simp

theorem not_seen_next (ho : s.orphanNonces = ∅) : ¬ s.seen s.nextNonceExpected := by
  simp [Layer.seen, ho]

/-- Reading the message with the expected number. -/
theorem read_next (law : env.cr.Lawful) (hks : ¬ ∀ i < 4, env.cr.keystream k.key k.nonce i = 0)
    (hs : s.status = .success) (hk : s.secret = some k) (ho : s.orphanNonces = ∅) {n m : Nat}
    (hn : s.nextNonceExpected = n) (hlt : n < 2 ^ 64) (hm : addU64 env.overflowChecks n 1 = some m) (p : Bytes)
    (hp : 26 + p.length < 2 ^ 64) :
    s.read env (cipherOf env.cr k n p) = ({ s with nextNonceExpected := m }, .ok (some (.message (present p)))) := by
  have h1 := read_user_eval (env := env) (b := s) (n := n) p law hlt hp hks hk hs (hn ▸ not_seen_next ho)
  rw [updateNonces_next hn ho hm] at h1
  exact h1

/-- A negotiated layer can read any number of messages. -/
theorem steps_read (law : env.cr.Lawful) (hks : ¬ ∀ i < 4, env.cr.keystream k.key k.nonce i = 0)
    (hs : s.status = .success) (hk : s.secret = some k) (ho : s.orphanNonces = ∅) (n : Nat)
    (hn : s.nextNonceExpected + n < 2 ^ 64) :
    ∃ h, Steps env s h { s with nextNonceExpected := s.nextNonceExpected + n } := by
  induction n with
  | zero => exact ⟨[], .refl _⟩
  | succ n ih =>
    obtain ⟨h, h1⟩ := ih (by omega)
    have h3 := read_next (env := env) law hks (s := { s with nextNonceExpected := s.nextNonceExpected + n }) hs hk ho rfl
      (show s.nextNonceExpected + n < 2 ^ 64 by omega) (addU64_of_lt (o := env.overflowChecks)
        (show s.nextNonceExpected + n + 1 < 2 ^ 64 by omega)) [] (by decide)
    have h4 := h1.call (.read (cipherOf env.cr k (s.nextNonceExpected + n) []))
    simp only [step, h3] at h4
    exact ⟨_, h4⟩

end

/-- **Receiver, build without overflow checks.** A receiver that has accepted all numbers starts again at 0 and accepts
every old message again: here one and the same ciphertext is delivered twice. -/
theorem C49_refuted_receiver (law : env.cr.Lawful) (hoc : env.overflowChecks = false) {st : Start} {h : List Event}
    {s : Layer} (hr : Run env st h s) {k : SecretKey} (hks : ¬ ∀ i < 4, env.cr.keystream k.key k.nonce i = 0)
    (hs : s.status = .success) (hk : s.secret = some k) (ho : s.orphanNonces = ∅) (p : Bytes)
    (hp : 26 + p.length < 2 ^ 64) :
    ∃ l l' s', Run env st (h ++ l ++ .read (cipherOf env.cr k (2 ^ 64 - 1) p) (.ok (some (.message (present p)))) :: l' ++
      [.read (cipherOf env.cr k (2 ^ 64 - 1) p) (.ok (some (.message (present p))))]) s' := by
  have hexp : s.nextNonceExpected < 2 ^ 64 := (Wf.of_run hr).win.exp
  have ha : addU64 env.overflowChecks (2 ^ 64 - 1) 1 = some 0 := by rw [hoc]; decide
  obtain ⟨l, h1⟩ := steps_read (env := env) law hks hs hk ho (2 ^ 64 - 1 - s.nextNonceExpected) (by omega)
  have hr1 := hr.steps h1
  generalize hs1 : { s with nextNonceExpected := s.nextNonceExpected + (2 ^ 64 - 1 - s.nextNonceExpected) } = s1 at hr1
  have e1 : s1.status = .success := by rw [← hs1]; exact hs
  have e2 : s1.secret = some k := by rw [← hs1]; exact hk
  have e3 : s1.nextNonceExpected = 2 ^ 64 - 1 := by rw [← hs1]; show s.nextNonceExpected + _ = _; omega
  have e4 : s1.orphanNonces = ∅ := by rw [← hs1]; exact ho
  have h3 := read_next (env := env) law hks e1 e2 e4 e3 (by omega) ha p hp
  have hr2 := hr1.call (.read (cipherOf env.cr k (2 ^ 64 - 1) p))
  simp only [step, h3] at hr2
  obtain ⟨l', h5⟩ := steps_read (env := env) law hks (s := { s1 with nextNonceExpected := 0 }) e1 e2 e4 (2 ^ 64 - 1) (by
    show 0 + _ < _; omega)
  have hr3 := hr2.steps h5
  generalize hs2 : ({ s1 with nextNonceExpected := 0 + (2 ^ 64 - 1) } : Layer) = s2 at hr3
  have f1 : s2.status = .success := by rw [← hs2]; exact e1
  have f2 : s2.secret = some k := by rw [← hs2]; exact e2
  have f3 : s2.nextNonceExpected = 2 ^ 64 - 1 := by rw [← hs2]
  have f4 : s2.orphanNonces = ∅ := by rw [← hs2]; exact e4
  have h6 := read_next (env := env) law hks f1 f2 f4 f3 (by omega) ha p hp
  have hr4 := hr3.call (.read (cipherOf env.cr k (2 ^ 64 - 1) p))
  simp only [step, h6] at hr4
  refine ⟨l, l', { s2 with nextNonceExpected := 0 }, ?_⟩
  rwa [show ∀ e e' : Event, h ++ l ++ e :: l' ++ [e'] = h ++ l ++ [e] ++ l' ++ [e'] from fun e e' => by simp]

/-- **Receiver, build with overflow checks.** The message with the last number panics if it is the expected one, and
leaves the layer as it was. -/
theorem C49_receiver_checked (law : env.cr.Lawful) (hoc : env.overflowChecks = true) {st : Start} {h : List Event} {s : Layer}
    (hr : Run env st h s) {k : SecretKey} (hks : ¬ ∀ i < 4, env.cr.keystream k.key k.nonce i = 0) (hs : s.status = .success) (hk : s.secret = some k)
    (hn : s.nextNonceExpected = 2 ^ 64 - 1) (p : Bytes) (hp : 26 + p.length < 2 ^ 64) :
    s.read env (cipherOf env.cr k (2 ^ 64 - 1) p) = (s, .panic .overflow) := by
  have ha : addU64 env.overflowChecks (2 ^ 64 - 1) 1 = none := by rw [hoc]; decide
  have hns : ¬ s.seen (2 ^ 64 - 1) := by
    intro h
    unfold Layer.seen at h
    rw [hn] at h
    rcases h with h | h
    · exact absurd h (lt_irrefl _)
    · have := (Wf.of_run hr).win.orph _ h
      omega
  have h1 := read_user_eval (env := env) (b := s) (n := 2 ^ 64 - 1) p law (by unfold u64Size; omega) hp hks hk hs hns
  have h2 : s.updateNonces env (2 ^ 64 - 1) = (s, .panic .overflow) := by
    unfold Layer.updateNonces
    rw [if_pos hn.symm, hn, ha]
  rw [h2] at h1
  exact h1

/-- The toy session meets the hypotheses of all of these. -/
example (oc : Bool) : ∃ h, Run (Toy.env oc) Toy.stA h Toy.a4 ∧ Toy.a4.status = .success ∧
    Toy.a4.secret = some Toy.key ∧ Toy.a4.orphanNonces = ∅ ∧
    ¬ ∀ i < 4, Toy.cr.keystream Toy.key.key Toy.key.nonce i = 0 := by
  obtain ⟨h, hr⟩ := Toy.reach_a4 oc
  exact ⟨h, hr, rfl, rfl, rfl, Toy.key_stream⟩

example : ∃ h s' w1 w2, Run (Toy.env true) Toy.stA h s' ∧ Event.write [1] Toy.sink w1 (.panic .overflow) ∈ h ∧
    Event.write [2] Toy.sink w2 (.panic .overflow) ∈ h := by
  obtain ⟨h, hr⟩ := Toy.reach_a4 true
  obtain ⟨l, s', w1, w2, h1, -⟩ := C49_refuted_checked (env := Toy.env true) Toy.lawful rfl hr (k := Toy.key) rfl rfl [1] [2]
  exact ⟨_, s', w1, w2, h1, by simp, by simp⟩

end Pkstl

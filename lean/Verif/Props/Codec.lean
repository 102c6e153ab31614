import Verif.Lemmas.Eval
import Verif.Lemmas.WriteEval
import Verif.Spec.ToySession
/- C01–C06: encoding, decoding, wire layout. -/
namespace Pkstl
open Spec

/-- A CONNECT made by a reachable layer and signed by the announced key is delivered by every reachable
layer that waits for one and expects nobody else. -/
theorem C01_connect_roundtrip {env : Env} (law : env.cr.Lawful) {stA stB : Start} {hA hB : List Event}
    {a a' b : Layer} (ra : Run env stA hA a) (rb : Run env stB hB b)
    {pk msg sig : Bytes} {data : Option Bytes} {loc : LocalNego}
    (hc : a.createConnect env pk data = (a', .ok msg)) (hpk : pk.length = 32)
    (hlen : 86 + (data.getD []).length < 2 ^ 64)
    (hsig : env.cr.edVerify pk msg sig = true)
    (hkey : b.peerSigPubkey = none ∨ b.peerSigPubkey = some pk)
    (hwait : b.status = .ongoing loc .waitConnectMsg)
    (hag : (env.cr.xAgree stB.random (env.cr.xPublic stA.random)).isSome = true) :
    ∃ b', b.read env (msg ++ sig) = (b', .ok (some (.connect [0, 0, 0, 0] pk (data.bind present)))) ∧
      b'.peerEpk = some (env.cr.xPublic stA.random) ∧ b'.peerSigPubkey = some pk ∧
      b'.status = .ongoing loc .validConnectMsgReceived ∧
      b'.secret = sessionKey env.cr stB.random (env.cr.xPublic stB.random) (env.cr.xPublic stA.random) ∧
      b'.secret.isSome = true := by
  have wa := Wf.of_run ra
  have wb := Wf.of_run rb
  have hmsg : msg = connectFrame (env.cr.xPublic stA.random) pk (data.getD []) := by
    rcases createConnect_cases env a pk data with ⟨rem, -, he⟩ | ⟨-, he⟩
    · rw [he] at hc; simp at hc; rw [← hc.2, wa.epub]
    · rw [he] at hc; simp at hc
  obtain ⟨kp, hkp⟩ := Option.ne_none_iff_exists'.mp (wb.wait _ hwait)
  obtain ⟨rfl, -, -⟩ := wb.kp _ hkp
  obtain ⟨sec, hsec⟩ : ∃ sec, sessionKey env.cr stB.random (env.cr.xPublic stB.random)
      (env.cr.xPublic stA.random) = some sec := by
    obtain ⟨z, hz⟩ := Option.isSome_iff_exists.mp hag
    exact ⟨_, by rw [sessionKey, hz, Option.map_some]⟩
  subst hmsg
  rw [← getD_present]
  exact ⟨_, read_connect_eval (law.xPublic_length _) hpk hlen hsig hkey hwait hkp hsec,
    rfl, rfl, rfl, hsec.symm, rfl⟩

/-- Two fresh toy layers exchange a CONNECT with custom data. -/
example : ∃ a' msg, (Toy.layer0 [1] none).createConnect (Toy.env true) (Toy.pad 32 Toy.seedA) (some [7, 8]) =
      (a', .ok msg) ∧
    Toy.cr.edVerify (Toy.pad 32 Toy.seedA) msg (Toy.cr.edSign Toy.seedA msg) = true ∧
    Run (Toy.env true) (Toy.start [1] none) [] (Toy.layer0 [1] none) ∧
    Run (Toy.env true) (Toy.start [2] none) [] (Toy.layer0 [2] none) ∧
    (Toy.layer0 [2] none).status = .ongoing .created .waitConnectMsg ∧
    (Toy.cr.xAgree [2] (Toy.cr.xPublic [1])).isSome = true :=
  ⟨_, _, rfl, Toy.lawful.edVerify_sign Toy.seedA _, Toy.run0 _ _ _, Toy.run0 _ _ _, rfl, by decide⟩

/-- An ACK made for the reader's ephemeral key and signed by the key it has pinned is delivered. -/
theorem C02_ack_roundtrip {env : Env} (law : env.cr.Lawful) {stA stB : Start} {hA hB : List Event}
    {a a' b : Layer} (_ra : Run env stA hA a) (rb : Run env stB hB b)
    {k msg sig : Bytes} {data : Option Bytes} {rem : RemoteNego}
    (hpeer : a.peerEpk = some (env.cr.xPublic stB.random))
    (hc : a.createAck env data = (a', .ok msg))
    (hlen : 50 + (data.getD []).length < 2 ^ 64)
    (hkey : b.peerSigPubkey = some k) (hsig : env.cr.edVerify k msg sig = true)
    (hdue : b.status = .ongoing .connectMsgSent rem) :
    ∃ b', b.read env (msg ++ sig) = (b', .ok (some (.ack (data.bind present)))) ∧
      (rem = .ackMsgSent → b'.status = .success) ∧
      (rem ≠ .ackMsgSent → b'.status = .ongoing .validAckMsgReceived rem) := by
  have wb := Wf.of_run rb
  have hmsg : msg = ackFrame (env.cr.sha256 (env.cr.xPublic stB.random)) (data.getD []) := by
    rcases createAck_cases env a data with ⟨loc, -, he⟩ | ⟨-, he⟩
    · rw [he, hpeer] at hc; simp at hc; exact hc.2.symm
    · rw [he] at hc; simp at hc
  subst hmsg
  rw [← getD_present]
  refine ⟨_, read_ack_eval (by rw [wb.epub]) (law.sha256_length _) hlen hsig hkey hdue, ?_, ?_⟩
  · intro h; simp [h]
  · intro h; simp [h]

/-- A toy ACK with custom data, made and accepted in mid-negotiation. -/
example : ∃ a', Toy.Reach (Toy.env true) Toy.stA Toy.a3 ∧ Toy.Reach (Toy.env true) Toy.stB Toy.b3 ∧
    Toy.a3.peerEpk = some (Toy.cr.xPublic Toy.stB.random) ∧
    Toy.a3.createAck (Toy.env true) (some [9]) = (a', .ok Toy.ackA) ∧
    Toy.b3.peerSigPubkey = some Toy.pkA ∧
    Toy.cr.edVerify Toy.pkA Toy.ackA (Toy.cr.edSign Toy.seedA Toy.ackA) = true ∧
    Toy.b3.status = .ongoing .connectMsgSent .ackMsgSent :=
  ⟨Toy.a4, Toy.reach_a3 _, Toy.reach_b3 _, rfl, rfl, rfl, Toy.lawful.edVerify_sign Toy.seedA _, rfl⟩

/-- What `write_message` writes on a layer holding a session secret is delivered exactly by any layer that
holds the same secret, is negotiated, has not seen the number and has room for it. -/
theorem C03_user_roundtrip {env : Env} (law : env.cr.Lawful) {stA stB : Start} {hA hB : List Event}
    {a a' b : Layer} (ra : Run env stA hA a) (rb : Run env stB hB b)
    {k : SecretKey} {data c : Bytes} {w w' : BufW}
    (hw : a.writeMessage env data w = (a', w', .ok ())) (hcap : 16 < w.cap)
    (hout : w'.stream = w.stream ++ c)
    (hka : a.secret = some k) (hkb : b.secret = some k) (hb : b.status = .success)
    (hlen : 26 + data.length < 2 ^ 64)
    (hks : ¬ ∀ i < 4, env.cr.keystream k.key k.nonce i = 0)
    (hnew : ¬ a.nextNonceSent < b.nextNonceExpected) (hnew' : a.nextNonceSent ∉ b.orphanNonces)
    (hroom : a.nextNonceSent = b.nextNonceExpected ∨ b.orphanNonces.card < 10000)
    (hend : b.nextNonceExpected + b.orphanNonces.card + 1 < 2 ^ 64) :
    ∃ b', b.read env c = (b', .ok (some (.message (present data)))) ∧ b'.status = .success := by
  have wa := Wf.of_run ra
  have wb := Wf.of_run rb
  have hc : c = aeadSeal env.cr k (userPlain env.cr a.nextNonceSent data) := by
    rcases writeMessage_cases env a data w with ⟨-, he⟩ | ⟨_, _, -, he⟩ | ⟨-, -, he⟩ |
      ⟨hs, k', hk, ⟨w', e, -, he⟩ | ⟨w1, henc, ⟨n, hn, he⟩ | ⟨-, he⟩⟩⟩
    all_goals rw [he] at hw
    · simp at hw
    · simp at hw
    · simp at hw
    · simp at hw
    · simp at hw
      obtain ⟨-, rfl⟩ := hw
      rw [hka] at hk
      simp only [Option.some.injEq] at hk
      subst hk
      have := (encrypt_ok law hcap henc).1
      rw [hout] at this
      exact List.append_cancel_left this
    · simp at hw
  subst hc
  have hfresh : ¬ b.seen a.nextNonceSent := by
    unfold Layer.seen; tauto
  have hev := read_user_eval (b := b) data law wa.sent hlen hks hkb hb hfresh
  rcases updateNonces_spec env b _ wb.win wa.sent hfresh with
    ⟨O', n', he, -, -, -⟩ | ⟨-, -, h1, -⟩ | ⟨-, -, h1, -⟩ | ⟨h1, h2, -⟩
  · rw [hev, he]
    exact ⟨_, rfl, hb⟩
  · simp [u64Size] at h1; omega
  · simp [u64Size] at h1; omega
  · rcases hroom with h | h
    · exact absurd h h1
    · omega

/-- Toy party A writes its first message, which party B has not seen yet. -/
example : ∃ w', Toy.Reach (Toy.env true) Toy.stA Toy.a4 ∧ Toy.Reach (Toy.env true) Toy.stB Toy.b4 ∧
    Toy.a4.writeMessage (Toy.env true) [1, 2, 3] Toy.sink = ({ Toy.a4 with nextNonceSent := 1 }, w', .ok ()) ∧
    Toy.a4.secret = some Toy.key ∧ Toy.b4.secret = some Toy.key ∧ Toy.b4.status = .success ∧
    ¬ (∀ i < 4, Toy.cr.keystream Toy.key.key Toy.key.nonce i = 0) ∧
    ¬ Toy.a4.nextNonceSent < Toy.b4.nextNonceExpected ∧ Toy.a4.nextNonceSent ∉ Toy.b4.orphanNonces := by
  obtain ⟨w', h, -⟩ := writeMessage_good (env := Toy.env true) Toy.lawful (s := Toy.a4) (k := Toy.key) [1, 2, 3]
    (w := Toy.sink) rfl rfl rfl (by decide) (by decide)
  exact ⟨w', Toy.reach_a4 _, Toy.reach_b4 _, h, rfl, rfl, rfl, Toy.key_stream, by decide, by decide⟩

/-- The documented layout of CONNECT and ACK messages. -/
theorem C04_layout_clear {env : Env} {st : Start} {h : List Event} {s s' : Layer} (hr : Run env st h s)
    {msg : Bytes} :
    (∀ pk data, s.createConnect env pk data = (s', .ok msg) →
      msg = connectFrame (env.cr.xPublic st.random) pk (data.getD [])) ∧
    (∀ data, s.createAck env data = (s', .ok msg) →
      ∃ epk, s.peerEpk = some epk ∧ msg = ackFrame (env.cr.sha256 epk) (data.getD [])) := by
  have w := Wf.of_run hr
  constructor
  · intro pk data hc
    rcases createConnect_cases env s pk data with ⟨rem, -, he⟩ | ⟨-, he⟩
    · rw [he] at hc; simp at hc; rw [← hc.2, w.epub]
    · rw [he] at hc; simp at hc
  · intro data hc
    rcases createAck_cases env s data with ⟨loc, -, he⟩ | ⟨-, he⟩
    · rw [he] at hc
      cases hp : s.peerEpk with
      | none => simp [hp] at hc
      | some e => simp [hp] at hc; exact ⟨e, rfl, hc.2.symm⟩
    · rw [he] at hc; simp at hc

/-- The documented layout of user messages: frame, SHA-256 of the frame, all of it encrypted, tag. -/
theorem C04_layout_user {env : Env} (law : env.cr.Lawful) {s s' : Layer} {data : Bytes} {w w' : BufW}
    (hw : s.writeMessage env data w = (s', w', .ok ())) (hcap : 16 < w.cap) :
    ∃ k, s.secret = some k ∧
      w'.stream = w.stream ++ aeadSeal env.cr k
        (userFrame s.nextNonceSent data ++ env.cr.sha256 (userFrame s.nextNonceSent data)) := by
  rcases writeMessage_cases env s data w with ⟨-, he⟩ | ⟨_, _, -, he⟩ | ⟨-, -, he⟩ |
    ⟨hs, k, hk, ⟨w', e, -, he⟩ | ⟨w1, henc, ⟨n, hn, he⟩ | ⟨-, he⟩⟩⟩
  all_goals rw [he] at hw
  · simp at hw
  · simp at hw
  · simp at hw
  · simp at hw
  · simp at hw
    obtain ⟨-, rfl⟩ := hw
    exact ⟨k, hk, (encrypt_ok law hcap henc).1⟩
  · simp at hw

/-- The layout statements apply to the toy session; the first bytes of a CONNECT, spelled out. -/
example : Toy.Reach (Toy.env true) Toy.stA (Toy.layer0 [1] none) ∧
    (∃ s', (Toy.layer0 [1] none).createConnect (Toy.env true) Toy.pkA (some [7, 8]) = (s', .ok Toy.conA)) ∧
    Toy.conA.take 18 = [0xE2, 0xC2, 0xE2, 0xD2, 0, 0, 0, 1, 0, 0, 0, 0, 0, 0, 0, 72, 0, 1] ∧
    (Toy.conA.drop 50).take 4 = [0, 0, 0, 0] ∧ Toy.conA.drop 86 = [7, 8] :=
  ⟨⟨[], Toy.run0 _ _ _⟩, ⟨_, rfl⟩, by decide +kernel, by decide +kernel, by decide +kernel⟩

/-- Which bytes carry a delivered message: the frame of exactly that message followed by exactly the
64-byte signature, or, encrypted, by exactly the hash. -/
def CanonicalInput (env : Env) (s : Layer) (inc : Bytes) (m : Message) : Prop :=
  (∃ epk k p sig, epk.length = 32 ∧ k.length = 32 ∧ sig.length = 64 ∧
    inc = connectFrame epk k p ++ sig ∧ m = .connect [0, 0, 0, 0] k (present p)) ∨
  (∃ c p sig, c.length = 32 ∧ sig.length = 64 ∧ inc = ackFrame c p ++ sig ∧ m = .ack (present p)) ∨
  (∃ key n p, n < 2 ^ 64 ∧ s.secret = some key ∧
    inc = aeadSeal env.cr key (userFrame n p ++ env.cr.sha256 (userFrame n p)) ∧
    m = .message (present p))

/-- Every input from which `read` delivers a message is the canonical encoding of that message. -/
theorem C05_canonical {env : Env} (law : env.cr.Lawful) {s s' : Layer} {inc : Bytes} {m : Message}
    (h : s.read env inc = (s', .ok (some m))) : CanonicalInput env s inc m := by
  have hcase := read_case env s inc
  rw [h] at hcase
  generalize hr : (Res.ok (some m) : Res (Option Message)) = r at hcase
  have conn : ∀ {d : DecryptedIncomingData} {epk algo k : Bytes},
      readerRead env s.secret inc true = .ok d → d.msgTypeHeaders = .connect epk algo k →
      env.cr.edVerify k (d.data.take d.userMsgEnd) (d.data.drop d.userMsgEnd) = true →
      Layer.getMessage d = .ok (some m) → CanonicalInput env s inc m := by
    intro d epk algo k hp hh hv hg
    obtain ⟨-, -, hpc⟩ := connect_clear hp hh (.inl rfl)
    obtain ⟨p, t, hx, hd, htake, hdrop, hm, -⟩ := canonical hpc hg
    have hok := (parseClear_iff.mp hpc).2.1
    rw [hh] at hok hx hm
    obtain ⟨h1, rfl, h3⟩ := hok
    left
    rw [hd, hdrop] at hv
    refine ⟨epk, k, p, t, h1, h3, law.edVerify_length _ _ _ hv, ?_, by simpa [reported] using hm⟩
    rw [connectFrame_eq]; exact hx
  cases hcase with
  | @connectNoKp d _ _ _ _ hp hh hk hl hv hs hkp =>
    change _ = (if s.secret.isSome = true then Layer.getMessage d else _) at hr
    split at hr
    · exact conn hp hh hv hr.symm
    · simp at hr
  | connectOk hp hh hk hl hv hs hkp hsec => exact conn hp hh hv hr.symm
  | @ackOk d c k rem hp hh hc hk hl hv hs =>
    obtain ⟨-, -, hpc⟩ := ack_clear hp hh (.inl rfl)
    obtain ⟨p, t, hx, hd, htake, hdrop, hm, -⟩ := canonical hpc hr.symm
    have hok := (parseClear_iff.mp hpc).2.1
    rw [hh] at hok hx hm
    right; left
    rw [hd, hdrop] at hv
    refine ⟨c, p, t, hok, law.edVerify_length _ _ _ hv, ?_, by simpa [reported] using hm⟩
    rw [ackFrame_eq]; exact hx
  | @userOk d n s' hp hh hn hs hl hv hu =>
    obtain ⟨key, hkey, hinc, -, hpc⟩ := user_sealed hp hh
    obtain ⟨p, t, hx, hd, htake, hdrop, hm, -⟩ := canonical hpc hr.symm
    have hok := (parseClear_iff.mp hpc).2.1
    rw [hh] at hok hx hm htake
    right; right
    rw [htake, hdrop] at hv
    refine ⟨key, n, p, hok, hkey, ?_, by simpa [reported] using hm⟩
    rw [userFrame_eq, ← hv, ← hx]; exact hinc
  | _ => simp at hr

/-- Deliveries exist. -/
example : ((Toy.layer0 [2] none).read (Toy.env true) (Toy.sign Toy.seedA Toy.conA)).2 =
    .ok (some (.connect [0, 0, 0, 0] Toy.pkA (some [7, 8]))) := by decide +kernel

/-- The frames of the specification determine their fields. -/
theorem frames_injective :
    (∀ epk epk' k k' p p' : Bytes, epk.length = 32 → epk'.length = 32 → k.length = 32 → k'.length = 32 →
      connectFrame epk k p = connectFrame epk' k' p' → epk = epk' ∧ k = k' ∧ p = p') ∧
    (∀ c c' p p' : Bytes, c.length = 32 → c'.length = 32 → ackFrame c p = ackFrame c' p' → c = c' ∧ p = p') ∧
    (∀ (n n' : Nat) (p p' : Bytes), n < 2 ^ 64 → n' < 2 ^ 64 → userFrame n p = userFrame n' p' →
      n = n' ∧ p = p') ∧
    (∀ (epk k p c p' p'' : Bytes) (n : Nat), connectFrame epk k p ≠ ackFrame c p' ∧
      connectFrame epk k p ≠ userFrame n p'' ∧ ackFrame c p' ≠ userFrame n p'') := by
  refine ⟨?_, ?_, ?_, ?_⟩
  · intro epk epk' k k' p p' h1 h2 h3 h4 h
    have := frame_inj h
    simp only [List.append_assoc, List.append_cancel_left_eq] at this
    obtain ⟨rfl, h5⟩ := List.append_inj this (by omega)
    simp only [List.append_cancel_left_eq] at h5
    obtain ⟨rfl, rfl⟩ := List.append_inj h5 (by omega)
    exact ⟨rfl, rfl, rfl⟩
  · intro c c' p p' h1 h2 h
    have := frame_inj h
    simp only [List.append_assoc, List.append_cancel_left_eq] at this
    exact List.append_inj this (by omega)
  · intro n n' p p' h1 h2 h
    have := frame_inj h
    simp only [List.append_assoc, List.append_cancel_left_eq] at this
    obtain ⟨h3, rfl⟩ := List.append_inj this (by simp)
    refine ⟨?_, rfl⟩
    rw [← beNat_be64 (n := n) h1, ← beNat_be64 (n := n') h2, h3]
  · intro epk k p c p' p'' n
    refine ⟨fun h => ?_, fun h => ?_, fun h => ?_⟩ <;>
    · have := frame_inj h
      simp at this

/-- Fields as the layer fills them in: keys of 32 bytes, the algorithm Ed25519, a 64-bit sequence number. -/
def Spec.Encodable : MessageRef → Prop
  | .connect algo k _ => algo = [0, 0, 0, 0] ∧ k.length = 32
  | .ack _ => True
  | .message _ n => n < 2 ^ 64

/-- What an encoding says: the type, the fields of the type, and the payload. -/
def Spec.content (cr : Crypto) (selfEpk : Bytes) (peerEpk : Option Bytes) :
    MessageRef → Nat × Bytes × Bytes × Nat × Bytes
  | .connect _ k d => (1, selfEpk, k, 0, d.getD [])
  | .ack d => (2, (peerEpk.map cr.sha256).getD [], [], 0, d.getD [])
  | .message d n => (0, [], [], n, d.getD [])

/-- **C06.** Messages with the same encoding have the same type, keys, challenge, sequence number and payload. -/
theorem C06_injective {cr : Crypto} (law : cr.Lawful) {m m' : MessageRef} {e e' : Bytes} {p p' : Option Bytes} {b : Bytes}
    (hm : Encodable m) (hm' : Encodable m') (he : e.length = 32) (he' : e'.length = 32)
    (h : m.toBytes cr e p = .ok b) (h' : m'.toBytes cr e' p' = .ok b) : content cr e p m = content cr e' p' m' := by
  obtain ⟨fc, fa, fu, fne⟩ := frames_injective
  have key : ∀ (m : MessageRef) (e : Bytes) (p : Option Bytes), Encodable m → m.toBytes cr e p = .ok b →
      match m with
      | .connect _ k d => b = connectFrame e k (d.getD [])
      | .ack d => ∃ q, p = some q ∧ b = ackFrame (cr.sha256 q) (d.getD [])
      | .message d n => b = userFrame n (d.getD []) := by
    intro m e p hm h
    cases m with
    | connect a k d =>
      obtain ⟨rfl, -⟩ := hm
      exact (Res.ok.inj (((toBytes_connect cr k d e p).symm.trans h))).symm
    | ack d =>
      cases p with
      | none => simp [MessageRef.toBytes, MessageRef.prepare] at h
      | some q => exact ⟨q, rfl, (Res.ok.inj (((toBytes_ack cr d e q).symm.trans h))).symm⟩
    | message d n =>
      have hd : (MessageRef.message d n).toBytes cr e p = (MessageRef.message (some (d.getD [])) n).toBytes cr e p := rfl
      exact (Res.ok.inj (((toBytes_user cr (d.getD []) n e p).symm.trans (hd.symm.trans h)))).symm
  have h1 := key m e p hm h
  have h2 := key m' e' p' hm' h'
  cases m with
  | connect a k d =>
    cases m' with
    | connect a' k' d' =>
      obtain ⟨h3, h4, h5⟩ := fc _ _ _ _ _ _ he he' hm.2 hm'.2 (h1.symm.trans h2)
      simp [content, h3, h4, h5]
    | ack d' => obtain ⟨q, -, h2⟩ := h2; exact absurd (h1.symm.trans h2) (fne _ _ _ _ _ [] 0).1
    | message d' n' => exact absurd (h1.symm.trans h2) (fne _ _ _ [] [] _ _).2.1
  | ack d =>
    obtain ⟨q, rfl, h1⟩ := h1
    cases m' with
    | connect a' k' d' => exact absurd (h2.symm.trans h1) (fne _ _ _ _ _ [] 0).1
    | ack d' =>
      obtain ⟨q', rfl, h2⟩ := h2
      obtain ⟨h3, h4⟩ := fa _ _ _ _ (law.sha256_length _) (law.sha256_length _) (h1.symm.trans h2)
      simp [content, h3, h4]
    | message d' n' => exact absurd (h1.symm.trans h2) (fne [] [] [] _ _ _ _).2.2
  | message d n =>
    cases m' with
    | connect a' k' d' => exact absurd (h2.symm.trans h1) (fne _ _ _ [] [] _ _).2.1
    | ack d' => obtain ⟨q, -, h2⟩ := h2; exact absurd (h2.symm.trans h1) (fne [] [] [] _ _ _ _).2.2
    | message d' n' =>
      obtain ⟨h3, h4⟩ := fu _ _ _ _ hm hm' (h1.symm.trans h2)
      simp [content, h3, h4]

/-- **C06, what is signed.** The CONNECT and ACK messages that layers hand out for signing commit to their fields: equal
CONNECTs announce the same ephemeral key and signature key and carry the same data, equal ACKs answer the same ephemeral key
up to its hash and carry the same data, and no CONNECT is an ACK. -/
theorem C06_signed {env : Env} (law : env.cr.Lawful) {st st' : Start} {h h' : List Event} {s s1 t t1 : Layer}
    (hr : Run env st h s) (hr' : Run env st' h' t) {msg : Bytes} :
    (∀ pk pk' d d', pk.length = 32 → pk'.length = 32 → s.createConnect env pk d = (s1, .ok msg) →
      t.createConnect env pk' d' = (t1, .ok msg) →
      env.cr.xPublic st.random = env.cr.xPublic st'.random ∧ pk = pk' ∧ d.getD [] = d'.getD []) ∧
    (∀ d d', s.createAck env d = (s1, .ok msg) → t.createAck env d' = (t1, .ok msg) →
      (∃ e e', s.peerEpk = some e ∧ t.peerEpk = some e' ∧ env.cr.sha256 e = env.cr.sha256 e') ∧ d.getD [] = d'.getD []) ∧
    (∀ pk d d', ¬ (s.createConnect env pk d = (s1, .ok msg) ∧ t.createAck env d' = (t1, .ok msg))) := by
  obtain ⟨fc, fa, -, fne⟩ := frames_injective
  refine ⟨fun pk pk' d d' h1 h2 hs ht => ?_, fun d d' hs ht => ?_, fun pk d d' ⟨hs, ht⟩ => ?_⟩
  · have e1 := (C04_layout_clear hr).1 pk d hs
    have e2 := (C04_layout_clear hr').1 pk' d' ht
    exact fc _ _ _ _ _ _ (law.xPublic_length _) (law.xPublic_length _) h1 h2 (e1.symm.trans e2)
  · obtain ⟨e, he, e1⟩ := (C04_layout_clear hr).2 d hs
    obtain ⟨e', he', e2⟩ := (C04_layout_clear hr').2 d' ht
    obtain ⟨h3, h4⟩ := fa _ _ _ _ (law.sha256_length _) (law.sha256_length _) (e1.symm.trans e2)
    exact ⟨⟨e, e', he, he', h3⟩, h4⟩
  · have e1 := (C04_layout_clear hr).1 pk d hs
    obtain ⟨e', he', e2⟩ := (C04_layout_clear hr').2 d' ht
    exact (fne _ _ _ _ _ [] 0).1 (e1.symm.trans e2)

/-- The toy CONNECT and ACK. -/
example : (∃ s1, (Toy.layer0 [1] none).createConnect (Toy.env true) Toy.pkA (some [7, 8]) = (s1, .ok Toy.conA)) ∧
    (∃ s1 m, Toy.a3.createAck (Toy.env true) (some [5]) = (s1, .ok m)) ∧ Toy.Reach (Toy.env true) Toy.stA Toy.a3 ∧
    Encodable (.connect [0, 0, 0, 0] Toy.pkA none) ∧ Encodable (.message (some [1]) 5) :=
  ⟨⟨_, rfl⟩, ⟨_, _, rfl⟩, Toy.reach_a3 _, ⟨rfl, rfl⟩, by show 5 < 2 ^ 64; decide⟩

end Pkstl

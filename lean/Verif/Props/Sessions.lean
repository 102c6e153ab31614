import Verif.Lemmas.Session
import Verif.Lemmas.WriteEval
import Verif.Spec.Window
import Verif.Props.Auth
import Verif.Props.Codec
/- C24, C25, C26, C27: what the session key and the identities do not give. -/
namespace Pkstl
open Spec

section
variable {env : Env}

theorem write_ok_cipher (law : env.cr.Lawful) {x x' : Layer} {d : Bytes} {w w' : BufW} (hcap : 16 < w.cap)
    (hx : x.writeMessage env d w = (x', w', .ok ())) {k : SecretKey} (hk : x.secret = some k) :
    w'.stream = w.stream ++ cipherOf env.cr k x.nextNonceSent d ∧
      addU64 env.overflowChecks x.nextNonceSent 1 = some x'.nextNonceSent := by
  rcases writeMessage_cases env x d w with ⟨-, he⟩ | ⟨_, _, -, he⟩ | ⟨-, -, he⟩ |
    ⟨-, k', hk', ⟨w'', e, -, he⟩ | ⟨w'', hen, ⟨n, hn, he⟩ | ⟨-, he⟩⟩⟩ <;> rw [hx] at he <;>
    simp only [Prod.mk.injEq, reduceCtorEq, and_false] at he
  obtain ⟨rfl, rfl, -⟩ := he
  rw [hk] at hk'
  simp only [Option.some.injEq] at hk'
  subst hk'
  exact ⟨(encrypt_ok law hcap hen).1, hn⟩

/-- XOR of two byte strings, as long as the shorter one. -/
def Spec.xorBytes (a b : Bytes) : Bytes := List.zipWith (· ^^^ ·) a b

/-- **C24 (refuted).** Take any two messages written under the same session secret, by the same or by different
layers, in the same or in opposite directions: the XOR of the ciphertexts is the XOR of the plaintexts, so
an eavesdropper who knows one payload reads the other one. -/
theorem C24_refuted (law : env.cr.Lawful) {a a' b b' : Layer} {k : SecretKey} (ha : a.secret = some k)
    (hb : b.secret = some k) {d e : Bytes} {wa wa' wb wb' : BufW} (hca : 16 < wa.cap) (hcb : 16 < wb.cap)
    (h1 : a.writeMessage env d wa = (a', wa', .ok ())) (h2 : b.writeMessage env e wb = (b', wb', .ok ())) :
    ∃ ca cb, wa'.stream = wa.stream ++ ca ∧ wb'.stream = wb.stream ++ cb ∧
      ∀ pa pb, pa = userFrame a.nextNonceSent d ++ env.cr.sha256 (userFrame a.nextNonceSent d) →
        pb = userFrame b.nextNonceSent e ++ env.cr.sha256 (userFrame b.nextNonceSent e) →
        (xorBytes ca cb).take (min pa.length pb.length) = xorBytes pa pb ∧
        (xorBytes (xorBytes ca cb) pa).take (min pa.length pb.length) = pb.take pa.length := by
  refine ⟨_, _, (write_ok_cipher law hca h1 ha).1, (write_ok_cipher law hcb h2 hb).1, ?_⟩
  rintro pa pb rfl rfl
  unfold cipherOf
  generalize userFrame a.nextNonceSent d ++ env.cr.sha256 (userFrame a.nextNonceSent d) = pa
  generalize userFrame b.nextNonceSent e ++ env.cr.sha256 (userFrame b.nextNonceSent e) = pb
  have hx : ∀ i x y z : UInt8, (x ^^^ i ^^^ (y ^^^ i)) = x ^^^ y := by
    intro i x y z
    rw [UInt8.xor_comm y i, UInt8.xor_assoc, ← UInt8.xor_assoc i i y, UInt8.xor_self, UInt8.zero_xor]
  constructor
  · apply List.ext_getElem
    · simp [xorBytes, aeadSeal]
    · intro i h1 h2
      simp [xorBytes] at h1 h2
      simp only [List.getElem_take, xorBytes, List.getElem_zipWith, aeadSeal]
      rw [List.getElem_append_left (by simp; omega), List.getElem_append_left (by simp; omega)]
      simp only [xorKeystream, List.getElem_mapIdx]
      exact hx _ _ _ 0
  · apply List.ext_getElem
    · simp [xorBytes, aeadSeal]
    · intro i h1 h2
      simp [xorBytes] at h1 h2
      simp only [List.getElem_take, xorBytes, List.getElem_zipWith, aeadSeal]
      rw [List.getElem_append_left (by simp; omega), List.getElem_append_left (by simp; omega)]
      simp only [xorKeystream, List.getElem_mapIdx]
      rw [hx _ _ _ 0, UInt8.xor_comm, ← UInt8.xor_assoc, UInt8.xor_self, UInt8.zero_xor]

/-- The two toy parties write one message each. -/
example : ∃ wa wb, Toy.a4.secret = some Toy.key ∧ Toy.b4.secret = some Toy.key ∧ 16 < Toy.sink.cap ∧
    Toy.a4.writeMessage (Toy.env true) [1, 2, 3] Toy.sink = ({ Toy.a4 with nextNonceSent := 1 }, wa, .ok ()) ∧
    Toy.b4.writeMessage (Toy.env true) [4, 5] Toy.sink = ({ Toy.b4 with nextNonceSent := 1 }, wb, .ok ()) := by
  obtain ⟨wa, ha, -⟩ := writeMessage_good (env := Toy.env true) Toy.lawful (s := Toy.a4) (k := Toy.key) [1, 2, 3]
    (w := Toy.sink) rfl rfl rfl (by decide) (by decide)
  obtain ⟨wb, hb, -⟩ := writeMessage_good (env := Toy.env true) Toy.lawful (s := Toy.b4) (k := Toy.key) [4, 5]
    (w := Toy.sink) rfl rfl rfl (by decide) (by decide)
  exact ⟨wa, wb, rfl, rfl, by decide, ha, hb⟩

/-- **C25 (refuted).** What a negotiated layer writes is accepted by the same layer when it is sent back, unless
the number happens to be used up already by the peer's messages. -/
theorem C25_refuted_reflection (law : env.cr.Lawful) {st : Start} {h : List Event} {s s' : Layer}
    (hr : Run env st h s) (hs : s.status = .success) {k : SecretKey} (hk : s.secret = some k)
    (hks : ¬ ∀ i < 4, env.cr.keystream k.key k.nonce i = 0) {d c : Bytes} {w w' : BufW} (hcap : 16 < w.cap)
    (hlen : 26 + d.length < 2 ^ 64)
    (hw : s.writeMessage env d w = (s', w', .ok ())) (hout : w'.stream = w.stream ++ c)
    (hnew : s.nextNonceExpected ≤ s.nextNonceSent) (hnew' : s.nextNonceSent ∉ s.orphanNonces)
    (hroom : s.nextNonceSent = s.nextNonceExpected ∨ s.orphanNonces.card < 10000)
    (hend : s.nextNonceExpected + s.orphanNonces.card + 1 < 2 ^ 64) :
    ∃ s'', s'.read env c = (s'', .ok (some (.message (present d)))) ∧ s''.status = .success := by
  have hst : s'.secret = some k ∧ s'.status = .success ∧ s'.nextNonceExpected = s.nextNonceExpected ∧
      s'.orphanNonces = s.orphanNonces := by
    rcases writeMessage_cases env s d w with ⟨-, he⟩ | ⟨_, _, -, he⟩ | ⟨-, -, he⟩ |
      ⟨-, k', hk', ⟨w'', e, -, he⟩ | ⟨w'', hen, ⟨n, hn, he⟩ | ⟨-, he⟩⟩⟩ <;> rw [hw] at he <;>
      simp only [Prod.mk.injEq, reduceCtorEq, and_false] at he
    obtain ⟨rfl, -, -⟩ := he
    exact ⟨hk, hs, rfl, rfl⟩
  have hr' : Run env st (h ++ [.write d w w' (.ok ())]) s' := by
    have := hr.call (.write d w)
    simp only [step] at this
    rw [hw] at this
    exact this
  exact C03_user_roundtrip law hr hr' hw hcap hout hk hst.1 hst.2.1 hlen hks (by rw [hst.2.2.1]; omega)
    (by rw [hst.2.2.2]; exact hnew') (by rw [hst.2.2.1, hst.2.2.2]; exact hroom)
    (by rw [hst.2.2.1, hst.2.2.2]; exact hend)

/-- A toy party that has not received anything yet. -/
example : ∃ h w' c, Run (Toy.env true) Toy.stA h Toy.a4 ∧ Toy.a4.status = .success ∧ Toy.a4.secret = some Toy.key ∧
    Toy.a4.writeMessage (Toy.env true) [1, 2, 3] Toy.sink = ({ Toy.a4 with nextNonceSent := 1 }, w', .ok ()) ∧
    w'.stream = Toy.sink.stream ++ c ∧ Toy.a4.nextNonceExpected ≤ Toy.a4.nextNonceSent ∧
    Toy.a4.nextNonceSent ∉ Toy.a4.orphanNonces := by
  obtain ⟨h, hr⟩ := Toy.reach_a4 true
  obtain ⟨w', h1, h2, -⟩ := writeMessage_good (env := Toy.env true) Toy.lawful (s := Toy.a4) (k := Toy.key) [1, 2, 3]
    (w := Toy.sink) rfl rfl rfl (by decide) (by decide)
  exact ⟨h, w', _, hr, rfl, rfl, h1, h2, by decide, by decide⟩

/-- **C25 (refuted).** A layer without an expected key that is fed its own signed CONNECT and ACK ends up
negotiated with itself. -/
theorem C25_refuted_self (law : env.cr.Lawful) (st : Start) (seed : Bytes) (d d' : Option Bytes)
    (hexp : st.expected = none) (hd : 86 + (d.getD []).length < 2 ^ 64) (hd' : 50 + (d'.getD []).length < 2 ^ 64)
    (hag : (env.cr.xAgree st.random (env.cr.xPublic st.random)).isSome = true) :
    ∃ s con ack, Run env st
      [.connect (env.cr.edPublic seed) d (.ok con),
       .read (con ++ env.cr.edSign seed con) (.ok (some (.connect [0, 0, 0, 0] (env.cr.edPublic seed) (d.bind present)))),
       .ack d' (.ok ack),
       .read (ack ++ env.cr.edSign seed ack) (.ok (some (.ack (d'.bind present))))] s ∧
      s.status = .success ∧ s.secret.isSome = true ∧ s.peerSigPubkey = some (env.cr.edPublic seed) := by
  obtain ⟨key, hkey⟩ : ∃ key, sessionKey env.cr st.random (env.cr.xPublic st.random) (env.cr.xPublic st.random) = some key := by
    obtain ⟨z, hz⟩ := Option.isSome_iff_exists.mp hag
    exact ⟨_, by rw [sessionKey, hz, Option.map_some]⟩
  have r := nego_done (pk := env.cr.edPublic seed) law d d' (.inl hexp) (law.xPublic_length st.random)
    (law.edPublic_length seed) hd hd' (law.edVerify_sign seed _) (law.edVerify_sign seed _) hkey
  rw [← getD_present, ← getD_present]
  exact ⟨_, _, _, r, rfl, rfl, rfl⟩

/-- The toy primitives meet the hypotheses. -/
example : Toy.stA.expected = none ∧ (Toy.cr.xAgree Toy.stA.random (Toy.cr.xPublic Toy.stA.random)).isSome = true := by
  decide +kernel

/-- **C25 (partial).** A layer that expects a key other than its own refuses its own CONNECT, at any time and
without any change. -/
theorem C25_own_connect_partial (law : env.cr.Lawful) {st : Start} {h : List Event} {s : Layer}
    (hr : Run env st h s) (hn : s.cloned = false) {k : Bytes} (hexp : st.expected = some k) {pk sig : Bytes} (hpk : pk.length = 32)
    (hne : pk ≠ k) {d : Option Bytes} (hlen : 86 + (d.getD []).length < 2 ^ 64) {con : Bytes}
    (hm : .connect pk d (.ok con) ∈ h) :
    s.read env (con ++ sig) = (s, .err .unexpectedRemoteSigPubKey) := by
  have hw := Wf.of_run hr
  obtain ⟨h1, h2, he⟩ := List.append_of_mem hm
  obtain ⟨s1, s2, hr1, -, -, ⟨op, h3, -⟩ | ⟨h3, -⟩⟩ := hr.at he
  swap
  · simp at h3
  have hcon : con = connectFrame (env.cr.xPublic st.random) pk (d.getD []) := by
    cases op with
    | connect pk' d' =>
      simp only [step] at h3
      rcases createConnect_cases env s1 pk' d' with ⟨rem, -, hc⟩ | ⟨-, hc⟩ <;> rw [hc] at h3 <;>
        simp only [Event.connect.injEq, Res.ok.injEq, reduceCtorEq, and_false] at h3
      obtain ⟨rfl, rfl, h4⟩ := h3
      rw [h4, (Wf.of_run hr1).epub]
    | read _ => simp [step] at h3
    | takeAck => simp [step] at h3
    | drain => simp [step] at h3
    | ack _ => simp [step] at h3
    | write _ _ => simp [step] at h3
    | clone => simp [step] at h3
    | config _ => simp [step] at h3
  subst hcon
  exact read_connect_key_eval (law.xPublic_length _) hpk hlen (hw.expc k hexp hn) hne

/-- Toy party A expecting B, after its CONNECT. -/
example (oc : Bool) : ∃ h s, Run (Toy.env oc) (Toy.start [1] (some Toy.pkB)) h s ∧ s.cloned = false ∧
    Event.connect Toy.pkA (some [7, 8]) (.ok Toy.conA) ∈ h ∧ Toy.pkA ≠ Toy.pkB := by
  have r := (Toy.run0 oc [1] (some Toy.pkB)).call (.connect Toy.pkA (some [7, 8]))
  exact ⟨_, _, r, rfl, by cases oc <;> decide +kernel, by decide +kernel⟩

/-- **C26 (refuted).** For all keys: A (with or without expecting B) and B (not expecting anybody, or expecting M)
end up negotiated with the same secret while A believes to talk to B and B believes to talk to M.  M only
signed A's messages with its own key. -/
theorem C26_refuted (law : env.cr.Lawful) (stA stB : Start) (seedA seedB seedM : Bytes)
    (dA dB ackA ackB : Option Bytes)
    (hA : stA.expected = none ∨ stA.expected = some (env.cr.edPublic seedB))
    (hB : stB.expected = none ∨ stB.expected = some (env.cr.edPublic seedM))
    (h1 : 86 + (dA.getD []).length < 2 ^ 64) (h2 : 86 + (dB.getD []).length < 2 ^ 64)
    (h3 : 50 + (ackA.getD []).length < 2 ^ 64) (h4 : 50 + (ackB.getD []).length < 2 ^ 64)
    (hag : (env.cr.xAgree stA.random (env.cr.xPublic stB.random)).isSome = true) :
    ∃ a b cA cB cM aA aB key,
      Run env stA
        [.connect (env.cr.edPublic seedA) dA (.ok cA),
         .read (cB ++ env.cr.edSign seedB cB) (.ok (some (.connect [0, 0, 0, 0] (env.cr.edPublic seedB) (dB.bind present)))),
         .ack ackA (.ok aA),
         .read (aB ++ env.cr.edSign seedB aB) (.ok (some (.ack (ackB.bind present))))] a ∧
      Run env stB
        [.connect (env.cr.edPublic seedB) dB (.ok cB),
         .read (cM ++ env.cr.edSign seedM cM) (.ok (some (.connect [0, 0, 0, 0] (env.cr.edPublic seedM) (dA.bind present)))),
         .ack ackB (.ok aB),
         .read (aA ++ env.cr.edSign seedM aA) (.ok (some (.ack (ackA.bind present))))] b ∧
      a.status = .success ∧ b.status = .success ∧ a.secret = some key ∧ b.secret = some key ∧
      a.peerSigPubkey = some (env.cr.edPublic seedB) ∧ b.peerSigPubkey = some (env.cr.edPublic seedM) := by
  obtain ⟨key, hkey⟩ : ∃ key, sessionKey env.cr stA.random (env.cr.xPublic stA.random) (env.cr.xPublic stB.random) = some key := by
    obtain ⟨z, hz⟩ := Option.isSome_iff_exists.mp hag
    exact ⟨_, by rw [sessionKey, hz, Option.map_some]⟩
  have rA := nego_done (pk := env.cr.edPublic seedA) law dA ackA hA (law.xPublic_length stB.random)
    (law.edPublic_length seedB) h2 h4 (law.edVerify_sign seedB _) (law.edVerify_sign seedB _) hkey
  have rB := nego_done (pk := env.cr.edPublic seedB) law dB ackB hB (law.xPublic_length stA.random)
    (law.edPublic_length seedM) h1 h3 (law.edVerify_sign seedM _) (law.edVerify_sign seedM _)
    ((sessionKey_comm law _ _).symm.trans hkey)
  simp only [← getD_present]
  exact ⟨_, _, _, _, _, _, _, key, rA, rB, rfl, rfl, rfl, rfl, rfl, rfl⟩

/-- Toy keys: A expects B, B expects nobody; M's key is not A's. -/
example : (Toy.start [1] (some Toy.pkB)).expected = some (Toy.cr.edPublic Toy.seedB) ∧ Toy.stB.expected = none ∧
    (Toy.cr.xAgree [1] (Toy.cr.xPublic [2])).isSome = true ∧ Toy.cr.edPublic Toy.seedM ≠ Toy.cr.edPublic Toy.seedA := by
  decide +kernel

/-- **C26 (partial).** A layer configured with the expected key never takes anybody else for its peer: every
CONNECT it delivers names that key and carries a signature by that key. -/
theorem C26_expected_partial {st : Start} {h h1 h2 : List Event} {s : Layer} {e : Event} (hr : Run env st h s)
    {x : Bytes} (hexp : st.expected = some x) (hh : h = h1 ++ e :: h2) {algo k : Bytes} {p : Option Bytes}
    (hm : Message.connect algo k p ∈ e.delivers) :
    k = x ∧ ∃ epk payload sig, e = .read (connectFrame epk x payload ++ sig) (.ok (some (.connect algo x p))) ∧
      env.cr.edVerify x (connectFrame epk x payload) sig = true := by
  obtain ⟨epk, payload, sig, h3, h4, -, -, -, -, h5⟩ := C11_connect_authentic hr hh hm
  have := h5 x hexp
  subst this
  exact ⟨rfl, epk, payload, sig, h3, h4⟩

/-- Toy party A expecting B delivers B's CONNECT. -/
example (oc : Bool) : ∃ h s, Run (Toy.env oc) (Toy.start [1] (some Toy.pkB)) (h ++ [.read (Toy.sign Toy.seedB Toy.conB)
    (.ok (some (.connect [0, 0, 0, 0] Toy.pkB none)))]) s := by
  have r := (Toy.run0 oc [1] (some Toy.pkB)).call (.read (Toy.sign Toy.seedB Toy.conB))
  refine ⟨[], _, Eq.mp (congrArg (fun l => Run _ _ l _) ?_) r⟩
  cases oc <;> decide +kernel

/-- **C27 (refuted).** B once made a CONNECT in another session (`stOld`).  Replaying it to A together with the ACK B
makes for A's present CONNECT, A is negotiated with the key of the old CONNECT; B's present layer has another
key and refuses A's ACK. -/
theorem C27_refuted (law : env.cr.Lawful) (stA stB stOld : Start) (seedA seedB : Bytes)
    (dA dB dOld ackA ackB : Option Bytes)
    (hA : stA.expected = none ∨ stA.expected = some (env.cr.edPublic seedB))
    (hB : stB.expected = none ∨ stB.expected = some (env.cr.edPublic seedA))
    (h1 : 86 + (dA.getD []).length < 2 ^ 64) (h2 : 86 + (dOld.getD []).length < 2 ^ 64)
    (h3 : 50 + (ackA.getD []).length < 2 ^ 64) (h4 : 50 + (ackB.getD []).length < 2 ^ 64)
    {kOld kB : SecretKey}
    (hOld : sessionKey env.cr stA.random (env.cr.xPublic stA.random) (env.cr.xPublic stOld.random) = some kOld)
    (hkB : sessionKey env.cr stB.random (env.cr.xPublic stB.random) (env.cr.xPublic stA.random) = some kB)
    (hsha : env.cr.sha256 (env.cr.xPublic stOld.random) ≠ env.cr.sha256 (env.cr.xPublic stB.random)) :
    ∃ old a b cOld cA cB aA aB,
      Run env stOld [.connect (env.cr.edPublic seedB) dOld (.ok cOld)] old ∧
      Run env stA
        [.connect (env.cr.edPublic seedA) dA (.ok cA),
         .read (cOld ++ env.cr.edSign seedB cOld) (.ok (some (.connect [0, 0, 0, 0] (env.cr.edPublic seedB) (dOld.bind present)))),
         .ack ackA (.ok aA),
         .read (aB ++ env.cr.edSign seedB aB) (.ok (some (.ack (ackB.bind present))))] a ∧
      Run env stB
        [.connect (env.cr.edPublic seedB) dB (.ok cB),
         .read (cA ++ env.cr.edSign seedA cA) (.ok (some (.connect [0, 0, 0, 0] (env.cr.edPublic seedA) (dA.bind present)))),
         .ack ackB (.ok aB),
         .read (aA ++ env.cr.edSign seedA aA) (.err (.recvInvalidMsg .invalidChallenge))] b ∧
      a.status = .success ∧ a.secret = some kOld ∧ a.peerSigPubkey = some (env.cr.edPublic seedB) ∧
      b.secret = some kB ∧ b.status ≠ .success := by
  have rO := nego_first env stOld (env.cr.edPublic seedB) dOld
  have rA := nego_done (pk := env.cr.edPublic seedA) law dA ackA hA (law.xPublic_length stOld.random)
    (law.edPublic_length seedB) h2 h4 (law.edVerify_sign seedB _) (law.edVerify_sign seedB _) hOld
  have rB := (nego_almost (pk := env.cr.edPublic seedB) dB ackB hB (law.xPublic_length stA.random)
    (law.edPublic_length seedA) h1 (law.edVerify_sign seedA _) hkB).call
    (.read (ackFrame (env.cr.sha256 (env.cr.xPublic stOld.random)) (ackA.getD []) ++
      env.cr.edSign seedA (ackFrame (env.cr.sha256 (env.cr.xPublic stOld.random)) (ackA.getD []))))
  simp only [step] at rB
  rw [read_ack_challenge_eval (law.sha256_length _) h3 hsha] at rB
  obtain ⟨old, rO⟩ := rO
  simp only [← getD_present]
  exact ⟨old, _, _, _, _, _, _, _, rO, rA, rB, rfl, rfl, rfl, rfl, by simp [negoLayer]⟩

/-- Toy keys for which A and B really end up with different secrets. -/
example : ∃ kOld kB, sessionKey Toy.cr [1] (Toy.cr.xPublic [1]) (Toy.cr.xPublic [3]) = some kOld ∧
    sessionKey Toy.cr [2] (Toy.cr.xPublic [2]) (Toy.cr.xPublic [1]) = some kB ∧ kOld ≠ kB ∧
    Toy.cr.sha256 (Toy.cr.xPublic [3]) ≠ Toy.cr.sha256 (Toy.cr.xPublic [2]) :=
  ⟨_, _, rfl, rfl, by decide +kernel, by decide +kernel⟩

/-- **C27 (what holds).** Once a CONNECT and an ACK have been delivered, one and the same key — the expected one when
there is one — signed both: a CONNECT announcing the ephemeral key this layer's secret was computed with, and an
ACK answering this layer's own, fresh ephemeral key.  Missing: the ACK says nothing about the CONNECT, which may
be old. -/
theorem C27_signed_partial {st : Start} {h : List Event} {s : Layer} (hr : Run env st h s) {algo k : Bytes}
    {p q : Option Bytes} (hc : Message.connect algo k p ∈ deliveries h) (ha : Message.ack q ∈ deliveries h) :
    ∃ epk pc sc pa sa key,
      connectFrame epk k pc ++ sc ∈ inputs h ∧ env.cr.edVerify k (connectFrame epk k pc) sc = true ∧
      ackFrame (env.cr.sha256 (env.cr.xPublic st.random)) pa ++ sa ∈ inputs h ∧
      env.cr.edVerify k (ackFrame (env.cr.sha256 (env.cr.xPublic st.random)) pa) sa = true ∧
      s.secret = some key ∧ sessionKey env.cr st.random (env.cr.xPublic st.random) epk = some key ∧
      ∀ x, st.expected = some x → k = x := by
  obtain ⟨e, he, hm⟩ := List.mem_flatMap.mp hc
  obtain ⟨h1, h2, hh⟩ := List.append_of_mem he
  obtain ⟨epk, pc, sc, rfl, hv, -, hlen, -, -, hx⟩ := C11_connect_authentic hr hh hm
  obtain ⟨e', he', hm'⟩ := List.mem_flatMap.mp ha
  obtain ⟨h3, h4, hh'⟩ := List.append_of_mem he'
  obtain ⟨k', pa, sa, hin, hv', -, -, hsame⟩ := C12_ack_possession hr hh' hm'
  obtain rfl := hsame _ _ _ hc
  obtain ⟨key, hk1, hk2⟩ := met_secret hr (epk := epk) ⟨k, pc, sc, _, he, rfl, hlen⟩
  refine ⟨epk, pc, sc, pa, sa, key, ?_, hv, ?_, hv', hk1, hk2, hx⟩
  · exact List.mem_filterMap.mpr ⟨_, he, rfl⟩
  · rw [hh', show h3 ++ e' :: h4 = (h3 ++ [e']) ++ h4 by simp]
    simp only [inputs, List.filterMap_append, List.mem_append] at hin ⊢
    exact .inl hin

/-- The toy party met both. -/
example (oc : Bool) : ∃ h s, Run (Toy.env oc) Toy.stB h s ∧
    (∃ algo k p, Message.connect algo k p ∈ deliveries h) ∧ ∃ q, Message.ack q ∈ deliveries h := by
  refine ⟨_, _, ((((Toy.run0 oc [2] none).call (.read (Toy.sign Toy.seedA Toy.conA))).call
    (.connect Toy.pkB none)).call (.ack none)).call (.read (Toy.sign Toy.seedA Toy.ackA)),
    ⟨[0, 0, 0, 0], Toy.pkA, some [7, 8], ?_⟩, some [9], ?_⟩ <;>
  · cases oc <;> decide +kernel

end
end Pkstl

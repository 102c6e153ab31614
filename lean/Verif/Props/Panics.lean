import Verif.Lemmas.DevPanics
import Verif.Spec.ToySession
import Verif.Lemmas.Session
/- C16, C28: panics. -/
namespace Pkstl
open Spec

/-! ### C16: the internal `dev error` panics -/

/-- **C16.** No call in any history ends in one of the library's internal `dev error` panics — ACK without
the peer's ephemeral key, second computation of the shared secret, shared secret of the wrong length — with
the single exception of encrypting without a secret. -/
theorem C16_dev_panics {env : Env} {st : Start} {h : List Event} {s : Layer} (hr : Run env st h s) :
    ∀ e ∈ h, ∀ p, e.panickedWith p →
      p = .sliceIndex ∨ p = .drainRange ∨ p = .overflow ∨ p = .encryptWithoutSecret := by
  intro e he p hp
  obtain ⟨h1, h2, rfl⟩ := List.append_of_mem he
  obtain ⟨s1, s2, hr1, -, -, ⟨op, rfl, -⟩ | ⟨rfl, -⟩⟩ := hr.at rfl
  · rcases step_panic (Wf.of_run hr1) op hp with (h | h | h) | ⟨h, -⟩
    · exact .inl h
    · exact .inr (.inl h)
    · exact .inr (.inr (.inl h))
    · exact .inr (.inr (.inr h))
  · simp [Event.panickedWith] at hp

/-- **C16.** Encrypting without a secret is possible only after `read` reported that the key agreement
failed; an application that gives up on that error never sees an internal panic. -/
theorem C16_encrypt_without_secret {env : Env} {st : Start} {h1 h2 : List Event} {e : Event} {s : Layer}
    (hr : Run env st (h1 ++ e :: h2) s) (hp : e.panickedWith .encryptWithoutSecret) :
    ∃ inc, Event.read inc (.err .failToComputeAgreement) ∈ h1 := by
  obtain ⟨s1, s2, hr1, -, -, ⟨op, rfl, -⟩ | ⟨rfl, -⟩⟩ := hr.at rfl
  · rcases step_panic (Wf.of_run hr1) op hp with h | ⟨-, hs, hsec⟩
    · simp [InputPanic] at h
    · rcases NoSecret.of_run hr1 hsec with ⟨loc, h⟩ | h | h
      · rw [hs] at h; simp at h
      · rw [hs] at h; simp at h
      · exact h
  · simp [Event.panickedWith] at hp

namespace Toy

/-- A CONNECT signed by A that announces an ephemeral key for which no agreement exists. -/
def badCon : Bytes := connectFrame (List.replicate 32 0) pkA []

/-- B after that CONNECT, its own CONNECT, its ACK and A's ACK. -/
def c4 : Layer :=
  { layer0 [2] none with
    status := .success, ephemeralKp := none, peerEpk := some (List.replicate 32 0), peerSigPubkey := some pkA }

theorem bad_history (oc : Bool) : ∃ h, Run (env oc) stB h c4 ∧
    Event.read (sign seedA badCon) (.err .failToComputeAgreement) ∈ h := by
  have r := ((((run0 oc [2] none).call (.read (sign seedA badCon))).call (.connect pkB none)).call
    (.ack none)).call (.read (sign seedA ackA))
  refine ⟨_, Eq.mp (congrArg _ ?_) r, ?_⟩
  · cases oc <;> decide +kernel
  · cases oc <;> decide +kernel

end Toy

/-- **C16.** The exception is real (finding F6), for every layer and every peer: after a correctly signed CONNECT whose
ephemeral key admits no agreement the negotiation can be completed, and then the first user message panics. -/
theorem C16_witness {env : Env} (law : env.cr.Lawful) (st : Start) {epk k p sig q sig' : Bytes} (pk : Bytes)
    (d d' : Option Bytes) (hexp : st.expected = none ∨ st.expected = some k)
    (hepk : epk.length = 32) (hk : k.length = 32) (hlen : 86 + p.length < 2 ^ 64) (hlen' : 50 + q.length < 2 ^ 64)
    (hsig : env.cr.edVerify k (connectFrame epk k p) sig = true)
    (hsig' : env.cr.edVerify k (ackFrame (env.cr.sha256 (env.cr.xPublic st.random)) q) sig' = true)
    (hag : env.cr.xAgree st.random epk = none) (x : Bytes) (w : BufW) :
    ∃ s con ack, Run env st
      [.connect pk d (.ok con), .read (connectFrame epk k p ++ sig) (.err .failToComputeAgreement), .ack d' (.ok ack),
        .read (ackFrame (env.cr.sha256 (env.cr.xPublic st.random)) q ++ sig') (.ok (some (.ack (present q)))),
        .write x w w (.panic .encryptWithoutSecret)] s := by
  let L (status : Status) : Layer := { negoLayer env st epk k ⟨[], [], []⟩ status with secret := none }
  have r0 : Run env st [] { L (.ongoing .created .waitConnectMsg) with
      ephemeralKp := some ⟨st.random, env.cr.xPublic st.random⟩, peerEpk := none, peerSigPubkey := st.expected } := .init rfl
  have r1 := r0.call (.connect pk d)
  rcases createConnect_cases env { L (.ongoing .created .waitConnectMsg) with
      ephemeralKp := some ⟨st.random, env.cr.xPublic st.random⟩, peerEpk := none, peerSigPubkey := st.expected } pk d with
    ⟨rem, hs, e1⟩ | ⟨hs, -⟩
  swap
  · exact absurd rfl (hs .waitConnectMsg)
  simp only [L, negoLayer, Status.ongoing.injEq, true_and] at hs
  subst hs
  simp only [step] at r1
  rw [e1] at r1
  have r2 := r1.call (.read (connectFrame epk k p ++ sig))
  simp only [step] at r2
  rw [read_connect_agree_eval hepk hk hlen hsig hexp rfl rfl (by simp [sessionKey, hag])] at r2
  have r2' : Run env st _ (L (.ongoing .connectMsgSent .validConnectMsgReceived)) := r2
  have r3 := r2'.call (.ack d')
  rcases createAck_cases env (L (.ongoing .connectMsgSent .validConnectMsgReceived)) d' with ⟨loc, hs, e3⟩ | ⟨hs, -⟩
  swap
  · exact absurd rfl (hs .connectMsgSent)
  simp only [L, negoLayer, Status.ongoing.injEq, and_true] at hs
  subst hs
  simp only [step] at r3
  rw [e3] at r3
  have r3' : Run env st _ (L (.ongoing .connectMsgSent .ackMsgSent)) := r3
  have r4 := r3'.call (.read (ackFrame (env.cr.sha256 (env.cr.xPublic st.random)) q ++ sig'))
  simp only [step] at r4
  rw [read_ack_eval (env := env) (b := L (.ongoing .connectMsgSent .ackMsgSent))
    (c := env.cr.sha256 (env.cr.xPublic st.random)) rfl (law.sha256_length _) hlen' hsig' rfl rfl] at r4
  exact ⟨_, _, _, r4.call (.write x w)⟩

namespace Toy

/-- The hypotheses can be met. -/
example : cr.xAgree stB.random (List.replicate 32 0) = none ∧
    cr.edVerify pkA badCon (cr.edSign seedA badCon) = true := by decide +kernel

end Toy

/-! ### C28: malformed input -/

/-- **C28.** `read` panics exactly on the inputs described by `PanicInput`, for every reachable layer. -/
theorem C28_panic_iff {env : Env} (law : env.cr.Lawful) {st : Start} {h : List Event} {s : Layer}
    (hr : Run env st h s) (inc : Bytes) :
    (∃ p, (s.read env inc).2 = .panic p) ↔ PanicInput env st s inc :=
  ⟨fun ⟨_, hp⟩ => read_panic_input law (Wf.of_run hr) hp, panic_input_read law (Wf.of_run hr)⟩

/-- **C28, refutation.** Malformed input is not rejected with an error but makes `read` panic, without any
authentication and in every state: any input shorter than 4 bytes, and the magic value followed by
anything shorter than the headers, e.g. a lone magic value. -/
theorem C28_refuted_short {env : Env} (s : Layer) (inc : Bytes) (hl : inc.length < 4) :
    (s.read env inc).2 = .panic .sliceIndex := by
  have : readerRead env s.secret inc true = .panic .sliceIndex := by
    unfold readerRead openIncoming sliceTo
    rw [if_neg (by simp [MAGIC_VALUE_END]; omega)]; rfl
  unfold Layer.read Layer.readInner
  rw [this]

theorem C28_refuted_magic {env : Env} (s : Layer) :
    (s.read env [0xE2, 0xC2, 0xE2, 0xD2]).2 = .panic .sliceIndex := by
  have : readerRead env s.secret [0xE2, 0xC2, 0xE2, 0xD2] true = .panic .sliceIndex := by
    rw [readerRead_clear rfl]; rfl
  unfold Layer.read Layer.readInner
  rw [this]

/-- **C28, refutation.** An unauthenticated CONNECT that merely claims to be longer than it is makes `read`
panic on every layer that has no peer key yet (or has this one), and an unauthenticated ciphertext
shorter than 16 bytes on every layer with a secret. -/
theorem C28_refuted_length {env : Env} (law : env.cr.Lawful) {st : Start} {h : List Event} {s : Layer}
    (hr : Run env st h s) {epk k rest : Bytes} {n : Nat} (h1 : epk.length = 32) (h2 : k.length = 32)
    (hk : s.peerSigPubkey = none ∨ s.peerSigPubkey = some k) (hn : 16 + n < 2 ^ 64)
    (hlen : 70 + rest.length < n) :
    ∃ p, (s.read env (wire n ([0, 1] ++ epk ++ [0, 0, 0, 0] ++ k) rest)).2 = .panic p := by
  refine (C28_panic_iff law hr _).mpr (.connect (n := n) (by omega) (fun _ => hn) h1 h2 rfl hk (.inl ?_))
  simp [wire, h1, h2, endOf]
  omega

theorem C28_refuted_tag {env : Env} (law : env.cr.Lawful) {st : Start} {h : List Event} {s : Layer}
    (hr : Run env st h s) {k : SecretKey} (hk : s.secret = some k) {inc : Bytes} (hl : inc.length < 16)
    (hm : inc.take 4 ≠ [0xE2, 0xC2, 0xE2, 0xD2]) :
    ∃ p, (s.read env inc).2 = .panic p :=
  (C28_panic_iff law hr _).mpr (.sealedShort hk hm hl)

theorem read_good_no_panic {env : Env} {st : Start} {s : Layer} (h : Wf env st s) {inc : Bytes}
    {d : DecryptedIncomingData} {m : Option Message} (hp : readerRead env s.secret inc true = .ok d)
    (hl : d.userMsgEnd ≤ d.data.length) (hg : Layer.getMessage d = .ok m) {p : Panic}
    (hr : (s.read env inc).2 = .panic p) :
    ∃ n, d.msgTypeHeaders = .userMsg n ∧ n = s.nextNonceExpected ∧ env.overflowChecks = true ∧
      s.nextNonceExpected + s.orphanNonces.card + 1 = 2 ^ 64 := by
  have hcase := readInner_case env s inc true
  unfold Layer.read at hr
  rw [hr] at hcase
  generalize (s.readInner env inc true).1 = s' at hcase
  generalize hrr : (Res.panic p : Res (Option Message)) = r at hcase
  have key : ∀ {d'}, readerRead env s.secret inc true = .ok d' → d' = d := by
    intro d' h'; rw [hp] at h'; simpa using h'.symm
  cases hcase with
  | parsePanic hp' => rw [hp] at hp'; simp at hp'
  | connectNoKp hp hh hk hl hv hs hkp => exact absurd hkp (h.wait _ hs)
  | connectShort hp' hh hk hl' => rw [key hp'] at hl'; omega
  | ackShort hp' hh hc hk hl' => rw [key hp'] at hl'; omega
  | userShort hp' hh hc hk hl' => rw [key hp'] at hl'; omega
  | connectOk hp' => rw [key hp', hg] at hrr; simp at hrr
  | ackOk hp' => rw [key hp', hg] at hrr; simp at hrr
  | userOk hp' => rw [key hp', hg] at hrr; simp at hrr
  | @userNoncePanic d' n s' p' hp' hh hn hs hl hv hu =>
    rw [key hp'] at hh
    have hlt : n < u64Size := by
      rcases readerRead_inv hp with ⟨-, h2, -⟩ | ⟨-, k, -, -, h2⟩ <;>
      · have := (parseClear_iff.mp h2).2.1
        rw [hh] at this
        exact this
    obtain ⟨-, h1, h2, h3⟩ := updateNonces_panic h.win hlt hn hu
    exact ⟨n, hh, h2, h1, h3⟩
  | _ => simp [invalidMsg] at hrr

/-- **C28, positive part.** A completely encoded CONNECT, whoever made it and whatever follows it (a valid,
invalid or missing signature), never makes `read` panic. -/
theorem C28_connect_partial {env : Env} {st : Start} {h : List Event} {s : Layer} (hr : Run env st h s)
    {epk k payload sig : Bytes} (h1 : epk.length = 32) (h2 : k.length = 32)
    (hlen : 86 + payload.length < 2 ^ 64) (p : Panic) :
    (s.read env (connectFrame epk k payload ++ sig)).2 ≠ .panic p := by
  intro hp
  obtain ⟨d, hd, hdd, hh, hend, hget⟩ := parse_frame (env := env) (enc := false) (chk := true)
    (h := .connect epk [0, 0, 0, 0] k) payload sig ⟨h1, rfl, h2⟩ (by simp [MsgTypeHeaders.mustBeEncrypted])
    (by simp [hdrBytes, h1, h2, u64Size] at hlen ⊢; omega)
  rw [← connectFrame_eq] at hd hdd hend
  obtain ⟨n, hn, -⟩ := read_good_no_panic (Wf.of_run hr)
    (by rw [readerRead_clear (by exact frame_take4 _ _), hd]) (by rw [hdd, hend]; simp) hget hp
  rw [hh] at hn; simp at hn

/-- **C28, positive part.** The same for ACK. -/
theorem C28_ack_partial {env : Env} {st : Start} {h : List Event} {s : Layer} (hr : Run env st h s)
    {c payload sig : Bytes} (h1 : c.length = 32) (hlen : 50 + payload.length < 2 ^ 64) (p : Panic) :
    (s.read env (ackFrame c payload ++ sig)).2 ≠ .panic p := by
  intro hp
  obtain ⟨d, hd, hdd, hh, hend, hget⟩ := parse_frame (env := env) (enc := false) (chk := true)
    (h := .ack c) payload sig h1 (by simp [MsgTypeHeaders.mustBeEncrypted])
    (by simp [hdrBytes, h1, u64Size] at hlen ⊢; omega)
  rw [← ackFrame_eq] at hd hdd hend
  obtain ⟨n, hn, -⟩ := read_good_no_panic (Wf.of_run hr)
    (by rw [readerRead_clear (by exact frame_take4 _ _), hd]) (by rw [hdd, hend]; simp) hget hp
  rw [hh] at hn; simp at hn

/-- **C28, positive part.** A user message encrypted for the layer's secret never makes `read` panic, as
long as fewer than 2^64-1 numbers are used up. -/
theorem C28_user_partial {env : Env} (law : env.cr.Lawful) {st : Start} {h : List Event} {s : Layer}
    (hr : Run env st h s) {k : SecretKey} (hk : s.secret = some k) {n : Nat} {payload : Bytes}
    (hn : n < 2 ^ 64) (hlen : 26 + payload.length < 2 ^ 64)
    (hks : ¬ ∀ i < 4, env.cr.keystream k.key k.nonce i = 0)
    (hwin : s.nextNonceExpected + s.orphanNonces.card + 1 < 2 ^ 64) (p : Panic) :
    (s.read env (aeadSeal env.cr k (userFrame n payload ++ env.cr.sha256 (userFrame n payload)))).2 ≠ .panic p := by
  intro hp
  obtain ⟨d, hd, hdd, hh, hl, -, hget⟩ := parse_userPlain (env := env) (enc := true) (chk := true) payload law hn hlen
    (fun _ => rfl)
  have h4 := sealed_take4 (cr := env.cr) (k := k) (n := n) (p := payload) hks
  obtain ⟨_, -, -, -, hw⟩ := read_good_no_panic (Wf.of_run hr)
    (d := d) (by rw [hk]; exact (readerRead_sealed law _ _ h4).trans hd) hl hget hp
  omega

namespace Toy

/-- The hypotheses of the theorems above are met: concrete panicking inputs of several kinds. -/
example (oc : Bool) : ∃ h s, Run (env oc) stB h s ∧ PanicInput (env oc) stB s [0xE2, 0xC2, 0xE2, 0xD2, 0, 0, 0] := by
  obtain ⟨h, hr⟩ := reach_b1 oc
  exact ⟨h, _, hr, .header rfl (.inr ⟨rfl, .inl (by decide)⟩)⟩

example (oc : Bool) : (b4.read (env oc) [1, 2, 3, 4, 5]).2 =
    .panic (if oc then .overflow else .sliceIndex) := by cases oc <;> decide +kernel

example (oc : Bool) :
    (b4.read (env oc) (aeadSeal cr key (wire 10000 ([0, 0] ++ be64 0) []))).2 = .panic .sliceIndex := by
  cases oc <;> decide +kernel

example (oc : Bool) (p : Panic) : (a1.read (env oc) (conB ++ [1, 2, 3])).2 ≠ .panic p := by
  obtain ⟨h, hr⟩ := reach_a1 oc
  exact C28_connect_partial hr (by decide) (by decide) (by decide) p

end Toy
end Pkstl

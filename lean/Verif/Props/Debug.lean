import Verif.Lemmas.Debug
import Verif.Spec.Debug
import Verif.Props.Receiver
import Verif.Props.Vary
/- C65: what the `Debug` text of a layer tells. -/
namespace Pkstl
open Spec

variable {M : Type} {env : Env} {f f' : Features}

/-- **C65, violated.** The session key can be read off the `Debug` text of a layer of the complete mode: one fixed function
finds it, whatever the layer, the build and the texts that `ring` prints. -/
theorem C65_refuted : ∃ reveal : List Char → Option SecretKey, ∀ r ser (sl : SecureLayer),
    reveal (sl.debug r ser) = sl.minimal.secret := by
  classical
  refine ⟨fun t => if h : ∃ k, ∃ r ser, ∃ sl : SecureLayer, sl.debug r ser = t ∧ sl.minimal.secret = some k then
    some h.choose else none, fun r ser sl => ?_⟩
  dsimp only
  split
  · rename_i h
    obtain ⟨r', ser', sl', ht, hk⟩ := h.choose_spec
    rw [← Debug.cdebug_secret ht, hk]
  · rename_i h
    cases hk : sl.minimal.secret with
    | none => rfl
    | some k => exact absurd ⟨k, r, ser, sl, rfl, hk⟩ h

/-- **C65, violated.** Likewise for a layer of the minimal mode. -/
theorem C65_refuted_minimal : ∃ reveal : List Char → Option SecretKey, ∀ r ser (s : Layer),
    reveal (s.debug r ser) = s.secret := by
  classical
  refine ⟨fun t => if h : ∃ k, ∃ r ser, ∃ s : Layer, s.debug r ser = t ∧ s.secret = some k then
    some h.choose else none, fun r ser s => ?_⟩
  dsimp only
  split
  · rename_i h
    obtain ⟨r', ser', s', ht, hk⟩ := h.choose_spec
    rw [← Debug.debug_secret (x := []) (y := []) (by rw [ht]), hk]
  · rename_i h
    cases hk : s.secret with
    | none => rfl
    | some k => exact absurd ⟨k, r, ser, s, rfl, hk⟩ h

/-- **C65, violated.** Whoever has seen the `Debug` text of one party can make a layer from it that reads every user message
that the other party ever writes in this session. -/
theorem C65_refuted_traffic : ∃ eve : List Char → SecureLayer, ∀ (M : Type) (env : Env) (f : Features), env.cr.Lawful →
    ∀ (st : CStart) (h : List (CEvent M)) (slA : SecureLayer), CRun env f st h slA → h.countP CEvent.writesUser ≤ 2 ^ 64 →
    ∀ k, slA.minimal.secret = some k → (¬ ∀ i < 4, env.cr.keystream k.key k.nonce i = 0) →
    ∀ r ser (slB : SecureLayer), slB.minimal.secret = some k →
    ∀ x : Posted, x.In h → x.bytes.length < 2 ^ 64 →
      ((eve (slB.debug r ser)).readBin env x.bytes).2 = .ok [.message (some x.data)] := by
  obtain ⟨reveal, hrev⟩ := C65_refuted
  refine ⟨fun t => ⟨⟨none, false, Config.default, reveal t, none, [], 0, 0, ∅, none, none, .success, []⟩, none⟩, ?_⟩
  intro M env f law st h slA hr hn k hk hks r ser slB hkB x hx hlen
  obtain ⟨lvl, hb, hi⟩ := sent_parcel law hr hn hk hx
  have hfit : (⟨x.index, lvl, x.data⟩ : Parcel).Fits env.cr := by
    refine ⟨hi, ?_⟩
    rw [hb] at hlen
    simp [Parcel.bytes, cipherOf, aeadSeal, xorKeystream, userFrame, frame] at hlen
    dsimp only [Parcel.packed] at hlen ⊢
    omega
  have := (readBins_verdicts (env := env) law hks [⟨x.index, lvl, x.data⟩]
    (sl := ⟨⟨none, false, Config.default, reveal (slB.debug r ser), none, [], 0, 0, ∅, none, none, .success, []⟩, none⟩) (D := [])
    (ended := false) (by rw [← hkB]; exact hrev r ser slB) rfl ⟨by simp [u64Size], by simp, by simp⟩
    ⟨by simp, by simp [Layer.seen]⟩ (by simpa using hfit) (by simp [u64Size])).1
  simp only [List.map_cons, List.map_nil, readBins, verdicts, List.not_mem_nil, if_false, Bool.false_eq_true] at this
  rw [hb]
  rw [if_pos (by simp [Deliverable, pending])] at this
  simpa [Verdict.answer] using this

/-- **C65, violated.** Whoever has seen the `Debug` text of a party can also make user messages, of any number and content,
that this party hands over as messages of its peer. -/
theorem C65_refuted_forge : ∃ eve : List Char → Crypto → Nat → Bytes → Bytes, ∀ (M : Type) (env : Env) (f : Features),
    env.cr.Lawful → ∀ (st : CStart) (h : List (CEvent M)) (sl : SecureLayer), CRun env f st h sl →
    (∀ e ∈ h, e.readOk = true) → Kind.user ∉ ckinds h → (cinputs h).length + 2 < 2 ^ 64 → sl.minimal.status = .success →
    ∀ k, sl.minimal.secret = some k → (¬ ∀ i < 4, env.cr.keystream k.key k.nonce i = 0) →
    ∀ r ser (n : Nat) (d : Bytes), n < 2 ^ 64 → 26 + (env.cr.deflate 0 d).length < 2 ^ 64 →
      (sl.readBin env (eve (sl.debug r ser) env.cr n d)).2 = .ok [.message (some d)] := by
  obtain ⟨reveal, hrev⟩ := C65_refuted
  refine ⟨fun t cr n d => match reveal t with
    | some k => Parcel.bytes cr k ⟨n, 0, d⟩
    | none => [], ?_⟩
  intro M env f law st h sl hr hok hno hb hs k hk hks r ser n d hn hd
  obtain ⟨-, c2⟩ := C62_lossy law hr hok hno hs hk hks [⟨n, 0, d⟩] (by simpa using ⟨hn, hd⟩) (by simpa using hb)
  have := c2 (by
    intro m
    refine Nat.le_trans (List.length_filter_le _ _) ?_
    exact Nat.le_trans (List.takeWhile_prefix _).length_le (by simp [List.eraseDups_cons])) 0 _ rfl
  dsimp only
  rw [hrev, hk]
  simpa [readBins] using this

/-- **C65, the part that holds.** If `ring` prints private keys through their public keys at most, then the text depends on
the ephemeral private key and on the signature seed only through their public keys; and as long as no CONNECT of an
acceptable peer has arrived there is no session key in it.  Missing: once a CONNECT has arrived the text contains the
session key (`C65_refuted`). -/
theorem C65_partial {r : RingDebug} (hr : Discreet env.cr r) (ser : Bool) :
    (∀ sl sl' : SecureLayer, SamePublic env.cr sl sl' → sl'.debug r ser = sl.debug r ser) ∧
    (∀ {M : Type} {f : Features} {st : CStart} {h : List (CEvent M)} {sl : SecureLayer}, CRun env f st h sl →
      (∀ inc ∈ cinputs h, ∀ epk k, (∀ x, st.expected = some x → k = x) → ¬ SignedConnect env.cr inc epk k) →
      sl.minimal.secret = none) := by
  constructor
  · rintro ⟨s, seed⟩ ⟨s', seed'⟩ ⟨h1, h2, h3⟩
    dsimp only at h1 h2 h3
    have e1 : Debug.opt (Debug.ephemeralKeyPair r) s'.ephemeralKp = Debug.opt (Debug.ephemeralKeyPair r) s.ephemeralKp := by
      cases h : s.ephemeralKp <;> cases h' : s'.ephemeralKp <;> simp [h, h'] at h2
      · rfl
      · rename_i a b
        simp only [Debug.opt, Debug.ephemeralKeyPair, hr.privateKey _ _ h2.1, h2.2]
    have e2 : Debug.opt r.keyPair seed' = Debug.opt r.keyPair seed := by
      cases seed <;> cases seed' <;> simp at h3
      · rfl
      · simp only [Debug.opt, hr.keyPair _ _ h3]
    cases s
    cases s'
    simp only [Layer.mk.injEq] at h1
    obtain ⟨rfl, rfl, rfl, rfl, -, rfl, rfl, rfl, rfl, rfl, rfl, rfl, rfl⟩ := h1
    dsimp only at e1
    simp only [SecureLayer.debug, Layer.debug, e1, e2]
  · intro M f st h sl hrun hno
    cases hk : sl.minimal.secret with
    | none => rfl
    | some k =>
      rcases crun_agree hrun with hg | ⟨-, inc, hin, epk, k', hsc, hx, -⟩
      · obtain ⟨epk, he⟩ := (hg fun _ _ => none).wf.secr k hk
        simp [sessionKey, withAgree] at he
      · exact absurd hsc (hno inc hin epk k' hx)

/-! ## Concrete cases -/

/-- What `ring` 0.16 prints, up to the way of writing bytes: the public keys. -/
def Toy.ring (cr : Crypto) : RingDebug where
  publicKey b := Debug.tuple "PublicKey" (Debug.bytes b)
  privateKey _ := Debug.struct "EphemeralPrivateKey" [("algorithm", "X25519".toList)]
  keyPair s := Debug.struct "Ed25519KeyPair" [("public_key", Debug.bytes (cr.edPublic s))]

example (cr : Crypto) : Discreet cr (Toy.ring cr) where
  privateKey _ _ _ := rfl
  keyPair _ _ h := by simp only [Toy.ring, h]

/-- A text. -/
example : Layer.debug (Toy.ring Toy.cr) true { Toy.layer0 [2] none with
    secret := some ⟨[1, 20, 255], [4], []⟩, orphanNonces := {10}, tmpStack := [[], [7, 8]], ephemeralKp := none
    ephemeralPubkey := [3] } =
  "MinimalSecureLayer { ack_msg_recv_too_early: None, cloned: false, config: SecureLayerConfig { \
    compression: Compression(1), compression_min_size: 8192, message_format: RawBinary, encrypt_algo: \
    Chacha20Poly1305Aead }, encrypt_algo_with_secret: Some(Chacha20Poly1305Aead(SecretKey { key: [1, 20, \
    255], nonce: [4], aad: [] })), ephemeral_kp: None, ephemeral_pubkey: EphemeralPublicKey(PublicKey([3])), \
    next_nonce_expected: 0, next_nonce_sent: 0, orphan_nonce_list: {10}, peer_epk: None, peer_sig_pubkey: \
    None, status: OngoingNegotiation { local: Created, remote: WaitConnectMsg }, tmp_stack_user_msgs: [[], \
    [7, 8]] }".toList := by decide +kernel

/-- Toy party B has negotiated; it has the key and this meets the hypotheses of `C65_refuted_forge`. -/
example (oc : Bool) : ∃ h : List (CEvent Unit), CRun (Toy.env oc) f Toy.cstB h (Toy.csB Toy.b4) ∧
    (∀ e ∈ h, e.readOk = true) ∧ Kind.user ∉ ckinds h ∧ (cinputs h).length + 2 < 2 ^ 64 ∧ Toy.b4.status = .success ∧
    Toy.b4.secret = some Toy.key ∧ 26 + (Toy.cr.deflate 0 [7]).length < 2 ^ 64 := by
  obtain ⟨h, hr, h1, h2, h3⟩ := Toy.chist_b4 (f := f) oc
  exact ⟨h, hr, h1, h2, by omega, rfl, rfl, by decide +kernel⟩

/-- Toy party A writes a message: this meets the hypotheses of `C65_refuted_traffic`. -/
example (oc : Bool) : ∃ (h : List (CEvent Unit)) (slA slB : SecureLayer) (x : Posted), CRun (Toy.env oc) f Toy.cstA h slA ∧
    h.countP CEvent.writesUser ≤ 2 ^ 64 ∧ slA.minimal.secret = some Toy.key ∧ slB.minimal.secret = some Toy.key ∧
    (¬ ∀ i < 4, Toy.cr.keystream Toy.key.key Toy.key.nonce i = 0) ∧ x.In h ∧ x.bytes.length < 2 ^ 64 ∧ x.data = [7] := by
  obtain ⟨h, hr, hc⟩ := Toy.chist_a4 (f := f) oc
  have w1 : ((Toy.csA Toy.a4).writeBin (Toy.env oc) [7] Toy.sink).2.2 = .ok () := by cases oc <;> decide +kernel
  have w2 : ((Toy.csA Toy.a4).writeBin (Toy.env oc) [7] Toy.sink).2.1.stream =
      Toy.sink.stream ++ cipherOf Toy.cr Toy.key 0 [0, 7] := by cases oc <;> decide +kernel
  have r1 := hr.call (.writeBin [7] Toy.sink)
  simp only [cstep, w1] at r1
  refine ⟨_, _, Toy.csB Toy.b4, ⟨0, cipherOf Toy.cr Toy.key 0 [0, 7], [7]⟩, r1, ?_, ?_, rfl, Toy.key_stream,
    ⟨_, [], _, _, rfl, hc, by decide, w2⟩, by decide +kernel, rfl⟩
  · rw [List.countP_append, hc]
    simp [CEvent.writesUser]
  · cases oc <;> decide +kernel

/-- Different private keys with the same public key give the same text; without a message there is no session key. -/
example : SamePublic Toy.cr (Toy.csB (Toy.layer0 [2] none))
    ⟨{ Toy.layer0 [2] none with ephemeralKp := some ⟨[2, 0], Toy.xpub [2]⟩ }, some (Toy.seedB ++ [0])⟩ where
  rest := rfl
  keyPair := by decide +kernel
  seed := by decide +kernel

example (oc : Bool) : CRun (M := Unit) (Toy.env oc) f Toy.cstB [] (Toy.csB (Toy.layer0 [2] none)) := .init rfl

end Pkstl

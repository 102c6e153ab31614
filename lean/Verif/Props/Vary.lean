import Verif.Lemmas.Agree
import Verif.Lemmas.Sign
import Verif.Props.CompleteHistory
import Verif.Props.Sessions
/- C57, C58 and the positive part of C24: what the private keys and the keystream are used for. -/
namespace Pkstl
open Spec

variable {M : Type} {env : Env} {f : Features}

/-! ## C57: one key agreement per layer -/

/-- **C57.** The X25519 private key of a layer is used for at most one key agreement: everything the layer ever does stays
the same if the agreement function is changed everywhere except for this private key and one peer key, which was
announced in a CONNECT among the inputs with a valid signature, by the expected key if there is one. -/
theorem C57_agreement {st : Start} {h : List Event} {s : Layer} (hr : Run env st h s) :
    (∀ g, Run (withAgree env g) st h s) ∨
    ∃ inc ∈ inputs h, ∃ epk k, SignedConnect env.cr inc epk k ∧ (∀ x, st.expected = some x → k = x) ∧
      ∀ g, g st.random epk = env.cr.xAgree st.random epk → Run (withAgree env g) st h s :=
  (run_agree hr).imp_right fun h => h.2

/-- **C57.** Without a signed CONNECT by the expected key the private key is not used at all. -/
theorem C57_unused {st : Start} {h : List Event} {s : Layer} (hr : Run env st h s)
    (hno : ∀ inc ∈ inputs h, ∀ epk k, (∀ x, st.expected = some x → k = x) → ¬ SignedConnect env.cr inc epk k)
    (g : Bytes → Bytes → Option Bytes) : Run (withAgree env g) st h s := by
  rcases C57_agreement hr with h1 | ⟨inc, hin, epk, k, hsc, hx, -⟩
  · exact h1 g
  · exact absurd hsc (hno inc hin epk k hx)

/-- **C57.** The same for the complete mode. -/
theorem C57_complete {st : CStart} {h : List (CEvent M)} {sl : SecureLayer} (hr : CRun env f st h sl) :
    (∀ g, CRun (withAgree env g) f st h sl) ∨
    ∃ inc ∈ cinputs h, ∃ epk k, SignedConnect env.cr inc epk k ∧ (∀ x, st.expected = some x → k = x) ∧
      ∀ g, g st.random epk = env.cr.xAgree st.random epk → CRun (withAgree env g) f st h sl :=
  (crun_agree hr).imp_right fun h => h.2

/-- A layer that read a CONNECT did use its private key: without an agreement it would not have the secret. -/
example (oc : Bool) : ∃ h, Run (Toy.env oc) Toy.stB h Toy.b4 ∧ ¬ ∀ g, Run (withAgree (Toy.env oc) g) Toy.stB h Toy.b4 := by
  obtain ⟨h, hr⟩ := Toy.reach_b4 oc
  refine ⟨h, hr, fun hg => ?_⟩
  obtain ⟨epk, he⟩ := (Wf.of_run (hg fun _ _ => none)).secr Toy.key rfl
  simp [sessionKey, withAgree] at he

/-- A layer that got an unsigned CONNECT did not. -/
example (oc : Bool) : ∃ h s, Run (Toy.env oc) Toy.stB h s ∧ Toy.conA ++ Toy.pad 64 [] ∈ inputs h ∧
    ∀ g, Run (withAgree (Toy.env oc) g) Toy.stB h s := by
  have hr := (Toy.run0 oc [2] none).call (.read (Toy.conA ++ Toy.pad 64 []))
  refine ⟨_, _, hr, by simp [inputs, step], C57_unused hr ?_⟩
  intro inc hin epk k _ hsc
  simp [inputs, step] at hin
  subst hin
  obtain ⟨-, -, -, hk, body, sig, hb, hv⟩ := hsc
  obtain ⟨h1, h2⟩ := List.append_inj' hb (by rw [Toy.lawful.edVerify_length _ _ _ hv]; exact Toy.pad_length _ _)
  rw [← h1, ← h2, ← hk] at hv
  exact absurd hv (by cases oc <;> decide +kernel)

/-! ## C58: two signatures per layer -/

/-- **C58.** The signature key of a layer signs at most two byte strings: a CONNECT for the layer's own keys and an ACK for
the ephemeral key of a signed CONNECT among the inputs.  Everything the layer ever does stays the same if the signing
function is changed for all other byte strings. -/
theorem C58_signatures {st : CStart} {h : List (CEvent M)} {sl : SecureLayer} (hr : CRun env f st h sl) :
    ∃ C A : List Bytes, C.length ≤ 1 ∧ A.length ≤ 1 ∧
      (∀ m ∈ C, ∃ p, m = connectFrame (env.cr.xPublic st.random) (env.cr.edPublic st.sigSeed) p) ∧
      (∀ m ∈ A, ∃ epk p, m = ackFrame (env.cr.sha256 epk) p ∧ ∃ inc ∈ cinputs h, ∃ k, SignedConnect env.cr inc epk k) ∧
      ∀ g : Bytes → Bytes → Bytes, (∀ m, m ∈ C ∨ m ∈ A → g st.sigSeed m = env.cr.edSign st.sigSeed m) →
        CRun (withSign env g) f st h sl := by
  obtain ⟨C, A, h1, h2, h3⟩ := crun_sign hr
  obtain ⟨h4, h5, -⟩ := C53_once_each hr
  exact ⟨C, A, h1.trans h4, h2.trans h5, h3⟩

/-- A layer that signed both. -/
example (oc : Bool) : ∃ (h : List (CEvent Unit)) (sl : SecureLayer), CRun (Toy.env oc) f Toy.cstB h sl ∧
    h.countP CEvent.consumesConnect = 1 ∧ h.countP CEvent.consumesAck = 1 := by
  have s1 : ((Toy.csB (Toy.layer0 [2] none)).readBin (Toy.env oc) Toy.cconA).1 = Toy.csB Toy.b1 := by
    cases oc <;> decide +kernel
  have r0 : CRun (M := Unit) (Toy.env oc) f Toy.cstB [] (Toy.csB (Toy.layer0 [2] none)) := .init rfl
  have r1 := r0.call (.readBin Toy.cconA)
  simp only [cstep, s1] at r1
  have r2 := r1.call (.connectBin none Toy.sink)
  have r3 := r2.call (.ackBin none Toy.sink)
  exact ⟨_, _, r3, rfl, rfl⟩

/-! ## C24, positive part: one message alone -/

theorem xorFrom_vary (ks : Nat → UInt8) {p q : Bytes} (hl : p.length = q.length) :
    xorFrom (fun i => ks i ^^^ (p.getD i 0 ^^^ q.getD i 0)) 0 q = xorFrom ks 0 p := by
  rw [xorFrom_eq, xorFrom_eq]
  apply List.ext_getElem (by simp [hl])
  intro i h1 h2
  simp at h1 h2
  simp only [List.getElem_mapIdx, Nat.zero_add, List.getD_eq_getElem?_getD, List.getElem?_eq_getElem h1,
    List.getElem?_eq_getElem h2, Option.getD_some]
  generalize p[i] = a
  generalize q[i] = b
  generalize ks i = c
  rw [UInt8.xor_comm a b, UInt8.xor_comm c, ← UInt8.xor_assoc, ← UInt8.xor_assoc, UInt8.xor_self, UInt8.zero_xor]

theorem encrypt_vary (k : SecretKey) {p q : Bytes} (hl : p.length = q.length) (w : BufW) :
    ∃ g, (∀ a n, ¬ (a = k.key ∧ n = k.nonce) → g a n = env.cr.keystream a n) ∧
      encrypt (withStream env g) k q w = encrypt env k p w := by
  refine ⟨fun a n i => if a = k.key ∧ n = k.nonce then env.cr.keystream a n i ^^^ (p.getD i 0 ^^^ q.getD i 0)
    else env.cr.keystream a n i, fun a n h => by simp [h], ?_⟩
  unfold encrypt
  have : ∀ g, (∀ i, g k.key k.nonce i = env.cr.keystream k.key k.nonce i ^^^ (p.getD i 0 ^^^ q.getD i 0)) →
      k.cipher (withStream env g).cr q = k.cipher env.cr p := by
    intro g hg
    unfold SecretKey.cipher
    rw [← xorFrom_vary _ hl]
    congr 1
    exact funext hg
  rw [this _ fun i => by simp]
  rfl

/-- **C24 (partial).** What the code does give: the outcome of writing one message is the outcome of writing any other
message of the same length under another keystream, which differs only for the key of this session.  Missing: for more
than one message per session this fails, see `C24_refuted`. -/
theorem C24_single_partial (law : env.cr.Lawful) (s : Layer) {d e : Bytes} (hl : d.length = e.length) (w : BufW) :
    ∃ g, (∀ k n, (∀ x, s.secret = some x → ¬ (k = x.key ∧ n = x.nonce)) → g k n = env.cr.keystream k n) ∧
      s.writeMessage (withStream env g) e w = s.writeMessage env d w := by
  have same : ∀ g, s.encapsulateEncryptWrite (withStream env g) e w = s.encapsulateEncryptWrite env d w →
      s.writeMessage (withStream env g) e w = s.writeMessage env d w := by
    intro g hg
    unfold Layer.writeMessage
    rcases hs : s.status.applyAction (.create .userMsg) with ⟨st, x | x | x⟩
    · dsimp only
      have h1 : ∀ env d, Layer.encapsulateEncryptWrite env { s with status := st } d w =
        s.encapsulateEncryptWrite env d w := fun _ _ => rfl
      rw [h1, h1, hg]
      rfl
    · rfl
    · rfl
  have he : ∀ env d, s.encapsulateEncryptWrite env d w =
      s.encryptAndWrite env (userFrame s.nextNonceSent d) w := by
    intro env d
    unfold Layer.encapsulateEncryptWrite
    rw [toBytes_user]
  cases hs : s.secret with
  | none =>
    refine ⟨env.cr.keystream, fun _ _ _ => rfl, same _ ?_⟩
    rw [he, he]
    unfold Layer.encryptAndWrite
    rw [hs]
  | some k =>
    have hlen : (userFrame s.nextNonceSent d ++ env.cr.sha256 (userFrame s.nextNonceSent d)).length =
        (userFrame s.nextNonceSent e ++ env.cr.sha256 (userFrame s.nextNonceSent e)).length := by
      simp [userFrame, frame, law.sha256_length, hl]
    obtain ⟨g, h1, h2⟩ := encrypt_vary (env := env) k hlen w
    refine ⟨g, fun a n h => h1 a n (h k rfl), same _ ?_⟩
    rw [he, he]
    unfold Layer.encryptAndWrite
    rw [hs]
    exact h2

/-- Two payloads of the same length and their ciphertexts. -/
example : ∃ g, (Toy.a4.writeMessage (withStream (Toy.env true) g) [5, 6] Toy.sink).2.2 = .ok () ∧
    (Toy.a4.writeMessage (withStream (Toy.env true) g) [5, 6] Toy.sink).2.1.stream =
      (Toy.a4.writeMessage (Toy.env true) [7, 8] Toy.sink).2.1.stream ∧
    (Toy.a4.writeMessage (Toy.env true) [5, 6] Toy.sink).2.1.stream ≠
      (Toy.a4.writeMessage (Toy.env true) [7, 8] Toy.sink).2.1.stream := by
  obtain ⟨g, -, hg⟩ := C24_single_partial (env := Toy.env true) Toy.lawful Toy.a4 (d := [7, 8]) (e := [5, 6]) rfl Toy.sink
  exact ⟨g, by rw [hg]; decide +kernel, by rw [hg], by decide +kernel⟩

end Pkstl

import Verif.Spec.Session
import Verif.Model.Agreement
import Verif.Lemmas.Reader
/- The stream cipher, AEAD opening and sealing, key derivation. -/
namespace Pkstl
open Spec

theorem xorFrom_eq (ks : Nat → UInt8) (i : Nat) (b : Bytes) :
    xorFrom ks i b = b.mapIdx fun j x => x ^^^ ks (i + j) := by
  induction b generalizing i with
  | nil => simp [xorFrom]
  | cons x xs ih =>
    simp only [xorFrom, ih, List.mapIdx_cons, Nat.add_zero]
    congr 2
    funext j x; congr 2; omega

theorem cipher_eq (cr : Crypto) (k : SecretKey) (b : Bytes) : k.cipher cr b = xorKeystream cr k b := by
  simp [SecretKey.cipher, xorFrom_eq, xorKeystream]

@[simp] theorem xorKeystream_length (cr : Crypto) (k : SecretKey) (b : Bytes) :
    (xorKeystream cr k b).length = b.length := by simp [xorKeystream]

@[simp] theorem xorKeystream_xorKeystream (cr : Crypto) (k : SecretKey) (b : Bytes) :
    xorKeystream cr k (xorKeystream cr k b) = b := by
  unfold xorKeystream
  apply List.ext_getElem (by simp)
  intro i h1 h2
  simp [UInt8.xor_assoc]

theorem xorKeystream_inj {cr : Crypto} {k : SecretKey} {a b : Bytes}
    (h : xorKeystream cr k a = xorKeystream cr k b) : a = b := by
  rw [← xorKeystream_xorKeystream cr k a, h, xorKeystream_xorKeystream]

theorem xorKeystream_append (cr : Crypto) (k : SecretKey) (a b : Bytes) :
    (xorKeystream cr k (a ++ b)).take a.length = xorKeystream cr k a := by
  unfold xorKeystream
  apply List.ext_getElem (by simp)
  intro i h1 h2
  simp at h1 h2
  simp [List.getElem_append_left h2]

theorem aeadSeal_length (cr : Crypto) (law : cr.Lawful) (k : SecretKey) (p : Bytes) :
    (aeadSeal cr k p).length = p.length + 16 := by
  simp [aeadSeal, law.polyTag_length]

/-- Opening what was sealed. -/
theorem decrypt_aeadSeal {env : Env} (law : env.cr.Lawful) (k : SecretKey) (p : Bytes) :
    decrypt env k (aeadSeal env.cr k p) = .ok p := by
  unfold decrypt
  rw [aeadSeal_length _ law, if_neg (by simp [CHACHA20_TAG_SIZE])]
  have h1 : p.length + 16 - CHACHA20_TAG_SIZE = (xorKeystream env.cr k p).length := by
    simp [CHACHA20_TAG_SIZE]
  simp only [h1, aeadSeal, List.take_left, List.drop_left, cipher_eq, SecretKey.tag,
    xorKeystream_xorKeystream, if_true]

/-- Whatever opens was sealed: there is no other ciphertext for a plaintext. -/
theorem decrypt_inv {env : Env} {k : SecretKey} {c p : Bytes} (h : decrypt env k c = .ok p) :
    c = aeadSeal env.cr k p := by
  unfold decrypt at h
  split at h
  · simp at h
  dsimp only at h
  split at h
  · rename_i hl ht
    simp only [Res.ok.injEq] at h
    subst h
    rw [aeadSeal, cipher_eq, xorKeystream_xorKeystream, ← SecretKey.tag, ← ht, List.take_append_drop]
  · simp at h

theorem decrypt_err {env : Env} {k : SecretKey} {c : Bytes} {e : Error} (h : decrypt env k c = .err e) :
    e = .failToDecryptData := by
  unfold decrypt at h
  split at h
  · simp at h
  dsimp only at h
  split at h
  · simp at h
  · simpa using h.symm

theorem decrypt_iff {env : Env} (law : env.cr.Lawful) {k : SecretKey} {c p : Bytes} :
    decrypt env k c = .ok p ↔ c = aeadSeal env.cr k p :=
  ⟨decrypt_inv, fun h => h ▸ decrypt_aeadSeal law k p⟩

theorem computeSharedSecret_eq (cr : Crypto) (kp : EphemeralKeyPair) (other : Bytes) (a : EncryptAlgo) :
    (kp.computeSharedSecret cr other a.sharedSecretLen >>= buildSecretKey a) =
      match sessionKey cr kp.privkey kp.pubkey other with
      | some k => .ok k
      | none => .err .failToComputeAgreement := by
  cases a
  unfold EphemeralKeyPair.computeSharedSecret sessionKey
  cases hx : cr.xAgree kp.privkey other with
  | none => simp
  | some z =>
    have hs : (if other < kp.pubkey then kp.pubkey else other) = lexMax kp.pubkey other := by
      unfold lexMax
      by_cases h1 : other < kp.pubkey
      · rw [if_pos h1, if_neg (List.lt_asymm h1)]
      · by_cases h2 : kp.pubkey < other
        · rw [if_neg h1, if_pos h2]
        · rw [if_neg h1, if_neg h2]
          exact (List.le_antisymm (List.not_lt.mp h2) (List.not_lt.mp h1))
    simp only [hs, EncryptAlgo.sharedSecretLen, deriveSecret, SharedSecretLen.algo, ITERATIONS,
      Res.bind_ok, buildSecretKey, SecretKey.new, Option.map_some]

theorem lexMax_comm (a b : Bytes) : lexMax a b = lexMax b a := by
  unfold lexMax
  by_cases h1 : a < b
  · rw [if_pos h1, if_neg (List.lt_asymm h1)]
  · by_cases h2 : b < a
    · rw [if_neg h1, if_pos h2]
    · rw [if_neg h1, if_neg h2]
      exact (List.le_antisymm (List.not_lt.mp h2) (List.not_lt.mp h1))

/-- Key agreement is symmetric. -/
theorem sessionKey_comm {cr : Crypto} (law : cr.Lawful) (a b : Bytes) :
    sessionKey cr a (cr.xPublic a) (cr.xPublic b) = sessionKey cr b (cr.xPublic b) (cr.xPublic a) := by
  unfold sessionKey
  rw [law.xAgree_comm a b, lexMax_comm]

/-! ### the reader -/

theorem openIncoming_inv {env : Env} {sec : Option SecretKey} {inc : Bytes} {e : Bool} {d : Bytes}
    (h : openIncoming env sec inc = .ok (e, d)) :
    (inc.take 4 = MAGIC_VALUE ∧ e = false ∧ d = inc) ∨
    (inc.take 4 ≠ MAGIC_VALUE ∧ e = true ∧ ∃ k, sec = some k ∧ decrypt env k inc = .ok d) := by
  unfold openIncoming at h
  cases h1 : sliceTo inc MAGIC_VALUE_END with
  | err e => exact absurd h1 sliceTo_ne_err
  | panic p => simp [h1] at h
  | ok head =>
    obtain ⟨hl, rfl⟩ := sliceTo_eq_ok.mp h1
    simp only [h1, Res.bind_ok] at h
    simp only [MAGIC_VALUE_END] at h
    by_cases hm : inc.take 4 = MAGIC_VALUE
    · simp only [hm, if_true, Res.ok.injEq, Prod.mk.injEq] at h
      left; exact ⟨hm, h.1.symm, h.2.symm⟩
    · simp only [hm, if_false] at h
      right
      cases sec with
      | none => simp at h
      | some k =>
        cases hd : decrypt env k inc with
        | err e => simp [hd] at h
        | panic p => simp [hd] at h
        | ok d' =>
          simp [hd] at h
          exact ⟨hm, h.1, k, rfl, h.2 ▸ hd⟩

theorem readerRead_inv {env : Env} {sec : Option SecretKey} {inc : Bytes} {chk : Bool}
    {d : DecryptedIncomingData} (h : readerRead env sec inc chk = .ok d) :
    (inc.take 4 = MAGIC_VALUE ∧ parseClear env false inc chk = .ok d ∧ d.data = inc) ∨
    (inc.take 4 ≠ MAGIC_VALUE ∧ ∃ k, sec = some k ∧ inc = aeadSeal env.cr k d.data ∧
      parseClear env true d.data chk = .ok d) := by
  unfold readerRead at h
  cases ho : openIncoming env sec inc with
  | err e => simp [ho] at h
  | panic p => simp [ho] at h
  | ok p =>
    obtain ⟨e, dd⟩ := p
    simp only [ho, Res.bind_ok] at h
    have hdata : d.data = dd := by
      obtain ⟨_, _, _, _, _, _, _, hd, _⟩ := parseClear_inv h; exact hd
    rcases openIncoming_inv ho with ⟨hm, rfl, rfl⟩ | ⟨hm, rfl, k, hk, hd⟩
    · left; exact ⟨hm, h, hdata⟩
    · right; exact ⟨hm, k, hk, by rw [hdata]; exact decrypt_inv hd, by rw [hdata]; exact h⟩

theorem openIncoming_clear {env : Env} {sec : Option SecretKey} {inc : Bytes}
    (h : inc.take 4 = MAGIC_VALUE) : openIncoming env sec inc = .ok (false, inc) := by
  have hl : 4 ≤ inc.length := by
    have := congrArg List.length h
    simp [MAGIC_VALUE] at this; omega
  unfold openIncoming
  rw [show sliceTo inc MAGIC_VALUE_END = .ok MAGIC_VALUE from sliceTo_eq_ok.mpr ⟨hl, h.symm⟩]
  simp

theorem readerRead_clear {env : Env} {sec : Option SecretKey} {inc : Bytes} {chk : Bool}
    (h : inc.take 4 = MAGIC_VALUE) : readerRead env sec inc chk = parseClear env false inc chk := by
  simp [readerRead, openIncoming_clear h]

theorem readerRead_sealed {env : Env} (law : env.cr.Lawful) (k : SecretKey) (p : Bytes) {chk : Bool}
    (h : (aeadSeal env.cr k p).take 4 ≠ MAGIC_VALUE) :
    readerRead env (some k) (aeadSeal env.cr k p) chk = parseClear env true p chk := by
  have hl : 4 ≤ (aeadSeal env.cr k p).length := by rw [aeadSeal_length _ law]; omega
  unfold readerRead openIncoming
  rw [show sliceTo (aeadSeal env.cr k p) MAGIC_VALUE_END = .ok ((aeadSeal env.cr k p).take 4) from
    sliceTo_eq_ok.mpr ⟨hl, rfl⟩]
  simp [h, decrypt_aeadSeal law]

end Pkstl

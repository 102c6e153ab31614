import Verif.Props.Channel
import Verif.Props.InForce
import Verif.Props.Receiver
import Verif.Props.Sessions
/- C24: what an eavesdropper who knows one user message learns about the others. -/
namespace Pkstl
open Spec

/-- A user message that somebody knows: its place in the history, the configuration in force and its data. -/
structure Spec.Known extends Posted where
  config : Config

/-- The message was written in the history `h` of a layer created as `st`, under the configuration that is named. -/
def Spec.Known.In {M : Type} (st : CStart) (h : List (CEvent M)) (x : Known) : Prop :=
  ∃ h1 h2 w w', h = h1 ++ .writeBin x.data w w' (.ok ()) :: h2 ∧ h1.countP CEvent.writesUser = x.index ∧ 16 < w.cap ∧
    w'.stream = w.stream ++ x.bytes ∧ x.config = inForce st.config h1

/-- The text that was encrypted. -/
def Spec.Known.plain (cr : Crypto) (x : Known) : Bytes :=
  userFrame x.index (cr.deflate (levelFor x.config x.data) x.data) ++
    cr.sha256 (userFrame x.index (cr.deflate (levelFor x.config x.data) x.data))

/-- What an eavesdropper computes from a ciphertext with a known message: take off the tag, XOR with the known ciphertext and
its plaintext, take off header and hash, decompress.  There is no key. -/
def Spec.overhear (cr : Crypto) (x : Known) (c : Bytes) : Option Bytes :=
  let p := xorBytes (c.take (c.length - 16)) (xorBytes (x.plain cr) x.bytes)
  cr.inflate ((p.take (p.length - 32)).drop 26)

theorem xorBytes_stream (cr : Crypto) (k : SecretKey) {p q t : Bytes} (h : q.length ≤ p.length) :
    xorBytes (xorKeystream cr k q) (xorBytes p (xorKeystream cr k p ++ t)) = q := by
  apply List.ext_getElem
  · simp [xorBytes]; omega
  · intro i h1 h2
    simp only [xorBytes, List.getElem_zipWith, xorKeystream, List.getElem_mapIdx]
    rw [List.getElem_append_left (by simp; omega), List.getElem_mapIdx]
    generalize cr.keystream k.key k.nonce i = z
    generalize q[i] = a
    generalize p[i] = b
    rw [← UInt8.xor_assoc b b z, UInt8.xor_self, UInt8.zero_xor, UInt8.xor_assoc, UInt8.xor_self, UInt8.xor_zero]

theorem known_bytes {M : Type} {env : Env} {f : Features} (law : env.cr.Lawful) {st : CStart} {h : List (CEvent M)}
    {sl : SecureLayer} (hr : CRun env f st h sl) (hn : h.countP CEvent.writesUser ≤ 2 ^ 64) {k : SecretKey}
    (hk : sl.minimal.secret = some k) {x : Known} (hx : x.In st h) : x.bytes = aeadSeal env.cr k (x.plain env.cr) := by
  obtain ⟨h1, h2, w, w', hh, hi, hcap, hst, hconf⟩ := hx
  obtain ⟨s1, s2, hr1, hs2, hr2, ⟨op, he1, hop⟩ | ⟨he1, -⟩⟩ := hr.at hh
  swap
  · simp at he1
  have hlt : x.index < 2 ^ 64 := by
    rw [hh, List.countP_append, List.countP_cons_of_pos (by simp [CEvent.writesUser])] at hn
    omega
  cases op with
  | writeBin d v =>
    simp only [cstep, CEvent.writeBin.injEq] at he1 hop
    obtain ⟨rfl, rfl, rfl, hres⟩ := he1
    obtain ⟨⟨l, hlr, hlow⟩, -⟩ := hr1.lower
    have hsent := sent_eq hlr
    rw [hlow.counts.2.2.1, hi, Nat.mod_eq_of_lt hlt] at hsent
    rcases hw : s1.writeBin env x.data w with ⟨s', w', r⟩
    rw [hw] at hres hst
    dsimp only at hres hst
    subst hres
    obtain ⟨-, k', hk', h'⟩ := C46_ok_written_bin law hcap hw
    obtain ⟨l1, hl1, -⟩ := cstep_lower (f := f) (M := M) hr1.wf (.writeBin x.data w)
    obtain ⟨l2, hl2, -⟩ := CSteps.lower hr2 hs2
    rw [hop] at hl2
    have := (C14_secret_stable hlr (hl1.trans hl2)).2 k' hk'
    obtain rfl : k = k' := by rw [hk] at this; exact Option.some.inj this
    rw [h', hsent, (C35_complete hr1).1, ← hconf] at hst
    exact (List.append_cancel_left hst).symm
  | _ => simp [cstep] at he1

/-- **C24 (refuted), the attack.** Whoever knows one user message of a session (its data, its number, the configuration and its
bytes on the wire) can compute, without any key, the data of every other user message of the session that is not longer,
written by either party, from its bytes on the wire. -/
theorem C24_refuted_known : ∃ eve : Crypto → Known → Bytes → Option Bytes,
    ∀ (M : Type) (env : Env) (f f' : Features), env.cr.Lawful →
    ∀ (st st' : CStart) (h h' : List (CEvent M)) (sl sl' : SecureLayer), CRun env f st h sl → CRun env f' st' h' sl' →
    h.countP CEvent.writesUser ≤ 2 ^ 64 → h'.countP CEvent.writesUser ≤ 2 ^ 64 →
    sl.minimal.secret = sl'.minimal.secret →
    ∀ x : Known, x.In st h → ∀ y : Posted, y.In h' → y.bytes.length ≤ x.bytes.length →
      eve env.cr x y.bytes = some y.data := by
  refine ⟨overhear, ?_⟩
  intro M env f f' law st st' h h' sl sl' hr hr' hn hn' hkk x hx y hy hle
  obtain ⟨k, hk⟩ : ∃ k, sl.minimal.secret = some k := by
    obtain ⟨h1, h2, w, w', hh, hi, hcap, hst, -⟩ := hx
    obtain ⟨k, -, -, -, hk, -⟩ := wroteUser_sealed law hr (e := .writeBin x.data w w' (.ok ())) (by simp [hh]) rfl
    exact ⟨k, hk⟩
  have hxb := known_bytes law hr hn hk hx
  obtain ⟨lvl', hyb, hyi⟩ := sent_parcel law hr' hn' (hkk ▸ hk) hy
  dsimp only [overhear]
  rw [hxb, hyb] at hle ⊢
  simp only [Parcel.bytes, Parcel.packed, cipherOf, aeadSeal_length _ law] at hle ⊢
  rw [Nat.add_sub_cancel]
  rw [show (aeadSeal env.cr k (userFrame y.index (env.cr.deflate lvl' y.data) ++
      env.cr.sha256 (userFrame y.index (env.cr.deflate lvl' y.data)))).take _ = xorKeystream env.cr k _ from
    List.take_left' (xorKeystream_length ..)]
  rw [aeadSeal, xorBytes_stream _ _ (by omega)]
  rw [List.length_append, law.sha256_length, Nat.add_sub_cancel, List.take_left]
  rw [show (userFrame y.index (env.cr.deflate lvl' y.data)).drop 26 = env.cr.deflate lvl' y.data by
    unfold userFrame frame
    rw [← List.append_assoc]
    exact List.drop_left' (by simp)]
  exact law.inflate_deflate _ _

/-- Toy parties A and B write one message each. -/
example (oc : Bool) : ∃ (h h' : List (CEvent Unit)) (sl sl' : SecureLayer) (x : Known) (y : Posted),
    CRun (Toy.env oc) f Toy.cstA h sl ∧ CRun (Toy.env oc) f' Toy.cstB h' sl' ∧ h.countP CEvent.writesUser ≤ 2 ^ 64 ∧
    h'.countP CEvent.writesUser ≤ 2 ^ 64 ∧ sl.minimal.secret = sl'.minimal.secret ∧ x.In Toy.cstA h ∧ y.In h' ∧
    y.bytes.length ≤ x.bytes.length ∧ y.data = [9] ∧ overhear Toy.cr x y.bytes = some [9] := by
  have s2 : ((Toy.csA Toy.a1).readBin (Toy.env oc) Toy.cconB).1 = Toy.csA Toy.a2 := by cases oc <;> decide +kernel
  have s3 : ((Toy.csA Toy.a2).readBin (Toy.env oc) Toy.cackB).1 = Toy.csA Toy.a3 := by cases oc <;> decide +kernel
  have r0 : CRun (M := Unit) (Toy.env oc) f Toy.cstA [] (Toy.csA (Toy.layer0 [1] none)) := .init rfl
  have r1 := r0.call (.connectBin (some [7, 8]) Toy.sink)
  rw [show (cstep (M := Unit) (Toy.env oc) f _ (.connectBin (some [7, 8]) Toy.sink)).1 = Toy.csA Toy.a1 from rfl] at r1
  have r2 := r1.call (.readBin Toy.cconB)
  simp only [cstep, s2] at r2
  have r3 := r2.call (.readBin Toy.cackB)
  simp only [cstep, s3] at r3
  have r4 := r3.call (.ackBin (some []) Toy.sink)
  rw [show (cstep (M := Unit) (Toy.env oc) f _ (.ackBin (some []) Toy.sink)).1 = Toy.csA Toy.a4 from rfl] at r4
  have w1 : ((Toy.csA Toy.a4).writeBin (Toy.env oc) [7, 8] Toy.sink).2.2 = .ok () := by cases oc <;> decide +kernel
  have w2 : ((Toy.csA Toy.a4).writeBin (Toy.env oc) [7, 8] Toy.sink).2.1.stream =
      Toy.sink.stream ++ cipherOf Toy.cr Toy.key 0 [0, 7, 8] := by cases oc <;> decide +kernel
  have w3 : ((Toy.csA Toy.a4).writeBin (Toy.env oc) [7, 8] Toy.sink).1.minimal.secret = some Toy.key := by
    cases oc <;> decide +kernel
  have r5 := r4.call (.writeBin [7, 8] Toy.sink)
  simp only [cstep, w1] at r5
  have t1 : ((Toy.csB (Toy.layer0 [2] none)).readBin (Toy.env oc) Toy.cconA).1 = Toy.csB Toy.b1 := by
    cases oc <;> decide +kernel
  have t4 : ((Toy.csB Toy.b3).readBin (Toy.env oc) Toy.cackA).1 = Toy.csB Toy.b4 := by cases oc <;> decide +kernel
  have q0 : CRun (M := Unit) (Toy.env oc) f' Toy.cstB [] (Toy.csB (Toy.layer0 [2] none)) := .init rfl
  have q1 := q0.call (.readBin Toy.cconA)
  simp only [cstep, t1] at q1
  have q2 := q1.call (.connectBin none Toy.sink)
  rw [show (cstep (M := Unit) (Toy.env oc) f' (Toy.csB Toy.b1) (.connectBin none Toy.sink)).1 = Toy.csB Toy.b2 from rfl] at q2
  have q3 := q2.call (.ackBin none Toy.sink)
  rw [show (cstep (M := Unit) (Toy.env oc) f' (Toy.csB Toy.b2) (.ackBin none Toy.sink)).1 = Toy.csB Toy.b3 from rfl] at q3
  have q4 := q3.call (.readBin Toy.cackA)
  simp only [cstep, t4] at q4
  have v1 : ((Toy.csB Toy.b4).writeBin (Toy.env oc) [9] Toy.sink).2.2 = .ok () := by cases oc <;> decide +kernel
  have v2 : ((Toy.csB Toy.b4).writeBin (Toy.env oc) [9] Toy.sink).2.1.stream =
      Toy.sink.stream ++ cipherOf Toy.cr Toy.key 0 [0, 9] := by cases oc <;> decide +kernel
  have v3 : ((Toy.csB Toy.b4).writeBin (Toy.env oc) [9] Toy.sink).1.minimal.secret = some Toy.key := by
    cases oc <;> decide +kernel
  have q5 := q4.call (.writeBin [9] Toy.sink)
  simp only [cstep, v1] at q5
  refine ⟨_, _, _, _, ⟨⟨0, cipherOf Toy.cr Toy.key 0 [0, 7, 8], [7, 8]⟩, Config.default⟩, ⟨0, cipherOf Toy.cr Toy.key 0 [0, 9], [9]⟩,
    r5, q5, ?_, ?_, w3.trans v3.symm, ⟨_, [], _, _, rfl, ?_, by decide, w2, ?_⟩, ⟨_, [], _, _, rfl, ?_, by decide, v2⟩,
    by decide +kernel, rfl, by decide +kernel⟩
  · simp [CEvent.writesUser]
  · simp [CEvent.writesUser]
  · simp [CEvent.writesUser]
  · simp [inForce, CEvent.newConfig?, Toy.cstA, cstep, List.findSome?]
  · simp [CEvent.writesUser]

end Pkstl

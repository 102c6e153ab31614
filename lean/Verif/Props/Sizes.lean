import Verif.Props.Eavesdrop
/- C75: what the length of a message on the wire tells. -/
namespace Pkstl
open Spec

/-- What somebody who sees only the number of bytes of a user message concludes about its content, when it can only be `d` or
`e`: `true` for `d`. -/
def Spec.judge (cr : Crypto) (c : Config) (d _e : Bytes) (size : Nat) : Bool :=
  size == 74 + (cr.deflate (levelFor c d) d).length

/-- **C75, minimal mode.** A user message has 74 bytes more than its content, a CONNECT message 86 and an ACK message 50: equally
long contents give equally long messages. -/
theorem C75_minimal {env : Env} (law : env.cr.Lawful) {st : Start} {h : List Event} {s : Layer} (hr : Run env st h s) :
    (∀ data w s' w', s.writeMessage env data w = (s', w', .ok ()) → 16 < w.cap →
      w'.stream.length = w.stream.length + (74 + data.length)) ∧
    (∀ pk data s' msg, s.createConnect env pk data = (s', .ok msg) → pk.length = 32 →
      msg.length = 86 + (data.getD []).length) ∧
    (∀ data s' msg, s.createAck env data = (s', .ok msg) → msg.length = 50 + (data.getD []).length) := by
  refine ⟨fun data w s' w' hw hcap => ?_, fun pk data s' msg hc hpk => ?_, fun data s' msg hc => ?_⟩
  · obtain ⟨k, -, h1⟩ := C04_layout_user law hw hcap
    rw [h1, List.length_append, aeadSeal_length _ law, List.length_append, law.sha256_length]
    simp [userFrame, frame, be64]
    omega
  · have := (C04_layout_clear hr).1 pk data hc
    simp [this, connectFrame, frame, be64, law.xPublic_length, hpk]
    omega
  · obtain ⟨epk, -, this⟩ := (C04_layout_clear hr).2 data hc
    simp [this, ackFrame, frame, be64, law.sha256_length]
    omega

/-- **C75, complete mode.** A user message has 74 bytes more than its content after compression. -/
theorem C75_complete {M : Type} {env : Env} {f : Features} (law : env.cr.Lawful) {st : CStart} {h : List (CEvent M)}
    {sl : SecureLayer} (hr : CRun env f st h sl) (hn : h.countP CEvent.writesUser ≤ 2 ^ 64) {x : Known} (hx : x.In st h) :
    x.bytes.length = 74 + (env.cr.deflate (levelFor x.config x.data) x.data).length := by
  obtain ⟨k, hk⟩ : ∃ k, sl.minimal.secret = some k := by
    obtain ⟨h1, h2, w, w', hh, hi, hcap, hst, -⟩ := hx
    obtain ⟨k, -, -, -, hk, -⟩ := wroteUser_sealed law hr (e := .writeBin x.data w w' (.ok ())) (by simp [hh]) rfl
    exact ⟨k, hk⟩
  rw [known_bytes law hr hn hk hx, aeadSeal_length _ law, Known.plain, List.length_append, law.sha256_length]
  simp [userFrame, frame, be64]
  omega

/-- **C75 (refuted).** In complete mode somebody who sees nothing but the number of bytes of a user message tells which of two
contents it has, whenever the two do not compress equally well, no matter that they are equally long. -/
theorem C75_refuted : ∃ eve : Crypto → Config → Bytes → Bytes → Nat → Bool,
    ∀ (M : Type) (env : Env) (f : Features), env.cr.Lawful → ∀ (st : CStart) (h : List (CEvent M)) (sl : SecureLayer),
    CRun env f st h sl → h.countP CEvent.writesUser ≤ 2 ^ 64 → ∀ x : Known, x.In st h → ∀ d e : Bytes, d.length = e.length →
    (env.cr.deflate (levelFor x.config d) d).length ≠ (env.cr.deflate (levelFor x.config e) e).length → x.data = d ∨ x.data = e →
      eve env.cr x.config d e x.bytes.length = decide (x.data = d) := by
  refine ⟨judge, ?_⟩
  intro M env f law st h sl hr hn x hx d e hl hne hde
  rw [C75_complete law hr hn hx]
  rcases hde with hd | he
  · simp [judge, hd]
  · have : e ≠ d := by rintro rfl; exact hne rfl
    simp only [judge, he, this, decide_false]
    simp only [beq_eq_false_iff_ne, ne_eq, Nat.add_left_cancel_iff]
    exact fun h => hne h.symm

/-- **C75 (true part, complete mode).** Messages that are not compressed (compression level none, or both contents shorter than
`compression_min_size`) are equally long if their contents are.  The hypothesis on level 0 says that data that is stored takes
an amount of space that is determined by its length.  What is missing is the same for compressed messages, where it is false. -/
theorem C75_stored_partial {M : Type} {env : Env} {f f' : Features} (law : env.cr.Lawful)
    (hstore : ∀ a b : Bytes, a.length = b.length → (env.cr.deflate 0 a).length = (env.cr.deflate 0 b).length)
    {st st' : CStart} {h h' : List (CEvent M)} {sl sl' : SecureLayer}
    (hr : CRun env f st h sl) (hr' : CRun env f' st' h' sl')
    (hn : h.countP CEvent.writesUser ≤ 2 ^ 64) (hn' : h'.countP CEvent.writesUser ≤ 2 ^ 64) {x y : Known} (hx : x.In st h)
    (hy : y.In st' h') (hlen : x.data.length = y.data.length)
    (hxc : x.config.compression = 0 ∨ x.data.length < x.config.compressionMinSize)
    (hyc : y.config.compression = 0 ∨ y.data.length < y.config.compressionMinSize) : x.bytes.length = y.bytes.length := by
  have l0 : ∀ z : Known, (z.config.compression = 0 ∨ z.data.length < z.config.compressionMinSize) →
      levelFor z.config z.data = 0 := by
    rintro z (hz | hz) <;> simp [levelFor, hz]
  rw [C75_complete law hr hn hx, C75_complete law hr' hn' hy, l0 x hxc, l0 y hyc, hstore _ _ hlen]

/-- The toy primitives with a compression that makes something of four zeros. -/
def Toy.crZip : Crypto :=
  { Toy.cr with
    deflate := fun l b => if l ≠ 0 ∧ b = [0, 0, 0, 0] then [2] else Toy.cr.deflate l b
    inflate := fun b => if b = [2] then some [0, 0, 0, 0] else Toy.cr.inflate b }

def Toy.envZip (oc : Bool) : Env := ⟨Toy.crZip, oc⟩

theorem Toy.lawfulZip : Toy.crZip.Lawful :=
  { Toy.lawful with
    inflate_deflate := fun l b => by
      dsimp only [Toy.crZip]
      split
      · simp_all
      · rw [if_neg, Toy.lawful.inflate_deflate]
        by_cases h : l = 0 <;> simp [Toy.cr, h]
    deflate_ne_nil := fun l b => by
      dsimp only [Toy.crZip]
      split
      · simp
      · exact Toy.lawful.deflate_ne_nil l b }

/-- The configuration that compresses everything. -/
def Toy.always : Config := { Config.default with compressionMinSize := 0 }

/-- A negotiated toy layer is given the configuration `c` and writes the content `d`, which travels as `p`. -/
theorem Toy.zipped (f : Features) {oc : Bool} {c : Config} {d p : Bytes}
    (w1 : ((Toy.csA { Toy.a4 with config := c }).writeBin (Toy.envZip oc) d Toy.sink).2.2 = .ok ())
    (w2 : ((Toy.csA { Toy.a4 with config := c }).writeBin (Toy.envZip oc) d Toy.sink).2.1.stream =
      Toy.sink.stream ++ cipherOf Toy.crZip Toy.key 0 p) : ∃ (h : List (CEvent Unit)) (sl : SecureLayer) (x : Known),
    CRun (Toy.envZip oc) f Toy.cstA h sl ∧ h.countP CEvent.writesUser ≤ 2 ^ 64 ∧ x.In Toy.cstA h ∧ x.data = d ∧
    x.config = c ∧ x.bytes = cipherOf Toy.crZip Toy.key 0 p := by
  have s1 : ((Toy.csA (Toy.layer0 [1] none)).writeConnectBin (Toy.envZip oc) (some [7, 8]) Toy.sink).1 = Toy.csA Toy.a1 := by
    cases oc <;> decide +kernel
  have s2 : ((Toy.csA Toy.a1).readBin (Toy.envZip oc) Toy.cconB).1 = Toy.csA Toy.a2 := by cases oc <;> decide +kernel
  have s3 : ((Toy.csA Toy.a2).readBin (Toy.envZip oc) Toy.cackB).1 = Toy.csA Toy.a3 := by cases oc <;> decide +kernel
  have s4 : ((Toy.csA Toy.a3).writeAckBin (Toy.envZip oc) (some []) Toy.sink).1 = Toy.csA Toy.a4 := by
    cases oc <;> decide +kernel
  have r0 : CRun (M := Unit) (Toy.envZip oc) f Toy.cstA [] (Toy.csA (Toy.layer0 [1] none)) := .init rfl
  have r1 := r0.call (.connectBin (some [7, 8]) Toy.sink)
  simp only [cstep, s1] at r1
  have r2 := r1.call (.readBin Toy.cconB)
  simp only [cstep, s2] at r2
  have r3 := r2.call (.readBin Toy.cackB)
  simp only [cstep, s3] at r3
  have r4 := r3.call (.ackBin (some []) Toy.sink)
  simp only [cstep, s4] at r4
  have r5 := r4.call (.config c)
  have c1 : (Toy.csA Toy.a4).changeConfig c = (Toy.csA { Toy.a4 with config := c }, .ok ()) := rfl
  simp only [cstep, c1] at r5
  have r6 := r5.call (.writeBin d Toy.sink)
  simp only [cstep, w1] at r6
  refine ⟨_, _, ⟨⟨0, cipherOf Toy.crZip Toy.key 0 p, d⟩, c⟩, r6, ?_, ⟨_, [], _, _, rfl, ?_, by decide, w2, ?_⟩, rfl, rfl, rfl⟩
  · simp [CEvent.writesUser]
  · simp [CEvent.writesUser]
  · simp [inForce, CEvent.newConfig?, List.findSome?]

/-- The layer compresses everything and writes four zeros; somebody tells from the 75 bytes that it was not the equally long
`[1, 2, 3, 4]`, which would have taken 79. -/
example (oc : Bool) (f : Features) : ∃ (h : List (CEvent Unit)) (sl : SecureLayer) (x : Known) (d e : Bytes),
    CRun (Toy.envZip oc) f Toy.cstA h sl ∧ h.countP CEvent.writesUser ≤ 2 ^ 64 ∧ x.In Toy.cstA h ∧ d.length = e.length ∧
    (Toy.crZip.deflate (levelFor x.config d) d).length ≠ (Toy.crZip.deflate (levelFor x.config e) e).length ∧
    x.data = e ∧ x.bytes.length = 75 ∧ judge Toy.crZip x.config d e x.bytes.length = false := by
  obtain ⟨h, sl, x, hr, hn, hx, hd, hc, hl⟩ := Toy.zipped f (oc := oc) (c := Toy.always) (d := [0, 0, 0, 0]) (p := [2])
    (by cases oc <;> decide +kernel) (by cases oc <;> decide +kernel)
  exact ⟨h, sl, x, [1, 2, 3, 4], [0, 0, 0, 0], hr, hn, hx, rfl, by rw [hc]; decide +kernel, hd, by rw [hl]; decide +kernel,
    by rw [hc, hl]; decide +kernel⟩

/-- With the default configuration both are stored and equally long. -/
example (oc : Bool) (f : Features) : ∃ (h h' : List (CEvent Unit)) (sl sl' : SecureLayer) (x y : Known),
    CRun (Toy.envZip oc) f Toy.cstA h sl ∧ CRun (Toy.envZip oc) f Toy.cstA h' sl' ∧ h.countP CEvent.writesUser ≤ 2 ^ 64 ∧
    h'.countP CEvent.writesUser ≤ 2 ^ 64 ∧ x.In Toy.cstA h ∧ y.In Toy.cstA h' ∧ x.data = [0, 0, 0, 0] ∧ y.data = [1, 2, 3, 4] ∧
    x.data.length < x.config.compressionMinSize ∧ y.data.length < y.config.compressionMinSize ∧ x.bytes.length = 79 ∧
    y.bytes.length = 79 := by
  obtain ⟨h, sl, x, hr, hn, hx, hd, hc, hl⟩ := Toy.zipped f (oc := oc) (c := Config.default) (d := [0, 0, 0, 0])
    (p := [0, 0, 0, 0, 0]) (by cases oc <;> decide +kernel) (by cases oc <;> decide +kernel)
  obtain ⟨h', sl', y, hr', hn', hy, hd', hc', hl'⟩ := Toy.zipped f (oc := oc) (c := Config.default) (d := [1, 2, 3, 4])
    (p := [0, 1, 2, 3, 4]) (by cases oc <;> decide +kernel) (by cases oc <;> decide +kernel)
  refine ⟨h, h', sl, sl', x, y, hr, hr', hn, hn', hx, hy, hd, hd', ?_, ?_, ?_, ?_⟩
  · rw [hd, hc]; decide
  · rw [hd', hc']; decide
  · rw [hl]; decide +kernel
  · rw [hl']; decide +kernel

/-- Level 0 of the toy compression stores. -/
example (a b : Bytes) (h : a.length = b.length) : (Toy.crZip.deflate 0 a).length = (Toy.crZip.deflate 0 b).length := by
  simp [Toy.crZip, Toy.cr, h]

end Pkstl

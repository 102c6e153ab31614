import Verif.Props.InForce
import Verif.Props.Receiver
import Verif.Lemmas.SNetSim
import Verif.Spec.ReceiverSer
/- C62 for the serde API: what becomes of every value that a network delivers. -/
namespace Pkstl
open Spec

section
variable {M : Type} {env : Env} {f f' : Features} {c : Codec M}

theorem readSers_eq (l : List Bytes) (sl : SecureLayer) :
    readSers env f c sl l = ((readBins env sl l).1, (readBins env sl l).2.map (asRead f c)) := by
  induction l generalizing sl with
  | nil => rfl
  | cons b l ih => simp only [readSers, readBins, readSer_eq, ih, List.map_cons]

theorem sent_value (law : env.cr.Lawful) {st : CStart} {h : List (CEvent M)} {sl : SecureLayer}
    (hr : CRun env f' st h sl) (hn : h.countP CEvent.writesUser ≤ 2 ^ 64) {k : SecretKey} (hk : sl.minimal.secret = some k)
    {x : PostedValue M} (hx : x.In f c st h) :
    ∃ b lvl, Wraps f c b x.value ∧ x.bytes = Parcel.bytes env.cr k ⟨x.index, lvl, b⟩ ∧ x.index < 2 ^ 64 := by
  obtain ⟨h1, h2, w, w', hh, hi, hcap, hst, hknow⟩ := hx
  obtain ⟨s1, s2, hr1, hs2, hr2, ⟨op, he1, hop⟩ | ⟨he1, -⟩⟩ := hr.at hh
  swap
  · simp at he1
  have hlt : x.index < 2 ^ 64 := by
    rw [hh, List.countP_append, List.countP_cons_of_pos (by simp [CEvent.writesUser])] at hn
    omega
  cases op with
  | writeSer c' m v =>
    simp only [cstep, CEvent.writeSer.injEq] at he1 hop
    obtain ⟨rfl, rfl, rfl, rfl, hres⟩ := he1
    obtain ⟨⟨l, hlr, hlow⟩, -⟩ := hr1.lower
    have hsent := sent_eq hlr
    rw [hlow.counts.2.2.1, hi, Nat.mod_eq_of_lt hlt] at hsent
    rcases hw : s1.writeSer env c x.value w with ⟨s', w', r⟩
    rw [hw] at hres hst
    dsimp only at hres hst
    subst hres
    obtain ⟨-, k', body, hk', he, h'⟩ := C46_ok_written_ser law hcap hw
    obtain ⟨l1, hl1, -⟩ := cstep_lower (f := f') (M := M) hr1.wf (.writeSer c x.value w)
    obtain ⟨l2, hl2, -⟩ := CSteps.lower hr2 hs2
    rw [hop] at hl2
    have := (C14_secret_stable hlr (hl1.trans hl2)).2 k' hk'
    obtain rfl : k = k' := by rw [hk] at this; exact Option.some.inj this
    rw [h', hsent] at hst
    rw [← (C35_complete hr1).1] at hknow
    exact ⟨_, _, ⟨_, body, hknow, he, rfl⟩, (List.append_cancel_left hst).symm, hlt⟩
  | _ => simp [cstep] at he1

/-- **C62, values.** What one party writes with `write` and what the other one is handed over by `read`, if the formats
used are known to the reader's build: the network may lose, repeat and reorder the messages.  The session of the reader
survives exactly if no message, arrived or lost, is overtaken by more than 10000 different later ones; then every value is
handed over when it arrives for the first time, and its repetitions are refused with `InvalidNonce`. -/
theorem C62_values (law : env.cr.Lawful) (hc : c.Lawful) {stA st : CStart} {hA h : List (CEvent M)} {slA sl : SecureLayer}
    (hrA : CRun env f' stA hA slA) (hr : CRun env f st h sl) (hok : ∀ e ∈ h, e.readOk = true) (hno : Kind.user ∉ ckinds h)
    (hs : sl.minimal.status = .success) {k : SecretKey} (hkA : slA.minimal.secret = some k)
    (hk : sl.minimal.secret = some k) (hks : ¬ ∀ i < 4, env.cr.keystream k.key k.nonce i = 0)
    (hn : hA.countP CEvent.writesUser ≤ 2 ^ 64) (l : List (PostedValue M))
    (hl : ∀ x ∈ l, x.In f c stA hA ∧ x.bytes.length < 2 ^ 64) (hb : (cinputs h).length + l.length + 1 < 2 ^ 64) :
    ((readSers env f c sl (l.map PostedValue.bytes)).1.minimal.status = .success ↔
      ∀ m, (overtakers (l.map PostedValue.index).eraseDups m).length ≤ 10000) ∧
    ((∀ m, (overtakers (l.map PostedValue.index).eraseDups m).length ≤ 10000) → ∀ j x, l[j]? = some x →
      (readSers env f c sl (l.map PostedValue.bytes)).2[j]? =
        some (if x.index ∈ (l.take j).map PostedValue.index then .err (.recvInvalidMsg .invalidNonce)
          else .ok [.message (some x.value)])) := by
  obtain ⟨ps, hps⟩ := exists_forall₂ (R := fun (x : PostedValue M) (p : Posted) => Wraps f c p.data x.value ∧
      p.bytes = x.bytes ∧ p.index = x.index ∧ (∃ lvl, p.bytes = Parcel.bytes env.cr k ⟨p.index, lvl, p.data⟩ ∧
        p.index < 2 ^ 64) ∧ p.bytes.length < 2 ^ 64) (l := l) (by
    intro x hx
    obtain ⟨h1, h2⟩ := hl x hx
    obtain ⟨b, lvl, h3, h4, h5⟩ := sent_value law hrA hn hkA h1
    exact ⟨⟨x.index, x.bytes, b⟩, h3, rfl, rfl, ⟨lvl, h4, h5⟩, h2⟩)
  have e1 : l.map PostedValue.bytes = ps.map Posted.bytes := by
    clear hl hb
    induction hps with
    | nil => rfl
    | cons hx _ ih => simp [hx.2.1, ih]
  have e2 : l.map PostedValue.index = ps.map Posted.index := by
    clear hl hb e1
    induction hps with
    | nil => rfl
    | cons hx _ ih => simp [hx.2.2.1, ih]
  obtain ⟨c1, c2⟩ := posted_core law hr hok hno hs hk hks ps
    (fun p hp => by obtain ⟨x, -, hx⟩ := forall₂_mem_right hps hp; exact hx.2.2.2) (by rw [← hps.length_eq]; exact hb)
  rw [← e1, ← e2] at c1 c2
  rw [readSers_eq]
  refine ⟨c1, fun ho j x hj => ?_⟩
  have hjl : j < l.length := by
    by_contra hcn
    rw [List.getElem?_eq_none (by omega)] at hj
    simp at hj
  have hjp : j < ps.length := hps.length_eq ▸ hjl
  have hrel := hps.get hjl hjp
  have hx : l.get ⟨j, hjl⟩ = x := by simpa [List.getElem?_eq_getElem hjl] using hj
  rw [hx] at hrel
  have := c2 ho j (ps.get ⟨j, hjp⟩) (by simp [List.getElem?_eq_getElem hjp])
  rw [hrel.2.2.1, List.map_take, ← e2, ← List.map_take] at this
  dsimp only
  rw [List.getElem?_map, this]
  simp only [Option.map_some, Option.some.injEq]
  split
  · rfl
  · exact deserializeMsgs_iff.mpr (.cons (.message (.some (hrel.1.reads hc))) .nil)

end

/-- JSON, and otherwise the default. -/
def Toy.jsonConf : Config := { Config.default with messageFormat := .utf8Json }

/-- Toy party A after `n` messages, with configuration `c`. -/
def Toy.aConf (c : Config) (n : Nat) : SecureLayer := Toy.csA { Toy.a4 with config := c, nextNonceSent := n }

/-- Party A writes two values in CBOR and one in JSON; the last one, the first one and the last one again reach B, whose build
knows these formats: this meets the hypotheses of `C62_values`. -/
example (oc : Bool) : ∃ (hA h : List (CEvent UInt8)) (slA sl : SecureLayer) (l : List (PostedValue UInt8)),
    CRun (Toy.env oc) ⟨true, true, true⟩ Toy.cstA hA slA ∧ CRun (Toy.env oc) ⟨false, true, true⟩ Toy.cstB h sl ∧
    (∀ e ∈ h, e.readOk = true) ∧
    Kind.user ∉ ckinds h ∧ sl.minimal.status = .success ∧ slA.minimal.secret = some Toy.key ∧
    sl.minimal.secret = some Toy.key ∧ (¬ ∀ i < 4, Toy.cr.keystream Toy.key.key Toy.key.nonce i = 0) ∧
    hA.countP CEvent.writesUser = 3 ∧ l.map PostedValue.index = [2, 0, 2] ∧ l.map PostedValue.value = [9, 7, 9] ∧
    (∀ x ∈ l, x.In ⟨false, true, true⟩ Toy.codec Toy.cstA hA ∧ x.bytes.length < 2 ^ 64) ∧
    (cinputs h).length + l.length + 1 < 2 ^ 64 := by
  obtain ⟨h, hr, h1, h2, h3⟩ := Toy.chist_b4 (M := UInt8) (f := ⟨false, true, true⟩) oc
  obtain ⟨hA, hrA, hc⟩ := Toy.chist_a4 (M := UInt8) (f := ⟨true, true, true⟩) oc
  have w1 : ∀ n < 3, ∀ d ∈ ([7, 8, 9] : List UInt8), ∀ c ∈ [Toy.cborConf, Toy.jsonConf],
      ((Toy.aConf c n).writeSer (Toy.env oc) Toy.codec d Toy.sink).1 = Toy.aConf c (n + 1) := by
    cases oc <;> decide +kernel
  have w2 : ∀ n < 3, ∀ d ∈ ([7, 8, 9] : List UInt8), ∀ c ∈ [Toy.cborConf, Toy.jsonConf],
      ((Toy.aConf c n).writeSer (Toy.env oc) Toy.codec d Toy.sink).2.2 = .ok () := by cases oc <;> decide +kernel
  have in0 : ((Toy.aConf Toy.cborConf 0).writeSer (Toy.env oc) Toy.codec 7 Toy.sink).2.1.stream =
      Toy.sink.stream ++ cipherOf Toy.cr Toy.key 0 [0, 0, 0, 0, 3, 2, 7] := by cases oc <;> decide +kernel
  have in2 : ((Toy.aConf Toy.jsonConf 2).writeSer (Toy.env oc) Toy.codec 9 Toy.sink).2.1.stream =
      Toy.sink.stream ++ cipherOf Toy.cr Toy.key 2 [0, 0, 0, 0, 2, 3, 9] := by cases oc <;> decide +kernel
  have r0 := hrA.call (.config Toy.cborConf)
  rw [show cstep (M := UInt8) (Toy.env oc) ⟨true, true, true⟩ (Toy.csA Toy.a4) (.config Toy.cborConf) =
    (Toy.aConf Toy.cborConf 0, .config Toy.cborConf (.ok ())) from rfl] at r0
  dsimp only at r0
  have r1 := r0.call (.writeSer Toy.codec 7 Toy.sink)
  simp only [cstep, w1 0 (by decide) 7 (by decide) Toy.cborConf (by simp), w2 0 (by decide) 7 (by decide)
    Toy.cborConf (by simp)] at r1
  have r2 := r1.call (.writeSer Toy.codec 8 Toy.sink)
  simp only [cstep, w1 1 (by decide) 8 (by decide) Toy.cborConf (by simp), w2 1 (by decide) 8 (by decide)
    Toy.cborConf (by simp)] at r2
  have r3 := r2.call (.config Toy.jsonConf)
  rw [show cstep (M := UInt8) (Toy.env oc) ⟨true, true, true⟩ (Toy.aConf Toy.cborConf (1 + 1)) (.config Toy.jsonConf) =
    (Toy.aConf Toy.jsonConf 2, .config Toy.jsonConf (.ok ())) from rfl] at r3
  dsimp only at r3
  have r4 := r3.call (.writeSer Toy.codec 9 Toy.sink)
  simp only [cstep, w1 2 (by decide) 9 (by decide) Toy.jsonConf (by simp), w2 2 (by decide) 9 (by decide)
    Toy.jsonConf (by simp)] at r4
  refine ⟨_, h, _, _, [⟨2, cipherOf Toy.cr Toy.key 2 [0, 0, 0, 0, 2, 3, 9], 9⟩,
    ⟨0, cipherOf Toy.cr Toy.key 0 [0, 0, 0, 0, 3, 2, 7], 7⟩, ⟨2, cipherOf Toy.cr Toy.key 2 [0, 0, 0, 0, 2, 3, 9], 9⟩],
    r4, hr, h1, h2, rfl, rfl, rfl, Toy.key_stream, ?_, rfl, rfl, ?_, ?_⟩
  · simp [hc, CEvent.writesUser]
  · have hcap : 16 < Toy.sink.cap := by decide
    have k2 : ∀ l : List (CEvent UInt8), Knows? ⟨false, true, true⟩
        (inForce Toy.cstA.config (l ++ [.config Toy.jsonConf (.ok ())])).messageFormat := by
      intro l
      simp [inForce, CEvent.newConfig?, Toy.jsonConf, Knows?]
    have k0 : ∀ l : List (CEvent UInt8), Knows? ⟨false, true, true⟩
        (inForce Toy.cstA.config (l ++ [.config Toy.cborConf (.ok ())])).messageFormat := by
      intro l
      simp [inForce, CEvent.newConfig?, Toy.cborConf, Knows?]
    intro x hx
    simp only [List.mem_cons, List.not_mem_nil, or_false] at hx
    rcases hx with rfl | rfl | rfl
    · exact ⟨⟨_, [], _, _, rfl, by simp [hc, CEvent.writesUser], hcap, in2, k2 _⟩, by decide +kernel⟩
    · exact ⟨⟨hA ++ [.config Toy.cborConf (.ok ())], _, _, _, by
        simp only [List.append_assoc, List.cons_append, List.nil_append]; rfl, by simp [hc, CEvent.writesUser], hcap, in0,
        k0 _⟩, by decide +kernel⟩
    · exact ⟨⟨_, [], _, _, rfl, by simp [hc, CEvent.writesUser], hcap, in2, k2 _⟩, by decide +kernel⟩
  · rw [h3]; simp

end Pkstl

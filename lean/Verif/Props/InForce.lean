import Verif.Lemmas.CConf
import Verif.Props.Clone
import Verif.Spec.InForce
import Verif.Spec.ToyComplete
/- C35 for the complete mode: which configuration is in force, and when it can be changed. -/
namespace Pkstl
open Spec

section
variable {M : Type} {env : Env} {f : Features} {st : CStart} {h : List (CEvent M)} {sl : SecureLayer}

theorem inForce_append_other {c : Config} {e : CEvent M} (he : e.newConfig? = none) :
    inForce c (h ++ [e]) = inForce c h := by
  simp [inForce, he]

/-- **C35, complete mode.** In every state of every layer and of every clone, the configuration is the one given by the last
successful `change_config` or else at creation.  `change_config` succeeds and changes the configuration only, as long as no
`try_clone` succeeded on the layer or on the layers it was cloned from; from then on it returns
`ForbidChangeConfAfterClone` and changes nothing. -/
theorem C35_complete (hr : CRun env f st h sl) :
    sl.minimal.config = inForce st.config h ∧
    (CEvent.clone (.ok ()) ∉ h → ∀ c, sl.changeConfig c = ({ sl with minimal := { sl.minimal with config := c } }, .ok ())) ∧
    (CEvent.clone (.ok ()) ∈ h → ∀ c, sl.changeConfig c = (sl, .err .forbidChangeConfAfterClone)) := by
  suffices H : sl.minimal.config = inForce st.config h ∧ (sl.minimal.cloned = true ↔ CEvent.clone (.ok ()) ∈ h) by
    refine ⟨H.1, fun hn c => ?_, fun hn c => ?_⟩ <;> unfold SecureLayer.changeConfig Layer.changeConfig
    · rw [if_pos (by simpa using fun hc => hn (H.2.mp hc))]
    · rw [if_neg (by simp [H.2.mpr hn])]
  induction hr with
  | init h =>
    simp only [SecureLayer.create] at h
    cases hs : st.seed <;> rw [hs] at h <;>
      simp only [Layer.create, EphemeralKeyPair.generate, Res.bind_ok, Res.ok.injEq] at h <;> subst h <;>
      exact ⟨rfl, by simp⟩
  | @call h sl hr op ih =>
    by_cases h1 : ∃ c, op = .config c
    · obtain ⟨c, rfl⟩ := h1
      simp only [cstep]
      unfold SecureLayer.changeConfig Layer.changeConfig
      by_cases hn : sl.minimal.cloned = false
      · simp only [hn, if_true]
        refine ⟨by simp [inForce, CEvent.newConfig?], ?_⟩
        have := ih.2
        rw [hn] at this
        simpa using this
      · simp only [hn]
        exact ⟨by rw [inForce_append_other rfl]; exact ih.1, by simpa using ih.2⟩
    by_cases h2 : op = .clone
    · subst h2
      simp only [cstep]
      unfold SecureLayer.tryClone Layer.tryClone
      by_cases hs : sl.minimal.status = .success
      · simp only [hs, if_true, unitRes]
        exact ⟨by rw [inForce_append_other rfl]; exact ih.1, by simp⟩
      · simp only [hs, if_false, unitRes]
        exact ⟨by rw [inForce_append_other rfl]; exact ih.1, by simpa using ih.2⟩
    have h3 := cstep_sameConf (f := f) hr.wf op (fun c hc => h1 ⟨c, hc⟩) h2
    have h4 : (cstep env f sl op).2.newConfig? = none := by
      cases op <;> first | rfl | exact absurd ⟨_, rfl⟩ h1
    have h5 : (cstep env f sl op).2 ≠ .clone (.ok ()) := by
      cases op <;> first | exact absurd rfl h2 | simp [cstep]
    rw [inForce_append_other h4, h3.1, h3.2]
    refine ⟨ih.1, ih.2.trans ?_⟩
    simp only [List.mem_append, List.mem_singleton]
    exact ⟨.inl, fun h => h.elim id fun h => absurd h.symm h5⟩
  | @cloned h sl c hr hc ih =>
    obtain ⟨m, hm, rfl⟩ := ctryClone_ok hc
    obtain ⟨-, -, -, -, -, j2, -, -, -, j3⟩ := C33_same hm
    exact ⟨by rw [inForce_append_other rfl]; exact j2.trans ih.1, by simp [j3]⟩

end

/-- CBOR, and otherwise the default. -/
def Toy.cborConf : Config := { Config.default with messageFormat := .cbor }

/-- A party negotiates, changes its configuration to CBOR, is cloned, and tries to change the configuration again. -/
example (oc : Bool) : ∃ (h : List (CEvent Unit)) (sl : SecureLayer), CRun (Toy.env oc) ⟨true, true, true⟩ Toy.cstA h sl ∧
    CEvent.clone (.ok ()) ∈ h ∧ CEvent.config Config.default (.err .forbidChangeConfAfterClone) ∈ h ∧
    inForce Toy.cstA.config h = Toy.cborConf ∧ Toy.cstA.config ≠ Toy.cborConf := by
  obtain ⟨h, hr⟩ := Toy.creach_a4 Unit ⟨true, true, true⟩ oc
  have r1 := hr.call (.config Toy.cborConf)
  rw [show (cstep (M := Unit) (Toy.env oc) ⟨true, true, true⟩ (Toy.csA Toy.a4) (.config Toy.cborConf)).2 =
    .config Toy.cborConf (.ok ()) from rfl] at r1
  have r3 := (r1.cloned rfl).call (.config Config.default)
  rw [show (cstep (M := Unit) (Toy.env oc) ⟨true, true, true⟩ _ (.config Config.default)).2 =
    .config Config.default (.err .forbidChangeConfAfterClone) from rfl] at r3
  refine ⟨_, _, r3, by simp, by simp, ?_, by decide⟩
  rw [inForce_append_other rfl, inForce_append_other rfl]
  simp [inForce, CEvent.newConfig?]

end Pkstl

import Verif.Lemmas.Complete
/- Positions in the histories of a `SecureLayer`. -/
namespace Pkstl
open Spec

variable {M : Type} {env : Env} {f : Features} {st : CStart}

/-- Every prefix of a history is a history. -/
theorem Spec.CRun.prefix {h : List (CEvent M)} {s : SecureLayer} (hr : CRun env f st h s) :
    ∀ h1 h2, h = h1 ++ h2 → ∃ s1, CRun env f st h1 s1 ∧ CSteps env f s1 h2 s := by
  induction hr with
  | init h =>
    intro h1 h2 he
    obtain ⟨rfl, rfl⟩ := List.append_eq_nil_iff.mp he.symm
    exact ⟨_, .init h, .refl _⟩
  | @call h s hr op ih =>
    intro h1 h2 he
    rcases List.eq_nil_or_concat h2 with rfl | ⟨l, e, rfl⟩
    · rw [List.append_nil] at he
      subst he
      exact ⟨_, .call hr op, .refl _⟩
    · rw [List.concat_eq_append, ← List.append_assoc] at he
      obtain ⟨he1, he2⟩ := List.append_inj' he rfl
      obtain ⟨s1, hr1, hs1⟩ := ih h1 l he1
      refine ⟨s1, hr1, ?_⟩
      rw [List.concat_eq_append, ← he2]
      exact .call hs1 op
  | @cloned h s c hr hc ih =>
    intro h1 h2 he
    rcases List.eq_nil_or_concat h2 with rfl | ⟨l, e, rfl⟩
    · rw [List.append_nil] at he
      subst he
      exact ⟨_, .cloned hr hc, .refl _⟩
    · rw [List.concat_eq_append, ← List.append_assoc] at he
      obtain ⟨he1, he2⟩ := List.append_inj' he rfl
      obtain ⟨s1, hr1, hs1⟩ := ih h1 l he1
      refine ⟨s1, hr1, ?_⟩
      rw [List.concat_eq_append, ← he2]
      exact .cloned hs1 hc

/-- The call made at some point of a history. -/
theorem Spec.CRun.at {h h1 h2 : List (CEvent M)} {s : SecureLayer} {e : CEvent M} (hr : CRun env f st h s)
    (hh : h = h1 ++ e :: h2) :
    ∃ s1 s2, CRun env f st h1 s1 ∧ CSteps env f s2 h2 s ∧ CRun env f st (h1 ++ [e]) s2 ∧
      ((∃ op, e = (cstep env f s1 op).2 ∧ s2 = (cstep env f s1 op).1) ∨
       (e = .clone (.ok ()) ∧ s1.tryClone.2 = .ok s2)) := by
  obtain ⟨s2, hr2, hs2⟩ := hr.prefix (h1 ++ [e]) h2 (by simp [hh])
  generalize hl : h1 ++ [e] = l at hr2
  cases hr2 with
  | init => simp at hl
  | call hr1 op =>
    obtain ⟨rfl, h3⟩ := List.append_inj' hl rfl
    simp only [List.cons.injEq, and_true] at h3
    exact ⟨_, _, hr1, hs2, hl ▸ .call hr1 op, .inl ⟨op, h3, rfl⟩⟩
  | cloned hr1 hc =>
    obtain ⟨rfl, h3⟩ := List.append_inj' hl rfl
    simp only [List.cons.injEq, and_true] at h3
    exact ⟨_, _, hr1, hs2, hl ▸ .cloned hr1 hc, .inr ⟨h3, hc⟩⟩

theorem LowersAll.counts {cr : Crypto} {h : List (CEvent M)} {l : List Event} (hl : LowersAll cr f h l) :
    l.countP Event.createsConnect = h.countP CEvent.consumesConnect ∧
    l.countP Event.createsAck = h.countP CEvent.consumesAck ∧
    l.countP Event.writes = h.countP CEvent.writesUser ∧ inputs l = cinputs h := by
  induction hl with
  | nil => exact ⟨rfl, rfl, rfl, rfl⟩
  | snoc _ he ih =>
    obtain ⟨h1, h2, h3, h4⟩ := ih
    refine ⟨?_, ?_, ?_, ?_⟩
    · rw [List.countP_append, List.countP_append, h1, he.con]; simp [List.countP_cons]
    · rw [List.countP_append, List.countP_append, h2, he.ack]; simp [List.countP_cons]
    · rw [List.countP_append, List.countP_append, h3, he.wr]; simp [List.countP_cons]
    · have h5 := he.inp
      unfold inputs at h4 h5 ⊢
      rw [List.filterMap_append, h4, h5]
      simp [cinputs]

/-- Every continuation of a complete layer is a continuation of the layer inside. -/
theorem Spec.CSteps.lower {st : CStart} {h h' : List (CEvent M)} {s s' : SecureLayer} (hr : CRun env f st h s)
    (hs : CSteps env f s h' s') : ∃ l, Steps env s.minimal l s'.minimal ∧ LowersAll env.cr f h' l := by
  induction hs with
  | refl => exact ⟨[], .refl _, .nil⟩
  | call hst op ih =>
    obtain ⟨l, h1, h2⟩ := ih
    obtain ⟨es, h3, -, h4⟩ := cstep_lower (f := f) (hr.steps hst).wf op
    exact ⟨l ++ es, h1.trans h3, .snoc h2 h4⟩
  | cloned hst hc ih =>
    obtain ⟨l, h1, h2⟩ := ih
    obtain ⟨m, hm, rfl⟩ := ctryClone_ok hc
    exact ⟨l ++ [.clone (.ok ())], .cloned h1 hm, .snoc h2 (lowers_clone _)⟩

end Pkstl

import Verif.Lemmas.CFrame
import Verif.Spec.CHistory
/- The calls on the layer inside, split at a call on the complete layer. -/
namespace Pkstl
open Spec

variable {M : Type} {env : Env} {f : Features} {st : CStart} {cr : Crypto}

theorem LowersAll.split {h : List (CEvent M)} {l : List Event} (hl : LowersAll cr f h l) :
    ∀ h1 h2, h = h1 ++ h2 → ∃ l1 l2, l = l1 ++ l2 ∧ LowersAll cr f h1 l1 ∧ LowersAll cr f h2 l2 := by
  induction hl with
  | nil =>
    intro h1 h2 he
    obtain ⟨rfl, rfl⟩ := List.append_eq_nil_iff.mp he.symm
    exact ⟨[], [], rfl, .nil, .nil⟩
  | @snoc h l es e hl he' ih =>
    intro h1 h2 he
    rcases List.eq_nil_or_concat h2 with rfl | ⟨h3, x, rfl⟩
    · rw [List.append_nil] at he
      subst he
      exact ⟨l ++ es, [], by simp, .snoc hl he', .nil⟩
    · rw [List.concat_eq_append, ← List.append_assoc] at he
      obtain ⟨he1, he2⟩ := List.append_inj' he rfl
      simp only [List.cons.injEq, and_true] at he2
      subst he2
      obtain ⟨l1, l2, rfl, h4, h5⟩ := ih _ _ he1
      refine ⟨l1, l2 ++ es, by simp, h4, ?_⟩
      rw [List.concat_eq_append]
      exact .snoc h5 he'

theorem LowersAll.one {e : CEvent M} {l : List Event} (hl : LowersAll cr f [e] l) : Lowers cr f e l := by
  generalize hh : [e] = h at hl
  cases hl with
  | nil => simp at hh
  | @snoc h l es e' hl he =>
    obtain ⟨h1, h2⟩ := List.append_inj' (s₁ := []) hh rfl
    simp only [List.cons.injEq, and_true] at h2
    subst h1 h2
    generalize hg : ([] : List (CEvent M)) = g at hl
    cases hl with
    | nil => simpa using he
    | snoc => simp at hg

/-- The calls on the layer inside before, during and after one call. -/
theorem Spec.CRun.lowerAt {h h1 h2 : List (CEvent M)} {e : CEvent M} {sl : SecureLayer} (hr : CRun env f st h sl)
    (hh : h = h1 ++ e :: h2) :
    ∃ l1 es l2, Run env st.inner (l1 ++ (es ++ l2)) sl.minimal ∧ LowersAll env.cr f h1 l1 ∧ Lowers env.cr f e es ∧
      LowersAll env.cr f h2 l2 := by
  obtain ⟨⟨l, hl, hlow⟩, -⟩ := hr.lower
  obtain ⟨l1, l', rfl, h3, h4⟩ := hlow.split _ _ hh
  obtain ⟨es, l2, rfl, h5, h6⟩ := h4.split [e] h2 rfl
  exact ⟨l1, es, l2, hl, h3, h5.one, h6⟩

theorem LowersAll.inputs {h : List (CEvent M)} {l : List Event} (hl : LowersAll cr f h l) : inputs l = cinputs h :=
  hl.counts.2.2.2

theorem exists_of_countP {α β : Type} {p : α → Bool} {q : β → Bool} {l : List α} {h : List β}
    (hc : l.countP p = h.countP q) (he : ∃ e ∈ l, p e = true) : ∃ e ∈ h, q e = true := by
  rw [← List.countP_pos_iff] at he ⊢
  omega

/-- The kind of a message of the minimal mode. -/
def Message.kind : Message → Kind
  | .connect .. => .connect
  | .ack .. => .ack
  | .message .. => .user

theorem Opens.kind {m : Message} {b : BinMessage} (h : Opens cr m b) : BinMessage.kind b = m.kind := by
  cases h <;> rfl

theorem opens_kinds {ms : List Message} {bs : List BinMessage} (h : List.Forall₂ (Opens cr) ms bs) :
    bs.map BinMessage.kind = ms.map Message.kind := by
  induction h with
  | nil => rfl
  | cons h _ ih => simp [h.kind, ih]

theorem deserializeMsgs_kinds {c : Codec M} {bs : List BinMessage} {ys : List (SerMessage M)}
    (h : deserializeMsgs f c bs = .ok ys) : ys.map SerMessage.kind = bs.map BinMessage.kind := by
  induction bs generalizing ys with
  | nil => simp [deserializeMsgs] at h; simp [← h]
  | cons b bs ih =>
    unfold deserializeMsgs at h
    cases h1 : deserializeMsg f c b <;> simp [h1] at h
    cases h2 : deserializeMsgs f c bs <;> simp [h2] at h
    subst h
    simp only [List.map_cons, ih h2, List.cons.injEq, and_true]
    cases b with
    | connect d k => unfold deserializeMsg at h1; cases hs : deserializeOpt f c d <;> simp [hs] at h1; subst h1; rfl
    | ack d => unfold deserializeMsg at h1; cases hs : deserializeOpt f c d <;> simp [hs] at h1; subst h1; rfl
    | message d => unfold deserializeMsg at h1; cases hs : deserializeOpt f c d <;> simp [hs] at h1; subst h1; rfl

/-- What a call hands over is what the calls on the layer inside handed over, or nothing. -/
theorem Lowers.kinds {e : CEvent M} {es : List Event} (h : Lowers cr f e es) :
    e.kinds = (deliveries es).map Message.kind ∨ e.kinds = [] := by
  cases e with
  | readBin b r =>
    cases r with
    | ok ms => left; exact opens_kinds (h.bin _ _ rfl)
    | _ => right; rfl
  | readSer c b r =>
    cases r with
    | ok ms =>
      left
      obtain ⟨bs, h1, h2⟩ := h.ser _ _ _ rfl
      exact (deserializeMsgs_kinds h2).trans (opens_kinds h1)
    | _ => right; rfl
  | _ => right; rfl

theorem LowersAll.kinds {h : List (CEvent M)} {l : List Event} (hl : LowersAll cr f h l) :
    (ckinds h).Sublist ((deliveries l).map Message.kind) := by
  induction hl with
  | nil => exact .refl _
  | @snoc h l es e hl he ih =>
    have h1 : ckinds (h ++ [e]) = ckinds h ++ e.kinds := by simp [ckinds]
    have h2 : deliveries (l ++ es) = deliveries l ++ deliveries es := by simp [deliveries]
    rw [h1, h2, List.map_append]
    refine ih.append ?_
    rcases he.kinds with h3 | h3 <;> rw [h3]
    exact List.nil_sublist _

end Pkstl

import Verif.Lemmas.Window
import Verif.Lemmas.ReadCase
/- The minimal mode does not know `ZipError`. -/
namespace Pkstl
open Spec

variable {env : Env} {s : Layer}

theorem bind_ne_err {α β : Type} {x : Res α} {g : α → Res β} {e : Error} (h1 : x ≠ .err e) (h2 : ∀ a, g a ≠ .err e) :
    (x >>= g) ≠ .err e := by
  cases x with
  | ok a => simpa using h2 a
  | err e' => intro h; simp at h; exact h1 (by rw [h])
  | panic p => simp

theorem readerRead_ne_zip (k : Option SecretKey) (b : Bytes) (chk : Bool) : readerRead env k b chk ≠ .err .zipError := by
  have hs : ∀ (b : Bytes) i j, slice b i j ≠ .err .zipError := by
    intro b i j; unfold slice; repeat' split <;> simp
  have ht : ∀ (b : Bytes) i, sliceTo b i ≠ .err .zipError := by
    intro b i; unfold sliceTo; repeat' split <;> simp
  have hf : ∀ (b : Bytes) i, sliceFrom b i ≠ .err .zipError := by
    intro b i; unfold sliceFrom; repeat' split <;> simp
  have hd : ∀ k (b : Bytes), decrypt env k b ≠ .err .zipError := by
    intro k b; unfold decrypt; repeat' split <;> simp
  have hth : ∀ b, readTypeHeaders b ≠ .err .zipError := by
    intro b
    unfold readTypeHeaders
    refine bind_ne_err (ht _ _) fun ty => ?_
    split
    · exact bind_ne_err (hs _ _ _) fun _ => by simp
    split
    · refine bind_ne_err (hs _ _ _) fun _ => bind_ne_err (hs _ _ _) fun _ => ?_
      split
      · exact bind_ne_err (hs _ _ _) fun _ => bind_ne_err (hs _ _ _) fun _ => by simp
      · simp [invalidMsg]
    split
    · exact bind_ne_err (hs _ _ _) fun _ => by simp
    · simp [invalidMsg]
  have hp : ∀ enc b, parseClear env enc b chk ≠ .err .zipError := by
    intro enc b
    unfold parseClear
    refine bind_ne_err (ht _ _) fun _ => ?_
    split
    · simp [invalidMsg]
    refine bind_ne_err (hs _ _ _) fun _ => ?_
    split
    · simp [invalidMsg]
    refine bind_ne_err (hs _ _ _) fun _ => ?_
    split
    · simp
    refine bind_ne_err (hf _ _) fun _ => bind_ne_err (hth _) fun _ => ?_
    dsimp only
    split <;> simp [invalidMsg]
  unfold readerRead
  refine bind_ne_err ?_ fun _ => hp _ _
  unfold openIncoming
  refine bind_ne_err (ht _ _) fun _ => ?_
  split
  · simp
  · split
    · exact bind_ne_err (hd _ _) fun _ => by simp
    · simp [invalidMsg]

theorem getMessage_ne_zip (d : DecryptedIncomingData) : Layer.getMessage d ≠ .err .zipError := by
  unfold Layer.getMessage; split <;> simp

theorem readInner_ne_zip (b : Bytes) (chk : Bool) : (s.readInner env b chk).2 ≠ .err .zipError := by
  intro he
  have hcase := readInner_case env s b chk
  rw [he] at hcase
  generalize (s.readInner env b chk).1 = s' at hcase
  generalize hre : (Res.err .zipError : Res (Option Message)) = r at hcase
  cases hcase with
  | parseErr hp => simp at hre; rw [← hre] at hp; exact readerRead_ne_zip _ _ _ hp
  | connectLate _ _ _ _ _ _ h => simp at hre; subst hre; split at h <;> simp at h
  | connectNoKp => split at hre <;> first | exact getMessage_ne_zip _ hre.symm | simp at hre
  | connectOk => exact getMessage_ne_zip _ hre.symm
  | ackLate _ _ _ _ _ _ _ h => simp at hre; subst hre; split at h <;> simp at h
  | ackOk => exact getMessage_ne_zip _ hre.symm
  | userLate _ _ _ _ _ h => simp at hre; subst hre; split at h <;> simp at h
  | @userNonceErr d n s1 e _ _ _ _ _ _ hu =>
    obtain ⟨O', n', st, -, -, -, -, h⟩ := updateNonces_frame env s n
    rw [hu] at h
    obtain ⟨h, -⟩ := h e rfl
    rw [h] at hre
    simp at hre
  | userOk => exact getMessage_ne_zip _ hre.symm
  | _ => simp [invalidMsg] at hre

theorem drainLoop_ne_zip (bs : List Bytes) (ms : List Message) : (s.drainLoop env bs ms).2 ≠ .err .zipError := by
  induction bs generalizing s ms with
  | nil => simp [Layer.drainLoop]
  | cons b bs ih =>
    rw [Layer.drainLoop]
    have h := readInner_ne_zip (env := env) (s := s) b false
    rcases hr : s.readInner env b false with ⟨s', (_ | m) | e | p⟩ <;> rw [hr] at h
    · exact ih _
    · exact ih _
    · simpa using h
    · simp

/-- A successful drain does not change the status. -/
theorem drainLoop_ok_status (bs : List Bytes) (ms ms' : List Message) (hb : Stackable env bs)
    (h : (s.drainLoop env bs ms).2 = .ok ms') : (s.drainLoop env bs ms).1.status = s.status := by
  induction bs generalizing s ms with
  | nil => rfl
  | cons b bs ih =>
    obtain ⟨n, d, hp, hh⟩ := hb b (by simp)
    have hb2 : Stackable env bs := fun b hm => hb b (by simp [hm])
    rw [Layer.drainLoop] at h ⊢
    rw [readInner_stacked s hp hh] at h ⊢
    have hst : ∀ m, (s.readUser env d n).2 = .ok m → (s.readUser env d n).1.status = s.status := by
      intro m hm
      rcases readUser_cases env s d n with ⟨t, e, he, -⟩ | ⟨p, he⟩ | ⟨-, he⟩ | ⟨hs, hn, he⟩
      · rw [he] at hm; simp at hm
      · rw [he] at hm; simp at hm
      · rw [he]
      · rw [he] at hm ⊢
        obtain ⟨O', n', st, h1, -, h2, -, -⟩ := updateNonces_frame env s n
        have h3 : (s.updateNonces env n).2 = .ok () := by
          rcases hu : (s.updateNonces env n).2 with _ | e | p <;> simp [hu] at hm
          rfl
        rw [h1]
        exact h2 h3
    rcases hr : s.readUser env d n with ⟨s', (_ | m) | e | p⟩ <;> rw [hr] at h hst
    · exact (ih _ hb2 h).trans (hst _ rfl)
    · exact (ih _ hb2 h).trans (hst _ rfl)
    · simp at h
    · simp at h

end Pkstl

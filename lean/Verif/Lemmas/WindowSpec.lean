import Verif.Lemmas.Track
import Verif.Lemmas.Eval
import Mathlib.Data.Finset.Basic
import Mathlib.Data.Nat.Find
/- The replay window of the layer is the window of the specification. -/
namespace Pkstl
open Spec

/-- The window remembers exactly the numbers `D`. -/
structure Knows (s : Layer) (D : List Nat) : Prop where
  nodup : D.Nodup
  seen : ∀ m, s.seen m ↔ m ∈ D

section
variable {env : Env} {s : Layer} {D : List Nat}

theorem Knows.congr {s' : Layer} (h : Knows s D) (h1 : s'.nextNonceExpected = s.nextNonceExpected)
    (h2 : s'.orphanNonces = s.orphanNonces) : Knows s' D :=
  ⟨h.nodup, by unfold Layer.seen; rw [h1, h2]; exact h.seen⟩

/-- The smallest undelivered number. -/
theorem Knows.next (h : Knows s D) (hw : WinOk s) :
    s.nextNonceExpected ∉ D ∧ ∀ m < s.nextNonceExpected, m ∈ D := by
  refine ⟨fun hm => ?_, fun m hm => (h.seen m).mp (.inl hm)⟩
  rcases (h.seen _).mpr hm with h1 | h1
  · omega
  · have := (hw.orph _ h1).1; omega

theorem Knows.isNext (h : Knows s D) (hw : WinOk s) {n : Nat} (hn : n ∉ D) :
    n = s.nextNonceExpected ↔ ∀ m < n, m ∈ D := by
  obtain ⟨h1, h2⟩ := h.next hw
  constructor
  · rintro rfl; exact h2
  · intro h3
    by_contra hne
    rcases Nat.lt_or_gt_of_ne hne with hlt | hlt
    · exact hn (h2 _ hlt)
    · exact h1 (h3 _ hlt)

theorem Knows.pending (h : Knows s D) (hw : WinOk s) : (pending D).length = s.orphanNonces.card := by
  have hnd : (Spec.pending D).Nodup := h.nodup.filter _
  rw [← List.toFinset_card_of_nodup hnd]
  congr 1
  ext m
  simp only [List.mem_toFinset, Spec.pending, List.mem_filter, decide_eq_true_eq]
  obtain ⟨h1, h2⟩ := h.next hw
  constructor
  · rintro ⟨hm, l, hl, hlD⟩
    rcases (h.seen m).mpr hm with h3 | h3
    · exact absurd (h2 l (by omega)) hlD
    · exact h3
  · intro hm
    exact ⟨(h.seen m).mp (.inr hm), _, (hw.orph m hm).1, h1⟩

theorem Knows.card (hD : Knows s D) (hw : WinOk s) :
    s.nextNonceExpected + s.orphanNonces.card = D.length := by
  have h1 : (D.toFinset).card = D.length := List.toFinset_card_of_nodup hD.nodup
  have h2 : D.toFinset = Finset.range s.nextNonceExpected ∪ s.orphanNonces := by
    ext m
    rw [List.mem_toFinset, ← hD.seen m]
    simp [Layer.seen]
  have h3 : Disjoint (Finset.range s.nextNonceExpected) s.orphanNonces := by
    rw [Finset.disjoint_left]
    intro m h4 h5
    have := (hw.orph m h5).1
    simp at h4; omega
  rw [h2, Finset.card_union_of_disjoint h3, Finset.card_range] at h1
  exact h1

/-- Outcome of an authentic user message. -/
theorem read_user_window (law : env.cr.Lawful) {k : SecretKey} {n : Nat} {p : Bytes} (hn : n < u64Size)
    (hlen : 26 + p.length < u64Size) (hks : ¬ ∀ i < 4, env.cr.keystream k.key k.nonce i = 0)
    (hk : s.secret = some k) (hs : s.status = .success) (hw : WinOk s) (hD : Knows s D)
    (hroom : D.length + 1 < u64Size) :
    (Deliverable D n → ∃ e O, s.read env (cipherOf env.cr k n p) =
        ({ s with nextNonceExpected := e, orphanNonces := O }, .ok (some (.message (present p)))) ∧
      WinOk { s with nextNonceExpected := e, orphanNonces := O } ∧
      Knows { s with nextNonceExpected := e, orphanNonces := O } (D ++ [n])) ∧
    (n ∈ D → s.read env (cipherOf env.cr k n p) = (s, invalidMsg .invalidNonce)) ∧
    (n ∉ D → ¬ Deliverable D n →
      s.read env (cipherOf env.cr k n p) = ({ s with status := .fail }, .err .tooManyUnorderedMsgs)) := by
  have hcard := hD.card hw
  refine ⟨?_, ?_, ?_⟩
  · rintro ⟨hnD, hdel⟩
    have hf : ¬ s.seen n := fun h => hnD ((hD.seen n).mp h)
    rw [cipherOf_eq, read_user_eval p law hn hlen hks hk hs hf]
    rcases updateNonces_spec env s n hw hn hf with ⟨O', n', h1, h2, h3, h4⟩ | ⟨h0, h1, h2, h3⟩ |
      ⟨h0, h1, h2, h3⟩ | ⟨h0, h00, h1⟩
    · rw [h1]
      refine ⟨n', O', rfl, h2, ?_, ?_⟩
      · rw [List.nodup_append]
        refine ⟨hD.nodup, by simp, ?_⟩
        intro a ha b hb hab
        simp only [List.mem_singleton] at hb
        exact hnD (by rw [← hb, ← hab]; exact ha)
      · intro m
        have := h3 m
        simp only [Layer.seen, List.mem_append, List.mem_singleton] at *
        rw [this, ← hD.seen m]
        rfl
    · omega
    · omega
    · exfalso
      rcases hdel with hdel | hdel
      · exact h0 ((hD.isNext hw hnD).mpr hdel)
      · rw [hD.pending hw] at hdel
        omega
  · intro hnD
    exact read_user_replay_eval p law hn hlen hks hk ((hD.seen n).mpr hnD)
  · intro hnD hdel
    have hf : ¬ s.seen n := fun h => hnD ((hD.seen n).mp h)
    rw [cipherOf_eq, read_user_eval p law hn hlen hks hk hs hf]
    have h1 : n ≠ s.nextNonceExpected := fun h => hdel ⟨hnD, .inl ((hD.isNext hw hnD).mp h)⟩
    have h2 : s.orphanNonces.card ≥ MAX_ORPHAN_NONCES := by
      by_contra hc
      refine hdel ⟨hnD, .inr ?_⟩
      rw [hD.pending hw]
      unfold MAX_ORPHAN_NONCES at hc
      omega
    have : s.updateNonces env n = ({ s with status := .fail }, .err .tooManyUnorderedMsgs) := by
      unfold Layer.updateNonces
      rw [if_neg h1, if_pos h2]
    rw [this]

end

/-! ### permutations -/

/-- Every message of a sequence is deliverable after the ones before it. -/
def Flow : List Nat → List Nat → Prop
  | _, [] => True
  | D, n :: l => Deliverable D n ∧ Flow (D ++ [n]) l

theorem takeWhile_ne_append {l1 l2 : List Nat} {m : Nat} (h : m ∉ l1) :
    (l1 ++ l2).takeWhile (· ≠ m) = l1 ++ l2.takeWhile (· ≠ m) := by
  apply List.takeWhile_append_of_pos
  intro a ha
  simp only [ne_eq, decide_not, Bool.not_eq_true', decide_eq_false_iff_not]
  rintro rfl
  exact h ha

/-- What has arrived, and the part of it that overtook `m`. -/
theorem overtakers_append {l1 l2 : List Nat} {m : Nat} (h : m ∉ l1) :
    overtakers (l1 ++ l2) m = l1.filter (m < ·) ++ overtakers l2 m := by
  unfold overtakers
  rw [takeWhile_ne_append h, List.filter_append]

theorem pending_eq {D : List Nat} {e : Nat} (h1 : e ∉ D) (h2 : ∀ m < e, m ∈ D) :
    pending D = D.filter (e < ·) := by
  unfold pending
  apply List.filter_congr
  intro m hm
  simp only [decide_eq_decide]
  constructor
  · rintro ⟨l, hl, hlD⟩
    by_contra hc
    exact hlD (h2 l (by omega))
  · intro h
    exact ⟨e, h, h1⟩

theorem mem_le_sum {D : List Nat} {a : Nat} (h : a ∈ D) : a ≤ D.sum := by
  induction D with
  | nil => simp at h
  | cons x D ih =>
    rw [List.sum_cons]
    rcases List.mem_cons.mp h with rfl | h
    · omega
    · have := ih h; omega

/-- The smallest number that is not in a list. -/
theorem exists_least_missing (D : List Nat) : ∃ e, e ∉ D ∧ ∀ m < e, m ∈ D := by
  have : ∃ e, e ∉ D := ⟨D.sum + 1, fun h => by have := mem_le_sum h; omega⟩
  classical
  refine ⟨Nat.find this, Nat.find_spec this, ?_⟩
  intro m hm
  by_contra hc
  exact Nat.find_min this hm hc

/-- A sequence flows through iff no number is overtaken by more than 10000. -/
theorem flow_iff (D l : List Nat) (hnd : (D ++ l).Nodup)
    (hD : ∀ m, m ∉ D → (D.filter (m < ·)).length ≤ 10000) :
    Flow D l ↔ ∀ m, m ∉ D → (overtakers (D ++ l) m).length ≤ 10000 := by
  induction l generalizing D with
  | nil =>
    simp only [Flow, List.append_nil, true_iff]
    intro m hm
    have := overtakers_append (l2 := []) hm
    simp only [List.append_nil] at this
    rw [this]
    simpa [overtakers] using hD m hm
  | cons n l ih =>
    have hnD : n ∉ D := by
      intro h
      exact (List.nodup_append.mp hnd).2.2 n h n (by simp) rfl
    have he : D ++ n :: l = (D ++ [n]) ++ l := by simp
    have hstep : Deliverable D n ↔ ∀ m, m ∉ D ++ [n] → ((D ++ [n]).filter (m < ·)).length ≤ 10000 := by
      obtain ⟨e, h1, h2⟩ := exists_least_missing D
      unfold Deliverable
      rw [pending_eq h1 h2]
      constructor
      · rintro ⟨-, h | h⟩ m hm
        · simp only [List.mem_append, List.mem_singleton, not_or] at hm
          have : ¬ m < n := fun hc => hm.1 (h m hc)
          rw [List.filter_append]
          simpa [this] using hD m hm.1
        · simp only [List.mem_append, List.mem_singleton, not_or] at hm
          have hle : e ≤ m := by
            by_contra hc
            exact hm.1 (h2 m (by omega))
          have hsub : (D.filter (m < ·)).length ≤ (D.filter (e < ·)).length := by
            apply List.Sublist.length_le
            apply List.monotone_filter_right
            intro a ha
            simp only [decide_eq_true_eq] at *
            omega
          rw [List.filter_append, List.length_append]
          have : ([n].filter (m < ·)).length ≤ 1 := List.length_filter_le _ _
          omega
      · intro h
        refine ⟨hnD, ?_⟩
        by_cases hen : e = n
        · left; rw [← hen]; exact h2
        · right
          have := h e (by simp [h1, hen])
          have hlt : e < n := by
            by_contra hc
            exact hnD (h2 n (by omega))
          rw [List.filter_append, List.length_append] at this
          simp [hlt] at this
          omega
    simp only [Flow]
    constructor
    · rintro ⟨hd, hf⟩ m hm
      by_cases hmn : m = n
      · subst hmn
        rw [overtakers_append hm]
        simpa [overtakers] using hD m hm
      · rw [he]
        exact (ih (D ++ [n]) (he ▸ hnd) (hstep.mp hd)).mp hf m (by simp [hm, hmn])
    · intro h
      have hd : Deliverable D n := by
        rw [hstep]
        intro m hm
        have := h m (by simp at hm; exact hm.1)
        rw [he, overtakers_append hm, List.length_append] at this
        omega
      refine ⟨hd, (ih (D ++ [n]) (he ▸ hnd) (hstep.mp hd)).mpr ?_⟩
      intro m hm
      rw [← he]
      exact h m (by simp at hm; exact hm.1)

end Pkstl

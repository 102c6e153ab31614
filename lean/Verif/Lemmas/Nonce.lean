import Verif.Lemmas.Codec
/- The sequence number window. -/
namespace Pkstl

/-- Numbers the layer treats as already received. -/
def Layer.seen (s : Layer) (m : Nat) : Prop := m < s.nextNonceExpected ∨ m ∈ s.orphanNonces

/-- The window is well formed. -/
structure WinOk (s : Layer) : Prop where
  exp : s.nextNonceExpected < u64Size
  orph : ∀ m ∈ s.orphanNonces, s.nextNonceExpected < m ∧ m < u64Size
  card : s.orphanNonces.card ≤ 10000

theorem advance_spec (oc : Bool) (O : Finset Nat) (n : Nat) (hn : n < u64Size)
    (hO : ∀ m ∈ O, n ≤ m ∧ m < u64Size) :
    (∃ O' n', Layer.advance oc O n = (O', n', .ok ()) ∧ n ≤ n' ∧ n' < u64Size ∧
      (∀ m ∈ O', n' < m ∧ m < u64Size) ∧ (∀ m, m < n' ∨ m ∈ O' ↔ m < n ∨ m ∈ O) ∧
      n' + O'.card = n + O.card) ∨
    (oc = false ∧ Layer.advance oc O n = (∅, 0, .ok ()) ∧ n + O.card = u64Size ∧
      ∀ m, m < u64Size → m < n ∨ m ∈ O) ∨
    (oc = true ∧ Layer.advance oc O n = (∅, u64Size - 1, .panic .overflow) ∧ n + O.card = u64Size ∧
      ∀ m, m < u64Size → m < n ∨ m ∈ O) := by
  induction hc : O.card generalizing O n with
  | zero =>
    have : O = ∅ := Finset.card_eq_zero.mp hc
    subst this
    left
    exact ⟨∅, n, by rw [Layer.advance]; simp, le_refl _, hn, by simp, by simp, by simp⟩
  | succ c ih =>
    by_cases hmem : n ∈ O
    swap
    · left
      refine ⟨O, n, by rw [Layer.advance]; simp [hmem], le_refl _, hn, ?_, by simp, by omega⟩
      intro m hm
      have := hO m hm
      exact ⟨lt_of_le_of_ne this.1 (by rintro rfl; exact hmem hm), this.2⟩
    · have hcard : (O.erase n).card = c := by rw [Finset.card_erase_of_mem hmem]; omega
      by_cases hov : n + 1 < u64Size
      · have hadd : addU64 oc n 1 = some (n + 1) := addU64_of_lt hov
        have hstep : Layer.advance oc O n = Layer.advance oc (O.erase n) (n + 1) := by
          rw [Layer.advance]; simp [hmem, hadd]
        have hO' : ∀ m ∈ O.erase n, n + 1 ≤ m ∧ m < u64Size := by
          intro m hm
          have h1 := Finset.mem_erase.mp hm
          have := hO m h1.2
          have := h1.1
          omega
        have hiff : ∀ m, (m < n + 1 ∨ m ∈ O.erase n) ↔ (m < n ∨ m ∈ O) := by
          intro m
          rw [Finset.mem_erase]
          constructor
          · rintro (h | h)
            · rcases Nat.lt_succ_iff_lt_or_eq.mp h with h | rfl
              · exact .inl h
              · exact .inr hmem
            · exact .inr h.2
          · rintro (h | h)
            · exact .inl (by omega)
            · by_cases h2 : m = n
              · exact .inl (by omega)
              · exact .inr ⟨h2, h⟩
        rw [hstep]
        rcases ih (O.erase n) (n + 1) hov hO' hcard with
          ⟨O', n', he, h1, h2, h3, h4, h5⟩ | ⟨h1, h2, h3, h4⟩ | ⟨h1, h2, h3, h4⟩
        · left
          exact ⟨O', n', he, by omega, h2, h3, fun m => (h4 m).trans (hiff m), by omega⟩
        · right; left
          exact ⟨h1, h2, by omega, fun m hm => (hiff m).mp (h4 m hm)⟩
        · right; right
          exact ⟨h1, h2, by omega, fun m hm => (hiff m).mp (h4 m hm)⟩
      · have hn1 : n = u64Size - 1 := by omega
        have hOs : O = {n} := by
          ext m
          rw [Finset.mem_singleton]
          constructor
          · intro hm; have := hO m hm; omega
          · rintro rfl; exact hmem
        have hall : ∀ m, m < u64Size → m < n ∨ m ∈ O := by
          intro m hm
          by_cases h : m = n
          · subst h; exact .inr hmem
          · left; omega
        have hc1 : n + (c + 1) = u64Size := by
          rw [hOs] at hc; simp at hc; omega
        cases oc with
        | false =>
          right; left
          refine ⟨rfl, ?_, hc1, hall⟩
          have hadd : addU64 false n 1 = some 0 := by
            have : n + 1 = u64Size := by omega
            simp [addU64, this]
          rw [Layer.advance]
          simp only [hmem, dite_true, hadd]
          rw [hOs]
          rw [Layer.advance]; simp
        | true =>
          right; right
          refine ⟨rfl, ?_, hc1, hall⟩
          have hadd : addU64 true n 1 = none := by simp [addU64, hov]
          rw [Layer.advance]
          simp only [hmem, dite_true, hadd]
          rw [hOs]
          simp [← hn1]

/-- Outcomes of the bookkeeping for a fresh number. -/
theorem updateNonces_spec (env : Env) (s : Layer) (n : Nat) (hw : WinOk s) (hn : n < u64Size)
    (hfresh : ¬ s.seen n) :
    (∃ O' n', s.updateNonces env n = ({ s with nextNonceExpected := n', orphanNonces := O' }, .ok ()) ∧
      WinOk { s with nextNonceExpected := n', orphanNonces := O' } ∧
      (∀ m, m < n' ∨ m ∈ O' ↔ s.seen m ∨ m = n) ∧
      n' + O'.card = s.nextNonceExpected + s.orphanNonces.card + 1) ∨
    (env.overflowChecks = false ∧
      s.updateNonces env n = ({ s with nextNonceExpected := 0, orphanNonces := ∅ }, .ok ()) ∧
      s.nextNonceExpected + s.orphanNonces.card + 1 = u64Size ∧
      ∀ m, m < u64Size → s.seen m ∨ m = n) ∨
    (env.overflowChecks = true ∧
      s.updateNonces env n =
        ({ s with nextNonceExpected := u64Size - 1, orphanNonces := ∅ }, .panic .overflow) ∧
      s.nextNonceExpected + s.orphanNonces.card + 1 = u64Size ∧
      ∀ m, m < u64Size → s.seen m ∨ m = n) ∨
    (n ≠ s.nextNonceExpected ∧ s.orphanNonces.card = 10000 ∧
      s.updateNonces env n = ({ s with status := .fail }, .err .tooManyUnorderedMsgs)) := by
  unfold Layer.seen at *
  push Not at hfresh
  obtain ⟨hge, hnot⟩ := hfresh
  unfold Layer.updateNonces
  by_cases hne : n = s.nextNonceExpected
  · subst hne
    simp only [if_true]
    by_cases hov : s.nextNonceExpected + 1 < u64Size
    · rw [addU64_of_lt hov]
      dsimp only
      have hiff : ∀ m, (m < s.nextNonceExpected + 1 ∨ m ∈ s.orphanNonces) ↔
          ((m < s.nextNonceExpected ∨ m ∈ s.orphanNonces) ∨ m = s.nextNonceExpected) := by
        intro m; rw [Nat.lt_succ_iff_lt_or_eq]; tauto
      rcases advance_spec env.overflowChecks s.orphanNonces (s.nextNonceExpected + 1) hov
          (fun m hm => by have := hw.orph m hm; omega) with
        ⟨O', n', he, h1, h2, h3, h4, h5⟩ | ⟨h1, h2, h3, h4⟩ | ⟨h1, h2, h3, h4⟩
      · left
        refine ⟨O', n', by rw [he], ⟨h2, h3, ?_⟩, fun m => (h4 m).trans (hiff m), by omega⟩
        have := hw.card
        show O'.card ≤ 10000
        omega
      · right; left
        exact ⟨h1, by rw [h2], by omega, fun m hm => (hiff m).mp (h4 m hm)⟩
      · right; right; left
        exact ⟨h1, by rw [h2], by omega, fun m hm => (hiff m).mp (h4 m hm)⟩
    · have hO : s.orphanNonces = ∅ := by
        rw [Finset.eq_empty_iff_forall_notMem]
        intro m hm; have := hw.orph m hm; omega
      have hexp : s.nextNonceExpected + 1 = u64Size := by have := hw.exp; omega
      have hall : ∀ m, m < u64Size →
          (m < s.nextNonceExpected ∨ m ∈ s.orphanNonces) ∨ m = s.nextNonceExpected := by
        intro m hm
        by_cases h : m = s.nextNonceExpected
        · exact .inr h
        · left; left; omega
      cases hoc : env.overflowChecks with
      | false =>
        right; left
        refine ⟨rfl, ?_, by rw [hO]; simpa using hexp, hall⟩
        have : addU64 false s.nextNonceExpected 1 = some 0 := by simp [addU64, hexp]
        rw [this]
        dsimp only
        rw [hO, Layer.advance]
        simp
      | true =>
        right; right; left
        refine ⟨rfl, ?_, by rw [hO]; simpa using hexp, hall⟩
        have : addU64 true s.nextNonceExpected 1 = none := by simp [addU64, hov]
        rw [this]
        dsimp only
        have : u64Size - 1 = s.nextNonceExpected := by omega
        rw [this]
        cases s
        simp_all
  · simp only [hne, if_false]
    by_cases hc : s.orphanNonces.card ≥ MAX_ORPHAN_NONCES
    · simp only [hc, if_true]
      right; right; right
      have := hw.card
      unfold MAX_ORPHAN_NONCES at hc
      exact ⟨hne, by omega, trivial⟩
    · simp only [hc, if_false]
      left
      unfold MAX_ORPHAN_NONCES at hc
      have hcard : (insert n s.orphanNonces).card = s.orphanNonces.card + 1 :=
        Finset.card_insert_of_notMem hnot
      refine ⟨insert n s.orphanNonces, s.nextNonceExpected, rfl, ⟨hw.exp, ?_, ?_⟩, ?_, ?_⟩
      · intro m hm
        rcases Finset.mem_insert.mp hm with rfl | hm
        · exact ⟨by show s.nextNonceExpected < _; omega, hn⟩
        · exact hw.orph m hm
      · show (insert n s.orphanNonces).card ≤ 10000
        omega
      · intro m
        rw [Finset.mem_insert]; tauto
      · omega

/-- The bookkeeping touches only the window and, on error, the status. -/
theorem updateNonces_frame (env : Env) (s : Layer) (n : Nat) :
    ∃ O' n' st, (s.updateNonces env n).1 =
        { s with nextNonceExpected := n', orphanNonces := O', status := st } ∧
      (st = s.status ∨ st = .fail) ∧
      ((s.updateNonces env n).2 = .ok () → st = s.status) ∧
      ((∃ p, (s.updateNonces env n).2 = .panic p) → st = s.status) ∧
      (∀ e, (s.updateNonces env n).2 = .err e → e = .tooManyUnorderedMsgs ∧ st = .fail) := by
  unfold Layer.updateNonces
  split
  · split
    · exact ⟨s.orphanNonces, s.nextNonceExpected, s.status, rfl, .inl rfl, by simp, by simp, by simp⟩
    · rename_i k hk
      clear hk
      rcases h : Layer.advance env.overflowChecks s.orphanNonces k with ⟨O', n', r⟩
      refine ⟨O', n', s.status, rfl, .inl rfl, by simp, by simp, ?_⟩
      intro e he
      exfalso
      simp only at he
      subst he
      revert h
      generalize s.orphanNonces = O
      generalize env.overflowChecks = oc
      induction hc : O.card using Nat.strong_induction_on generalizing O k with
      | _ c ih =>
        intro h
        rw [Layer.advance] at h
        split at h
        · rename_i hm
          split at h
          · simp at h
          · exact ih _ (hc ▸ Finset.card_erase_lt_of_mem hm) _ _ rfl h
        · simp at h
  · split
    · exact ⟨s.orphanNonces, s.nextNonceExpected, .fail, rfl, .inr rfl, by simp, by simp, by simp⟩
    · exact ⟨insert n s.orphanNonces, s.nextNonceExpected, s.status, rfl, .inl rfl, by simp, by simp,
        by simp⟩

end Pkstl

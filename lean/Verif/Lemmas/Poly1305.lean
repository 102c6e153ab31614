import Mathlib.Algebra.Polynomial.Roots
import Mathlib.Data.ZMod.Basic
import Mathlib.Tactic.LinearCombination
import Verif.Lemmas.Poly1305Prime
import Verif.Spec.Poly1305
/- Tags of Poly1305 as values of polynomials. -/
namespace Pkstl
open Spec Polynomial

instance : Fact (Nat.Prime p1305) := ⟨prime_p1305⟩

/-! ## Little-endian numbers -/

theorem leBytes_length (n x : Nat) : (leBytes n x).length = n := by
  induction n generalizing x with
  | zero => rfl
  | succ n ih => simp [leBytes, ih]

theorem leNat_lt (b : Bytes) : leNat b < 256 ^ b.length := by
  induction b with
  | nil => simp [leNat]
  | cons a b ih =>
    have := a.toNat_lt
    simp only [leNat, List.length_cons, pow_succ]
    omega

theorem leNat_inj {a b : Bytes} (hl : a.length = b.length) (h : leNat a = leNat b) : a = b := by
  induction a generalizing b with
  | nil => cases b with
    | nil => rfl
    | cons => simp at hl
  | cons x a ih => cases b with
    | nil => simp at hl
    | cons y b =>
      simp only [leNat] at h
      have h1 := x.toNat_lt
      have h2 := y.toNat_lt
      have h3 : x.toNat = y.toNat := by omega
      have h4 : leNat a = leNat b := by omega
      rw [UInt8.toNat_inj.mp h3, ih (by simpa using hl) h4]

theorem leNat_leBytes (n x : Nat) : leNat (leBytes n x) = x % 256 ^ n := by
  induction n generalizing x with
  | zero => simp [leBytes, leNat, Nat.mod_one]
  | succ n ih =>
    simp only [leBytes, leNat, ih]
    rw [UInt8.toNat_ofNat_of_lt' (by simpa using Nat.mod_lt x (by decide : 256 > 0)), pow_succ, Nat.mul_comm (256 ^ n) 256, Nat.mod_mul]

theorem leBytes_leNat (b : Bytes) : leBytes b.length (leNat b) = b :=
  leNat_inj (leBytes_length ..) (by rw [leNat_leBytes, Nat.mod_eq_of_lt (leNat_lt b)])

theorem leBytes_inj {n x y : Nat} (h : leBytes n x = leBytes n y) : x % 256 ^ n = y % 256 ^ n := by
  rw [← leNat_leBytes, ← leNat_leBytes, h]

theorem leBytes_mod (n x : Nat) : leBytes n (x % 256 ^ n) = leBytes n x :=
  leNat_inj (by simp [leBytes_length]) (by simp [leNat_leBytes])

/-! ## Blocks -/

theorem polyBlocks_length (b : Bytes) : (polyBlocks b).length = (b.length + 15) / 16 := by simp [polyBlocks]

theorem polyBlocks_bound {b : Bytes} {c : Nat} (h : c ∈ polyBlocks b) : 0 < c ∧ c < p1305 := by
  simp only [polyBlocks, List.mem_map] at h
  obtain ⟨i, -, rfl⟩ := h
  generalize hx : (b.drop (16 * i)).take 16 = x
  have h1 := leNat_lt x
  have h2 : x.length ≤ 16 := by rw [← hx, List.length_take]; omega
  have h3 : 256 ^ x.length ≤ 256 ^ 16 := Nat.pow_le_pow_right (by decide) h2
  have h4 : 0 < 256 ^ x.length := by positivity
  norm_num at h3 ⊢
  omega

theorem polyBlocks_append {a b : Bytes} {n : Nat} (h : a.length = 16 * n) :
    polyBlocks (a ++ b) = polyBlocks a ++ polyBlocks b := by
  have e1 : ((a ++ b).length + 15) / 16 = n + (b.length + 15) / 16 := by simp [h]; omega
  have e2 : (a.length + 15) / 16 = n := by rw [h]; omega
  unfold polyBlocks
  rw [e1, e2, List.range_add, List.map_append, List.map_map]
  congr 1
  · apply List.map_congr_left
    intro i hi
    have hi : i < n := List.mem_range.mp hi
    rw [List.drop_append_of_le_length (by omega), List.take_append_of_le_length (by simp; omega)]
  · apply List.map_congr_left
    intro i hi
    simp only [Function.comp]
    rw [List.drop_append, List.drop_eq_nil_of_le (by omega), List.nil_append, h]
    rw [show 16 * (n + i) - 16 * n = 16 * i by omega]

/-- The blocks of texts that consist of full blocks determine the text. -/
theorem polyBlocks_inj {a b : Bytes} {n m : Nat} (ha : a.length = 16 * n) (hb : b.length = 16 * m)
    (h : polyBlocks a = polyBlocks b) : a = b := by
  have hn : n = m := by
    have := congrArg List.length h
    rw [polyBlocks_length, polyBlocks_length] at this
    omega
  subst hn
  apply List.ext_getElem?
  intro j
  have hj := Nat.div_add_mod j 16
  have hj2 := Nat.mod_lt j (by decide : 16 > 0)
  generalize j / 16 = i at *
  generalize j % 16 = l at *
  by_cases hi : i < n
  · have e := congrArg (fun x => x[i]?) h
    simp only [polyBlocks, List.getElem?_map] at e
    rw [List.getElem?_range (by omega), List.getElem?_range (by omega)] at e
    simp only [Option.map_some, Option.some.injEq] at e
    have l1 : ((a.drop (16 * i)).take 16).length = 16 := by simp; omega
    have l2 : ((b.drop (16 * i)).take 16).length = 16 := by simp; omega
    rw [l1, l2, Nat.add_right_cancel_iff] at e
    have e := leNat_inj (l1.trans l2.symm) e
    have e := congrArg (fun x => x[l]?) e
    simpa [List.getElem?_take, hj2, List.getElem?_drop, hj] using e
  · rw [List.getElem?_eq_none (by omega), List.getElem?_eq_none (by omega)]

/-! ## The text that is authenticated -/

theorem pad16_length (b : Bytes) : (pad16 b).length = 16 * ((b.length + 15) / 16) := by simp [pad16]; omega

/-- The part of the text behind the associated data. -/
def Spec.tail16 (aadLen : Nat) (ct : Bytes) : Bytes := pad16 ct ++ (leBytes 8 aadLen ++ leBytes 8 ct.length)

theorem aeadText_eq (aad ct : Bytes) : aeadText aad ct = pad16 aad ++ tail16 aad.length ct := by simp [aeadText, tail16]

theorem tail16_length (n : Nat) (ct : Bytes) : (tail16 n ct).length = 16 * ((ct.length + 15) / 16 + 1) := by
  simp [tail16, pad16_length, leBytes_length]; omega

theorem tail16_inj {n : Nat} {a b : Bytes} (ha : a.length < 2 ^ 64) (hb : b.length < 2 ^ 64) (h : tail16 n a = tail16 n b) : a = b := by
  have hl : a.length = b.length := by
    have h1 := congrArg List.reverse h
    simp only [tail16, List.reverse_append, ← List.append_assoc] at h1
    have h2 := List.append_inj_left (List.append_inj_left (by simpa [List.append_assoc] using h1 :
      ((leBytes 8 a.length).reverse ++ (leBytes 8 n).reverse) ++ (pad16 a).reverse =
      ((leBytes 8 b.length).reverse ++ (leBytes 8 n).reverse) ++ (pad16 b).reverse) (by simp [leBytes_length]))
      (by simp [leBytes_length])
    have h3 := leBytes_inj (List.reverse_inj.mp h2)
    norm_num at h3 ha hb
    rwa [Nat.mod_eq_of_lt ha, Nat.mod_eq_of_lt hb] at h3
  have h1 : pad16 a = pad16 b := List.append_inj_left h (by rw [pad16_length, pad16_length, hl])
  exact List.append_inj_left h1 hl

/-! ## The accumulator is the value of a polynomial -/

/-- The polynomial with the blocks as coefficients. -/
noncomputable def polyOf (cs : List Nat) : (ZMod p1305)[X] := cs.foldl (fun q c => (q + C (c : ZMod p1305)) * X) 0

theorem polyOf_snoc (cs : List Nat) (c : Nat) : polyOf (cs ++ [c]) = (polyOf cs + C (c : ZMod p1305)) * X := by
  simp [polyOf, List.foldl_append]

theorem polyAcc_lt (r : Nat) (cs : List Nat) : polyAcc r cs < p1305 := by
  rcases cs.eq_nil_or_concat with rfl | ⟨cs, c, rfl⟩
  · show 0 < p1305
    decide
  · simp only [polyAcc, List.concat_eq_append, List.foldl_append, List.foldl_cons, List.foldl_nil]
    exact Nat.mod_lt _ (by decide)

theorem polyAcc_eval (r : Nat) (cs : List Nat) : (polyAcc r cs : ZMod p1305) = (polyOf cs).eval (r : ZMod p1305) := by
  induction cs using List.reverseRecOn with
  | nil => simp [polyAcc, polyOf]
  | append_singleton cs c ih =>
    rw [polyOf_snoc, eval_mul, eval_add, eval_C, eval_X, ← ih]
    simp only [polyAcc, List.foldl_append, List.foldl_cons, List.foldl_nil, ZMod.natCast_mod, Nat.cast_mul, Nat.cast_add]

theorem polyOf_degree (cs : List Nat) : (polyOf cs).natDegree ≤ cs.length := by
  induction cs using List.reverseRecOn with
  | nil => simp [polyOf]
  | append_singleton cs c ih =>
    rw [polyOf_snoc, List.length_append]
    refine natDegree_mul_le.trans ?_
    have : (polyOf cs + C (c : ZMod p1305)).natDegree ≤ cs.length := natDegree_add_le_of_degree_le ih (by simp)
    simp only [natDegree_X, List.length_singleton]
    omega

theorem polyOf_zero (cs : List Nat) : (polyOf cs).coeff 0 = 0 := by
  rcases cs.eq_nil_or_concat with rfl | ⟨cs, c, rfl⟩
  · simp [polyOf]
  · rw [List.concat_eq_append, polyOf_snoc]; simp

theorem polyOf_cons (c : Nat) (cs : List Nat) : polyOf (c :: cs) = C (c : ZMod p1305) * X ^ (cs.length + 1) + polyOf cs := by
  induction cs using List.reverseRecOn with
  | nil => simp [polyOf]
  | append_singleton cs d ih =>
    rw [← List.cons_append, polyOf_snoc, polyOf_snoc, ih, List.length_append]
    simp only [List.length_singleton]
    ring

/-- Different lists of blocks have different polynomials. -/
theorem polyOf_inj {cs ds : List Nat} (hc : ∀ c ∈ cs, 0 < c ∧ c < p1305) (hd : ∀ c ∈ ds, 0 < c ∧ c < p1305)
    (h : polyOf cs = polyOf ds) : cs = ds := by
  have inj : ∀ {a b : Nat}, a < p1305 → b < p1305 → (a : ZMod p1305) = b → a = b := by
    intro a b ha hb hab
    rw [ZMod.natCast_eq_natCast_iff, Nat.ModEq, Nat.mod_eq_of_lt ha, Nat.mod_eq_of_lt hb] at hab
    exact hab
  have ne : ∀ (cs : List Nat) (c : Nat), (0 < c ∧ c < p1305) → polyOf (cs ++ [c]) ≠ 0 := by
    intro cs c hc h0
    rw [polyOf_snoc] at h0
    rcases mul_eq_zero.mp h0 with h0 | h0
    · have := congrArg (fun q => q.coeff 0) h0
      simp only [coeff_add, polyOf_zero, coeff_C_zero, zero_add, coeff_zero] at this
      have := inj hc.2 (by decide) (this.trans Nat.cast_zero.symm)
      omega
    · exact X_ne_zero h0
  induction cs using List.reverseRecOn generalizing ds with
  | nil =>
    rcases ds.eq_nil_or_concat with rfl | ⟨ds, d, rfl⟩
    · rfl
    · rw [List.concat_eq_append] at h hd
      exact absurd h.symm (by simpa [polyOf] using ne ds d (hd d (by simp)))
  | append_singleton cs c ih =>
    rcases ds.eq_nil_or_concat with rfl | ⟨ds, d, rfl⟩
    · exact absurd h (by simpa [polyOf] using ne cs c (hc c (by simp)))
    · rw [List.concat_eq_append] at h hd ⊢
      rw [polyOf_snoc, polyOf_snoc] at h
      have h1 := mul_right_cancel₀ X_ne_zero h
      have h2 := congrArg (fun q => q.coeff 0) h1
      simp only [coeff_add, polyOf_zero, coeff_C_zero, zero_add] at h2
      have h3 := inj (hc c (by simp)).2 (hd d (by simp)).2 h2
      subst h3
      rw [ih (fun x hx => hc x (by simp [hx])) (fun x hx => hd x (by simp [hx])) (add_right_cancel h1)]

/-! ## Two tags under one key -/

/-- Candidates for the first half of the one-time key, from the polynomials and the tags of two texts. -/
noncomputable def Spec.rCandidates (q : (ZMod p1305)[X]) (t t' : Nat) : Finset (ZMod p1305) :=
  (Finset.range 8).biUnion fun j => (q - C ((((t : ℤ) - t') % 2 ^ 128 + ((j : ℤ) - 4) * 2 ^ 128 : ℤ) : ZMod p1305)).roots.toFinset

theorem rCandidates_card {q : (ZMod p1305)[X]} {n : Nat} (hq : q.natDegree ≤ n) (t t' : Nat) : (rCandidates q t t').card ≤ 8 * n := by
  refine Finset.card_biUnion_le.trans ?_
  refine (Finset.sum_le_card_nsmul _ _ n fun j _ => ?_).trans (by simp)
  refine (Multiset.toFinset_card_le _).trans ((card_roots' _).trans ?_)
  generalize (((((t : ℤ) - t') % 2 ^ 128 + ((j : ℤ) - 4) * 2 ^ 128 : ℤ) : ZMod p1305)) = x
  rw [natDegree_sub_C]
  exact hq

/-- The right one is among them. -/
theorem rCandidates_mem {q : (ZMod p1305)[X]} (hq : q ≠ 0) (h0 : q.coeff 0 = 0) {r a b s t t' : Nat} (ha : a < p1305) (hb : b < p1305)
    (hab : (a : ZMod p1305) - b = q.eval (r : ZMod p1305)) (ht : t % 2 ^ 128 = (a + s) % 2 ^ 128)
    (ht' : t' % 2 ^ 128 = (b + s) % 2 ^ 128) : (r : ZMod p1305) ∈ rCandidates q t t' := by
  obtain ⟨j, hj, hj2⟩ : ∃ j : Nat, j < 8 ∧ (a : ℤ) - b = ((t : ℤ) - t') % 2 ^ 128 + ((j : ℤ) - 4) * 2 ^ 128 := by
    norm_num [p1305] at ha hb ht ht'
    refine ⟨(((a : ℤ) - b - ((t : ℤ) - t') % 2 ^ 128) / 2 ^ 128 + 4).toNat, ?_, ?_⟩ <;> norm_num <;> omega
  unfold rCandidates
  simp only [Finset.mem_biUnion, Finset.mem_range, Multiset.mem_toFinset]
  refine ⟨j, hj, ?_⟩
  rw [mem_roots', ← hj2]
  constructor
  · intro hz
    rw [sub_eq_zero] at hz
    have := congrArg (fun q => q.coeff 0) hz
    simp only [h0, coeff_C_zero] at this
    rw [← this] at hz
    simp at hz
    exact hq hz
  · simp only [IsRoot, eval_sub, eval_C, ← hab]
    push_cast
    ring

end Pkstl

import Mathlib.NumberTheory.LucasPrimality
import Mathlib.Tactic.NormNum.Prime
/- The modulus of Poly1305 is prime. -/
namespace Pkstl


/-- `a ^ e` modulo `m` by repeated squaring; `n` bounds the number of binary digits of `e`. -/
def powMod (m a : Nat) : Nat → Nat → Nat
  | 0, _ => 1 % m
  | n + 1, e => (fun x => if e % 2 = 0 then x * x % m else x * x % m * a % m) (powMod m a n (e / 2))

theorem powMod_eq (m a n e : Nat) (h : e < 2 ^ n) : powMod m a n e = a ^ e % m := by
  induction n generalizing e with
  | zero => obtain rfl : e = 0 := by simpa using h
            simp [powMod]
  | succ n ih =>
    have h2 := ih (e / 2) (by rw [pow_succ] at h; omega)
    simp only [powMod, h2]
    split
    · next he =>
      rw [← Nat.mul_mod, ← pow_add]
      congr 2; omega
    · next he =>
      rw [← Nat.mul_mod, ← pow_add, Nat.mod_mul_mod, ← pow_succ]
      congr 2; omega

/-- A primality certificate: the prime factors of `p - 1` and an element of order `p - 1`. -/
theorem pratt {p a n : Nat} (fs : List Nat) (hf : ∀ q ∈ fs, q.Prime) (hp : fs.prod = p - 1)
    (h : 1 < p ∧ p < 2 ^ n ∧ powMod p a n (p - 1) = 1 ∧ ∀ q ∈ fs, powMod p a n ((p - 1) / q) ≠ 1) : p.Prime := by
  obtain ⟨h0, hn, h1, h2⟩ := h
  have e1 : ∀ e, e < 2 ^ n → ((a : ZMod p) ^ e = 1 ↔ powMod p a n e = 1) := by
    intro e he
    rw [powMod_eq _ _ _ _ he, ← Nat.cast_one, ← Nat.cast_pow, ZMod.natCast_eq_natCast_iff, Nat.ModEq, Nat.mod_eq_of_lt h0]
  refine lucas_primality p (a : ZMod p) ((e1 _ (by omega)).mpr h1) fun q hq hd => ?_
  have hq' : q ∈ fs := by
    rw [← hp, hq.prime.dvd_prod_iff] at hd
    obtain ⟨r, hr, hqr⟩ := hd
    rw [(Nat.prime_dvd_prime_iff_eq hq (hf r hr)).mp hqr]
    exact hr
  intro hc
  exact h2 q hq' ((e1 _ (by have := Nat.div_le_self (p - 1) q; omega)).mp hc)

theorem prime_a : Nat.Prime 3134801 := by norm_num
theorem prime_b : Nat.Prime 32985101 := by norm_num
theorem prime_c : Nat.Prime 4024685905107147541 :=
  pratt (a := 2) (n := 62) [2, 2, 3, 3, 5, 13, 43, 4889, 37003, 221101]
    (by simp only [List.mem_cons, List.not_mem_nil, or_false]; rintro q (rfl | rfl | rfl | rfl | rfl | rfl | rfl | rfl | rfl | rfl) <;> norm_num)
    (by decide +kernel) (by decide +kernel)
theorem prime_d : Nat.Prime 897064739519922787230182993783 :=
  pratt (a := 5) (n := 100) [2, 73, 487, 3134801, 4024685905107147541]
    (by
      simp only [List.mem_cons, List.not_mem_nil, or_false]
      rintro q (rfl | rfl | rfl | rfl | rfl)
      · norm_num
      · norm_num
      · norm_num
      · exact prime_a
      · exact prime_c)
    (by decide +kernel) (by decide +kernel)

theorem prime_p1305 : Nat.Prime (2 ^ 130 - 5) :=
  pratt (a := 2) (n := 130) [2, 23, 32985101, 897064739519922787230182993783]
    (by
      simp only [List.mem_cons, List.not_mem_nil, or_false]
      rintro q (rfl | rfl | rfl | rfl)
      · norm_num
      · norm_num
      · exact prime_b
      · exact prime_d)
    (by decide +kernel) (by decide +kernel)

end Pkstl

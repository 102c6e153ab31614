import Verif.Model.Base
/- Facts about big-endian encoding and slices. -/
namespace Pkstl

@[simp] theorem beBytes_length (k n : Nat) : (beBytes k n).length = k := by
  induction k with
  | zero => rfl
  | succ k ih => simp [beBytes, ih]

theorem beNat_foldl (b : Bytes) (a : Nat) :
    b.foldl (fun a x => a * 256 + x.toNat) a = a * 256 ^ b.length + beNat b := by
  unfold beNat
  induction b generalizing a with
  | nil => simp
  | cons x xs ih =>
    simp only [List.foldl_cons, List.length_cons]
    rw [ih, ih (0 * 256 + x.toNat)]
    rw [Nat.pow_succ]
    simp [Nat.add_mul, Nat.mul_assoc, Nat.mul_comm 256, Nat.add_assoc]

theorem beNat_cons (x : UInt8) (xs : Bytes) :
    beNat (x :: xs) = x.toNat * 256 ^ xs.length + beNat xs := by
  have := beNat_foldl xs (0 * 256 + x.toNat)
  simp at this
  unfold beNat at *
  simpa using this

theorem beNat_lt (b : Bytes) : beNat b < 256 ^ b.length := by
  induction b with
  | nil => simp [beNat]
  | cons x xs ih =>
    rw [beNat_cons, List.length_cons, Nat.pow_succ]
    have := x.toNat_lt
    have h2 : x.toNat * 256 ^ xs.length ≤ 255 * 256 ^ xs.length := Nat.mul_le_mul_right _ (by omega)
    omega

theorem beNat_beBytes (k n : Nat) : beNat (beBytes k n) = n % 256 ^ k := by
  induction k with
  | zero => simp [beBytes, beNat, Nat.mod_one]
  | succ k ih =>
    rw [beBytes, beNat_cons, ih, beBytes_length, Nat.pow_succ]
    have h1 : (UInt8.ofNat (n / 256 ^ k)).toNat = n / 256 ^ k % 256 := by
      simp [UInt8.toNat_ofNat']
    rw [h1, Nat.mod_mul, Nat.mul_comm, Nat.add_comm]

theorem beNat_beBytes_of_lt {k n : Nat} (h : n < 256 ^ k) : beNat (beBytes k n) = n := by
  rw [beNat_beBytes, Nat.mod_eq_of_lt h]

theorem beBytes_inj {k m n : Nat} (hm : m < 256 ^ k) (hn : n < 256 ^ k)
    (h : beBytes k m = beBytes k n) : m = n := by
  rw [← beNat_beBytes_of_lt hm, ← beNat_beBytes_of_lt hn, h]

theorem beNat_inj {a b : Bytes} (hl : a.length = b.length) (h : beNat a = beNat b) : a = b := by
  induction a generalizing b with
  | nil => cases b <;> simp_all
  | cons x xs ih =>
    cases b with
    | nil => simp at hl
    | cons y ys =>
      simp only [List.length_cons, Nat.add_right_cancel_iff] at hl
      rw [beNat_cons, beNat_cons, hl] at h
      have hx := beNat_lt xs
      have hy := beNat_lt ys
      rw [hl] at hx
      have hpos : 0 < 256 ^ ys.length := Nat.pow_pos (by omega)
      have e1 : (x.toNat * 256 ^ ys.length + beNat xs) / 256 ^ ys.length = x.toNat := by
        rw [Nat.mul_comm, Nat.mul_add_div hpos, Nat.div_eq_of_lt hx]; simp
      have e2 : (y.toNat * 256 ^ ys.length + beNat ys) / 256 ^ ys.length = y.toNat := by
        rw [Nat.mul_comm, Nat.mul_add_div hpos, Nat.div_eq_of_lt hy]; simp
      have hxy : x.toNat = y.toNat := by rw [← e1, ← e2, h]
      have hxy' : x = y := UInt8.toNat_inj.mp hxy
      subst hxy'
      rw [ih hl (by omega)]

theorem beBytes_beNat {k : Nat} {b : Bytes} (h : b.length = k) : beBytes k (beNat b) = b := by
  subst h
  apply beNat_inj (by simp)
  exact beNat_beBytes_of_lt (beNat_lt b)

theorem u64Size_eq : u64Size = 256 ^ 8 := by simp [u64Size]

/-! slices -/

theorem slice_eq_ok {d : Bytes} {a b : Nat} {r : Bytes} :
    slice d a b = .ok r ↔ a ≤ b ∧ b ≤ d.length ∧ r = (d.drop a).take (b - a) := by
  unfold slice; split <;> simp_all [eq_comm]; intros; omega

theorem sliceTo_eq_ok {d : Bytes} {b : Nat} {r : Bytes} :
    sliceTo d b = .ok r ↔ b ≤ d.length ∧ r = d.take b := by
  unfold sliceTo; split <;> simp_all [eq_comm]; intros; omega

theorem sliceFrom_eq_ok {d : Bytes} {a : Nat} {r : Bytes} :
    sliceFrom d a = .ok r ↔ a ≤ d.length ∧ r = d.drop a := by
  unfold sliceFrom; split <;> simp_all [eq_comm]; intros; omega

theorem slice_ne_err {d : Bytes} {a b : Nat} {e : Error} : slice d a b ≠ .err e := by
  unfold slice; split <;> simp
theorem sliceTo_ne_err {d : Bytes} {b : Nat} {e : Error} : sliceTo d b ≠ .err e := by
  unfold sliceTo; split <;> simp
theorem sliceFrom_ne_err {d : Bytes} {b : Nat} {e : Error} : sliceFrom d b ≠ .err e := by
  unfold sliceFrom; split <;> simp

/-- Slicing a concatenation at its joints. -/
theorem slice_append3 (x y z : Bytes) {a b : Nat} (ha : x.length = a) (hb : a + y.length = b) :
    slice (x ++ (y ++ z)) a b = .ok y := by
  subst ha hb
  rw [slice_eq_ok]
  simp

theorem sliceTo_append (x y : Bytes) {a : Nat} (ha : x.length = a) : sliceTo (x ++ y) a = .ok x := by
  subst ha; rw [sliceTo_eq_ok]; simp

theorem sliceFrom_append (x y : Bytes) {a : Nat} (ha : x.length = a) :
    sliceFrom (x ++ y) a = .ok y := by
  subst ha; rw [sliceFrom_eq_ok]; simp

theorem addU64_of_lt {o : Bool} {a b : Nat} (h : a + b < u64Size) : addU64 o a b = some (a + b) := by
  simp [addU64, h]

end Pkstl

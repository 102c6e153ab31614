import Verif.Model.Debug
/- The text of a layer can be read back. -/
namespace Pkstl.Debug

/-- The text does not go on with a digit. -/
def NoDigit (x : List Char) : Prop := ∀ c, x.head? = some c → c.isDigit = false

/-- Where the text of a value ends, and which value it is, can be told from what follows. -/
def Unamb {α : Type} (f : α → List Char) : Prop :=
  ∀ a b x y, NoDigit x → NoDigit y → f a ++ x = f b ++ y → a = b ∧ x = y

theorem noDigit_cons {c : Char} {x : List Char} (h : c.isDigit = false) : NoDigit (c :: x) := by
  intro d hd
  simp only [List.head?_cons, Option.some.injEq] at hd
  exact hd ▸ h

theorem nd_comma {x : List Char} : NoDigit (", ".toList ++ x) := by
  exact noDigit_cons (c := ',') (by decide)

theorem nd_paren {x : List Char} : NoDigit (")".toList ++ x) := by
  exact noDigit_cons (c := ')') (by decide)

theorem nd_end {x : List Char} : NoDigit (" }".toList ++ x) := by
  exact noDigit_cons (c := ' ') (by decide)

theorem takeWhile_digits {l x : List Char} (h : ∀ c ∈ l, c.isDigit = true) (hx : NoDigit x) :
    (l ++ x).takeWhile Char.isDigit = l := by
  induction l with
  | nil =>
    cases x with
    | nil => rfl
    | cons c x => simp [List.takeWhile_cons, hx c rfl]
  | cons c l ih =>
    rw [List.cons_append, List.takeWhile_cons, h c (by simp), if_pos rfl, ih fun c hc => h c (by simp [hc])]

theorem nat_unamb : Unamb nat := by
  intro a b x y hx hy h
  have ha : ∀ c ∈ nat a, c.isDigit = true := fun c hc => Nat.isDigit_of_mem_toDigits (by decide) (by decide) hc
  have hb : ∀ c ∈ nat b, c.isDigit = true := fun c hc => Nat.isDigit_of_mem_toDigits (by decide) (by decide) hc
  have h1 := congrArg (List.takeWhile Char.isDigit) h
  rw [takeWhile_digits ha hx, takeWhile_digits hb hy] at h1
  rw [h1] at h
  refine ⟨?_, List.append_cancel_left h⟩
  have h2 := congrArg (fun l => Nat.ofDigitChars 10 l 0) h1
  simpa only [nat, Nat.ofDigitChars_ten_toDigits] using h2

theorem byte_unamb : Unamb fun x : UInt8 => nat x.toNat := by
  intro a b x y hx hy h
  obtain ⟨h1, h2⟩ := nat_unamb _ _ _ _ hx hy h
  exact ⟨UInt8.toNat_inj.mp h1, h2⟩

theorem nat_ne_cons {n : Nat} {x y : List Char} {c : Char} (hc : c.isDigit = false) : nat n ++ x ≠ c :: y := by
  intro h
  rcases hn : nat n with _ | ⟨d, l⟩
  · exact Nat.toDigits_ne_nil hn
  · rw [hn, List.cons_append, List.cons.injEq] at h
    have := Nat.isDigit_of_mem_toDigits (by decide) (by decide) (show d ∈ Nat.toDigits 10 n by
      rw [show Nat.toDigits 10 n = d :: l from hn]; simp)
    rw [h.1, hc] at this
    exact absurd this (by decide)

theorem items_unamb {l l' : Bytes} {x y : List Char}
    (h : items (fun x : UInt8 => nat x.toNat) l ++ ']' :: x = items (fun x : UInt8 => nat x.toNat) l' ++ ']' :: y) :
    l = l' ∧ x = y := by
  induction l generalizing l' with
  | nil =>
    match l' with
    | [] => exact ⟨rfl, by simpa [items] using h⟩
    | [b] => exact absurd h.symm (nat_ne_cons (by decide))
    | b :: b' :: l' =>
      simp only [items, List.append_assoc, List.nil_append] at h
      exact absurd h.symm (nat_ne_cons (by decide))
  | cons a l ih =>
    match l, l' with
    | [], [] => exact absurd h (nat_ne_cons (by decide))
    | a' :: l, [] =>
      simp only [items, List.append_assoc, List.nil_append] at h
      exact absurd h (nat_ne_cons (by decide))
    | [], [b] =>
      obtain ⟨rfl, h2⟩ := byte_unamb a b _ _ (noDigit_cons (by decide)) (noDigit_cons (by decide)) h
      exact ⟨rfl, by simpa using h2⟩
    | [], b :: b' :: l' =>
      simp only [items, List.append_assoc] at h
      obtain ⟨-, h2⟩ := byte_unamb a b _ _ (noDigit_cons (by decide)) nd_comma h
      simp at h2
    | a' :: l, [b] =>
      simp only [items, List.append_assoc] at h
      obtain ⟨-, h2⟩ := byte_unamb a b _ _ nd_comma (noDigit_cons (by decide)) h
      simp at h2
    | a' :: l, b :: b' :: l' =>
      rw [show items (fun x : UInt8 => nat x.toNat) (a :: a' :: l) =
          nat a.toNat ++ ", ".toList ++ items (fun x : UInt8 => nat x.toNat) (a' :: l) from rfl,
        show items (fun x : UInt8 => nat x.toNat) (b :: b' :: l') =
          nat b.toNat ++ ", ".toList ++ items (fun x : UInt8 => nat x.toNat) (b' :: l') from rfl] at h
      simp only [List.append_assoc] at h
      obtain ⟨rfl, h2⟩ := byte_unamb a b _ _ nd_comma nd_comma h
      obtain ⟨h3, h4⟩ := ih (List.append_cancel_left h2)
      exact ⟨by rw [h3], h4⟩

theorem bytes_unamb : Unamb bytes := by
  intro a b x y _ _ h
  simp only [bytes, seq, List.append_assoc] at h
  exact items_unamb (List.append_cancel_left h)

theorem opt_unamb {α : Type} {f : α → List Char} (hf : Unamb f) : Unamb (opt f) := by
  intro a b x y _ _ h
  cases a with
  | none =>
    cases b with
    | none => exact ⟨rfl, List.append_cancel_left h⟩
    | some b => simp [opt] at h
  | some a =>
    cases b with
    | none => simp [opt] at h
    | some b =>
      simp only [opt, List.append_assoc] at h
      obtain ⟨rfl, h2⟩ := hf a b _ _ nd_paren nd_paren
        (List.append_cancel_left h)
      exact ⟨rfl, List.append_cancel_left h2⟩

theorem bool_unamb : Unamb bool := by
  intro a b x y _ _ h
  by_cases hab : a = b
  · subst hab
    exact ⟨rfl, List.append_cancel_left h⟩
  · exfalso
    cases a <;> cases b <;> simp [bool] at h hab

theorem format_eq : ∀ a, format a = match a with
    | .rawBinary => ['R', 'a', 'w', 'B', 'i', 'n', 'a', 'r', 'y']
    | .utf8PlainText => ['U', 't', 'f', '8', 'P', 'l', 'a', 'i', 'n', 'T', 'e', 'x', 't']
    | .utf8Json => ['U', 't', 'f', '8', 'J', 's', 'o', 'n']
    | .cbor => ['C', 'b', 'o', 'r']
    | .bincode => ['B', 'i', 'n', 'c', 'o', 'd', 'e'] := by
  intro a
  cases a <;> decide

theorem format_unamb : Unamb format := by
  intro a b x y _ _ h
  by_cases hab : a = b
  · subst hab
    exact ⟨rfl, List.append_cancel_left h⟩
  · exfalso
    rw [format_eq, format_eq] at h
    cases a <;> cases b <;> first | exact hab rfl | simp at h

theorem secretKey_unamb : Unamb secretKey := by
  intro a b x y _ _ h
  simp only [secretKey, struct, items, List.append_assoc] at h
  replace h := List.append_cancel_left (List.append_cancel_left (List.append_cancel_left (List.append_cancel_left h)))
  obtain ⟨h1, h⟩ := bytes_unamb _ _ _ _ nd_comma nd_comma h
  replace h := List.append_cancel_left (List.append_cancel_left (List.append_cancel_left h))
  obtain ⟨h2, h⟩ := bytes_unamb _ _ _ _ nd_comma nd_comma h
  replace h := List.append_cancel_left (List.append_cancel_left (List.append_cancel_left h))
  obtain ⟨h3, h⟩ := bytes_unamb _ _ _ _ nd_end nd_end h
  refine ⟨?_, List.append_cancel_left h⟩
  cases a; cases b
  simp_all

theorem algoWithSecretKey_unamb : Unamb algoWithSecretKey := by
  intro a b x y _ _ h
  simp only [algoWithSecretKey, tuple, List.append_assoc] at h
  replace h := List.append_cancel_left (List.append_cancel_left h)
  obtain ⟨h1, h⟩ := secretKey_unamb _ _ _ _ nd_paren nd_paren h
  exact ⟨h1, List.append_cancel_left h⟩

theorem config_ends {ser ser' : Bool} {c c' : Config} {x y : List Char} (h : config ser c ++ x = config ser' c' ++ y) :
    x = y := by
  have key : ∀ (ser : Bool) (c : Config) (x : List Char), config ser c ++ x = "SecureLayerConfig".toList ++ (" { ".toList ++
      ("compression".toList ++ (": ".toList ++ ("Compression".toList ++ ("(".toList ++ (nat c.compression ++ (")".toList ++
      (", ".toList ++ ("compression_min_size".toList ++ (": ".toList ++ (nat c.compressionMinSize ++ (", ".toList ++
      ((if ser then "message_format".toList ++ (": ".toList ++ (format c.messageFormat ++ ", ".toList)) else []) ++
      ("encrypt_algo".toList ++ (": ".toList ++ (algo c.encryptAlgo ++ (" }".toList ++ x))))))))))))))))) := by
    intro ser c x
    cases ser <;> simp only [config, struct, items, tuple, List.append_assoc, List.cons_append, List.nil_append, if_true,
      Bool.false_eq_true, if_false]
  rw [key, key] at h
  replace h := List.append_cancel_left (List.append_cancel_left (List.append_cancel_left (List.append_cancel_left h)))
  replace h := List.append_cancel_left (List.append_cancel_left h)
  obtain ⟨-, h⟩ := nat_unamb _ _ _ _ nd_paren nd_paren h
  replace h := List.append_cancel_left (List.append_cancel_left (List.append_cancel_left (List.append_cancel_left h)))
  obtain ⟨-, h⟩ := nat_unamb _ _ _ _ nd_comma nd_comma h
  replace h := List.append_cancel_left h
  have ha : c.encryptAlgo = c'.encryptAlgo := rfl
  cases ser <;> cases ser' <;> simp only [if_true, Bool.false_eq_true, if_false, List.append_assoc, List.nil_append] at h
  · rw [ha] at h
    exact List.append_cancel_left (List.append_cancel_left (List.append_cancel_left (List.append_cancel_left h)))
  · simp at h
  · simp at h
  · replace h := List.append_cancel_left (List.append_cancel_left h)
    obtain ⟨-, h⟩ := format_unamb _ _ _ _ nd_comma nd_comma h
    rw [ha] at h
    replace h := List.append_cancel_left (List.append_cancel_left (List.append_cancel_left h))
    exact List.append_cancel_left (List.append_cancel_left h)

/-- The text of a layer determines its session key. -/
theorem debug_secret {r r' : RingDebug} {ser ser' : Bool} {s s' : Layer} {x y : List Char}
    (h : s.debug r ser ++ x = s'.debug r' ser' ++ y) : s.secret = s'.secret := by
  simp only [Layer.debug, struct, items, List.append_assoc] at h
  replace h := List.append_cancel_left (List.append_cancel_left (List.append_cancel_left (List.append_cancel_left h)))
  obtain ⟨-, h⟩ := opt_unamb bytes_unamb _ _ _ _ nd_comma nd_comma h
  replace h := List.append_cancel_left (List.append_cancel_left (List.append_cancel_left h))
  obtain ⟨-, h⟩ := bool_unamb _ _ _ _ nd_comma nd_comma h
  replace h := config_ends (List.append_cancel_left (List.append_cancel_left (List.append_cancel_left h)))
  replace h := List.append_cancel_left (List.append_cancel_left (List.append_cancel_left h))
  exact (opt_unamb algoWithSecretKey_unamb _ _ _ _ nd_comma nd_comma h).1

theorem cdebug_secret {r r' : RingDebug} {ser ser' : Bool} {s s' : SecureLayer} (h : s.debug r ser = s'.debug r' ser') :
    s.minimal.secret = s'.minimal.secret := by
  simp only [SecureLayer.debug, struct, items, List.append_assoc] at h
  exact debug_secret (List.append_cancel_left (List.append_cancel_left (List.append_cancel_left (List.append_cancel_left h))))

end Pkstl.Debug

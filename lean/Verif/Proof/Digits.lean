import Verif.Model.Label

/-! Decimal numerals, and the keys of the symbol table. -/

namespace Crasm

/-- Value of a decimal numeral. -/
def digitsValue (s : Str) : Nat := s.foldl (fun n c => 10 * n + (c.toNat - 48)) 0

theorem digit_toNat (n : Nat) : (Char.ofNat (48 + n % 10)).toNat = 48 + n % 10 := by
  have : ∀ k < 10, (Char.ofNat (48 + k)).toNat = 48 + k := by decide
  exact this _ (Nat.mod_lt _ (by omega))

theorem isdigit_digit (n : Nat) : isdigit (Char.ofNat (48 + n % 10)) = true := by
  have : ∀ k < 10, isdigit (Char.ofNat (48 + k)) = true := by decide
  exact this _ (Nat.mod_lt _ (by omega))

theorem foldl_digits (s : Str) : ∀ a b : Nat,
    s.foldl (fun n c => 10 * n + (c.toNat - 48)) (a + b) =
      a * 10 ^ s.length + s.foldl (fun n c => 10 * n + (c.toNat - 48)) b := by
  induction s with
  | nil => intro a b; simp
  | cons c s ih =>
    intro a b
    simp only [List.foldl_cons, List.length_cons]
    rw [show 10 * (a + b) + (c.toNat - 48) = 10 * a + (10 * b + (c.toNat - 48)) by omega, ih]
    rw [Nat.pow_succ, Nat.mul_comm 10 a, Nat.mul_assoc, Nat.mul_comm (10 ^ s.length) 10]

theorem digitsAux_value (f : Nat) : ∀ n acc, n < f →
    digitsValue (digitsAux f n acc) = n * 10 ^ acc.length + digitsValue acc := by
  induction f with
  | zero => intro n acc h; omega
  | succ f ih =>
    intro n acc h
    have hd : digitsValue (Char.ofNat (48 + n % 10) :: acc) = n % 10 * 10 ^ acc.length + digitsValue acc := by
      have := foldl_digits acc (n % 10) 0
      unfold digitsValue
      simp only [List.foldl_cons, digit_toNat]
      rw [← this]
      congr 1
      omega
    unfold digitsAux
    dsimp only
    split
    · rw [hd]
      rw [show n % 10 = n by omega]
    · rw [ih _ _ (by omega), hd, List.length_cons, Nat.pow_succ]
      have : n = n / 10 * 10 + n % 10 := by omega
      conv => rhs; rw [this]
      rw [Nat.add_mul, Nat.mul_assoc, Nat.mul_comm 10]
      omega

theorem digits_value (n : Nat) : digitsValue (digits n) = n := by
  unfold digits
  rw [digitsAux_value _ _ _ (by omega)]
  simp [digitsValue]

theorem digits_inj {m n : Nat} (h : digits m = digits n) : m = n := by
  rw [← digits_value m, h, digits_value]

theorem digitsAux_isdigit (f : Nat) : ∀ n acc, (∀ c ∈ acc, isdigit c = true) →
    ∀ c ∈ digitsAux f n acc, isdigit c = true := by
  induction f with
  | zero => intro n acc h; exact h
  | succ f ih =>
    intro n acc h
    unfold digitsAux
    dsimp only
    have h' : ∀ c ∈ Char.ofNat (48 + n % 10) :: acc, isdigit c = true := by
      intro c hc
      rcases List.mem_cons.1 hc with rfl | hc
      · exact isdigit_digit n
      · exact h c hc
    split
    · exact h'
    · exact ih _ _ h'

theorem digits_isdigit (n : Nat) : ∀ c ∈ digits n, isdigit c = true :=
  digitsAux_isdigit _ _ _ (by simp)

theorem digitsAux_ne (f : Nat) : ∀ n acc, acc ≠ [] → digitsAux f n acc ≠ [] := by
  induction f with
  | zero => intro n acc h; exact h
  | succ f ih =>
    intro n acc h
    unfold digitsAux
    dsimp only
    split
    · simp
    · exact ih _ _ (by simp)

theorem digits_ne (n : Nat) : digits n ≠ [] := by
  unfold digits digitsAux
  dsimp only
  split
  · simp
  · exact digitsAux_ne _ _ _ (by simp)

theorem toupper_star {c : Char} (h : toupper c = '*') : c = '*' := by
  unfold toupper at h
  split at h
  · rename_i hc
    have h1 := congrArg Char.toNat h
    have : ∀ k, 65 ≤ k → k ≤ 90 → (Char.ofNat k).toNat = k := by
      intro k h1 h2
      have : ∀ k < 91, (Char.ofNat k).toNat = k := by decide
      exact this k (by omega)
    rw [this _ (by omega) (by omega)] at h1
    simp at h1
    omega
  · exact h

/-- Only `*` is stored under the key of the location counter. -/
theorem canon_star {seg : Nat} {name : Str} (h : canon seg name = starKey) : name = starKey := by
  unfold canon at h
  have hl : LABLEN = 47 + 1 := rfl
  rw [hl] at h
  revert h
  split
  · rename_i t
    intro h
    exfalso
    cases hd : digits seg with
    | nil => exact digits_ne seg hd
    | cons c cs =>
      rw [hd] at h
      simp only [List.cons_append, List.take_succ_cons, starKey] at h
      have hc : c = '*' := by
        have := congrArg List.head? h
        simpa using this
      have := digits_isdigit seg c (by rw [hd]; simp)
      rw [hc] at this
      revert this; decide
  · intro h
    cases name with
    | nil => simp [starKey] at h
    | cons c cs =>
      simp only [List.nil_append, List.map_cons, List.take_succ_cons, starKey] at h
      cases cs with
      | nil =>
        have hc : toupper c = '*' := by
          have := congrArg List.head? h
          simpa using this
        rw [toupper_star hc]; rfl
      | cons => simp at h

end Crasm

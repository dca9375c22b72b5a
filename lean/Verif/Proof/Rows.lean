import Verif.Proof.Slim

/-! The rows in which bytes are shown. -/

namespace Crasm
open _root_.Spec.Listing (Text hex row rows rowsN perRow)

theorem hex_digit (n : Nat) : (c!"0123456789ABCDEF").getD (n % 16) ' ' = hexDigit n := by
  have : ∀ k : Fin 16, (c!"0123456789ABCDEF").getD k.val ' ' = hexDigit k.val := by decide
  have h := this ⟨n % 16, by omega⟩
  have e : hexDigit (n % 16) = hexDigit n := by unfold hexDigit; simp
  rw [← e]
  exact h

theorem hexDigit_mod {a b : Nat} (h : a % 16 = b % 16) : hexDigit a = hexDigit b := by unfold hexDigit; rw [h]

theorem hexField_snoc (d n : Nat) : hexField (d + 1) n = hexField d (n / 16) ++ [hexDigit n] := by
  induction d with
  | zero => simp [hexField]
  | succ d ih =>
    rw [hexField, ih, hexField]
    rw [List.cons_append, Nat.pow_succ', Nat.div_div_eq_div_mul]

theorem hexField_hex (d : Nat) : ∀ n, hexField d n = hex d n := by
  induction d with
  | zero => intro n; rfl
  | succ d ih => intro n; rw [hexField_snoc, ih, hex, hex_digit]

theorem hex_length (d : Nat) : ∀ n, (hex d n).length = d := by
  induction d with
  | zero => intro n; rfl
  | succ d ih => intro n; simp [hex, ih]

theorem hex_mod (d : Nat) : ∀ {a b : Nat}, a % 16 ^ d = b % 16 ^ d → hex d a = hex d b := by
  induction d with
  | zero => intro a b _; rfl
  | succ d ih =>
    intro a b h
    have h1 : a % 16 = b % 16 := by
      have e : ∀ x, x % 16 ^ (d + 1) % 16 = x % 16 := fun x => Nat.mod_mod_of_dvd x ⟨16 ^ d, Nat.pow_succ'⟩
      rw [← e a, ← e b, h]
    have h2 : a / 16 % 16 ^ d = b / 16 % 16 ^ d := by
      have e : ∀ x, x % 16 ^ (d + 1) / 16 = x / 16 % 16 ^ d := by
        intro x
        rw [Nat.pow_succ', Nat.mod_mul_right_div_self]
      rw [← e a, ← e b, h]
    rw [hex, hex, h1, ih h2]

theorem row_mod {d a b : Nat} (h : a % 16 ^ d = b % 16 ^ d) (bs : List Nat) : row d a bs = row d b bs := by
  unfold row
  rw [hex_mod d h]

theorem row_snoc (d a : Nat) (bs : List Nat) (b : Nat) : row d a (bs ++ [b]) = row d a bs ++ hex 2 b := by
  simp [row]

theorem row_length (d a : Nat) (bs : List Nat) : (row d a bs).length = d + 1 + 2 * bs.length := by
  unfold row
  induction bs with
  | nil => simp [hex_length]
  | cons b bs ih =>
    simp only [List.length_append, List.length_flatMap, List.length_cons, List.map_cons, List.sum_cons, hex_length] at ih ⊢
    omega

theorem rowsN_enough {d : Nat} (hd : 0 < perRow d) (f : Nat) : ∀ g a (bs : List Nat), bs.length ≤ f → bs.length ≤ g → rowsN d f a bs = rowsN d g a bs := by
  induction f with
  | zero =>
    intro g a bs h _
    have : bs = [] := by cases bs with | nil => rfl | cons => simp at h
    subst this
    cases g <;> simp [rowsN]
  | succ f ih =>
    intro g a bs hf hg
    cases g with
    | zero =>
      have : bs = [] := by cases bs with | nil => rfl | cons => simp at hg
      subst this
      simp [rowsN]
    | succ g =>
      rw [rowsN, rowsN]
      split
      · rfl
      · rename_i h
        have : 0 < bs.length := List.length_pos_iff.2 h
        rw [ih g _ _ (by simp; omega) (by simp; omega)]

theorem rows_cons {d : Nat} (hd : 0 < perRow d) (a : Nat) {bs : List Nat} (h : bs ≠ []) :
    rows d a bs = row d a (bs.take (perRow d)) :: rows d (a + perRow d) (bs.drop (perRow d)) := by
  have hl : 0 < bs.length := List.length_pos_iff.2 h
  unfold rows
  obtain ⟨n, e⟩ : ∃ n, bs.length = n + 1 := ⟨bs.length - 1, by omega⟩
  rw [e, rowsN, if_neg h, rowsN_enough hd n (bs.drop (perRow d)).length _ _ (by simp; omega) (Nat.le_refl _)]

theorem rows_nil (d a : Nat) : rows d a [] = [] := rfl

/-- One more byte: either in the last row, or in a new one. -/
theorem rows_snoc {d : Nat} (hd : 0 < perRow d) (b : Nat) : ∀ (k : Nat) (a : Nat) (bs : List Nat), bs.length ≤ k →
    (bs.length % perRow d = 0 ∧ rows d a (bs ++ [b]) = rows d a bs ++ [row d (a + bs.length) [b]] ∧
      (bs ≠ [] → ∃ r, ∃ l, rows d a bs = r ++ [l] ∧ l.length = d + 1 + 2 * perRow d)) ∨
    (bs.length % perRow d ≠ 0 ∧ ∃ r, ∃ l, rows d a bs = r ++ [l] ∧ rows d a (bs ++ [b]) = r ++ [l ++ hex 2 b] ∧
      l.length = d + 1 + 2 * (bs.length % perRow d)) := by
  intro k
  induction k with
  | zero =>
    intro a bs h
    have : bs = [] := by cases bs with | nil => rfl | cons => simp at h
    subst this
    refine .inl ⟨by simp, ?_, fun h => absurd rfl h⟩
    rw [rows_nil, List.nil_append, rows_cons hd _ (by simp), List.drop_eq_nil_of_le (by simp; omega), List.take_of_length_le (by simp; omega), rows_nil]
    rfl
  | succ k ih =>
    intro a bs h
    by_cases hn : bs = []
    · subst hn
      exact (fun h => h) (by
        refine .inl ⟨by simp, ?_, fun h => absurd rfl h⟩
        rw [rows_nil, List.nil_append, rows_cons hd _ (by simp), List.drop_eq_nil_of_le (by simp; omega), List.take_of_length_le (by simp; omega), rows_nil]
        rfl)
    have hl : 0 < bs.length := List.length_pos_iff.2 hn
    by_cases hq : bs.length < perRow d
    · right
      rw [Nat.mod_eq_of_lt hq]
      refine ⟨by omega, [], row d a bs, ?_, ?_, row_length _ _ _⟩
      · rw [rows_cons hd _ hn, List.drop_eq_nil_of_le (by omega), List.take_of_length_le (by omega), rows_nil]
        rfl
      · rw [rows_cons hd _ (by simp), List.drop_eq_nil_of_le (by simp; omega), List.take_of_length_le (by simp; omega), rows_nil, row_snoc]
        rfl
    · have hq : perRow d ≤ bs.length := by omega
      have e1 : (bs ++ [b]).take (perRow d) = bs.take (perRow d) := List.take_append_of_le_length hq
      have e2 : (bs ++ [b]).drop (perRow d) = bs.drop (perRow d) ++ [b] := List.drop_append_of_le_length hq
      have e3 : (bs.drop (perRow d)).length = bs.length - perRow d := List.length_drop
      have e4 : (bs.drop (perRow d)).length % perRow d = bs.length % perRow d := by rw [e3]; exact (Nat.mod_eq_sub_mod hq).symm
      have e5 : rows d a (bs ++ [b]) = row d a (bs.take (perRow d)) :: rows d (a + perRow d) (bs.drop (perRow d) ++ [b]) := by
        rw [rows_cons hd _ (by simp), e1, e2]
      have e6 : (row d a (bs.take (perRow d))).length = d + 1 + 2 * perRow d := by rw [row_length, List.length_take, Nat.min_eq_left hq]
      rw [e5, rows_cons hd a hn]
      rcases ih (a + perRow d) (bs.drop (perRow d)) (by omega) with ⟨h1, h2, h3⟩ | ⟨h1, r, l, h2, h3, h4⟩
      · left
        refine ⟨by rw [← e4]; exact h1, ?_, fun _ => ?_⟩
        · rw [h2, e3]
          have : a + perRow d + (bs.length - perRow d) = a + bs.length := by omega
          rw [this]
          rfl
        · by_cases hz : bs.drop (perRow d) = []
          · rw [hz, rows_nil]
            exact ⟨[], _, rfl, e6⟩
          · obtain ⟨r, l, h4, h5⟩ := h3 hz
            exact ⟨_ :: r, l, by rw [h4]; rfl, h5⟩
      · right
        exact ⟨by rw [← e4]; exact h1, _ :: r, l, by rw [h2]; rfl, by rw [h3]; rfl, by rw [← e4]; exact h4⟩

theorem digits_toDigits (n : Nat) : digits n = Nat.toDigits 10 n := by
  have hd : ∀ d : Fin 10, Char.ofNat (48 + d.val) = Nat.digitChar d.val := by decide
  have h : ∀ f n acc, digitsAux f n acc = Nat.toDigitsCore 10 f n acc := by
    intro f
    induction f with
    | zero => intro n acc; rfl
    | succ f ih =>
      intro n acc
      rw [digitsAux, Nat.toDigitsCore]
      have e := hd ⟨n % 10, by omega⟩
      dsimp only at e ⊢
      rw [e]
      split
      · rfl
      · exact ih _ _
  exact h _ _ _

end Crasm

/-
  What a numeric constant spells, with no reference to the model.
-/

namespace Spec

/-- The value of a digit in base `b`. -/
def digit (b : Nat) (c : Char) : Option Nat :=
  let v := "0123456789abcdef".toList.findIdx? (· = c.toLower)
  match v with
  | some d => if d < b then some d else none
  | none => none

/-- The number that digits spell in base `b`, continuing from `acc`. -/
def numberFrom (b acc : Nat) : List Char → Option Nat
  | [] => some acc
  | c :: cs => match digit b c with
    | some d => numberFrom b (acc * b + d) cs
    | none => none

/-- The number that digits spell in base `b`; none when some character is no digit of the base. -/
def number (b : Nat) (ds : List Char) : Option Nat := numberFrom b 0 ds

/-- `Writes b ds text`: `text` is the way to write the digits `ds` as a constant of base `b`. -/
inductive Writes : Nat → List Char → List Char → Prop
  | decimal (ds) : Writes 10 ds ds
  | dollar (ds) : Writes 16 ds ('$' :: ds)
  | zeroX (ds) (x : Char) (h : x = 'x' ∨ x = 'X') : Writes 16 ds ('0' :: x :: ds)
  | suffixH (ds) (c : Char) (h : c = '0' ∨ c = '1' ∨ c = '2' ∨ c = '3' ∨ c = '4' ∨ c = '5' ∨ c = '6' ∨ c = '7' ∨ c = '8' ∨ c = '9')
      (x : Char) (hx : x = 'h' ∨ x = 'H') : Writes 16 (c :: ds) (c :: ds ++ [x])
  | octal (ds) (x : Char) (h : x = 'q' ∨ x = 'Q') : Writes 8 ds (ds ++ [x])
  | percent (ds) : Writes 2 ds ('%' :: ds)
  | zeroB (ds) (x : Char) (h : x = 'b' ∨ x = 'B') : Writes 2 ds ('0' :: x :: ds)
  | suffixB (ds) (x : Char) (h : x = 'b' ∨ x = 'B') : Writes 2 ds (ds ++ [x])

end Spec

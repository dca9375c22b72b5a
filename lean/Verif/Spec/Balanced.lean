import Verif.Model.Text

/-! Balanced texts: what a user means by text "outside quotes and parentheses".

This does not refer to the pattern matcher of the model. -/

namespace Spec

/-- The inside of a text quoted by `q`: a backslash protects the character after it. -/
inductive Quoted (q : Char) : List Char → Prop
  | nil : Quoted q []
  | plain (c : Char) (s : List Char) : c ≠ q → c ≠ '\\' → Quoted q s → Quoted q (c :: s)
  | escaped (c : Char) (s : List Char) : Quoted q s → Quoted q ('\\' :: c :: s)

/-- A text with closed quotes and parentheses, in which every character outside of them is accepted by
    `allow`. -/
inductive Bal : (Char → Bool) → List Char → Prop
  | nil (allow : Char → Bool) : Bal allow []
  | plain (allow : Char → Bool) (c : Char) (s : List Char) :
      c ≠ '\'' → c ≠ '"' → c ≠ '(' → c ≠ ')' → allow c = true → Bal allow s → Bal allow (c :: s)
  | paren (allow : Char → Bool) (t s : List Char) :
      Bal (fun _ => true) t → Bal allow s → Bal allow ('(' :: (t ++ ')' :: s))
  | quoted (allow : Char → Bool) (q : Char) (t s : List Char) :
      (q = '\'' ∨ q = '"') → Quoted q t → Bal allow s → Bal allow (q :: (t ++ q :: s))

/-- A blank: space or tab. -/
def IsBlank (c : Char) : Prop := c = ' ' ∨ c = '\t'
instance (c : Char) : Decidable (IsBlank c) := inferInstanceAs (Decidable (_ ∨ _))

/-- An operand of a list: balanced, without a comma at top level, not empty, without blanks around it. -/
structure Operand (o : List Char) : Prop where
  bal : Bal (fun c => c != ',') o
  ne : o ≠ []
  first : ∀ c r, o = c :: r → ¬ IsBlank c
  last : ∀ c r, o = r ++ [c] → ¬ IsBlank c

/-- `t` is a list of operands separated by commas with any blanks around the commas. -/
inductive Joined : List (List Char) → List Char → Prop
  | one (o : List Char) : Joined [o] o
  | more (o b b' t : List Char) (os : List (List Char)) :
      (∀ c ∈ b, IsBlank c) → (∀ c ∈ b', IsBlank c) → Joined os t →
      Joined (o :: os) (o ++ (b ++ ',' :: (b' ++ t)))

end Spec

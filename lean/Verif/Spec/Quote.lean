/-! Quoted strings with escapes. -/

namespace Spec

/-- What may follow a backslash, and the character it stands for. -/
def escapes : List (Char × Nat) :=
  [('t', 9), ('n', 10), ('r', 13), ('0', 0), ('\\', 92), ('\'', 39), ('"', 34)]

/-- `t` spells the characters `cs` (given by their codes) between two delimiters `d`. -/
inductive Escaped (d : Char) : List Char → List Nat → Prop
  | nil : Escaped d [] []
  | plain {c t cs} : c ≠ d → c ≠ '\\' → Escaped d t cs → Escaped d (c :: t) (c.toNat :: cs)
  | esc {c n t cs} : (c, n) ∈ escapes → Escaped d t cs → Escaped d ('\\' :: c :: t) (n :: cs)

end Spec

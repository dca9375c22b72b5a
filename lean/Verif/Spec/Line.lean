import Verif.Spec.Expr

/-! How a source line is written: the fields of a statement, the blanks between them and the comment.  Nothing here
refers to the model. -/

namespace Spec

/-- Blanks, possibly none. -/
def Blanks (b : List Char) : Prop := ∀ c ∈ b, IsBlank c
instance (b : List Char) : Decidable (Blanks b) := inferInstanceAs (Decidable (∀ c ∈ b, _))
/-- At least one blank. -/
def Gap (b : List Char) : Prop := Blanks b ∧ b ≠ []

/-- A word: no blanks, quotes or parentheses, no semicolon and no equal sign. -/
structure Word (w : List Char) : Prop where
  ne : w ≠ []
  chars : ∀ c ∈ w, c ∉ [' ', '\t', '\'', '"', '(', ')', ';', '=']

/-- The operand field: quotes and parentheses are closed, a semicolon occurs only within them, and no blanks are
    around. -/
structure Field (o : List Char) : Prop where
  bal : Bal (fun c => c != ';') o
  ne : o ≠ []
  first : ∀ c r, o = c :: r → ¬ IsBlank c
  last : ∀ c r, o = r ++ [c] → ¬ IsBlank c

/-- The name of a label: a name, or `*` for the location counter. -/
def LabelName (w : List Char) : Prop := w = ['*'] ∨ IsName w

/-- `Stmt known t label mnemo oper`: the statement `t` has that label, mnemonic and operand field, if the words of
    the vocabulary are those with the property `known`. -/
inductive Stmt (known : List Char → Prop) :
    List Char → Option (List Char) → List Char → Option (List Char) → Prop
  /-- one word -/
  | one {m} : Word m → Stmt known m none m none
  /-- mnemonic and operands -/
  | oper {m b o} : Word m → Gap b → Field o → o.head? ≠ some '=' → known m →
      Stmt known (m ++ (b ++ o)) none m (some o)
  /-- label and mnemonic -/
  | label {l b m} : Word l → LabelName l → Gap b → Word m → ¬ known l → Stmt known (l ++ (b ++ m)) (some l) m none
  /-- label, mnemonic and operands -/
  | both {l b m b' o} : Word l → LabelName l → Gap b → Word m → Gap b' → Field o → ¬ known l →
      Stmt known (l ++ (b ++ (m ++ (b' ++ o)))) (some l) m (some o)
  /-- label, equal sign and value: the mnemonic is EQU -/
  | equate {l b b' o} : Word l → LabelName l → Blanks b → Blanks b' → (b' = [] ∧ o = []) ∨ Field o →
      Stmt known (l ++ (b ++ '=' :: (b' ++ o))) (some l) ['e', 'q', 'u'] (some o)

/-- `Around t line`: the line holds the text `t` with blanks around it, and possibly a comment. -/
inductive Around (t : List Char) : List Char → Prop
  | plain {b b'} : Blanks b → Blanks b' → Around t (b ++ (t ++ b'))
  | comment {b b' text} : Blanks b → Blanks b' → Around t (b ++ (t ++ (b' ++ ';' :: text)))

end Spec

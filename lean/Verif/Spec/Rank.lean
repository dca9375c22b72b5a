import Verif.Spec.Expr

/-!
  Expressions written without parentheses: which operator takes which operands. No reference to the model.
-/

namespace Spec

/-- What follows the first operand of a chain: blanks, an operator, blanks, an operand. -/
structure Link where
  before : List Char
  op : BinOp
  after : List Char
  operand : List Char

/-- The text of a chain of operands joined by operators. -/
def chain (first : List Char) : List Link → List Char
  | [] => first
  | k :: ks => chain (first ++ (k.before ++ (k.op.sym ++ (k.after ++ k.operand)))) ks

/-- A proper link: blanks are blanks, and the operand is one (a constant, a label, or something in parentheses,
    with or without `~`). -/
def Link.Good (k : Link) : Prop :=
  (∀ c ∈ k.before, IsBlank c) ∧ (∀ c ∈ k.after, IsBlank c) ∧ ∃ e, Text ⟨false, 9, true⟩ e k.operand

/-! ### The manual -/

/-- The groups of operators in the table of crasm.1:216-246, those listed first (which bind tighter) having the higher number. -/
def BinOp.group : BinOp → Nat
  | .add | .sub => 0
  | .mul | .div => 1
  | .or | .and | .xor => 2
  | .shl | .shr => 3

/-- `Manual ok o g e t`: read by the groups of the manual, and from left to right within a group, the text `t` means
    `e`; outside parentheses it has only operators of group at least `g`, the last of them to be applied being `o` (if there
    is any). Where an operator `p` is applied to the result of an operator `o` of the same group,
    `ok o p` is to hold. -/
inductive Manual (ok : BinOp → BinOp → Prop) : Option BinOp → Nat → Expr → List Char → Prop
  | num {g b ds t n} : Writes b ds t → ds ≠ [] → number b ds = some n → n < 2 ^ 32 → Manual ok none g (.num n) t
  | label {g t} : IsName t → Manual ok none g (.label t) t
  | bin {g o o' p a b ta tb b1 b2} : g ≤ BinOp.group p → Manual ok o p.group a ta → Manual ok o' (p.group + 1) b tb →
      (∀ q, o = some q → q.group = p.group → ok q p) →
      (∀ c ∈ b1, IsBlank c) → (∀ c ∈ b2, IsBlank c) → Manual ok (some p) g (.bin p a b) (ta ++ (b1 ++ (p.sym ++ (b2 ++ tb))))
  | paren {g o g' a t b1 b2} : Manual ok o g' a t → (∀ c ∈ b1, IsBlank c) → (∀ c ∈ b2, IsBlank c) →
      Manual ok none g a ('(' :: (b1 ++ (t ++ (b2 ++ [')']))))

end Spec

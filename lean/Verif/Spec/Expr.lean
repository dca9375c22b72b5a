import Verif.Spec.Number
import Verif.Spec.Balanced

/-!
  Expressions: what the user writes and the number they mean, with no reference to the model.
-/

namespace Spec

inductive BinOp | add | sub | mul | div | and | or | xor | shl | shr
deriving DecidableEq, Repr
inductive UnOp | neg | not | lo | hi
deriving DecidableEq, Repr

/-- An expression as the user thinks of it. -/
inductive Expr
  | num (n : Nat)
  | label (name : List Char)
  | bin (op : BinOp) (a b : Expr)
  | un (op : UnOp) (a : Expr)

/-- How a dyadic operator is written. -/
def BinOp.sym : BinOp → List Char
  | .add => ['+'] | .sub => ['-'] | .mul => ['*'] | .div => ['/'] | .and => ['&'] | .or => ['|'] | .xor => ['^']
  | .shl => ['<', '<'] | .shr => ['>', '>']

/-- A name: a letter, underscore or dot, then letters, digits, underscores and dots; at most 48 characters. -/
def IsName : List Char → Prop
  | [] => False
  | c :: cs => (c.isAlpha ∨ c = '_' ∨ c = '.') ∧ (∀ x ∈ cs, x.isAlphanum ∨ x = '_' ∨ x = '.') ∧ cs.length < 48

/-- How tightly a dyadic operator binds: the operators of higher rank first. -/
def BinOp.rank : BinOp → Nat
  | .add => 0 | .sub => 1 | .mul => 2 | .div => 3 | .or => 4 | .and => 5 | .xor => 6 | .shl => 7 | .shr => 8

def BinOp.isShift : BinOp → Bool
  | .shl | .shr => true
  | _ => false

/-- What an expression may look like outside its parentheses: whether it may begin with a minus sign, the least rank of
    its operators (9 stands for `~`, 10 for no operator at all), and whether there may be shifts. -/
structure Level where
  lead : Bool
  rank : Nat
  shifts : Bool

/-- Anything, and an operand that has no operator outside parentheses. -/
def Level.free : Level := ⟨true, 0, true⟩
def Level.tight : Level := ⟨false, 10, false⟩

/-- `Text k e t`: the expression `e` can be written as `t`, which looks like `k` outside its parentheses.
    An operator takes on its left everything of its own rank or more, on its right only what binds tighter, so several
    operators of the same rank go from left to right; anything else has to be in parentheses. A minus sign can only come
    first, `~` before any operand. The location counter `*` can stand alone, be a term of a sum, or the first factor of a
    product. Blanks are free around operators and inside parentheses; LO( and HI( bring their own parentheses. -/
inductive Text : Level → Expr → List Char → Prop
  | num {k b ds t n} : Writes b ds t → ds ≠ [] → number b ds = some n → n < 2 ^ 32 → Text k (.num n) t
  | label {k t} : IsName t → Text k (.label t) t
  | here {k} : k.rank ≤ 2 → Text k (.label ['*']) ['*']
  | bin {k op a b ta tb b1 b2} : k.rank ≤ op.rank → (op.isShift = true → k.shifts = true) →
      Text ⟨k.lead, op.rank, k.shifts⟩ a ta → Text ⟨false, op.rank + 1, k.shifts⟩ b tb →
      (∀ c ∈ b1, IsBlank c) → (∀ c ∈ b2, IsBlank c) → Text k (.bin op a b) (ta ++ (b1 ++ (op.sym ++ (b2 ++ tb))))
  | neg {k a ta b1} : k.lead = true → k.rank ≤ 9 → Text ⟨false, 9, k.shifts⟩ a ta → (∀ c ∈ b1, IsBlank c) →
      Text k (.un .neg a) ('-' :: (b1 ++ ta))
  | not {k a ta b1} : k.rank ≤ 9 → Text ⟨false, 10, k.shifts⟩ a ta → (∀ c ∈ b1, IsBlank c) →
      Text k (.un .not a) ('~' :: (b1 ++ ta))
  | lo {k k' a t b0 b1 b2 l o} : (l = 'l' ∨ l = 'L') → (o = 'o' ∨ o = 'O') → Text k' a t →
      (∀ c ∈ b0, IsBlank c) → (∀ c ∈ b1, IsBlank c) → (∀ c ∈ b2, IsBlank c) →
      Text k (.un .lo a) (l :: o :: (b0 ++ '(' :: (b1 ++ (t ++ (b2 ++ [')'])))))
  | hi {k k' a t b0 b1 b2 h i} : (h = 'h' ∨ h = 'H') → (i = 'i' ∨ i = 'I') → Text k' a t →
      (∀ c ∈ b0, IsBlank c) → (∀ c ∈ b1, IsBlank c) → (∀ c ∈ b2, IsBlank c) →
      Text k (.un .hi a) (h :: i :: (b0 ++ '(' :: (b1 ++ (t ++ (b2 ++ [')'])))))
  | paren {k k' a t b1 b2} : Text k' a t → (∀ c ∈ b1, IsBlank c) → (∀ c ∈ b2, IsBlank c) →
      Text k a ('(' :: (b1 ++ (t ++ (b2 ++ [')']))))

/-- Why an expression has no value. -/
inductive Why | overflow | shift
deriving DecidableEq, Repr

/-- A number, if it is one of 64 bits. -/
def fit (x : Int) : Except Why Int := if -2 ^ 63 ≤ x ∧ x < 2 ^ 63 then .ok x else .error .overflow

/-- The dyadic operators on 64-bit two's-complement numbers. `/` truncates; dividing by zero leaves the
    dividend; `<<` drops the bits shifted out. -/
def BinOp.eval : BinOp → Int → Int → Except Why Int
  | .add, x, y => fit (x + y)
  | .sub, x, y => fit (x - y)
  | .mul, x, y => fit (x * y)
  | .div, x, y => if y = 0 then .ok x else fit (x.tdiv y)
  | .and, x, y => .ok (BitVec.ofInt 64 x &&& BitVec.ofInt 64 y).toInt
  | .or, x, y => .ok (BitVec.ofInt 64 x ||| BitVec.ofInt 64 y).toInt
  | .xor, x, y => .ok (BitVec.ofInt 64 x ^^^ BitVec.ofInt 64 y).toInt
  | .shl, x, y => if 0 ≤ y ∧ y < 64 then .ok ((x * 2 ^ y.toNat).bmod (2 ^ 64)) else .error .shift
  | .shr, x, y => if 0 ≤ y ∧ y < 64 then .ok (x / 2 ^ y.toNat) else .error .shift

def UnOp.eval : UnOp → Int → Except Why Int
  | .neg, x => fit (-x)
  | .not, x => .ok (-x - 1)
  | .lo, x => .ok (x % 256)
  | .hi, x => .ok (x / 256 % 256)

/-- The value of an expression, given the values of the labels. -/
def Expr.eval (ρ : List Char → Int) : Expr → Except Why Int
  | .num n => .ok n
  | .label l => .ok (ρ l)
  | .bin op a b => do
    let x ← a.eval ρ
    let y ← b.eval ρ
    op.eval x y
  | .un op a => do
    let x ← a.eval ρ
    op.eval x

/-- The names in an expression. -/
def Expr.names : Expr → List (List Char)
  | .num _ => []
  | .label l => [l]
  | .bin _ a b => a.names ++ b.names
  | .un _ a => a.names

end Spec

namespace Spec

/-- `Sum ρ names v rest t`: the text `t` is a first term worth `v` followed by further terms joined by `+` and `-`,
    blanks being free around the operators; `rest` lists them in the order written: is there a minus before it,
    and its value. A term is a constant, a label, or anything in parentheses (including LO and HI). -/
inductive Sum (ρ : List Char → Int) (names : List (List Char)) : Int → List (Bool × Int) → List Char → Prop
  | one {e t v} : Text .tight e t → e.eval ρ = .ok v → (∀ x ∈ e.names, x ∈ names) → Sum ρ names v [] t
  | more {v rest t e te w b1 b2} (minus : Bool) : Sum ρ names v rest t → Text .tight e te → e.eval ρ = .ok w →
      (∀ x ∈ e.names, x ∈ names) → (∀ c ∈ b1, IsBlank c) → (∀ c ∈ b2, IsBlank c) →
      Sum ρ names v (rest ++ [(minus, w)]) (t ++ (b1 ++ (if minus then '-' else '+') :: (b2 ++ te)))

/-- Adding and subtracting from left to right. -/
def leftToRight (v : Int) : List (Bool × Int) → Int
  | [] => v
  | (minus, w) :: rest => leftToRight (if minus then v - w else v + w) rest

/-- The sum of the absolute values. -/
def magnitude (v : Int) : List (Bool × Int) → Nat
  | [] => v.natAbs
  | (_, w) :: rest => w.natAbs + magnitude v rest

end Spec

import Verif.Spec.Expr

/-!
  Conditions: what the user writes after IF, and when it holds.
-/

namespace Spec

inductive Rel | eq | ne | lt | gt | le | ge
deriving DecidableEq, Repr

/-- How a relation is written. -/
def Rel.written : Rel → List (List Char)
  | .eq => [['='], ['=', '=']]
  | .ne => [['<', '>'], ['!', '=']]
  | .lt => [['<']]
  | .gt => [['>']]
  | .le => [['<', '=']]
  | .ge => [['>', '=']]

/-- When it holds between two numbers. -/
def Rel.holds : Rel → Int → Int → Bool
  | .eq, a, b => a = b
  | .ne, a, b => a ≠ b
  | .lt, a, b => a < b
  | .gt, a, b => a > b
  | .le, a, b => a ≤ b
  | .ge, a, b => a ≥ b

/-- `Side ρ names v t`: the text `t` may stand on either side of a comparison and is worth `v`.  It is either an
    expression in which shifts, whose operators begin like a comparison, are in parentheses, or a sum. -/
inductive Side (ρ : List Char → Int) (names : List (List Char)) : Int → List Char → Prop
  | expr {k e t v} : Text k e t → k.shifts = false → e.eval ρ = .ok v → (∀ x ∈ e.names, x ∈ names) → Side ρ names v t
  | sum {v l t} : Sum ρ names v l t → magnitude v l < 2 ^ 63 → Side ρ names (leftToRight v l) t

end Spec

import Verif.Spec.Program
import Verif.Spec.Listing

/-! How a program is listed: every line with its number, and in front of it the bytes it stands for and their addresses. -/

namespace Spec.Program
open Spec.Listing (sourceLine echo tag statement)

/-- What is printed for line `n` of the source: an origin and an equate with the value given, other lines with the bytes
    they stand for (`img`) and the address of these; `σ` is the state after the line. -/
def shown {isa : Isa} (n : Nat) (text : List Char) (x : Option Name × Body isa.Ins) (img : List (Int × BitVec 8)) (σ : State) : List (List Char) :=
  match x with
  | (_, .org _) => [sourceLine (echo 4 (bits (σ.pc.getD 0))) (tag none 0 n) text]
  | (some l, .equ _) => [sourceLine (echo 4 (bits ((σ.env (key l)).getD (0, false)).1)) (tag none 0 n) text]
  | _ => statement 4 (bits ((img.head?.map Prod.fst).getD 0)) (img.map fun b => b.2.toNat) (tag none 0 n) text

/-- The listing `out` of the lines `ts` of a source, beginning with line `n`, that stand for the lines `p` of a program:
    these are taken one after the other as in the semantics of programs (`Run`), and blanks at the end of a line may be
    left out. -/
inductive Printed (isa : Isa) (addr : Name → Int) (late : Name → Bool) :
    Nat → State → List (List Char) → Lines isa → List (Int × BitVec 8) → List (List Char) → State → Prop
  | nil {n σ} : Printed isa addr late n σ [] [] [] [] σ
  | cons {n σ t bl x img σ' ts p img' out σ''} : Line isa (t ++ bl) x.1 x.2 → (∀ c ∈ bl, IsBlank c) → Step isa addr late σ x img σ' →
      Printed isa addr late (n + 1) σ' ts p img' out σ'' →
      Printed isa addr late n σ ((t ++ bl) :: ts) (x :: p) (img ++ img') (shown n t x img σ' ++ out) σ''

/-- A text printed is a listing with pages of 66 lines of 76 characters; the lines on them are those of `out`, in this order,
    among which there may be remarks. -/
def Shows (text : List Char) (out : List (List Char)) : Prop :=
  ∃ closed last gap, ∃ ts : List (Bool × List Char), Spec.Listing.Listing [(66, 76)] text closed last gap ∧
    (closed ++ last.toList).flatMap Spec.Listing.Page.body = ts.map Prod.snd ∧
    (∀ t ∈ ts, t.1 = true → Spec.Listing.Remark t.2) ∧ (ts.filter fun t => !t.1).map Prod.snd = out

/-- The same for a text that goes on after these lines. -/
def Opens (text : List Char) (out : List (List Char)) : Prop :=
  ∃ closed last gap, ∃ ts : List (Bool × List Char), ∃ more, Spec.Listing.Listing [(66, 76)] text closed last gap ∧
    (closed ++ last.toList).flatMap Spec.Listing.Page.body = ts.map Prod.snd ++ more ∧
    (∀ t ∈ ts, t.1 = true → Spec.Listing.Remark t.2) ∧ (ts.filter fun t => !t.1).map Prod.snd = out

end Spec.Program

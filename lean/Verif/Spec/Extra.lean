import Verif.Spec.Program
import Verif.Spec.Quote

/-! The directives that reserve space and spell out characters, as further instructions of any processor. -/

namespace Spec.Program

inductive Extra
  /-- `ASC`: characters, given by their codes -/
  | text (cs : List Nat)
  /-- `DS`: a number of bytes, zeros if no other value is given -/
  | area (n : Expr) (fill : Option Expr)
  /-- `ALIGN` -/
  | parity (odd : Bool)

inductive Extra.Writes : Extra → Name → Option (List Char) → Prop
  | text {d t cs} : (d = '\'' ∨ d = '"') → Escaped d t cs → Writes (.text cs) c!"ASC" (some (d :: (t ++ [d])))
  | area {t n} : Number t n → Writes (.area n none) c!"DS" (some t)
  | filled {t f o n e} : Number t n → Number f e → Joined [t, f] o → Writes (.area n (some e)) c!"DS" (some o)
  | parity {o odd} : key o = (if odd then c!"ODD" else c!"EVEN") → Writes (.parity odd) c!"ALIGN" (some o)

def Extra.names : Extra → List Name
  | .text _ => []
  | .area n none => n.names
  | .area n (some e) => e.names ++ n.names
  | .parity _ => []

/-- The number of bytes depends on the number only. -/
def Extra.fixed : Extra → List Name
  | .area n _ => n.names
  | _ => []

/-- The bytes.  Of the number of bytes the low 32 bits count, and they must not be negative; of the value that is given the
    low 8 bits count. -/
inductive Extra.Code (val : Name → Int) (a : Int) : Extra → List (BitVec 8) → Prop
  | text {cs} : Code val a (.text cs) (cs.map (BitVec.ofNat 8))
  | area {n} {v : Int} {m : Nat} : n.eval val = .ok v → m < 2 ^ 31 → (v - m) % 2 ^ 32 = 0 →
      Code val a (.area n none) (List.replicate m 0)
  | filled {n e} {v w : Int} {m : Nat} : n.eval val = .ok v → m < 2 ^ 31 → (v - m) % 2 ^ 32 = 0 → e.eval val = .ok w →
      Code val a (.area n (some e)) (List.replicate m (BitVec.ofInt 8 w))
  | parity {odd} : Code val a (.parity odd) (if a % 2 = (if odd then 1 else 0) then [] else [0])

/-- The instructions of a processor, and these directives. -/
@[reducible] def Isa.plus (isa : Isa) : Isa where
  words := isa.words
  little := isa.little
  Ins := isa.Ins ⊕ Extra
  writes := fun i m o => match i with
    | .inl i => isa.writes i m o
    | .inr x => x.Writes m o
  uses := Sum.elim isa.uses Extra.names
  code := fun i val late a bs => match i with
    | .inl i => isa.code i val late a bs
    | .inr x => x.Code val a bs
  fixed := Sum.elim isa.fixed Extra.fixed

end Spec.Program

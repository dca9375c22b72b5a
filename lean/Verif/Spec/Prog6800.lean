import Verif.Spec.Extra
import Verif.Spec.M6800

/-! Programs for the 6800, 6801 and 6803. -/

namespace Spec.M6800
open Spec.Program (Isa)

/-- The words that have a meaning to the assembler: directives and mnemonics. -/
def words (c : Chip) : List Name :=
  Spec.Program.commands ++ base.map Prod.fst ++ (if c = .m6801 then more.map Prod.fst else [])

/-- The 6801 has a short form of JSR, which is not used: JSR is the one of the 6800. -/
def forJsr (c : Chip) (n : Name) : Chip := if n = c!"JSR" then .m6800 else c

inductive Ins
  /-- without operand -/
  | bare (n : Name)
  /-- with an expression in the operand -/
  | oper (n : Name) (f : Form) (e : Expr)
  | branch (n : Name) (e : Expr)

inductive Writes (c : Chip) : Ins → Name → Option (List Char) → Prop
  | bare {n} : bare c n ≠ none → Writes c (.bare n) n none
  | oper {n f e k t o} : (∃ small later, mode (forJsr c n) n f small later ≠ none) → Written f t o → Text k e t →
      Writes c (.oper n f e) n (some o)
  | branch {n e k o} : opcode c n .rel ≠ none → Text k e o → Writes c (.branch n e) n (some o)

def Ins.names : Ins → List Name
  | .bare _ => []
  | .oper _ _ e => e.names
  | .branch _ e => e.names

/-- The bytes.  An operand is taken modulo 65536; it is a forward reference if one of the names in it is.  A branch leads
    to its target. -/
inductive Code (c : Chip) (val : Name → Int) (late : Name → Bool) (a : Int) : Ins → List (BitVec 8) → Prop
  | bare {n bs} : bare c n = some bs → Code c val late a (.bare n) bs
  | oper {n f bs v} {e : Expr} : e.eval val = .ok v →
      encode (forJsr c n) n f (.num (v % 65536).toNat (e.names.any late)) = some bs → Code c val late a (.oper n f e) bs
  | branch {n op v} {e : Expr} {d : BitVec 8} : opcode c n .rel = some op → e.eval val = .ok v →
      (a + 2 + d.toInt - v) % 2 ^ 32 = 0 → Code c val late a (.branch n e) [lo op, d]

def isa (c : Chip) : Isa where
  words := words c
  little := false
  Ins := Ins
  writes := Writes c
  uses := Ins.names
  code := fun i val late a bs => Code c val late a i bs

/-- With `ASC`, `DS` and `ALIGN`. -/
abbrev full (c : Chip) : Isa := (isa c).plus

/-- The names of the processors; the 6803 has the instructions of the 6801. -/
inductive Named : Chip → Name → Prop
  | m6800 : Named .m6800 c!"6800"
  | m6801 : Named .m6801 c!"6801"
  | m6803 : Named .m6801 c!"6803"

end Spec.M6800

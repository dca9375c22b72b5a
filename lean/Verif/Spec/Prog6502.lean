import Verif.Spec.Extra
import Verif.Spec.M6502

/-! Programs for the 6500, 6502 and 65C02. -/

namespace Spec.M6502
open Spec.Program (Isa)

/-- The words that have a meaning to the assembler: directives, mnemonics (and four more names of branches), registers. -/
def words (c : Chip) : List Name :=
  Spec.Program.commands ++ nmos.map Prod.fst ++ (if c = .m65c02 then [c!"BRA", c!"PHX", c!"PHY", c!"PLX", c!"PLY", c!"STZ", c!"TRB", c!"TSB"] else []) ++
    [c!"BHI", c!"BLO", c!"BGT", c!"BLE", c!"A", c!"X", c!"Y", c!"P", c!"S"]

inductive Ins
  /-- without operand -/
  | bare (n : Name)
  /-- with the operand `A` -/
  | acc (n : Name)
  /-- with an expression in the operand -/
  | oper (n : Name) (f : Form) (e : Expr)
  | branch (n : Name) (e : Expr)

/-- Only instructions that the processor has: those which are accepted by mistake (see C22) are left out. -/
inductive Writes (c : Chip) : Ins → Name → Option (List Char) → Prop
  | bare {n} : bare c n ≠ none → Writes c (.bare n) n none
  | acc {n o} : opcode c n .acc ≠ none → (o = ['A'] ∨ o = ['a']) → Writes c (.acc n) n (some o)
  | oper {n f e k t o} : (∃ small later, mode c n f small later ≠ none) → Written f t o → Text k e t →
      Writes c (.oper n f e) n (some o)
  | branch {n e k o} : opcode c n .rel ≠ none → Text k e o → Writes c (.branch n e) n (some o)

def Ins.names : Ins → List Name
  | .bare _ => []
  | .acc _ => []
  | .oper _ _ e => e.names
  | .branch _ e => e.names

/-- The bytes.  An operand is taken modulo 65536; it is a forward reference if one of the names in it is.  A branch leads
    to its target. -/
inductive Code (c : Chip) (val : Name → Int) (late : Name → Bool) (a : Int) : Ins → List (BitVec 8) → Prop
  | bare {n bs} : bare c n = some bs → Code c val late a (.bare n) bs
  | acc {n op} : opcode c n .acc = some op → Code c val late a (.acc n) [lo op]
  | oper {n f bs v} {e : Expr} : e.eval val = .ok v → encode c n f (.num (v % 65536).toNat (e.names.any late)) = some bs →
      Code c val late a (.oper n f e) bs
  | branch {n op v} {e : Expr} {d : BitVec 8} : opcode c n .rel = some op → e.eval val = .ok v →
      (a + 2 + d.toInt - v) % 2 ^ 32 = 0 → Code c val late a (.branch n e) [lo op, d]

def isa (c : Chip) : Isa where
  words := words c
  little := true
  Ins := Ins
  writes := Writes c
  uses := Ins.names
  code := fun i val late a bs => Code c val late a i bs

/-- With `ASC`, `DS` and `ALIGN`. -/
abbrev full (c : Chip) : Isa := (isa c).plus

/-- The name of the processor. -/
def Chip.name : Chip → Name
  | .m6500 => c!"6500"
  | .m6502 => c!"6502"
  | .m65c02 => c!"65C02"

end Spec.M6502

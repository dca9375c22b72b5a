import Verif.Model.Expr
import Verif.Model.Scode
/-
  cpu.h: building blocks of the vocabulary tables.
-/

namespace Crasm

/-- Conversion to `short` of the modifier field (label.h:40). -/
def toShort (n : Nat) : Int := (BitVec.ofNat 16 n).toInt

/-- `mnemo(n,c,p)` cpu.h:36. -/
def mn (name : Str) (h : Handler) (p : Nat) : Entry :=
  { name := name
    label := { flags := { noredef := true }, type := .mnemo, modifier := toShort p, ptr := .handler h } }

/-- `regs(n,r)` cpu.h:40. -/
def reg (name : Str) (r : Nat) : Entry :=
  { name := name
    label := { flags := { noredef := true }, type := .regs, modifier := r,
               value := BitVec.ofNat 64 (2 ^ r) } }

/-- The low byte of an int. The conversion of the argument of `insert8` to unsigned char, scode.c:49. -/
def lowByte (x : BitVec 32) : Byte := x.setWidth 8

/-- The relative branch shared (textually) by cpu6502.c:45-65, cpu6800.c:27-48 and cpuz80.c:228-248. -/
def relBranch (code : BitVec 32) (oper : Option Str) : M Unit := do
  let r ← parseAbs oper
  let s ← getS
  let dd : BitVec 32 := (r.value - s.code.pc - 2).setWidth 32
  insert8 (lowByte code)
  insert8 (lowByte dd)
  whenM ((lowByte dd).signExtend 32 ≠ dd) (error c!"too long branch")

end Crasm

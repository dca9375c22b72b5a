import Verif.Model.Cpu
/-
  cpu6800.c: 6800, 6801, 6803.
-/

namespace Crasm
namespace C6800

/-- `single` cpu6800.c:57-67. -/
def single (code : BitVec 32) (oper : Option Str) : M Unit := do
  insert8 (lowByte code)
  whenM (oper.isSome) (error c!"no operands allowed")

/-- cpu6800.c:74-81. -/
def addmodes : List (Str × BitVec 32) :=
  [ (c!"#_?", 0x00), (c!",_x", 0x20), (c!"?_,_x", 0x20), (c!"?", 0x30) ]

/-- cpu6800.c:97-113 once the filter matched with `address`. -/
def modeValue (add : BitVec 32) (address : Str) : M (BitVec 32 × BitVec 32) := do
  let r ← parseAbs (some address)
  let v : BitVec 32 := r.value.setWidth 32
  if add = 0x30 ∧ !r.flags.forward ∧ r.value &&& 0xff00 = 0 then pure (0x10, v) else pure (add, v)

/-- `findmode(oper, pvalue)` cpu6800.c:84-118: mode shift and value. A pattern without wildcard leaves
    `address` at "0" (no earlier pattern that fails can have changed it). -/
def findmode (oper : Option Str) : List (Str × BitVec 32) → M (BitVec 32 × BitVec 32)
  | [] => error c!"Unknown addressing mode"
  | (pat, add) :: ms =>
    match oper with
    | none => findmode oper ms
    | some o => do
      let r ← filterC o pat
      match r with
      | some ([a], _) => modeValue add a
      | some (_, _) => modeValue add c!"0"
      | none => findmode oper ms

/-- cpu6800.c:128-130: the opcodes with a 16-bit immediate operand. -/
def imm16 (code : BitVec 32) : Bool :=
  code = 0x8c || code = 0x8e || code = 0xc3 || code = 0xcc || code = 0xce || code = 0x83

/-- `codemode(code, add, value)` cpu6800.c:122-154. -/
def codemode (code add value : BitVec 32) : M Unit := do
  insert8 (lowByte (code + add))
  if add = 0 ∧ imm16 code then insert16 (value.setWidth 16)
  else if add = 0x30 then insert16 (value.setWidth 16)
  else do
    insert8 (lowByte value)
    if value &&& 0xff00 ≠ 0 then
      if add = 0x20 then error c!"too long displacement" else warning c!"operand overflow"
    else pure ()

/-- `standard` cpu6800.c:158-166. -/
def standard (code : BitVec 32) (oper : Option Str) : M Unit := do
  let (add, value) ← findmode oper addmodes
  codemode code add value

/-- `standard2` cpu6800.c:170-184. -/
def standard2 (code : BitVec 32) (oper : Option Str) : M Unit := do
  let (add, value) ← findmode oper addmodes
  codemode code add value
  whenM (add = 0) (error c!"Bad addressing mode")

/-- `standard3` cpu6800.c:188-208. -/
def standard3 (code : BitVec 32) (oper : Option Str) : M Unit := do
  let (add, value) ← findmode oper addmodes
  let add := if add = 0x10 then 0x30 else add
  codemode code add value
  whenM (add.toNat ≤ 0x10) (error c!"Bad addressing mode")

/-- A call through `ptr` (crasm.c:562) of a function of cpu6800.c:27-208. -/
def call (h : H6800) (modifier : Int) (oper : Option Str) : M Unit :=
  let code := BitVec.ofInt 32 modifier
  match h with
  | .branch => relBranch code oper
  | .single => single code oper
  | .standard => standard code oper
  | .standard2 => standard2 code oper
  | .standard3 => standard3 code oper

/-- cpu6800.c:212-328. -/
def m6800 : List Entry :=
  [ mn c!"bra" (.h6800 .branch) (0x20),
    mn c!"bsr" (.h6800 .branch) (0x8d),
    mn c!"bhi" (.h6800 .branch) (0x22),
    mn c!"bls" (.h6800 .branch) (0x23),
    mn c!"bcc" (.h6800 .branch) (0x24),
    mn c!"bcs" (.h6800 .branch) (0x25),
    mn c!"bne" (.h6800 .branch) (0x26),
    mn c!"beq" (.h6800 .branch) (0x27),
    mn c!"bvc" (.h6800 .branch) (0x28),
    mn c!"bvs" (.h6800 .branch) (0x29),
    mn c!"bpl" (.h6800 .branch) (0x2a),
    mn c!"bmi" (.h6800 .branch) (0x2b),
    mn c!"bge" (.h6800 .branch) (0x2c),
    mn c!"blt" (.h6800 .branch) (0x2d),
    mn c!"bgt" (.h6800 .branch) (0x2e),
    mn c!"ble" (.h6800 .branch) (0x2f),
    mn c!"nop" (.h6800 .single) (0x01),
    mn c!"rti" (.h6800 .single) (0x3b),
    mn c!"rts" (.h6800 .single) (0x39),
    mn c!"swi" (.h6800 .single) (0x3f),
    mn c!"wai" (.h6800 .single) (0x3e),
    mn c!"aba" (.h6800 .single) (0x1b),
    mn c!"clra" (.h6800 .single) (0x4f),
    mn c!"clrb" (.h6800 .single) (0x5f),
    mn c!"cba" (.h6800 .single) (0x11),
    mn c!"coma" (.h6800 .single) (0x43),
    mn c!"comb" (.h6800 .single) (0x53),
    mn c!"nega" (.h6800 .single) (0x40),
    mn c!"negb" (.h6800 .single) (0x50),
    mn c!"daa" (.h6800 .single) (0x19),
    mn c!"deca" (.h6800 .single) (0x4a),
    mn c!"decb" (.h6800 .single) (0x5a),
    mn c!"inca" (.h6800 .single) (0x4c),
    mn c!"incb" (.h6800 .single) (0x5c),
    mn c!"psha" (.h6800 .single) (0x36),
    mn c!"pshb" (.h6800 .single) (0x37),
    mn c!"pula" (.h6800 .single) (0x32),
    mn c!"pulb" (.h6800 .single) (0x33),
    mn c!"rola" (.h6800 .single) (0x49),
    mn c!"rolb" (.h6800 .single) (0x59),
    mn c!"rora" (.h6800 .single) (0x46),
    mn c!"rorb" (.h6800 .single) (0x56),
    mn c!"asla" (.h6800 .single) (0x48),
    mn c!"aslb" (.h6800 .single) (0x58),
    mn c!"asra" (.h6800 .single) (0x47),
    mn c!"asrb" (.h6800 .single) (0x57),
    mn c!"lsra" (.h6800 .single) (0x44),
    mn c!"lsrb" (.h6800 .single) (0x54),
    mn c!"sba" (.h6800 .single) (0x10),
    mn c!"tab" (.h6800 .single) (0x16),
    mn c!"tba" (.h6800 .single) (0x17),
    mn c!"tsta" (.h6800 .single) (0x4d),
    mn c!"tstb" (.h6800 .single) (0x5d),
    mn c!"dex" (.h6800 .single) (0x09),
    mn c!"des" (.h6800 .single) (0x34),
    mn c!"inx" (.h6800 .single) (0x08),
    mn c!"ins" (.h6800 .single) (0x31),
    mn c!"tsx" (.h6800 .single) (0x30),
    mn c!"txs" (.h6800 .single) (0x35),
    mn c!"clc" (.h6800 .single) (0x0c),
    mn c!"clv" (.h6800 .single) (0x0a),
    mn c!"cli" (.h6800 .single) (0x0e),
    mn c!"sec" (.h6800 .single) (0x0d),
    mn c!"sev" (.h6800 .single) (0x0b),
    mn c!"sei" (.h6800 .single) (0x0f),
    mn c!"tap" (.h6800 .single) (0x06),
    mn c!"tpa" (.h6800 .single) (0x07),
    mn c!"neg" (.h6800 .standard3) (0x40),
    mn c!"com" (.h6800 .standard3) (0x43),
    mn c!"lsr" (.h6800 .standard3) (0x44),
    mn c!"ror" (.h6800 .standard3) (0x46),
    mn c!"asr" (.h6800 .standard3) (0x47),
    mn c!"asl" (.h6800 .standard3) (0x48),
    mn c!"rol" (.h6800 .standard3) (0x49),
    mn c!"dec" (.h6800 .standard3) (0x4a),
    mn c!"inc" (.h6800 .standard3) (0x4c),
    mn c!"tst" (.h6800 .standard3) (0x4d),
    mn c!"jmp" (.h6800 .standard3) (0x4e),
    mn c!"clr" (.h6800 .standard3) (0x4f),
    mn c!"suba" (.h6800 .standard) (0x80),
    mn c!"cmpa" (.h6800 .standard) (0x81),
    mn c!"sbca" (.h6800 .standard) (0x82),
    mn c!"anda" (.h6800 .standard) (0x84),
    mn c!"bita" (.h6800 .standard) (0x85),
    mn c!"ldaa" (.h6800 .standard) (0x86),
    mn c!"staa" (.h6800 .standard2) (0x87),
    mn c!"eora" (.h6800 .standard) (0x88),
    mn c!"adca" (.h6800 .standard) (0x89),
    mn c!"oraa" (.h6800 .standard) (0x8a),
    mn c!"adda" (.h6800 .standard) (0x8b),
    mn c!"cpx" (.h6800 .standard) (0x8c),
    mn c!"jsr" (.h6800 .standard3) (0x8d),
    mn c!"lds" (.h6800 .standard) (0x8e),
    mn c!"sts" (.h6800 .standard2) (0x8f),
    mn c!"subb" (.h6800 .standard) (0xc0),
    mn c!"cmpb" (.h6800 .standard) (0xc1),
    mn c!"sbcb" (.h6800 .standard) (0xc2),
    mn c!"andb" (.h6800 .standard) (0xc4),
    mn c!"bitb" (.h6800 .standard) (0xc5),
    mn c!"ldab" (.h6800 .standard) (0xc6),
    mn c!"stab" (.h6800 .standard2) (0xc7),
    mn c!"eorb" (.h6800 .standard) (0xc8),
    mn c!"adcb" (.h6800 .standard) (0xc9),
    mn c!"orab" (.h6800 .standard) (0xca),
    mn c!"addb" (.h6800 .standard) (0xcb),
    mn c!"ldx" (.h6800 .standard) (0xce),
    mn c!"stx" (.h6800 .standard2) (0xcf) ]

/-- cpu6800.c:331-346. -/
def m6801 : List Entry :=
  [ mn c!"lsrd" (.h6800 .single) (0x04),
    mn c!"asld" (.h6800 .single) (0x05),
    mn c!"brn" (.h6800 .branch) (0x21),
    mn c!"pulx" (.h6800 .single) (0x38),
    mn c!"abx" (.h6800 .single) (0x3a),
    mn c!"pshx" (.h6800 .single) (0x3c),
    mn c!"mul" (.h6800 .single) (0x3d),
    mn c!"subd" (.h6800 .standard) (0x83),
    mn c!"addd" (.h6800 .standard) (0xc3),
    mn c!"ldd" (.h6800 .standard) (0xcc),
    mn c!"std" (.h6800 .standard2) (0xcd) ]

/-- `init6800(code)` cpu6800.c:349-361. -/
def init (code : Int) : M Unit := do
  modFlags fun f => { f with addr16 := true, lohi := false, relatif := false }
  initLabelList .m6800 m6800
  whenM (code = 1) (initLabelList .m6801 m6801)

end C6800
end Crasm

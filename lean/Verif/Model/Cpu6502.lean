import Verif.Model.Cpu
/-
  cpu6502.c: 6500, 6502, 65C02.
-/

namespace Crasm
namespace C6502

/-- cpu6502.c:27-30. -/
def F_noimm : Nat := 0x1000
/-- cpu6502.c:28. -/
def F_noacc : Nat := 0x2000
/-- cpu6502.c:29. -/
def F_noindx : Nat := 0x4000
/-- cpu6502.c:30. -/
def F_noindy : Nat := 0x8000

/-- `(t<<8)|b|f` of `mnemo2`, cpu6502.c:26. -/
def mn2 (t b f : Nat) : Nat := (t <<< 8) ||| b ||| f

/-- `single` cpu6502.c:72-82. -/
def single (code : BitVec 32) (oper : Option Str) : M Unit := do
  insert8 (lowByte code)
  whenM (oper.isSome) (error c!"no operands allowed")

/-- cpu6502.c:86-104. -/
def addmodes : List (Str × Nat) :=
  [ (c!"(_?_,_X_)", 0), (c!"@_?_,_X", 0), (c!"(_?_)_,_Y", 2), (c!"@_?_,_Y", 2), (c!"(_?_)", 4),
    (c!"@_?", 4), (c!"_", 14), (c!"#_?", 12), (c!"?_,_X", 6), (c!"?_,_Y", 8), (c!"?", 10) ]

/-- cpu6502.c:111-125. -/
def offsettable : List (List Nat) :=
  [ [0x01, 0x00, 0x11, 0x00, 0x12, 0x00, 0x15, 0x1d, 0x00, 0x19, 0x05, 0x0d, 0x09, 0x00, 0x00, 0x00],
    [0x00, 0x00, 0x00, 0x00, 0x00, 0x00, 0x16, 0x1e, 0x16, 0x1e, 0x06, 0x0e, 0x02, 0x00, 0x00, 0x0a],
    [0x00, 0x00, 0x00, 0x00, 0x00, 0x00, 0x16, 0x00, 0x16, 0x00, 0x06, 0x0e, 0x00, 0x00, 0x00, 0x00],
    [0x00, 0x00, 0x00, 0x00, 0x00, 0x00, 0x16, 0x1e, 0x00, 0x00, 0x06, 0x0e, 0x6b, 0x00, 0x00, 0x3a],
    [0x00, 0x00, 0x00, 0x00, 0x00, 0x00, 0x16, 0x1e, 0x00, 0x00, 0x06, 0x0e, 0x00, 0x00, 0x00, 0x7a],
    [0x00, 0x7c, 0x00, 0x00, 0x00, 0x6c, 0x00, 0x00, 0x00, 0x00, 0x00, 0x4c, 0x00, 0x00, 0x00, 0x00],
    [0x00, 0x00, 0x00, 0x00, 0x00, 0x00, 0x00, 0x00, 0x00, 0x00, 0x00, 0x20, 0x00, 0x00, 0x00, 0x00],
    [0x00, 0x00, 0x00, 0x00, 0x00, 0x00, 0x74, 0x9e, 0x00, 0x00, 0x64, 0x9c, 0x00, 0x00, 0x00, 0x00] ]

/-- `m2_offset[mode]` cpu6502.c:38. -/
def m2offset (code : BitVec 32) (mode : Nat) : Option Nat := do
  let row ← offsettable[((code >>> 8) &&& 0xf).toNat]?
  row[mode]?

/-- `code & f` cpu6502.c:171-174. -/
def hasFlag (code : BitVec 32) (f : Nat) : Bool := code &&& BitVec.ofNat 32 f ≠ 0

/-- cpu6502.c:154-160: first matching addressing mode and the text to parse. -/
def searchMode (oper : Str) : List (Str × Nat) → M (Option (Nat × Str))
  | [] => pure none
  | (pat, num) :: ms => do
    let r ← filterC oper pat
    match r with
    | some (caps, _) => pure (some (num, caps.headD []))
    | none => searchMode oper ms

/-- cpu6502.c:180-207: evaluate the operand and choose between the short and the long mode. -/
def operand (mode : Nat) (toparse : Str) : M (Nat × BitVec 32) := do
  let r ← parse (some toparse)
  let isAcc : Bool := mode = 10 ∧ r.type = .regs ∧ r.modifier = 0
  whenM (!isAcc) (checktype r .absolute)
  let mode := if isAcc then 15 else mode
  let value : BitVec 32 := r.value.setWidth 32
  let big : Bool := value &&& 0xff00 ≠ 0
  if big || r.flags.forward then
    if mode ≠ 12 then pure (mode ||| 1, value)
    else do
      whenM (big) (warning c!"operand overflow")
      pure (mode, value)
  else pure (mode, value)

/-- cpu6502.c:209-224: offset of the opcode, falling back on the long mode. -/
def opcodeFor (code : BitVec 32) (mode : Nat) : M (Nat × Nat) :=
  match m2offset code mode with
  | none => ubM .tableIndex
  | some off =>
    let mode := if off = 0 then mode ||| 1 else mode
    match m2offset code mode with
    | none => ubM .tableIndex
    | some 0 => error c!"illegal addressing mode"
    | some off => pure (mode, off)

/-- `standard` cpu6502.c:138-258. -/
def standard (code : BitVec 32) (oper : Option Str) : M Unit := do
  let s ← getS
  let (mode, toparse) ← (match oper with
    | none => pure (14, [])
    | some o => do
      let r ← searchMode o addmodes
      match r with
      | none => error c!"unknown addressing mode"
      | some mt => pure mt)
  if (hasFlag code F_noacc && 14 ≤ mode) || (hasFlag code F_noimm && mode = 12)
      || (hasFlag code F_noindx && mode = 6) || (hasFlag code F_noindy && mode = 8) then
    error c!"illegal addressing mode"
  else do
    let (mode, value) ← (if mode < 14 then operand mode toparse else pure (mode, 0))
    let (mode, off) ← opcodeFor code mode
    let opcode : BitVec 32 := ((code &&& 0xff) + BitVec.ofNat 32 off) &&& 0xff
    insert8 (lowByte opcode)
    whenM (mode < 14)
      (if mode % 2 = 1 then insert16 (value.setWidth 16) else insert8 (lowByte value))
    whenM (s.cpuflag < 1 ∧ code = BitVec.ofNat 32 (0x60 ||| 0x100 ||| F_noimm ||| F_noindy))
      (error c!"no ROR instruction on 6500")
    whenM (s.cpuflag < 2 ∧ (mode = 4 ∨ opcode = 0x7c ∨ opcode = 0x89 ∨ opcode = 0x1a ∨ opcode = 0x3a))
      (error c!"illegal use of 65C02 addressing mode")

/-- A call through `ptr` (crasm.c:562) of `branch`, `single` or `standard` of cpu6502.c:45-258. -/
def call (h : H6502) (modifier : Int) (oper : Option Str) : M Unit :=
  let code := BitVec.ofInt 32 modifier
  match h with
  | .branch => relBranch code oper
  | .single => single code oper
  | .standard => standard code oper

/-- cpu6502.c:261-339. -/
def m6502 : List Entry :=
  [ mn c!"bpl" (.h6502 .branch) (0x10),
    mn c!"bmi" (.h6502 .branch) (0x30),
    mn c!"bvc" (.h6502 .branch) (0x50),
    mn c!"bvs" (.h6502 .branch) (0x70),
    mn c!"bcc" (.h6502 .branch) (0x90),
    mn c!"bcs" (.h6502 .branch) (0xb0),
    mn c!"bne" (.h6502 .branch) (0xd0),
    mn c!"beq" (.h6502 .branch) (0xf0),
    mn c!"bhi" (.h6502 .branch) (0xb0),
    mn c!"blo" (.h6502 .branch) (0x90),
    mn c!"bgt" (.h6502 .branch) (0x10),
    mn c!"ble" (.h6502 .branch) (0x30),
    mn c!"nop" (.h6502 .single) (0xea),
    mn c!"brk" (.h6502 .single) (0x00),
    mn c!"rti" (.h6502 .single) (0x40),
    mn c!"rts" (.h6502 .single) (0x60),
    mn c!"pha" (.h6502 .single) (0x48),
    mn c!"pla" (.h6502 .single) (0x68),
    mn c!"php" (.h6502 .single) (0x08),
    mn c!"plp" (.h6502 .single) (0x28),
    mn c!"dex" (.h6502 .single) (0xca),
    mn c!"dey" (.h6502 .single) (0x88),
    mn c!"inx" (.h6502 .single) (0xe8),
    mn c!"iny" (.h6502 .single) (0xc8),
    mn c!"tsx" (.h6502 .single) (0xba),
    mn c!"txs" (.h6502 .single) (0x9a),
    mn c!"tax" (.h6502 .single) (0xaa),
    mn c!"txa" (.h6502 .single) (0x8a),
    mn c!"tay" (.h6502 .single) (0xa8),
    mn c!"tya" (.h6502 .single) (0x98),
    mn c!"clc" (.h6502 .single) (0x18),
    mn c!"clv" (.h6502 .single) (0xb8),
    mn c!"cli" (.h6502 .single) (0x58),
    mn c!"cld" (.h6502 .single) (0xd8),
    mn c!"sec" (.h6502 .single) (0x38),
    mn c!"sei" (.h6502 .single) (0x78),
    mn c!"sed" (.h6502 .single) (0xf8),
    mn c!"ora" (.h6502 .standard) (mn2 0 0x00 (0)),
    mn c!"and" (.h6502 .standard) (mn2 0 0x20 (0)),
    mn c!"eor" (.h6502 .standard) (mn2 0 0x40 (0)),
    mn c!"adc" (.h6502 .standard) (mn2 0 0x60 (0)),
    mn c!"sta" (.h6502 .standard) (mn2 0 0x80 (F_noimm)),
    mn c!"lda" (.h6502 .standard) (mn2 0 0xa0 (0)),
    mn c!"cmp" (.h6502 .standard) (mn2 0 0xc0 (0)),
    mn c!"sbc" (.h6502 .standard) (mn2 0 0xe0 (0)),
    mn c!"asl" (.h6502 .standard) (mn2 1 0x00 (F_noimm ||| F_noindy)),
    mn c!"rol" (.h6502 .standard) (mn2 1 0x20 (F_noimm ||| F_noindy)),
    mn c!"lsr" (.h6502 .standard) (mn2 1 0x40 (F_noimm ||| F_noindy)),
    mn c!"ror" (.h6502 .standard) (mn2 1 0x60 (F_noimm ||| F_noindy)),
    mn c!"ldx" (.h6502 .standard) (mn2 1 0xa0 (F_noacc ||| F_noindx)),
    mn c!"ldy" (.h6502 .standard) (mn2 1 0x9e (F_noacc ||| F_noindy)),
    mn c!"cpx" (.h6502 .standard) (mn2 1 0xde (F_noindy ||| F_noindx ||| F_noacc)),
    mn c!"cpy" (.h6502 .standard) (mn2 1 0xbe (F_noindy ||| F_noindx ||| F_noacc)),
    mn c!"stx" (.h6502 .standard) (mn2 2 0x80 (F_noindx)),
    mn c!"sty" (.h6502 .standard) (mn2 2 0x7e (F_noindy)),
    mn c!"inc" (.h6502 .standard) (mn2 3 0xe0 (F_noimm)),
    mn c!"bit" (.h6502 .standard) (mn2 3 0x1e (F_noacc)),
    mn c!"dec" (.h6502 .standard) (mn2 4 0xc0 (F_noimm)),
    mn c!"jmp" (.h6502 .standard) (mn2 5 0x00 (0)),
    mn c!"jsr" (.h6502 .standard) (mn2 6 0x00 (0)),
    reg c!"a" 0,
    reg c!"x" 1,
    reg c!"y" 2,
    reg c!"p" 3,
    reg c!"s" 4 ]

/-- cpu6502.c:342-355. -/
def m65c02 : List Entry :=
  [ mn c!"phx" (.h6502 .single) (0xda),
    mn c!"plx" (.h6502 .single) (0xfa),
    mn c!"phy" (.h6502 .single) (0x5a),
    mn c!"ply" (.h6502 .single) (0x7a),
    mn c!"bra" (.h6502 .branch) (0x80),
    mn c!"stz" (.h6502 .standard) (mn2 7 0x00 (0)),
    mn c!"tsb" (.h6502 .standard) (mn2 4 0xfe (F_noacc ||| F_noindx)),
    mn c!"trb" (.h6502 .standard) (mn2 4 0x0e (F_noacc ||| F_noindx)) ]

/-- `init6502(code)` cpu6502.c:358-371. -/
def init (code : Int) : M Unit := do
  modS fun s => { s with cpuflag := code,
                         flags := { s.flags with addr16 := true, lohi := true, relatif := false } }
  initLabelList .m6502 m6502
  whenM (code = 2) (initLabelList .m65c02 m65c02)

end C6502
end Crasm

import Verif.Spec.Balanced
/-
  The instruction set of the Z80, as published (documented instructions only).
-/

namespace Spec.Z80

inductive R8 | b | c | d | e | h | l | a
deriving DecidableEq, Repr
inductive Ix | ix | iy
deriving DecidableEq, Repr
inductive Pair | bc | de | hl | sp | af | index (x : Ix)
deriving DecidableEq, Repr

/-- The kinds of operands. -/
inductive Kind
  | r8 (r : R8) | r16 (p : Pair) | i | r | f
  /-- `(HL)`, `(BC)`, `(DE)` -/
  | atHL | atBC | atDE
  /-- `(IX+d)`, `(IY+d)` -/
  | «at» (x : Ix)
  /-- `(nn)` -/
  | mem
  /-- `n`, `nn` -/
  | num
  /-- a register, but none that the processor has -/
  | unknown
  /-- anything else -/
  | other
deriving DecidableEq, Repr

/-- An operand: its kind, and the number in it. -/
structure Arg where
  kind : Kind
  val : Int := 0
deriving DecidableEq, Repr

abbrev Name := List Char

/-- The names of the registers. -/
def registers : List (Name × Kind) :=
  [ (c!"A", .r8 .a), (c!"B", .r8 .b), (c!"C", .r8 .c), (c!"D", .r8 .d), (c!"E", .r8 .e), (c!"H", .r8 .h), (c!"L", .r8 .l),
    (c!"BC", .r16 .bc), (c!"DE", .r16 .de), (c!"HL", .r16 .hl), (c!"SP", .r16 .sp), (c!"AF", .r16 .af),
    (c!"IX", .r16 (.index .ix)), (c!"IY", .r16 (.index .iy)), (c!"F", .f), (c!"I", .i), (c!"R", .r) ]

/-! ### The encodings -/

/-- What an encoding consists of: fixed bytes, the displacement in `(IX+d)`, a number of one byte, the low and high
    byte of a number of two bytes. -/
inductive Item | byte (v : Nat) | d | n | lo | hi
deriving DecidableEq, Repr
abbrev Code := List Item

def R8.code : R8 → Nat
  | .b => 0 | .c => 1 | .d => 2 | .e => 3 | .h => 4 | .l => 5 | .a => 7
def Ix.pre : Ix → Item
  | .ix => .byte 0xDD
  | .iy => .byte 0xFD

/-- Instructions with one of `r`, `(HL)`, `(IX+d)`, `(IY+d)`; the opcode depends on the register (`(HL)` counts as 6). -/
def with8 (op : Nat → Nat) : Kind → Option Code
  | .r8 x => some [.byte (op x.code)]
  | .atHL => some [.byte (op 6)]
  | .at x => some [x.pre, .byte (op 6), .d]
  | _ => none
/-- The same for instructions that begin with `CB`. -/
def withCB (op : Nat → Nat) : Kind → Option Code
  | .r8 x => some [.byte 0xCB, .byte (op x.code)]
  | .atHL => some [.byte 0xCB, .byte (op 6)]
  | .at x => some [x.pre, .byte 0xCB, .d, .byte (op 6)]
  | _ => none
/-- Instructions with `HL`, `IX` or `IY`. -/
def withHL (code : Code) : Pair → Option Code
  | .hl => some code
  | .index x => some (x.pre :: code)
  | _ => none
/-- `BC`, `DE`, `SP` in opcodes. -/
def Pair.code : Pair → Option Nat
  | .bc => some 0
  | .de => some 1
  | .sp => some 3
  | _ => none

def ld : Kind → Kind → Option Code
  | .r8 x, .r8 y => some [.byte (0x40 + 8 * x.code + y.code)]
  | .r8 x, .atHL => some [.byte (0x46 + 8 * x.code)]
  | .r8 x, .at y => some [y.pre, .byte (0x46 + 8 * x.code), .d]
  | .atHL, .r8 y => some [.byte (0x70 + y.code)]
  | .at x, .r8 y => some [x.pre, .byte (0x70 + y.code), .d]
  | .r8 x, .num => some [.byte (0x06 + 8 * x.code), .n]
  | .atHL, .num => some [.byte 0x36, .n]
  | .at x, .num => some [x.pre, .byte 0x36, .d, .n]
  | .r8 .a, .atBC => some [.byte 0x0A]
  | .r8 .a, .atDE => some [.byte 0x1A]
  | .r8 .a, .mem => some [.byte 0x3A, .lo, .hi]
  | .atBC, .r8 .a => some [.byte 0x02]
  | .atDE, .r8 .a => some [.byte 0x12]
  | .mem, .r8 .a => some [.byte 0x32, .lo, .hi]
  | .r8 .a, .i => some [.byte 0xED, .byte 0x57]
  | .r8 .a, .r => some [.byte 0xED, .byte 0x5F]
  | .i, .r8 .a => some [.byte 0xED, .byte 0x47]
  | .r, .r8 .a => some [.byte 0xED, .byte 0x4F]
  | .r16 p, .num => match p.code with
    | some k => some [.byte (0x01 + 0x10 * k), .lo, .hi]
    | none => withHL [.byte 0x21, .lo, .hi] p
  | .r16 p, .mem => match p.code with
    | some k => some [.byte 0xED, .byte (0x4B + 0x10 * k), .lo, .hi]
    | none => withHL [.byte 0x2A, .lo, .hi] p
  | .mem, .r16 p => match p.code with
    | some k => some [.byte 0xED, .byte (0x43 + 0x10 * k), .lo, .hi]
    | none => withHL [.byte 0x22, .lo, .hi] p
  | .r16 .sp, .r16 p => withHL [.byte 0xF9] p
  | _, _ => none

/-- Operations of one byte on the accumulator: the opcode with a register, and with a number. -/
def alu (op imm : Nat) : Kind → Option Code
  | .num => some [.byte imm, .n]
  | k => with8 (op + ·) k

def add : Kind → Kind → Option Code
  | .r8 .a, k => alu 0x80 0xC6 k
  | .r16 .hl, .r16 .hl => some [.byte 0x29]
  | .r16 .hl, .r16 p => p.code.map fun k => [.byte (0x09 + 0x10 * k)]
  | .r16 (.index x), .r16 (.index y) => if x = y then some [x.pre, .byte 0x29] else none
  | .r16 (.index x), .r16 p => p.code.map fun k => [x.pre, .byte (0x09 + 0x10 * k)]
  | _, _ => none
def adc : Kind → Kind → Option Code
  | .r8 .a, k => alu 0x88 0xCE k
  | .r16 .hl, .r16 .hl => some [.byte 0xED, .byte 0x6A]
  | .r16 .hl, .r16 p => p.code.map fun k => [.byte 0xED, .byte (0x4A + 0x10 * k)]
  | _, _ => none
def sbc : Kind → Kind → Option Code
  | .r8 .a, k => alu 0x98 0xDE k
  | .r16 .hl, .r16 .hl => some [.byte 0xED, .byte 0x62]
  | .r16 .hl, .r16 p => p.code.map fun k => [.byte 0xED, .byte (0x42 + 0x10 * k)]
  | _, _ => none

/-- SUB, AND, OR, XOR, CP: the accumulator may be mentioned or not. -/
def logic : List (Name × Nat × Nat) :=
  [(c!"SUB", 0x90, 0xD6), (c!"AND", 0xA0, 0xE6), (c!"XOR", 0xA8, 0xEE), (c!"OR", 0xB0, 0xF6), (c!"CP", 0xB8, 0xFE)]

/-- Shifts and rotations. -/
def shifts : List (Name × Nat) :=
  [(c!"RLC", 0x00), (c!"RRC", 0x08), (c!"RL", 0x10), (c!"RR", 0x18), (c!"SLA", 0x20), (c!"SRA", 0x28), (c!"SRL", 0x38)]

def step (op8 op16 : Nat) : Kind → Option Code
  | .r16 p => match p.code with
    | some k => some [.byte (op16 + 0x10 * k)]
    | none => withHL [.byte (op16 + 0x20)] p
  | k => with8 (fun r => op8 + 8 * r) k

def stack (op : Nat) : Kind → Option Code
  | .r16 .bc => some [.byte op]
  | .r16 .de => some [.byte (op + 0x10)]
  | .r16 .af => some [.byte (op + 0x30)]
  | .r16 p => withHL [.byte (op + 0x20)] p
  | _ => none

/-- Instructions with one operand. -/
def one (name : Name) (k : Kind) : Option Code :=
  match logic.lookup name with
  | some (op, imm) => alu op imm k
  | none => match shifts.lookup name with
    | some op => withCB (op + ·) k
    | none =>
      if name = c!"INC" then step 0x04 0x03 k
      else if name = c!"DEC" then step 0x05 0x0B k
      else if name = c!"PUSH" then stack 0xC5 k
      else if name = c!"POP" then stack 0xC1 k
      else none

/-- Instructions with two operands (except those with bit numbers, conditions or ports). -/
def two (name : Name) (k1 k2 : Kind) : Option Code :=
  match logic.lookup name with
  | some (op, imm) => if k1 = .r8 .a then alu op imm k2 else none
  | none =>
    if name = c!"LD" then ld k1 k2
    else if name = c!"ADD" then add k1 k2
    else if name = c!"ADC" then adc k1 k2
    else if name = c!"SBC" then sbc k1 k2
    else none

/-- IN and OUT: the port is given by a number or by register C, the other operand is a register. -/
def port (name : Name) (port reg : Kind) : Option Code :=
  match port, reg with
  | .num, .r8 .a =>
    if name = c!"IN" then some [.byte 0xDB, .n] else if name = c!"OUT" then some [.byte 0xD3, .n] else none
  | .r8 .c, .r8 r =>
    if name = c!"IN" then some [.byte 0xED, .byte (0x40 + 8 * r.code)]
    else if name = c!"OUT" then some [.byte 0xED, .byte (0x41 + 8 * r.code)] else none
  | _, _ => none

/-- BIT, RES and SET with the number of a bit. -/
def bits (name : Name) (b : Nat) (k : Kind) : Option Code :=
  if b < 8 then
    if name = c!"BIT" then withCB (0x40 + 8 * b + ·) k
    else if name = c!"RES" then withCB (0x80 + 8 * b + ·) k
    else if name = c!"SET" then withCB (0xC0 + 8 * b + ·) k
    else none
  else none

/-- EX (SP) with a register (in either order). -/
def exSP : Kind → Option Code
  | .r16 p => withHL [.byte 0xE3] p
  | _ => none
/-- JP with a register in parentheses. -/
def jpTo : Kind → Option Code
  | .r16 p => withHL [.byte 0xE9] p
  | _ => none

/-- Instructions without operands. -/
def plain : List (Name × List Nat) :=
  [ (c!"CCF", [0x3F]), (c!"CPD", [0xED, 0xA9]), (c!"CPDR", [0xED, 0xB9]), (c!"CPI", [0xED, 0xA1]), (c!"CPIR", [0xED, 0xB1]),
    (c!"CPL", [0x2F]), (c!"DAA", [0x27]), (c!"DI", [0xF3]), (c!"EI", [0xFB]), (c!"EXX", [0xD9]), (c!"HALT", [0x76]),
    (c!"IND", [0xED, 0xAA]), (c!"INDR", [0xED, 0xBA]), (c!"INI", [0xED, 0xA2]), (c!"INIR", [0xED, 0xB2]),
    (c!"LDD", [0xED, 0xA8]), (c!"LDDR", [0xED, 0xB8]), (c!"LDI", [0xED, 0xA0]), (c!"LDIR", [0xED, 0xB0]),
    (c!"NEG", [0xED, 0x44]), (c!"NOP", [0x00]), (c!"OTDR", [0xED, 0xBB]), (c!"OTIR", [0xED, 0xB3]),
    (c!"OUTD", [0xED, 0xAB]), (c!"OUTI", [0xED, 0xA3]), (c!"RET", [0xC9]), (c!"RETI", [0xED, 0x4D]), (c!"RETN", [0xED, 0x45]),
    (c!"RLA", [0x17]), (c!"RLCA", [0x07]), (c!"RLD", [0xED, 0x6F]), (c!"RRA", [0x1F]), (c!"RRCA", [0x0F]),
    (c!"RRD", [0xED, 0x67]), (c!"SCF", [0x37]) ]

/-- The conditions of JP, CALL and RET; the first four are also those of JR. -/
def conds : List (Name × Nat) :=
  [(c!"NZ", 0), (c!"Z", 1), (c!"NC", 2), (c!"C", 3), (c!"PO", 4), (c!"PE", 5), (c!"P", 6), (c!"M", 7)]

/-- JP and CALL. -/
def jumps : List (Name × Nat × Nat) := [(c!"JP", 0xC3, 0xC2), (c!"CALL", 0xCD, 0xC4)]

/-- IM. -/
def im (v : Int) : Option (List Nat) :=
  if v = 0 then some [0xED, 0x46] else if v = 1 then some [0xED, 0x56] else if v = 2 then some [0xED, 0x5E] else none
/-- RST with an address, or (an extension) the number of a vector. -/
def rst (v : Int) : Option (List Nat) :=
  if 0 ≤ v ∧ v < 8 then some [0xC7 + 8 * v.toNat]
  else if 0 ≤ v ∧ v < 64 ∧ v % 8 = 0 then some [0xC7 + v.toNat] else none

/-! ### The bytes -/

/-- Of numbers only the low byte, or the two low bytes, are used. -/
def Item.fill (d n : Int) : Item → BitVec 8
  | .byte v => BitVec.ofNat 8 v
  | .d => BitVec.ofInt 8 d
  | .n => BitVec.ofInt 8 n
  | .lo => BitVec.ofInt 8 n
  | .hi => BitVec.ofInt 8 (n / 256)

def Kind.isAt : Kind → Bool
  | .at _ => true
  | _ => false
def Kind.isNum : Kind → Bool
  | .num => true
  | .mem => true
  | _ => false

def fill1 (a : Arg) (c : Code) : List (BitVec 8) := c.map (·.fill a.val a.val)
def fill2 (a1 a2 : Arg) (c : Code) : List (BitVec 8) :=
  c.map (·.fill (if a1.kind.isAt then a1.val else a2.val) (if a1.kind.isNum then a1.val else a2.val))

/-! ### Operands as they are written -/

def Bl (b : List Char) : Prop := ∀ c ∈ b, IsBlank c
/-- `x` is the word `w`, in any mixture of upper and lower case. -/
def Word (w x : List Char) : Prop := x.map Crasm.toupper = w

def Ix.name : Ix → Name
  | .ix => c!"IX"
  | .iy => c!"IY"

/-- The expression `e` between parentheses is not one of the addressing modes with registers. -/
structure Free (e : List Char) : Prop where
  not : ∀ w ∈ [c!"HL", c!"BC", c!"DE", c!"IX", c!"IY"], ¬ Word w e
  index : ∀ x b c r w, e = x ++ (b ++ c :: r) → w ∈ [c!"IX", c!"IY"] → Word w x → Bl b → c ≠ '+' ∧ c ≠ '-'

/-- How an operand with an expression is written: `e`, `(e)`, `(IX+e)`, `(IX-e)`. -/
inductive Form | expr | ind | plus (x : Ix) | minus (x : Ix)
deriving DecidableEq, Repr

/-- The text `o` is an operand of the form `f` with the expression `e`. Parentheses around the whole operand mean a
    reference to memory. -/
inductive Written : Form → List Char → List Char → Prop
  | expr {e} (he : Operand e) (h : ∀ c r, e = c :: r → c ≠ '(') : Written .expr e e
  | ind {e b1 b2} (he : Operand e) (hf : Free e) (h1 : Bl b1) (h2 : Bl b2) :
      Written .ind e ('(' :: (b1 ++ (e ++ (b2 ++ [')']))))
  | plus {x e w b1 b2 b3 b4} (he : Operand e) (hw : Word x.name w) (h1 : Bl b1) (h2 : Bl b2) (h3 : Bl b3) (h4 : Bl b4) :
      Written (.plus x) e ('(' :: (b1 ++ (w ++ (b2 ++ '+' :: (b3 ++ (e ++ (b4 ++ [')'])))))))
  | minus {x e w b1 b2 b3 b4} (he : Operand e) (ho : ∀ c ∈ e, c ≠ '+' ∧ c ≠ '-') (hw : Word x.name w)
      (h1 : Bl b1) (h2 : Bl b2) (h3 : Bl b3) (h4 : Bl b4) :
      Written (.minus x) e ('(' :: (b1 ++ (w ++ (b2 ++ '-' :: (b3 ++ (e ++ (b4 ++ [')'])))))))

/-- The operands without expression: `(HL)`, `(BC)`, `(DE)`, and `(IX)`, `(IY)` for `(IX+0)`, `(IY+0)`. -/
def fixed : List (Name × Kind) :=
  [(c!"HL", .atHL), (c!"BC", .atBC), (c!"DE", .atDE), (c!"IX", .at .ix), (c!"IY", .at .iy)]
inductive Fixed : Kind → List Char → Prop
  | mk {k w x b1 b2} (hm : (w, k) ∈ fixed) (hw : Word w x) (h1 : Bl b1) (h2 : Bl b2) : Fixed k ('(' :: (b1 ++ (x ++ (b2 ++ [')']))))

/-- The operand, once it is known what the expression in it stands for. -/
def Form.value : Form → Arg → Arg
  | .expr, m => m
  | .ind, ⟨.num, v⟩ => ⟨.mem, v⟩
  | .plus x, ⟨.num, v⟩ => ⟨.at x, v⟩
  | .minus x, ⟨.num, v⟩ => ⟨.at x, -v⟩
  | _, _ => ⟨.other, 0⟩

end Spec.Z80

import Verif.Spec.Balanced
/-
  The instruction sets of the 6500, 6502 and 65C02, as published: for each mnemonic the addressing modes it has, and
  the opcode of each. The bit instructions of some makes of the 65C02 are not included.
-/

namespace Spec.M6502

inductive Chip | m6500 | m6502 | m65c02
deriving DecidableEq, Repr

inductive Mode
  | implied | acc | imm | zp | zpX | zpY | abs | absX | absY
  /-- `(zp,X)`, `(zp),Y` and, on the 65C02, `(zp)` -/
  | indX | indY | ind
  /-- `(abs)` and, on the 65C02, `(abs,X)`: of JMP only -/
  | indAbs | indAbsX
  | rel
deriving DecidableEq, Repr

abbrev Name := List Char

/-- The eight instructions of the accumulator have their modes in common. -/
def group (imm zp zpX abs absX absY indX indY : Nat) : List (Mode × Nat) :=
  [(.imm, imm), (.zp, zp), (.zpX, zpX), (.abs, abs), (.absX, absX), (.absY, absY), (.indX, indX), (.indY, indY)]
/-- So have the shifts. -/
def shift (acc zp zpX abs absX : Nat) : List (Mode × Nat) := [(.acc, acc), (.zp, zp), (.zpX, zpX), (.abs, abs), (.absX, absX)]

def nmos : List (Name × List (Mode × Nat)) :=
  [ (c!"ADC", group 0x69 0x65 0x75 0x6D 0x7D 0x79 0x61 0x71),
    (c!"AND", group 0x29 0x25 0x35 0x2D 0x3D 0x39 0x21 0x31),
    (c!"ASL", shift 0x0A 0x06 0x16 0x0E 0x1E),
    (c!"BCC", [(.rel, 0x90)]), (c!"BCS", [(.rel, 0xB0)]), (c!"BEQ", [(.rel, 0xF0)]), (c!"BMI", [(.rel, 0x30)]),
    (c!"BNE", [(.rel, 0xD0)]), (c!"BPL", [(.rel, 0x10)]), (c!"BVC", [(.rel, 0x50)]), (c!"BVS", [(.rel, 0x70)]),
    (c!"BIT", [(.zp, 0x24), (.abs, 0x2C)]),
    (c!"BRK", [(.implied, 0x00)]),
    (c!"CLC", [(.implied, 0x18)]), (c!"CLD", [(.implied, 0xD8)]), (c!"CLI", [(.implied, 0x58)]), (c!"CLV", [(.implied, 0xB8)]),
    (c!"CMP", group 0xC9 0xC5 0xD5 0xCD 0xDD 0xD9 0xC1 0xD1),
    (c!"CPX", [(.imm, 0xE0), (.zp, 0xE4), (.abs, 0xEC)]),
    (c!"CPY", [(.imm, 0xC0), (.zp, 0xC4), (.abs, 0xCC)]),
    (c!"DEC", [(.zp, 0xC6), (.zpX, 0xD6), (.abs, 0xCE), (.absX, 0xDE)]),
    (c!"DEX", [(.implied, 0xCA)]), (c!"DEY", [(.implied, 0x88)]),
    (c!"EOR", group 0x49 0x45 0x55 0x4D 0x5D 0x59 0x41 0x51),
    (c!"INC", [(.zp, 0xE6), (.zpX, 0xF6), (.abs, 0xEE), (.absX, 0xFE)]),
    (c!"INX", [(.implied, 0xE8)]), (c!"INY", [(.implied, 0xC8)]),
    (c!"JMP", [(.abs, 0x4C), (.indAbs, 0x6C)]),
    (c!"JSR", [(.abs, 0x20)]),
    (c!"LDA", group 0xA9 0xA5 0xB5 0xAD 0xBD 0xB9 0xA1 0xB1),
    (c!"LDX", [(.imm, 0xA2), (.zp, 0xA6), (.zpY, 0xB6), (.abs, 0xAE), (.absY, 0xBE)]),
    (c!"LDY", [(.imm, 0xA0), (.zp, 0xA4), (.zpX, 0xB4), (.abs, 0xAC), (.absX, 0xBC)]),
    (c!"LSR", shift 0x4A 0x46 0x56 0x4E 0x5E),
    (c!"NOP", [(.implied, 0xEA)]),
    (c!"ORA", group 0x09 0x05 0x15 0x0D 0x1D 0x19 0x01 0x11),
    (c!"PHA", [(.implied, 0x48)]), (c!"PHP", [(.implied, 0x08)]), (c!"PLA", [(.implied, 0x68)]), (c!"PLP", [(.implied, 0x28)]),
    (c!"ROL", shift 0x2A 0x26 0x36 0x2E 0x3E),
    (c!"ROR", shift 0x6A 0x66 0x76 0x6E 0x7E),
    (c!"RTI", [(.implied, 0x40)]), (c!"RTS", [(.implied, 0x60)]),
    (c!"SBC", group 0xE9 0xE5 0xF5 0xED 0xFD 0xF9 0xE1 0xF1),
    (c!"SEC", [(.implied, 0x38)]), (c!"SED", [(.implied, 0xF8)]), (c!"SEI", [(.implied, 0x78)]),
    (c!"STA", [(.zp, 0x85), (.zpX, 0x95), (.abs, 0x8D), (.absX, 0x9D), (.absY, 0x99), (.indX, 0x81), (.indY, 0x91)]),
    (c!"STX", [(.zp, 0x86), (.zpY, 0x96), (.abs, 0x8E)]),
    (c!"STY", [(.zp, 0x84), (.zpX, 0x94), (.abs, 0x8C)]),
    (c!"TAX", [(.implied, 0xAA)]), (c!"TAY", [(.implied, 0xA8)]), (c!"TSX", [(.implied, 0xBA)]),
    (c!"TXA", [(.implied, 0x8A)]), (c!"TXS", [(.implied, 0x9A)]), (c!"TYA", [(.implied, 0x98)]) ]

/-- What the 65C02 has besides. -/
def cmos : List (Name × List (Mode × Nat)) :=
  [ (c!"ADC", [(.ind, 0x72)]), (c!"AND", [(.ind, 0x32)]), (c!"CMP", [(.ind, 0xD2)]), (c!"EOR", [(.ind, 0x52)]),
    (c!"LDA", [(.ind, 0xB2)]), (c!"ORA", [(.ind, 0x12)]), (c!"SBC", [(.ind, 0xF2)]), (c!"STA", [(.ind, 0x92)]),
    (c!"BIT", [(.imm, 0x89), (.zpX, 0x34), (.absX, 0x3C)]),
    (c!"BRA", [(.rel, 0x80)]),
    (c!"DEC", [(.acc, 0x3A)]), (c!"INC", [(.acc, 0x1A)]),
    (c!"JMP", [(.indAbsX, 0x7C)]),
    (c!"PHX", [(.implied, 0xDA)]), (c!"PHY", [(.implied, 0x5A)]), (c!"PLX", [(.implied, 0xFA)]), (c!"PLY", [(.implied, 0x7A)]),
    (c!"STZ", [(.zp, 0x64), (.zpX, 0x74), (.abs, 0x9C), (.absX, 0x9E)]),
    (c!"TRB", [(.zp, 0x14), (.abs, 0x1C)]),
    (c!"TSB", [(.zp, 0x04), (.abs, 0x0C)]) ]

def inSet (set : List (Name × List (Mode × Nat))) (name : Name) (m : Mode) : Option Nat :=
  set.findSome? fun (n, modes) => if n = name then modes.lookup m else none

/-- The 6500 is a 6502 without ROR. -/
def opcode (c : Chip) (name : Name) (m : Mode) : Option Nat :=
  match c with
  | .m6500 => if name = c!"ROR" then none else inSet nmos name m
  | .m6502 => inSet nmos name m
  | .m65c02 => (inSet nmos name m).orElse fun _ => inSet cmos name m

/-! ### Operands -/

/-- How an operand is written: `#e`, `e`, `e,X`, `e,Y`, `(e)`, `(e,X)`, `(e),Y`. -/
inductive Form | imm | dir | dirX | dirY | ind | indX | indY
deriving DecidableEq, Repr

/-- Blanks. -/
def Bl (b : List Char) : Prop := ∀ c ∈ b, IsBlank c

/-- The text `o` is an operand of the form `f` with the expression `e`. An expression that begins with a parenthesis
    is not taken for an address outside of the indirect forms. `@e` is another way to write `(e)`. -/
inductive Written : Form → List Char → List Char → Prop
  | imm {b e} (hb : Bl b) (he : Operand e) : Written .imm e ('#' :: (b ++ e))
  | dir {e} (he : Operand e) (h : ∀ c r, e = c :: r → c ≠ '(' ∧ c ≠ '@' ∧ c ≠ '#') : Written .dir e e
  | dirX {e b1 b2 x} (he : Operand e) (h : ∀ c r, e = c :: r → c ≠ '(' ∧ c ≠ '@' ∧ c ≠ '#') (h1 : Bl b1) (h2 : Bl b2)
      (hx : x = 'X' ∨ x = 'x') : Written .dirX e (e ++ (b1 ++ ',' :: (b2 ++ [x])))
  | dirY {e b1 b2 y} (he : Operand e) (h : ∀ c r, e = c :: r → c ≠ '(' ∧ c ≠ '@' ∧ c ≠ '#') (h1 : Bl b1) (h2 : Bl b2)
      (hy : y = 'Y' ∨ y = 'y') : Written .dirY e (e ++ (b1 ++ ',' :: (b2 ++ [y])))
  | ind {e b1 b2} (he : Operand e) (h1 : Bl b1) (h2 : Bl b2) : Written .ind e ('(' :: (b1 ++ (e ++ (b2 ++ [')']))))
  | indX {e b1 b2 b3 b4 x} (he : Operand e) (h1 : Bl b1) (h2 : Bl b2) (h3 : Bl b3) (h4 : Bl b4) (hx : x = 'X' ∨ x = 'x') :
      Written .indX e ('(' :: (b1 ++ (e ++ (b2 ++ ',' :: (b3 ++ x :: (b4 ++ [')']))))))
  | indY {e b1 b2 b3 b4 y} (he : Operand e) (h1 : Bl b1) (h2 : Bl b2) (h3 : Bl b3) (h4 : Bl b4) (hy : y = 'Y' ∨ y = 'y') :
      Written .indY e ('(' :: (b1 ++ (e ++ (b2 ++ ')' :: (b3 ++ ',' :: (b4 ++ [y]))))))
  | atInd {e b} (he : Operand e) (hb : Bl b) : Written .ind e ('@' :: (b ++ e))
  | atX {e b b1 b2 x} (he : Operand e) (hb : Bl b) (h1 : Bl b1) (h2 : Bl b2) (hx : x = 'X' ∨ x = 'x') :
      Written .indX e ('@' :: (b ++ (e ++ (b1 ++ ',' :: (b2 ++ [x])))))
  | atY {e b b1 b2 y} (he : Operand e) (hb : Bl b) (h1 : Bl b1) (h2 : Bl b2) (hy : y = 'Y' ∨ y = 'y') :
      Written .indY e ('@' :: (b ++ (e ++ (b1 ++ ',' :: (b2 ++ [y])))))

/-- The modes a form can stand for: with one byte of address, and with two. -/
def Form.short : Form → Mode
  | .imm => .imm
  | .dir => .zp
  | .dirX => .zpX
  | .dirY => .zpY
  | .ind => .ind
  | .indX => .indX
  | .indY => .indY
def Form.long : Form → Option Mode
  | .imm => none
  | .dir => some .abs
  | .dirX => some .absX
  | .dirY => some .absY
  | .ind => some .indAbs
  | .indX => some .indAbsX
  | .indY => none

/-- What the expression in an operand stands for: a number, known already or only by a later definition; the
    accumulator; or something else. -/
inductive Meaning
  | num (v : Nat) (later : Bool)
  | acc
  | other
deriving DecidableEq

def lo (v : Nat) : BitVec 8 := BitVec.ofNat 8 v
def hi (v : Nat) : BitVec 8 := BitVec.ofNat 8 (v / 256)

/-- The mode of an operand and its length: one byte if there is a mode with one byte and the number, known
    already, fits. Numbers after `#` are one byte. -/
def mode (c : Chip) (name : Name) (f : Form) (small : Bool) (later : Bool) : Option (Nat × Nat) :=
  match (if f = .imm || small && !later then opcode c name f.short else none) with
  | some op => some (op, 1)
  | none => f.long.bind fun m => (opcode c name m).map fun op => (op, 2)

/-- The bytes of an instruction with an operand; `none` if there is no such instruction. -/
def encode (c : Chip) (name : Name) (f : Form) : Meaning → Option (List (BitVec 8))
  | .num v later => (mode c name f (v < 256) later).map fun (op, n) =>
      if n = 1 then [lo op, lo v] else [lo op, lo v, hi v]
  | .acc => if f = .dir then (opcode c name .acc).map fun op => [lo op] else none
  | .other => none

/-- The same without operand: the accumulator need not be mentioned. -/
def bare (c : Chip) (name : Name) : Option (List (BitVec 8)) :=
  ((opcode c name .implied).orElse fun _ => opcode c name .acc).map fun op => [lo op]

end Spec.M6502

import Verif.Spec.Balanced
/-
  The instruction sets of the 6800 and the 6801 (6803), as published.
-/

namespace Spec.M6800

inductive Chip | m6800 | m6801
deriving DecidableEq, Repr

inductive Mode
  | inherent
  /-- a byte, or two bytes, of the operand itself -/
  | imm | imm16
  /-- an address of one byte, or of two -/
  | direct | extended
  /-- a displacement from the index register -/
  | indexed
  | rel
deriving DecidableEq, Repr

abbrev Name := List Char

/-- Instructions on an accumulator and memory. -/
def four (imm direct indexed extended : Nat) : List (Mode × Nat) :=
  [(.imm, imm), (.direct, direct), (.indexed, indexed), (.extended, extended)]
/-- Instructions on a register of two bytes and memory. -/
def four16 (imm direct indexed extended : Nat) : List (Mode × Nat) :=
  [(.imm16, imm), (.direct, direct), (.indexed, indexed), (.extended, extended)]
def store (direct indexed extended : Nat) : List (Mode × Nat) :=
  [(.direct, direct), (.indexed, indexed), (.extended, extended)]
/-- Instructions on memory. -/
def two (indexed extended : Nat) : List (Mode × Nat) := [(.indexed, indexed), (.extended, extended)]

def base : List (Name × List (Mode × Nat)) :=
  [ (c!"ABA", [(.inherent, 0x1B)]),
    (c!"ADCA", four 0x89 0x99 0xA9 0xB9), (c!"ADCB", four 0xC9 0xD9 0xE9 0xF9),
    (c!"ADDA", four 0x8B 0x9B 0xAB 0xBB), (c!"ADDB", four 0xCB 0xDB 0xEB 0xFB),
    (c!"ANDA", four 0x84 0x94 0xA4 0xB4), (c!"ANDB", four 0xC4 0xD4 0xE4 0xF4),
    (c!"ASL", two 0x68 0x78), (c!"ASLA", [(.inherent, 0x48)]), (c!"ASLB", [(.inherent, 0x58)]),
    (c!"ASR", two 0x67 0x77), (c!"ASRA", [(.inherent, 0x47)]), (c!"ASRB", [(.inherent, 0x57)]),
    (c!"BCC", [(.rel, 0x24)]), (c!"BCS", [(.rel, 0x25)]), (c!"BEQ", [(.rel, 0x27)]), (c!"BGE", [(.rel, 0x2C)]),
    (c!"BGT", [(.rel, 0x2E)]), (c!"BHI", [(.rel, 0x22)]), (c!"BLE", [(.rel, 0x2F)]), (c!"BLS", [(.rel, 0x23)]),
    (c!"BLT", [(.rel, 0x2D)]), (c!"BMI", [(.rel, 0x2B)]), (c!"BNE", [(.rel, 0x26)]), (c!"BPL", [(.rel, 0x2A)]),
    (c!"BRA", [(.rel, 0x20)]), (c!"BSR", [(.rel, 0x8D)]), (c!"BVC", [(.rel, 0x28)]), (c!"BVS", [(.rel, 0x29)]),
    (c!"BITA", four 0x85 0x95 0xA5 0xB5), (c!"BITB", four 0xC5 0xD5 0xE5 0xF5),
    (c!"CBA", [(.inherent, 0x11)]), (c!"CLC", [(.inherent, 0x0C)]), (c!"CLI", [(.inherent, 0x0E)]),
    (c!"CLR", two 0x6F 0x7F), (c!"CLRA", [(.inherent, 0x4F)]), (c!"CLRB", [(.inherent, 0x5F)]),
    (c!"CLV", [(.inherent, 0x0A)]),
    (c!"CMPA", four 0x81 0x91 0xA1 0xB1), (c!"CMPB", four 0xC1 0xD1 0xE1 0xF1),
    (c!"COM", two 0x63 0x73), (c!"COMA", [(.inherent, 0x43)]), (c!"COMB", [(.inherent, 0x53)]),
    (c!"CPX", four16 0x8C 0x9C 0xAC 0xBC),
    (c!"DAA", [(.inherent, 0x19)]),
    (c!"DEC", two 0x6A 0x7A), (c!"DECA", [(.inherent, 0x4A)]), (c!"DECB", [(.inherent, 0x5A)]),
    (c!"DES", [(.inherent, 0x34)]), (c!"DEX", [(.inherent, 0x09)]),
    (c!"EORA", four 0x88 0x98 0xA8 0xB8), (c!"EORB", four 0xC8 0xD8 0xE8 0xF8),
    (c!"INC", two 0x6C 0x7C), (c!"INCA", [(.inherent, 0x4C)]), (c!"INCB", [(.inherent, 0x5C)]),
    (c!"INS", [(.inherent, 0x31)]), (c!"INX", [(.inherent, 0x08)]),
    (c!"JMP", two 0x6E 0x7E), (c!"JSR", two 0xAD 0xBD),
    (c!"LDAA", four 0x86 0x96 0xA6 0xB6), (c!"LDAB", four 0xC6 0xD6 0xE6 0xF6),
    (c!"LDS", four16 0x8E 0x9E 0xAE 0xBE), (c!"LDX", four16 0xCE 0xDE 0xEE 0xFE),
    (c!"LSR", two 0x64 0x74), (c!"LSRA", [(.inherent, 0x44)]), (c!"LSRB", [(.inherent, 0x54)]),
    (c!"NEG", two 0x60 0x70), (c!"NEGA", [(.inherent, 0x40)]), (c!"NEGB", [(.inherent, 0x50)]),
    (c!"NOP", [(.inherent, 0x01)]),
    (c!"ORAA", four 0x8A 0x9A 0xAA 0xBA), (c!"ORAB", four 0xCA 0xDA 0xEA 0xFA),
    (c!"PSHA", [(.inherent, 0x36)]), (c!"PSHB", [(.inherent, 0x37)]), (c!"PULA", [(.inherent, 0x32)]),
    (c!"PULB", [(.inherent, 0x33)]),
    (c!"ROL", two 0x69 0x79), (c!"ROLA", [(.inherent, 0x49)]), (c!"ROLB", [(.inherent, 0x59)]),
    (c!"ROR", two 0x66 0x76), (c!"RORA", [(.inherent, 0x46)]), (c!"RORB", [(.inherent, 0x56)]),
    (c!"RTI", [(.inherent, 0x3B)]), (c!"RTS", [(.inherent, 0x39)]),
    (c!"SBA", [(.inherent, 0x10)]),
    (c!"SBCA", four 0x82 0x92 0xA2 0xB2), (c!"SBCB", four 0xC2 0xD2 0xE2 0xF2),
    (c!"SEC", [(.inherent, 0x0D)]), (c!"SEI", [(.inherent, 0x0F)]), (c!"SEV", [(.inherent, 0x0B)]),
    (c!"STAA", store 0x97 0xA7 0xB7), (c!"STAB", store 0xD7 0xE7 0xF7),
    (c!"STS", store 0x9F 0xAF 0xBF), (c!"STX", store 0xDF 0xEF 0xFF),
    (c!"SUBA", four 0x80 0x90 0xA0 0xB0), (c!"SUBB", four 0xC0 0xD0 0xE0 0xF0),
    (c!"SWI", [(.inherent, 0x3F)]),
    (c!"TAB", [(.inherent, 0x16)]), (c!"TAP", [(.inherent, 0x06)]), (c!"TBA", [(.inherent, 0x17)]),
    (c!"TPA", [(.inherent, 0x07)]),
    (c!"TST", two 0x6D 0x7D), (c!"TSTA", [(.inherent, 0x4D)]), (c!"TSTB", [(.inherent, 0x5D)]),
    (c!"TSX", [(.inherent, 0x30)]), (c!"TXS", [(.inherent, 0x35)]), (c!"WAI", [(.inherent, 0x3E)]) ]

/-- What the 6801 has besides. -/
def more : List (Name × List (Mode × Nat)) :=
  [ (c!"ABX", [(.inherent, 0x3A)]), (c!"ADDD", four16 0xC3 0xD3 0xE3 0xF3), (c!"ASLD", [(.inherent, 0x05)]),
    (c!"BRN", [(.rel, 0x21)]), (c!"JSR", [(.direct, 0x9D)]), (c!"LDD", four16 0xCC 0xDC 0xEC 0xFC),
    (c!"LSRD", [(.inherent, 0x04)]), (c!"MUL", [(.inherent, 0x3D)]), (c!"PSHX", [(.inherent, 0x3C)]),
    (c!"PULX", [(.inherent, 0x38)]), (c!"STD", store 0xDD 0xED 0xFD), (c!"SUBD", four16 0x83 0x93 0xA3 0xB3) ]

def inSet (set : List (Name × List (Mode × Nat))) (name : Name) (m : Mode) : Option Nat :=
  set.findSome? fun (n, modes) => if n = name then modes.lookup m else none

def opcode (c : Chip) (name : Name) (m : Mode) : Option Nat :=
  match c with
  | .m6800 => inSet base name m
  | .m6801 => (inSet base name m).orElse fun _ => inSet more name m

/-! ### Operands -/

/-- `#e`, `e` and `e,X`. -/
inductive Form | imm | addr | index
deriving DecidableEq, Repr

def Bl (b : List Char) : Prop := ∀ c ∈ b, IsBlank c

/-- The text `o` is an operand of the form `f` with the expression `e`; `,X` is short for `0,X`. -/
inductive Written : Form → List Char → List Char → Prop
  | imm {b e} (hb : Bl b) (he : Operand e) : Written .imm e ('#' :: (b ++ e))
  | addr {e} (he : Operand e) (h : ∀ c r, e = c :: r → c ≠ '#') : Written .addr e e
  | index {e b1 b2 x} (he : Operand e) (h : ∀ c r, e = c :: r → c ≠ '#') (h1 : Bl b1) (h2 : Bl b2)
      (hx : x = 'X' ∨ x = 'x') : Written .index e (e ++ (b1 ++ ',' :: (b2 ++ [x])))
  | index0 {b x} (hb : Bl b) (hx : x = 'X' ∨ x = 'x') : Written .index c!"0" (',' :: (b ++ [x]))

/-- What the expression stands for: a number, known already or only by a later definition, or something else. -/
inductive Meaning
  | num (v : Nat) (later : Bool)
  | other
deriving DecidableEq

def lo (v : Nat) : BitVec 8 := BitVec.ofNat 8 v
def hi (v : Nat) : BitVec 8 := BitVec.ofNat 8 (v / 256)

/-- The opcode and the number of bytes that follow. A displacement must fit in a byte. -/
def mode (c : Chip) (name : Name) (f : Form) (small later : Bool) : Option (Nat × Nat) :=
  match f with
  | .imm => ((opcode c name .imm).map fun op => (op, 1)).orElse fun _ => (opcode c name .imm16).map fun op => (op, 2)
  | .index => if small then (opcode c name .indexed).map fun op => (op, 1) else none
  | .addr =>
    match (if small && !later then opcode c name .direct else none) with
    | some op => some (op, 1)
    | none => (opcode c name .extended).map fun op => (op, 2)

/-- The bytes of an instruction with an operand, high byte first; `none` if there is no such instruction. -/
def encode (c : Chip) (name : Name) (f : Form) : Meaning → Option (List (BitVec 8))
  | .num v later => (mode c name f (v < 256) later).map fun x =>
      if x.2 = 1 then [lo x.1, lo v] else [lo x.1, hi v, lo v]
  | .other => none

def bare (c : Chip) (name : Name) : Option (List (BitVec 8)) := (opcode c name .inherent).map fun op => [lo op]

end Spec.M6800

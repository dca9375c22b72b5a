import Verif.Model.Cpu
/-
  cpuz80.c.

  The static variables offset/offsetflag/indexflag/arg/arg8flag/arg16flag (cpuz80.c:26-27) are passed as a
  record: every handler that uses them starts with CLRALL (cpuz80.c:45), so nothing survives from one
  instruction to the next (`offset` and `arg` are only read when their flags have been set since).
-/

namespace Crasm
namespace Z80

/-- cpuz80.c:33-35 (`indexflag`; 0 is `none`). -/
inductive Idx | none | ix | iy | hl
deriving DecidableEq, Repr

/-- The value of `indexflag` as a byte. cpuz80.c:33-35, 183. -/
def Idx.byte : Idx → Byte
  | .none => 0 | .ix => 0xdd | .iy => 0xfd | .hl => 0xff

/-- The static variables of cpuz80.c:26-27, as `CLRALL` (cpuz80.c:45) leaves them; `offset` and `arg` are set before they are used. -/
structure Z where
  offset : BitVec 32 := 0
  offsetflag : Bool := false
  indexflag : Idx := .none
  arg : BitVec 32 := 0
  arg8flag : Bool := false
  arg16flag : Bool := false
deriving DecidableEq, Repr

/-- cpuz80.c:29. -/
def isreg8 (n : Int) : Bool := 0 ≤ n && n < 8
/-- cpuz80.c:30. -/
def isreg16 (n : Int) : Bool := 8 ≤ n && n < 16

/-- cpuz80.c:37. -/
def ACCUMULATOR : Int := 7
/-- cpuz80.c:38. -/
def MREGISTER : Int := 6
/-- cpuz80.c:39. -/
def HLREGISTER : Int := 10
/-- cpuz80.c:40. -/
def MEMORY : Int := -1
/-- cpuz80.c:41. -/
def IMDATA : Int := -2
/-- cpuz80.c:42. -/
def SPBC : Int := -4
/-- cpuz80.c:43. -/
def SPDE : Int := -5

/-- cpuz80.c:47. -/
def needreg8 : Str := c!"operates with reg8 or (HL),(IX+nn),(IY+nn)"
/-- cpuz80.c:48. -/
def needacc : Str := c!"operates on A only"
/-- cpuz80.c:49. -/
def badop : Str := c!"illegal addressing mode"

/-- cpuz80.c:54-55 with the index register and the sign of the offset (none: no offset). -/
def indexed : List (Str × Idx × Option Bool) :=
  [ (c!"(_IX_)", .ix, none), (c!"(_IY_)", .iy, none), (c!"(_IX_+_?_)", .ix, some true),
    (c!"(_IY_+_?_)", .iy, some true), (c!"(_IX_-_?_)", .ix, some false), (c!"(_IY_-_?_)", .iy, some false) ]

/-- cpuz80.c:63-90: indexed addressing. `none`: no pattern matched. -/
def getIndexed (z : Z) (oper : Str) : List (Str × Idx × Option Bool) → M (Option Z)
  | [] => pure none
  | (pat, idx, sign) :: ps => do
    let r ← filterC oper pat
    match r with
    | none => getIndexed z oper ps
    | some (caps, _) => do
      let offset ← (match sign with
        | none => pure (0 : BitVec 32)
        | some plus => do
          let r ← parseAbs (some (caps.headD []))
          let o : BitVec 32 := r.value.setWidth 32
          if plus then pure o
          else if o = BitVec.intMin 32 then ubM .signedOverflow else pure (-o))
      if z.indexflag ≠ .none || z.offsetflag then error badop
      else pure (some { z with offset := offset, offsetflag := true, indexflag := idx })

/-- cpuz80.c:118-125 and 132-139: record a 16-bit argument. -/
def setArg (z : Z) (v : Word) : M Z :=
  if z.arg8flag || z.arg16flag then error badop
  else pure { z with arg16flag := true, arg := v.setWidth 32 }

/-- cpuz80.c:144: `r->value != (1 << r->modifier)`, an int shift. -/
def singleReg (r : Result) : M Unit :=
  if r.modifier < 0 ∨ 32 ≤ r.modifier then ubM .shiftCount
  else if r.value ≠ (BitVec.ofNat 32 (2 ^ r.modifier.toNat)).signExtend 64 then
    error c!"illegal register list"
  else pure ()

/-- cpuz80.c:149-175. -/
def regResult (z : Z) (n : Int) : M (Int × Z) :=
  if n = 12 ∨ n = 13 ∨ n = HLREGISTER then
    let i : Idx := if n = 12 then .ix else if n = 13 then .iy else .hl
    if z.indexflag ≠ .none ∧ z.indexflag ≠ i then error badop
    else pure (HLREGISTER, { z with indexflag := i })
  else pure (n, z)

/-- `getreg(oper)` cpuz80.c:57-176. -/
def getreg (z : Z) (oper : Str) : M (Int × Z) := do
  let ixr ← getIndexed z oper indexed
  match ixr with
  | some z' => pure (MREGISTER, z')
  | none => do
    if ← filter0 oper c!"(_HL_)" then
      if z.indexflag ≠ .none ∧ z.indexflag ≠ .hl then error badop
      else pure (MREGISTER, { z with indexflag := .hl })
    else if ← filter0 oper c!"(_BC_)" then pure (SPBC, z)
    else if ← filter0 oper c!"(_DE_)" then pure (SPDE, z)
    else match ← filter1 oper c!"(_?_)" with
      | some oper2 => do
        let r ← parseAbs (some oper2)
        let z' ← setArg z r.value
        pure (MEMORY, z')
      | none => do
        let r ← parse (some oper)
        if r.type = .absolute then do
          let z' ← setArg z r.value
          pure (IMDATA, z')
        else do
          checktype r .regs
          singleReg r
          regResult z r.modifier

/-- `docode(code)` cpuz80.c:179-225. -/
def docode (z : Z) (code : BitVec 32) : M Unit := do
  whenM (z.indexflag = .ix ∨ z.indexflag = .iy ∨ z.offsetflag) (insert8 z.indexflag.byte)
  insert8 (if code &&& 0xff00 ≠ 0 then lowByte (code.sshiftRight 8) else lowByte code)
  whenM z.offsetflag (do
    insert8 (lowByte z.offset)
    whenM (z.offset ≠ (lowByte z.offset).signExtend 32) (warning c!"offset overflow"))
  whenM (code &&& 0xff00 ≠ 0) (insert8 (lowByte code))
  if z.arg8flag then do
    insert8 (lowByte z.arg)
    whenM (z.arg &&& 0xff00 ≠ 0) (warning c!"argument overflow")
  else whenM z.arg16flag (insert16 (z.arg.setWidth 16))

/-- `simple` cpuz80.c:257-272. -/
def simple (code : BitVec 32) (oper : Option Str) : M Unit := do
  whenM (code &&& 0xff00 ≠ 0) (insert8 (lowByte (code.sshiftRight 8)))
  insert8 (lowByte code)
  whenM (oper.isSome) (error c!"no operands allowed")

/-- `im` cpuz80.c:275-301. -/
def im (oper : Option Str) : M Unit := do
  let r ← parseAbs oper
  if r.value = 0 then insert16 0x46ed
  else if r.value = 1 then insert16 0x56ed
  else if r.value = 2 then insert16 0x5eed
  else do
    insert16 0
    error c!"Bad interruption mode"

/-- `rst` cpuz80.c:304-323. -/
def rst (oper : Option Str) : M Unit := do
  let r ← parseAbs oper
  let v := if r.value &&& 0xfff8 = 0 then r.value <<< 3 else r.value
  insert8 ((0xc7 ||| v).setWidth 8)
  whenM (v &&& 0xffc7 ≠ 0) (error c!"Bad RST vector")

/-- cpuz80.c:326. -/
def condcodes : List Str := [c!"NZ", c!"Z", c!"NC", c!"C", c!"PO", c!"PE", c!"P", c!"M"]

/-- cpuz80.c:336-342 and 370-377: index of the first condition matching. -/
def findCond (cc : Str) : Nat → List Str → M (Option Nat)
  | _, [] => pure none
  | i, q :: qs => do
    if ← filter0 cc q then pure (some i) else findCond cc (i + 1) qs

/-- `searchcond(maxcond, oper, pres)` cpuz80.c:329-349. -/
def searchcond (maxcond : Nat) (oper : Option Str) : M (Option Nat × Option Str) := do
  match ← filter2 (orEmpty oper) c!"?_,_?" with
  | some (ccode, rest) => do
    match ← findCond ccode 0 (condcodes.take maxcond) with
    | some i => pure (some i, some rest)
    | none => error c!"Bad condition code"
  | none => pure (none, oper)

/-- `jr` cpuz80.c:352-357. -/
def jr (oper : Option Str) : M Unit := do
  let (c, op2) ← searchcond 4 oper
  relBranch (match c with | some i => 0x20 + BitVec.ofNat 32 (8 * i) | none => 0x18) op2

/-- `ret` cpuz80.c:360-383. -/
def ret (oper : Option Str) : M Unit := do
  match oper with
  | none => insert8 0xc9
  | some [] => insert8 0xc9
  | some o => do
    match ← findCond o 0 condcodes with
    | some i => insert8 (0xc0 + BitVec.ofNat 8 (8 * i))
    | none => error c!"Bad condition code"

/-- cpuz80.c:392-405 and 431-444, common part of call and jp. -/
def condJump (base plain : Byte) (oper : Option Str) : M Unit := do
  let (c, op2) ← searchcond 8 oper
  let r ← parseAbs op2
  insert8 (match c with
    | some i => base + BitVec.ofNat 8 (8 * i)
    | none => plain)
  insert16 (r.value.setWidth 16)

/-- `call` cpuz80.c:386-407. -/
def callOp (oper : Option Str) : M Unit := condJump 0xc4 0xcd oper

/-- `jp` cpuz80.c:410-448. -/
def jp (oper : Option Str) : M Unit := do
  match ← filter1 (orEmpty oper) c!"(_?_)" with
  | some op2 => do
    let (r, z) ← getreg {} op2
    if r = HLREGISTER then docode z 0xe9 else error c!"illegal indirection"
  | none => condJump 0xc2 0xc3 oper

/-- The first of several one-wildcard patterns that matches. cpuz80.c:451-486. -/
def firstOf (s : Str) : List Str → M (Option Str)
  | [] => pure none
  | p :: ps => do
    match ← filter1 s p with
    | some a => pure (some a)
    | none => firstOf s ps

/-- cpuz80.c:471-484: EX AF,AF'. -/
def exAf (z : Z) (o : Str) : M Unit := do
  match ← firstOf o [c!"AF_,_AF'_?", c!"AF'_,_AF_?"] with
  | some op2 =>
    if op2 = [] ∨ op2.head? = some ';' then docode z 0x08 else error c!"Illegal EX instruction"
  | none => error c!"Illegal EX instruction"

/-- `ex` cpuz80.c:451-486. -/
def ex (oper : Option Str) : M Unit := do
  let o := orEmpty oper
  if ← filter0 o c!"DE_,_HL" then docode {} 0xeb
  else if ← filter0 o c!"HL_,_DE" then docode {} 0xeb
  else match ← firstOf o [c!"(_SP_)_,_?", c!"?_,_(_SP_)"] with
    | some op2 => do
      let (r, z) ← getreg {} op2
      if r = HLREGISTER then docode z 0xe3 else exAf z o
    | none => exAf {} o

/-- `inout` cpuz80.c:489-544: (port text, register text). -/
def inoutOps (code : BitVec 32) (o : Str) : M (Option (Str × Str)) := do
  if code &&& 8 = 0 then filter2 o c!"(?)_,_?"
  else match ← filter2 o c!"?_,_(?)" with
    | some (a, b) => pure (some (b, a))
    | none => pure none

/-- `inout` cpuz80.c:489-544. -/
def inout (code : BitVec 32) (oper : Option Str) : M Unit := do
  match ← inoutOps code (orEmpty oper) with
  | some (op1, op2) => do
    let (r, z) ← getreg {} op1
    if r = IMDATA then do
      let (r, z) ← getreg z op2
      if r ≠ ACCUMULATOR then error needacc
      else docode { z with arg8flag := true } code
    else if r = 1 then do
      let (r, z) ← getreg z op2
      if !isreg8 r || r = 6 then error c!"operates on reg8 only"
      else
        let r := r * 8 + (if code &&& 8 = 0 then 1 else 0)
        docode z (BitVec.ofInt 32 (0xed40 + r))
    else error c!"port is (C) or (nn)"
  | none => error badop

/-- `bitop` cpuz80.c:547-580. -/
def bitop (code : BitVec 32) (oper : Option Str) : M Unit := do
  match ← filter2 (orEmpty oper) c!"?_,_?" with
  | none => error c!"two operands required"
  | some (op1, op2) => do
    let r ← parseAbs (some op1)
    let bit := (r.value.setWidth 32 : BitVec 32).toInt
    if bit < 0 ∨ 7 < bit then refuse c!"illegal bit number"
    else do
      let (reg, z) ← getreg {} op2
      if !isreg8 reg then error needreg8
      else docode z (code + BitVec.ofInt 32 (reg + bit * 8))

/-- `onreg8` cpuz80.c:583-596. -/
def onreg8 (code : BitVec 32) (oper : Option Str) : M Unit := do
  let (reg, z) ← getreg {} (orEmpty oper)
  if !isreg8 reg then error needreg8
  else docode z (code + BitVec.ofInt 32 reg)

/-- `logical` cpuz80.c:599-627. -/
def logicalTail (z : Z) (code : BitVec 32) (o : Str) : M Unit := do
  let (reg, z) ← getreg z o
  if reg = IMDATA then docode { z with arg8flag := true } (code + 0x46)
  else docode z (code + BitVec.ofInt 32 reg)

/-- `logical` cpuz80.c:599-627. -/
def logical (code : BitVec 32) (oper : Option Str) : M Unit := do
  let o := orEmpty oper
  match ← filter2 o c!"?_,_?" with
  | some (op1, op2) => do
    let (reg, z) ← getreg {} op1
    if reg ≠ ACCUMULATOR then error needacc
    else do
      warning c!"One operand only. but i understand!"
      logicalTail z code op2
  | none => logicalTail {} code o

/-- `stackop` cpuz80.c:630-652. -/
def stackop (code : BitVec 32) (oper : Option Str) : M Unit := do
  let (reg, z) ← getreg {} (orEmpty oper)
  let reg := if reg = 19 then 11 else if reg = 11 then 19 else reg
  if !isreg16 reg then error c!"Operates with AF,BC,DE,HL,IX,IY"
  else docode z (code + BitVec.ofInt 32 (reg * 16))

/-- cpuz80.c:681-694. -/
def arithBase (code : BitVec 32) : BitVec 32 :=
  if code = 0x80 then 0x09 - 0x80
  else if code = 0x88 then 0xed4a - 0x80
  else if code = 0x98 then 0xed42 - 0x80
  else code

/-- `arith` cpuz80.c:655-711. -/
def arith (code : BitVec 32) (oper : Option Str) : M Unit := do
  match ← filter2 (orEmpty oper) c!"?_,_?" with
  | none => error badop
  | some (op1, op2) => do
    let (reg, z) ← getreg {} op1
    if reg = ACCUMULATOR then logical code (some op2)
    else if reg = HLREGISTER then
      if z.indexflag ≠ .hl ∧ code ≠ 0x80 then error c!"illegal index operation"
      else do
        let (reg, z) ← getreg z op2
        if !isreg16 reg then error badop
        else docode z (arithBase code + BitVec.ofInt 32 (reg * 16))
    else error badop

/-- `incr` cpuz80.c:714-738. -/
def incr (code : BitVec 32) (oper : Option Str) : M Unit := do
  let (reg, z) ← getreg {} (orEmpty oper)
  if isreg8 reg then docode z (BitVec.ofInt 32 (reg * 8) + code.sshiftRight 8)
  else if isreg16 reg then docode z ((code &&& 0xff) + BitVec.ofInt 32 ((reg - 8) * 16))
  else error badop

/-- cpuz80.c:757-868: the opcode selected by the two operands of LD, and whether the immediate is a byte. -/
def ldCode (r1 r2 : Int) : Option (BitVec 32 × Bool) :=
  if isreg8 r1 ∧ isreg8 r2 then
    if r1 = r2 ∧ r1 = MREGISTER then none
    else some (BitVec.ofInt 32 (0x40 + r1 * 8 + r2), false)
  else if isreg8 r1 ∧ r2 = IMDATA then some (BitVec.ofInt 32 (0x06 + r1 * 8), true)
  else if r1 = ACCUMULATOR ∧ r2 = MEMORY then some (0x3a, false)
  else if r1 = ACCUMULATOR ∧ r2 = SPBC then some (0x0a, false)
  else if r1 = ACCUMULATOR ∧ r2 = SPDE then some (0x1a, false)
  else if r1 = ACCUMULATOR ∧ r2 = 17 then some (0xed57, false)
  else if r1 = ACCUMULATOR ∧ r2 = 18 then some (0xed5f, false)
  else if isreg16 r1 ∧ r2 = IMDATA then some (BitVec.ofInt 32 (0x01 + (r1 - 8) * 16), false)
  else if isreg16 r1 ∧ r2 = MEMORY then
    if r1 = HLREGISTER then some (0x2a, false)
    else some (BitVec.ofInt 32 (0xed4b + (r1 - 8) * 16), false)
  else if r1 = 11 ∧ r2 = HLREGISTER then some (0xf9, false)
  else if r1 = MEMORY ∧ r2 = ACCUMULATOR then some (0x32, false)
  else if r1 = MEMORY ∧ r2 = HLREGISTER then some (0x22, false)
  else if r1 = MEMORY ∧ isreg16 r2 then some (BitVec.ofInt 32 (0xed43 + (r2 - 8) * 16), false)
  else if r1 = SPBC ∧ r2 = ACCUMULATOR then some (0x02, false)
  else if r1 = SPDE ∧ r2 = ACCUMULATOR then some (0x12, false)
  else if r1 = 17 ∧ r2 = ACCUMULATOR then some (0xed47, false)
  else if r1 = 18 ∧ r2 = ACCUMULATOR then some (0xed4f, false)
  else none

/-- `ld` cpuz80.c:741-872. -/
def ld (oper : Option Str) : M Unit := do
  match ← filter2 (orEmpty oper) c!"?_,_?" with
  | none => error badop
  | some (op1, op2) => do
    let (r1, z) ← getreg {} op1
    let (r2, z) ← getreg z op2
    match ldCode r1 r2 with
    | none => error badop
    | some (code, imm) => docode { z with arg8flag := z.arg8flag || imm } code

/-- A call through `ptr` (crasm.c:562) of a function of cpuz80.c:228-872. -/
def call (h : HZ80) (modifier : Int) (oper : Option Str) : M Unit :=
  let code := BitVec.ofInt 32 modifier
  match h with
  | .simple => simple code oper
  | .im => im oper
  | .rst => rst oper
  | .relbranch => relBranch code oper
  | .jr => jr oper
  | .jp => jp oper
  | .call => callOp oper
  | .ret => ret oper
  | .ex => ex oper
  | .inout => inout code oper
  | .bitop => bitop code oper
  | .onreg8 => onreg8 code oper
  | .logical => logical code oper
  | .stackop => stackop code oper
  | .arith => arith code oper
  | .incr => incr code oper
  | .ld => ld oper

/-- cpuz80.c:875-973. -/
def mz80 : List Entry :=
  [ reg c!"a" 7,
    reg c!"b" 0,
    reg c!"c" 1,
    reg c!"d" 2,
    reg c!"e" 3,
    reg c!"h" 4,
    reg c!"l" 5,
    reg c!"bc" 8,
    reg c!"de" 9,
    reg c!"hl" 10,
    reg c!"sp" 11,
    reg c!"ix" 12,
    reg c!"iy" 13,
    reg c!"f" 16,
    reg c!"i" 17,
    reg c!"r" 18,
    reg c!"af" 19,
    mn c!"ccf" (.hz80 .simple) (0x3f),
    mn c!"cpd" (.hz80 .simple) (0xeda9),
    mn c!"cpdr" (.hz80 .simple) (0xed89),
    mn c!"cpi" (.hz80 .simple) (0xeda1),
    mn c!"cpir" (.hz80 .simple) (0xedb1),
    mn c!"cpl" (.hz80 .simple) (0x2f),
    mn c!"daa" (.hz80 .simple) (0x27),
    mn c!"exx" (.hz80 .simple) (0xd9),
    mn c!"halt" (.hz80 .simple) (0x76),
    mn c!"ind" (.hz80 .simple) (0xedaa),
    mn c!"indr" (.hz80 .simple) (0xedba),
    mn c!"ini" (.hz80 .simple) (0xeda2),
    mn c!"inir" (.hz80 .simple) (0xedb2),
    mn c!"di" (.hz80 .simple) (0xf3),
    mn c!"ei" (.hz80 .simple) (0xfb),
    mn c!"ldd" (.hz80 .simple) (0xeda8),
    mn c!"lddr" (.hz80 .simple) (0xedb8),
    mn c!"ldi" (.hz80 .simple) (0xeda0),
    mn c!"ldir" (.hz80 .simple) (0xedb0),
    mn c!"neg" (.hz80 .simple) (0xed44),
    mn c!"nop" (.hz80 .simple) (0x00),
    mn c!"otdr" (.hz80 .simple) (0xedbb),
    mn c!"otir" (.hz80 .simple) (0xedb3),
    mn c!"outd" (.hz80 .simple) (0xedab),
    mn c!"outi" (.hz80 .simple) (0xeda3),
    mn c!"reti" (.hz80 .simple) (0xed4d),
    mn c!"retn" (.hz80 .simple) (0xed45),
    mn c!"rla" (.hz80 .simple) (0x17),
    mn c!"rlca" (.hz80 .simple) (0x07),
    mn c!"rld" (.hz80 .simple) (0xed6f),
    mn c!"rra" (.hz80 .simple) (0x1f),
    mn c!"rrca" (.hz80 .simple) (0x0f),
    mn c!"rrd" (.hz80 .simple) (0xed67),
    mn c!"scf" (.hz80 .simple) (0x37),
    mn c!"im" (.hz80 .im) (0),
    mn c!"rst" (.hz80 .rst) (0),
    mn c!"djnz" (.hz80 .relbranch) (0x10),
    mn c!"jr" (.hz80 .jr) (0),
    mn c!"jp" (.hz80 .jp) (0),
    mn c!"call" (.hz80 .call) (0),
    mn c!"ret" (.hz80 .ret) (0),
    mn c!"ex" (.hz80 .ex) (0),
    mn c!"in" (.hz80 .inout) (0xdb),
    mn c!"out" (.hz80 .inout) (0xd3),
    mn c!"bit" (.hz80 .bitop) (0xcb40),
    mn c!"set" (.hz80 .bitop) (0xcbc0),
    mn c!"res" (.hz80 .bitop) (0xcb80),
    mn c!"sla" (.hz80 .onreg8) (0xcb20),
    mn c!"sra" (.hz80 .onreg8) (0xcb28),
    mn c!"srl" (.hz80 .onreg8) (0xcb38),
    mn c!"rl" (.hz80 .onreg8) (0xcb10),
    mn c!"rr" (.hz80 .onreg8) (0xcb18),
    mn c!"rlc" (.hz80 .onreg8) (0xcb00),
    mn c!"rrc" (.hz80 .onreg8) (0xcb08),
    mn c!"or" (.hz80 .logical) (0xb0),
    mn c!"and" (.hz80 .logical) (0xa0),
    mn c!"xor" (.hz80 .logical) (0xa8),
    mn c!"sub" (.hz80 .logical) (0x90),
    mn c!"cp" (.hz80 .logical) (0xb8),
    mn c!"push" (.hz80 .stackop) (0xc5 - 0x80),
    mn c!"pop" (.hz80 .stackop) (0xc1 - 0x80),
    mn c!"adc" (.hz80 .arith) (0x88),
    mn c!"sbc" (.hz80 .arith) (0x98),
    mn c!"add" (.hz80 .arith) (0x80),
    mn c!"inc" (.hz80 .incr) (0x0403),
    mn c!"dec" (.hz80 .incr) (0x050b),
    mn c!"ld" (.hz80 .ld) (0) ]

/-- `initz80(code)` cpuz80.c:976-983. -/
def init : M Unit := do
  modFlags fun f => { f with codeHex := true, addr16 := true, lohi := true, relatif := false }
  initLabelList .mz80 mz80

end Z80
end Crasm

import Verif.Model.Cpu6800
import Verif.Model.Cpu6502
import Verif.Model.CpuZ80
/-
  pseudos.c (all pseudo-instructions but conditionals, macros and INCLUDE), stdvocabulary.c, cpulist.c.
-/

namespace Crasm

/-- The `int` obtained from a `long` (`i = r->value`). pseudos.c:161-197, 388-436. -/
def toInt32 (v : Word) : Int := (v.setWidth 32 : BitVec 32).toInt

/-- The echo of an address in the left margin (pseudos.c:44-51, crasm.c:302-309). -/
def echoAddr (v : Word) : M Unit := do
  let s ← getS
  if (s.macrolevel = 0 ∨ s.flags.macrolistOn) ∧ s.lst.lpos = 0 then do
    position 2
    outputaddr v
  else pure ()

/-- `Xequ` pseudos.c:34-61. -/
def xEqu (label : Option Str) (oper : Option Str) : M Unit := do
  let r ← parse oper
  let fl := { r.flags with undef := false, used := false, noredef := false }
  modS fun s => { s with calcR := { r with flags := fl } }
  whenM (r.type = .absolute ∨ r.type = .relative) (echoAddr r.value)
  whenM (label = some starKey) (note (.choice r.flags.forward (.origin r.value)))
  match label with
  | none => ubM .nullLabel
  | some label => do
    let key ← deflabel label fl r.type r.value
    let s ← getS
    match s.tree.find key with
    | some l => putLabel key { l with modifier := r.modifier, ptr := r.ptr }
    | none => pure ()

/-- `stocke(s, modifier)` pseudos.c:103-140. -/
def stocke (e : Option Str) (modifier : Int) : M Unit := do
  let r ← parseAbs e
  let mask : Word ← (
    if modifier = 1 then do
      insert8 (r.value.setWidth 8)
      pure 0xffffff00
    else if modifier = 2 then do
      modFlags fun f => { f with lohi := !f.lohi }
      insert16 (r.value.setWidth 16)
      modFlags fun f => { f with lohi := !f.lohi }
      pure 0xffff0000
    else if modifier = 3 then do
      insert16 (r.value.setWidth 16)
      pure 0xffff0000
    else if modifier = 4 then do
      insert32 (r.value.setWidth 32)
      pure 0
    else pure 0)
  whenM (r.value &&& mask ≠ 0) (warning c!"Operand overflow")

/-- The loop of `Xdc` pseudos.c:149-155; the second capture is shorter than the operand, so its length plus
    one is enough fuel. -/
def dcLoop (modifier : Int) : Nat → Option Str → M Unit
  | 0, _ => stopWith .fuel
  | n + 1, oper => do
    match ← filter2 (orEmpty oper) c!"?_,_?" with
    | some (s1, s2) => do
      stocke (some s1) modifier
      dcLoop modifier n (some s2)
    | none => stocke oper modifier

/-- `Xdc` pseudos.c:144-157. -/
def xDc (modifier : Int) (oper : Option Str) : M Unit :=
  dcLoop modifier ((orEmpty oper).length + 1) oper

/-- pseudos.c:190-193. -/
def fillBytes (b : Byte) : Nat → M Unit
  | 0 => pure ()
  | n + 1 => do insert8 b; fillBytes b n

/-- `Xds` pseudos.c:161-197. -/
def xDs (oper : Option Str) : M Unit := do
  let (oper, init) ← (do
    match ← filter2 (orEmpty oper) c!"?_,_?" with
    | some (s1, s2) => do
      let r ← parseAbs (some s2)
      let init : BitVec 32 := r.value.setWidth 32
      whenM (init &&& 0xffffff00 ≠ 0) (warning c!"multiple byte initialiser")
      pure (some s1, lowByte init)
    | none => pure (oper, 0) : M (Option Str × Byte))
  let r ← parseAbs oper
  let i := toInt32 r.value
  note (.choice r.flags.forward (.count i))
  if i < 0 then do
    insert8 init
    ubM .dsNegative
  else do
    fillBytes init i.toNat
    modS fun s => { s with advance := i }

/-- `settitle(s)` output.c:53-73. -/
def settitle (t : Str) : M Unit := do
  let s ← getS
  whenM (s.lst.titleFlag) (warning c!"title redefinition")
  if 30 < t.length then error c!"too long title"
  else modS fun s => { s with lst := { s.lst with
    title := t, titleFlag := s.lst.titleFlag || s.passnumber = 2 } }

/-- `Xnam` pseudos.c:201-210. -/
def xNam (oper : Option Str) : M Unit :=
  match oper with
  | none => error c!"need an operand"
  | some t => settitle t

/-- The loop of `Xasc` pseudos.c:233-267 on the text after the opening delimiter; `esc` is set just after a
    backslash. Meeting the end of the string is undefined: the NUL is inserted as a byte and the loop goes
    on past the end of the operand (after a backslash it is reported at line 262). -/
def ascLoop (delim : Char) : Bool → Str → M Unit
  | false, [] => ubM .ascOverread
  | true, [] => error c!"Bad \\X character"
  | true, c :: s =>
    match escape c with
    | none => error c!"Bad \\X character"
    | some r => do
      insert8 (BitVec.ofNat 8 r)
      ascLoop delim false s
  | false, c :: s =>
    if c = delim then (if s = [] then pure () else error c!"syntax error")
    else if c = '\\' then ascLoop delim true s
    else do
      insert8 (BitVec.ofNat 8 c.toNat)
      ascLoop delim false s

/-- `Xasc` pseudos.c:214-275. -/
def xAsc (oper : Option Str) : M Unit :=
  match oper with
  | none => error c!"Need an operand"
  | some [] => error c!"Bad operand syntax"
  | some (d :: s) =>
    if d = '\'' ∨ d = '"' then ascLoop d false s else error c!"Bad operand syntax"

/-- `Xcode`/`Xdummy` pseudos.c:282-304. -/
def xCode (on : Bool) (oper : Option Str) : M Unit :=
  if orEmpty oper ≠ [] then
    error (if on then c!"no operand for CODE pseudo" else c!"no operand for DUMMY pseudo")
  else modS fun s => { s with
    thiscall := s.thiscall + 1, segment := s.thiscall + 1, flags := { s.flags with codeOn := on } }

/-- The common frame of `Xlist`, `Xmlist`, `Xclist`, `Xilist` pseudos.c:308-384. -/
def onOff (oper : Option Str) (set : Bool → Flags → Flags) : M Unit := do
  let o := orEmpty oper
  if ← filter0 o c!"_ON_" then modFlags (set true)
  else if ← filter0 o c!"_OFF_" then modFlags (set false)
  else error c!"please: use option ON or OFF"

/-- `Xlist` pseudos.c:308-327. -/
def xList (oper : Option Str) : M Unit :=
  onOff oper fun b f => if b && f.nolist then f else { f with listOn := b }
/-- `Xmlist` pseudos.c:330-346. -/
def xMlist (oper : Option Str) : M Unit := onOff oper fun b f => { f with macrolistOn := b }
/-- `Xclist` pseudos.c:349-365. -/
def xClist (oper : Option Str) : M Unit := onOff oper fun b f => { f with iflistOn := b }
/-- `Xilist` pseudos.c:368-384. -/
def xIlist (oper : Option Str) : M Unit := onOff oper fun b f => { f with includelistOn := b }

/-- `setpage(xplen, xllen)` output.c:76-97. -/
def setpage (xplen xllen : Int) : M Unit := do
  let s ← getS
  whenM (s.lst.pageFlag) (warning c!"page redefinition")
  if 200 < xplen ∨ (xplen ≠ 0 ∧ xplen < 10) ∨ xllen < 39 ∨ 1000 < xllen then error c!"illegal values"
  else modS fun s => { s with lst := { s.lst with
    plen := xplen.toNat, llen := xllen.toNat, pageFlag := s.lst.pageFlag || s.passnumber = 2
    pages := (s.passnumber, xplen.toNat, xllen.toNat) :: s.lst.pages } }

/-- `Xpage` pseudos.c:388-411. -/
def xPage (oper : Option Str) : M Unit :=
  match oper with
  | none => outputEOP
  | some o => do
    match ← filter2 o c!"?_,_?" with
    | none => error c!"syntax: PAGE or PAGE plen,llen "
    | some (s1, s2) => do
      let r1 ← parseAbs (some s1)
      let r2 ← parseAbs (some s2)
      setpage (toInt32 r1.value) (toInt32 r2.value)

/-- The loop of `Xskip` pseudos.c:415-436. -/
def eols : Nat → M Unit
  | 0 => pure ()
  | n + 1 => do outputEOL; eols n

/-- `Xskip` pseudos.c:415-436. -/
def xSkip (oper : Option Str) : M Unit := do
  let r ← parseAbs oper
  let n := toInt32 r.value
  if 100 < n ∨ n < 0 then warning c!"are you sure ?" else eols n.toNat

/-- `Xoutput` pseudos.c:440-458. -/
def xOutput (oper : Option Str) : M Unit := do
  modFlags fun f => { f with codeHex := false, codeScode := false }
  let o := orEmpty oper
  if ← filter0 o c!"_HEX_" then modFlags fun f => { f with codeHex := true }
  else if ← filter0 o c!"_SCODE_" then modFlags fun f => { f with codeScode := true }
  else error c!"please, use options SCODE or HEX"

/-- `Xalign` pseudos.c:462-486. -/
def xAlign (oper : Option Str) : M Unit := do
  let s ← getS
  let o := orEmpty oper
  let odd : Bool := s.code.pc &&& 1 ≠ 0
  if ← filter0 o c!"_EVEN_" then whenM odd (insert8 0)
  else if ← filter0 o c!"_ODD_" then whenM (!odd) (insert8 0)
  else error c!"please, use options EVEN or ODD"

/-- cpulist.c:30-40. -/
inductive Cpu | c6800 | c6801 | c6803 | c6500 | c6502 | c65c02 | z80
deriving DecidableEq, Repr

/-- cpulist.c:30-40. -/
def cpulist : List (Str × Cpu) :=
  [ (c!"6800", .c6800), (c!"6801", .c6801), (c!"6803", .c6803), (c!"6500", .c6500),
    (c!"6502", .c6502), (c!"65C02", .c65c02), (c!"Z80", .z80) ]

/-- The call through `init`, pseudos.c:490-532. -/
def Cpu.init : Cpu → M Unit
  | .c6800 => C6800.init 0
  | .c6801 => C6800.init 1
  | .c6803 => C6800.init 1
  | .c6500 => C6502.init 0
  | .c6502 => C6502.init 1
  | .c65c02 => C6502.init 2
  | .z80 => Z80.init

/-- pseudos.c:506-518. -/
def findCpu (o : Str) : List (Str × Cpu) → M (Option Cpu)
  | [] => pure none
  | (name, c) :: cs => do
    if ← filter0 o name then pure (some c) else findCpu o cs

/-- `Xcpu` pseudos.c:490-532. -/
def xCpu (oper : Option Str) : M Unit := do
  match oper with
  | none => error c!"Need CPU name"
  | some o => do
    let s ← getS
    if s.flags.cpuGv then error c!"One CPU only!"
    else do
      match ← findCpu o cpulist with
      | none => error c!"Unknown CPU name"
      | some c => do
        whenM (s.passnumber = 2) (modFlags fun f => { f with cpuGv := true })
        c.init

/-- `Xfail` pseudos.c:536-548. -/
def xFail (oper : Option Str) : M Unit :=
  match oper with
  | none => error c!"Fail instruction"
  | some [] => error c!"Fail instruction"
  | some o => error o

/-- `defpseudo`/`defspecial` stdvocabulary.c:29-30. -/
def pseudoEntry (name : Str) (fl : LFlags) (p : Pseudo) (m : Int := 0) : Entry :=
  { name := name
    label := { flags := { fl with noredef := true }, type := .mnemo, modifier := m,
               ptr := .handler (.pseudo p) } }

/-- stdvocabulary.c:32-62. -/
def pseudos : List Entry :=
  [ pseudoEntry c!"EQU" { deflabel := true } .equ,
    pseudoEntry c!"ASC" {} .asc,
    pseudoEntry c!"ALIGN" {} .align,
    pseudoEntry c!"CLIST" { nolabel := true } .clist,
    pseudoEntry c!"CODE" { nolabel := true } .code,
    pseudoEntry c!"CPU" { nolabel := true } .cpu,
    pseudoEntry c!"DB" {} .dc 1,
    pseudoEntry c!"DDB" {} .dc 2,
    pseudoEntry c!"DL" {} .dc 4,
    pseudoEntry c!"DW" {} .dc 3,
    pseudoEntry c!"DUMMY" { nolabel := true } .dummy,
    pseudoEntry c!"DS" {} .ds,
    pseudoEntry c!"ELSE" { nolabel := true, defcond := true } .else_,
    pseudoEntry c!"ENDC" { nolabel := true, defcond := true } .endc,
    pseudoEntry c!"ENDM" { nolabel := true, defmacro := true } .endm,
    pseudoEntry c!"EXITM" { nolabel := true, defmacro := true } .exitm,
    pseudoEntry c!"FAIL" { nolabel := true } .fail,
    pseudoEntry c!"IF" { nolabel := true, defcond := true } .if_,
    pseudoEntry c!"ILIST" { nolabel := true } .ilist,
    pseudoEntry c!"INCLUDE" { nolabel := true } .include,
    pseudoEntry c!"LIST" { nolabel := true } .list,
    pseudoEntry c!"MACRO" { deflabel := true, defmacro := true } .macro,
    pseudoEntry c!"MLIST" { nolabel := true } .mlist,
    pseudoEntry c!"NAM" { nolabel := true } .nam,
    pseudoEntry c!"PAGE" { nolabel := true } .page,
    pseudoEntry c!"OUTPUT" { nolabel := true } .output,
    pseudoEntry c!"SKIP" { nolabel := true } .skip ]

end Crasm

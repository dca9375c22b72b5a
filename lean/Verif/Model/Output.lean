import Verif.Model.State
/-
  output.c: the listing; error() and warning() of crasm.c.
-/

namespace Crasm

/-- output.c:32-33. -/
def NMARGIN : Nat := 21
/-- output.c:33. -/
def LMARGIN : Nat := 28

/-- The three empty lines of output.c:149. -/
def eject : M Unit := modLst fun l =>
  { l with out := c!"\n\n\n" :: l.out, lines := if l.ppos = 0 then l.lines else [] :: [] :: [] :: l.lines }

/-- output.c:108-115, the page header.  "%30s" pads on the left, "page%3d". -/
def pageHeader (title : Str) (llen pagenumber : Nat) : Str :=
  c!"Crasm 1.11:   " ++ padLeft 30 title ++ List.replicate (llen - 58) ' '
    ++ c!"page" ++ padLeft 3 (digits pagenumber) ++ c!"\n\n"

/-- `outputraw(s)` output.c:100-134 (write errors on stdout are not modelled). -/
def outputraw (s : Str) : M Unit := do
  let st ← getS
  if st.flags.listOn then
    modLst fun l =>
      let l := if l.ppos = 0 then
          { l with pagenumber := l.pagenumber + 1, ppos := 2,
                   out := pageHeader l.title l.llen (l.pagenumber + 1) :: l.out }
        else l
      let l := { l with out := (s ++ ['\n']) :: l.out, ppos := l.ppos + 1, lines := s :: l.lines }
      if l.plen ≤ l.ppos + 2 ∧ l.plen ≠ 0 then
        { l with out := c!"\n\n" :: l.out, ppos := 0 }
      else l
  else pure ()

/-- `outputEOL()` output.c:252-257.  Only `linebuffer[0]` is cleared, so callers that look at
    `linebuffer + LMARGIN` afterwards still see the old text; `outputcar` takes it before. -/
def outputEOL : M Unit := do
  let st ← getS
  outputraw st.lst.line.reverse
  modLst fun l => { l with lpos := 0, line := [] }

/-- The loop `while (ppos) outputEOL();` of output.c:143-146; `plen <= 200` and every round increases
    `ppos`, so `plen` rounds suffice. -/
def eolLoop : Nat → M Unit
  | 0 => pure ()
  | n + 1 => do
    let st ← getS
    if st.lst.ppos = 0 then pure () else do outputEOL; eolLoop n

/-- `outputEOP()` output.c:137-153. -/
def outputEOP : M Unit := do
  let st ← getS
  if st.flags.listOn then
    if st.lst.plen ≠ 0 then eolLoop (st.lst.plen + 1)
    else eject
  else pure ()

/-- `linebuffer[lpos++] = c; linebuffer[lpos] = 0;` with the bound of `linebuffer[1000]`. output.c:167-249. -/
def putRaw (c : Char) : M Unit := do
  let st ← getS
  if 1000 ≤ st.lst.lpos + 1 then ubM .lineBuffer
  else modLst fun l => { l with line := c :: l.line, lpos := l.lpos + 1 }

/-- `outputcar(' ')` output.c:216-227. -/
def putSpace : M Unit := do
  let st ← getS
  if st.lst.lpos < st.lst.llen then putRaw ' '
  else modLst fun l => { l with lpos := l.lpos + 1 }

/-- output.c:167-235: several blanks. -/
def putSpaces : Nat → M Unit
  | 0 => pure ()
  | n + 1 => do putSpace; putSpaces n

/-- `position(n)` output.c:238-249. -/
def position (n : Nat) : M Unit := do
  let st ← getS
  if st.lst.llen ≤ n then fatal c!"line length must be greater"
  else putSpaces (n - st.lst.lpos)

/-- output.c:195-204: the first pattern that matches the flushed line gives the column. -/
def tryPats (tail : Str) : List Str → M Unit
  | [] => pure ()
  | p :: ps => do
    let r ← filterC tail p
    match r with
    | some (_, k) => position k
    | none => tryPats tail ps

/-- output.c:174-207: start a continuation line. -/
def wrapLine (c : Char) : M Unit := do
  let st ← getS
  let tail := st.lst.line.reverse.drop LMARGIN
  outputEOL
  let r ← filterC tail c!"?;_?"
  (match r with
    | some (_, k) => position k
    | none =>
      if c = ';' then position LMARGIN
      else if LMARGIN ≤ st.lst.lastoffset then position st.lst.lastoffset
      else tryPats tail [c!"_? _? _?", c!"_? _?", c!"_?"])
  modLst fun l => { l with lastoffset := l.lpos }

/-- `outputcar(c)` output.c:167-235.  For a tab the do-while of line 230 prints
    `8 - (lpos + 4) % 8` spaces, since 28 ≡ 4 (mod 8). -/
def outputcar (c : Char) : M Unit := do
  if !isspace c then
    let st ← getS
    whenM (st.lst.llen ≤ st.lst.lpos) (wrapLine c)
    whenM (isprint c || !isascii c) (putRaw c)
  else if c = ' ' then putSpace
  else if c = '\t' then do
    let st ← getS
    putSpaces (8 - (st.lst.lpos + 4) % 8)
  else pure ()

/-- `output(s)` output.c:158-164. -/
def output : Str → M Unit
  | [] => pure ()
  | c :: s => do outputcar c; output s

/-- output.c:273-293, the line number field. -/
def linnumField (pre : Option Char) (macrolevel linenumber : Nat) : Str :=
  match pre with
  | some p =>
    let i := if 5 - macrolevel > 4 then 4 else 5 - macrolevel
    (List.replicate 5 ' ').set i p
  | none => padLeft 5 (digits linenumber)

/-- `outputline()` output.c:261-300. -/
def outputline : M Unit := do
  modLst fun l => { l with lastoffset := 0 }
  let st ← getS
  if st.linenumber = 0 then pure ()
  else do
    position NMARGIN
    output (linnumField st.lineprefix st.macrolevel st.linenumber)
    position LMARGIN
    output st.curline
    outputEOL

/-- Number of hexadecimal digits printed by `outputaddr`: output.c:352-364. -/
def addrDigits (f : Flags) : Nat :=
  if f.addr24 then 6 else if f.addr16 then 4 else 8

/-- The `n` low hexadecimal digits of `a`, most significant first. output.c:346-373. -/
def hexField : Nat → Nat → Str
  | 0, _ => []
  | n + 1, a => hexDigit (a / 16 ^ n) :: hexField n a

/-- `outputaddr(a)` output.c:346-373. -/
def outputaddr (a : Word) : M Unit := do
  let st ← getS
  output (hexField (addrDigits st.flags) a.toNat ++ c!" ")

/-- `outputbyte(b)` output.c:308-343. -/
def outputbyte (b : Byte) : M Unit := do
  let st ← getS
  if 20 < st.advance ∧ NMARGIN - 5 < st.lst.lpos then
    whenM (st.lst.lpos ≤ NMARGIN - 3) (output c!"...")
  else do
    whenM (NMARGIN - 3 < st.lst.lpos) (outputEOL)
    let st ← getS
    whenM (st.code.pc ≠ st.lst.mypc ∧ st.lst.lpos ≠ 0) (outputEOL)
    let st ← getS
    whenM (st.lst.lpos = 0) (outputaddr st.code.pc)
    output (hexField 2 b.toNat)
    modLst fun l => { l with mypc := st.code.pc + 1 }

/-- crasm.c:606-611 and 636-641: `"%7d KIND: %c%s"` with the leading blanks but one turned into '>'. -/
def diagText (kind : Str) (linenumber : Nat) (msg : Str) : Str :=
  let num := digits linenumber
  let pad := 7 - num.length
  let lead := List.replicate (pad - 1) '>' ++ (if pad = 0 then [] else [' '])
  lead ++ num ++ kind ++ (match msg with | [] => [] | c :: m => toupper c :: m)

/-- The name under which the location counter is stored in the tree (crasm.c:256). -/
def starKey : Str := c!"*"

/-- `starlabel` (set by crasm.c:256 before any use). -/
def starLabel (s : St) : Label := (s.tree.find starKey).getD {}

/-- Signed 64-bit addition, or the information that it overflows. operator.c:284-305. -/
def addS (a b : Word) : Option Word := if a.saddOverflow b then none else some (a + b)
/-- The same for subtraction, operator.c:308-358. -/
def subS (a b : Word) : Option Word := if a.ssubOverflow b then none else some (a - b)
/-- The same for multiplication, operator.c:402-408. -/
def mulS (a b : Word) : Option Word := if a.smulOverflow b then none else some (a * b)

/-- `starlabel->value += advance` (crasm.c:565, 621). -/
def bumpStar : M Unit := do
  let st ← getS
  let l := starLabel st
  match addS l.value (BitVec.ofInt 64 st.advance) with
  | none => ubM .signedOverflow
  | some v => modS fun s => { s with tree := s.tree.put starKey { l with value := v } }

/-- crasm.c:602-612: the message, in `char raw[80]`. -/
def reportError (msg : Str) : M Unit := do
  let st ← getS
  let raw := diagText c!" ERROR: " st.linenumber msg
  if 80 ≤ raw.length then ubM .errorBuffer
  else do
    modFlags fun f => { f with listOn := true }
    outputraw raw

/-- `error(s)` crasm.c:596-626: report (unless in pass 1), list the line, step over the bytes already
    generated, longjmp. -/
def error (msg : Str) : M α := do
  let st ← getS
  let old := st.flags.listOn
  whenM (!st.flags.noerror) (reportError msg)
  outputline
  whenM (st.advance ≠ 0) (bumpStar)
  modS fun s => { s with flags := { s.flags with listOn := old },
                         log := .error s.passnumber (!st.flags.noerror) :: s.log }
  throwErr

/-- `warning(s)` crasm.c:629-645. -/
def warning (msg : Str) : M Unit := do
  let st ← getS
  whenM (!st.flags.nowarning) (outputraw (diagText c!" WARNING: " st.linenumber msg))

end Crasm

import Verif.Model.Pseudos
/-
  crasm.c:231-580 (lines, passes) and macro.c (conditionals, macros, source lines, INCLUDE).

  `asmline` calls itself through IF and macro calls, and the loops there have no bound in the source; both
  are given fuel. `self` is the recursive call of asmline one level down.
-/

namespace Crasm

/-- The `status` argument: bit 0 = list the line, bit 1 = assemble it. crasm.c:368, tested in lines 426-567. -/
structure Status where
  lst : Bool
  act : Bool
deriving DecidableEq, Repr

/-- `status & mystatus` macro.c:242, 315, 826. -/
def Status.and (a b : Status) : Status := ⟨a.lst && b.lst, a.act && b.act⟩
/-- As the int handed to a function (crasm.c:532, 537). -/
def Status.toInt (s : Status) : Int := (if s.lst then 1 else 0) + (if s.act then 2 else 0)
/-- The `status` given as an int (crasm.c:274: 3). -/
def Status.ofInt (n : Int) : Status := ⟨n % 2 = 1, n / 2 % 2 = 1⟩

/-- Return value of asmline, macro.c:42-45 (`cont` is 0). -/
inductive RC | cont | endc | else_ | endm | exitm
deriving DecidableEq, Repr

/-! ### Source lines -/

/-- `fgets(buffer, n + 1, f)`: text read, what remains, and whether end of file was hit. macro.c:569. -/
def fgets : Nat → Str → Str × Str × Bool
  | 0, s => ([], s, false)
  | _ + 1, [] => ([], [], true)
  | n + 1, c :: s =>
    if c = '\n' then ([c], s, false)
    else
      let (l, r, e) := fgets n s
      (c :: l, r, e)

/-- Cut at a newline or NUL (macro.c:573). -/
def lineText (s : Str) : Str := s.takeWhile fun c => c ≠ '\n' ∧ c ≠ Char.ofNat 0

/-- macro.c:575: characters that are kept. -/
def keepChar (c : Char) : Bool := c = '\t' || isprint c || !isascii c

/-- macro.c:573-591: the line stored in `buffer`, the warning, and the line count. -/
def takeLine (raw : Str) : M Unit := do
  let t := lineText raw
  let k := t.filter keepChar
  modS fun s => { s with curline := k }
  whenM (k.length ≠ t.length) (warning c!"Unprintable characters removed")
  modS fun s => { s with linenumber := s.linenumber + 1,
                         log := .line s.passnumber s.stack.length k :: s.log }

/-- `length` of every call of linegets.
    crasm.c:272, macro.c:234, 307, 452, 825; one less than 250 is what `fgets` reads. -/
def lineMax : Nat := 250

/-- macro.c:540-562: leave the include files that are exhausted. -/
def popEnds : List Src → St → St
  | { oldlist, oldprefix, oldlinnum, kind := .file _ true } :: rest, s =>
    popEnds rest { s with stack := rest, linenumber := oldlinnum, lineprefix := oldprefix,
                          flags := { s.flags with listOn := oldlist } }
  | _, s => s

/-- macro.c:659-667: append an argument while the line has room. -/
def appendArg (out : Str) : Str → Str
  | [] => out
  | c :: a => if lineMax - 10 < out.length then out else appendArg (c :: out) a

/-- macro.c:625-675: substitute the arguments; `out` is the reversed line so far. The flag tells whether the
    line was cut. -/
def expandLine (args : List Str) (allArgs : Str) : Bool → Str → Str → Str × Bool
  | false, out, [] => (out, false)
  | true, out, [] => ('\\' :: out, false)
  | false, out, c :: s =>
    if lineMax - 10 < out.length then (out, true)
    else if c ≠ '\\' then expandLine args allArgs false (c :: out) s
    else expandLine args allArgs true out s
  | true, out, c :: s =>
    if c = '#' then expandLine args allArgs false (Char.ofNat (args.length + 48) :: out) s
    else if c = '*' then expandLine args allArgs false (appendArg out allArgs) s
    else if '1' ≤ c ∧ c ≤ '9' then
      expandLine args allArgs false (appendArg out (args[c.toNat - 49]?.getD [])) s
    else
      -- the backslash stays and `c` is looked at again (macro.c:673)
      let out := '\\' :: out
      if lineMax - 10 < out.length then (out, true)
      else if c ≠ '\\' then expandLine args allArgs false (c :: out) s
      else expandLine args allArgs true out s

/-- `linegets(curline, 250)` macro.c:528-679. -/
def linegets : M Unit := do
  modS fun s => popEnds s.stack s
  let s ← getS
  match s.stack with
  | [] => do
    let (l, r, e) := fgets (lineMax - 1) s.main
    takeLine l
    modS fun s => { s with main := r, mainEof := s.mainEof || e }
  | src :: rest =>
    match src.kind with
    | .file t _ => do
      let (l, r, e) := fgets (lineMax - 1) t
      takeLine l
      modS fun s => { s with stack := { src with kind := .file r e } :: rest }
    | .macro args all lines =>
      match lines with
      | [] => ubM .nullMacro
      | l :: ls => do
        modS fun s => { s with stack := { src with kind := .macro args all ls } :: rest }
        let (out, cut) := expandLine args all false [] l
        modS fun s => { s with curline := out.reverse,
                               log := .line s.passnumber (rest.length + 1) out.reverse :: s.log }
        whenM (cut) (warning c!"Too long line")

/-! ### Conditionals -/

/-- The comparison chosen by macro.c:75-90. -/
structure Cmp where
  eq : Bool := false
  gt : Bool := false
  lt : Bool := false
  ne : Bool := false

/-- `compar[]` macro.c:75-90. -/
def compar : List (Str × Cmp) :=
  [ (c!"?_>=_?", { gt := true, eq := true }), (c!"?_<=_?", { lt := true, eq := true }),
    (c!"?_==_?", { eq := true }), (c!"?_!=_?", { ne := true }), (c!"?_=_?", { eq := true }),
    (c!"?_<>_?", { ne := true }), (c!"?_<_?", { lt := true }), (c!"?_>_?", { gt := true }) ]

/-- The search in `compar[]` macro.c:105-115. -/
def findCmp (o : Str) : List (Str × Cmp) → M (Option (Str × Str × Cmp))
  | [] => pure none
  | (pat, c) :: cs => do
    match ← filter2 o pat with
    | some (a, b) => pure (some (a, b, c))
    | none => findCmp o cs

/-- macro.c:128-176. -/
def compareRes (q : Cmp) (r1 r2 : Result) : M Bool :=
  if (r1.flags.undef && r1.flags.forward) || (r2.flags.undef && r2.flags.forward) then
    error c!"forward defined expressions are illegal here"
  else if r1.type ≠ r2.type then error c!"Uncomparable expressions"
  else if (q.gt || q.lt) && (r1.type ≠ .absolute && r1.type ≠ .relative) then
    error c!"not a numeric expression"
  else do
    let same : Bool := r1.modifier = r2.modifier ∧ r1.value = r2.value
    let b := (q.gt && r2.value.slt r1.value) || (q.lt && r1.value.slt r2.value)
      || (q.eq && same) || (q.ne && !same)
    note (.choice (r1.flags.forward || r2.flags.forward ||
      ((r1.type = .absolute || r1.type = .macro) && r1.modifier ≠ r2.modifier)) (.test b))
    pure b

/-- `testtrue(oper)` macro.c:94-177. -/
def testtrue (oper : Option Str) : M Bool :=
  match orEmpty oper with
  | [] => pure false
  | o => do
    match ← findCmp o compar with
    | none => do
      let r1 ← parse (some o)
      compareRes { ne := true } r1 {}
    | some (a, b, q) => do
      let r1 ← parse (some a)
      let r2 ← parse (some b)
      compareRes q r1 r2

/-- `errnumber++` crasm.c:269, macro.c:231, 304, 448, 822. -/
def bumpErr : M Unit := modS fun s => { s with errnumber := s.errnumber + 1 }

/-- How one round of the loop of IF ends: back to the loop, or by the error that leaves it
    (macro.c:238-239). -/
inductive Round | rc (r : RC) | eof

/-- macro.c:234-250, one round. -/
def ifRound (self : Status → M RC) (st : Status) : M Round := do
  linegets
  let s ← getS
  if s.mainEof then pure .eof
  else do
    let r ← self st
    pure (.rc (if !st.act && r = .exitm then .cont else r))

/-- macro.c:227-251 and 300-324. -/
def ifLoop (self : Status → M RC) (st : Status) : Nat → M RC
  | 0 => stopWith .fuel
  | n + 1 => do
    let r ← catchErr (ifRound self st) (do bumpErr; pure (.rc .cont))
    match r with
    | .eof => error c!"Unexpected End of File"
    | .rc .cont => ifLoop self st n
    | .rc r => pure r

/-- macro.c:202-213, 262-268, 334-340. -/
def ifList (st : Status) : M Unit := do
  let s ← getS
  whenM (s.flags.iflistOn && st.lst) (outputline)

/-- macro.c:195-205: status of a branch. -/
def branchStatus (taken iflist : Bool) : Status := ⟨taken || iflist, taken⟩

/-- macro.c:217-223, 292-298. -/
def markSkipped (st : Status) (taken : Bool) : M Unit :=
  whenM (st.act && !taken) (modS fun s => { s with lineprefix := some 'C' })

/-- macro.c:280-352: the part after ELSE. -/
def ifElse (self : Status → M RC) (fuel : Nat) (st : Status) (taken : Bool) (old : Option Char) : M RC := do
  let s ← getS
  let my := branchStatus (!taken) s.flags.iflistOn
  markSkipped st (!taken)
  let r ← ifLoop self (st.and my) fuel
  modS fun s => { s with lineprefix := old }
  if r = .endm ∨ r = .else_ then error c!"ELSE or ENDM illegal here"
  else do
    ifList st
    pure (if r = .exitm then .exitm else .cont)

/-- `Xif` macro.c:180-353. -/
def xIf (self : Status → M RC) (fuel : Nat) (st : Status) (oper : Option Str) : M RC := do
  let taken ← (if st.act then testtrue oper else pure false)
  let s ← getS
  let my := branchStatus taken s.flags.iflistOn
  ifList st
  let s ← getS
  let old := s.lineprefix
  markSkipped st taken
  let r ← ifLoop self (st.and my) fuel
  modS fun s => { s with lineprefix := old }
  if r = .endm then error c!"ENDM illegal here"
  else do
    ifList st
    match r with
    | .endc => pure .cont
    | .exitm => pure .exitm
    | _ => ifElse self fuel st taken old

/-- `Xelse`, `Xendc` macro.c:49-68. -/
def xElse (oper : Option Str) : M RC :=
  if oper.isSome then error c!"no operand allowed for ELSE" else pure .else_
/-- `Xendc` macro.c:60-68. -/
def xEndc (oper : Option Str) : M RC :=
  if oper.isSome then error c!"no operand allowed for ENDC" else pure .endc

/-! ### Macros -/

/-- `Xexitm`, `Xendm` macro.c:365-404. -/
def macroEnd (msg : Str) (rc : RC) (st : Status) (oper : Option Str) : M RC :=
  if oper.isSome then error msg
  else do
    let s ← getS
    whenM (s.macrolevel = 0 && st.lst) (outputline)
    pure (if s.macrolevel ≠ 0 && st.act then rc else .cont)

/-- `Xexitm` macro.c:365-383. -/
def xExitm : Status → Option Str → M RC := macroEnd c!"no operand allowed in EXITM statement" .exitm
/-- `Xendm` macro.c:386-404. -/
def xEndm : Status → Option Str → M RC := macroEnd c!"no operand allowed in ENDM statement" .endm

/-- The loop of `Xmacro` macro.c:444-477; `acc` holds the lines stored so far, latest first. Nothing between
    the setjmp of line 446 and the end of the loop calls error() while it is in force. -/
def macroLoop (st : Status) : Nat → List Str → M (List Str × Str × Str)
  | 0, _ => stopWith .fuel
  | n + 1, acc => do
    zerobuffer
    linegets
    let s ← getS
    if s.mainEof then error c!"Unexpected End of File"
    else do
      let l ← (do
        match ← filter2 s.curline c!"?_;?" with
        | some (s1, _) => pure s1
        | none => pure s.curline : M Str)
      whenM (st.lst) (outputline)
      match ← filter2 l c!"_?_ENDM_?" with
      | some (a, b) => pure ((l :: acc).reverse, a, b)
      | none => macroLoop st n (l :: acc)

/-- macro.c:486-489. -/
def setLines (k : Str) (lines : List Str) : M Unit := do
  let s ← getS
  match s.tree.find k with
  | some l => putLabel k { l with ptr := .lines lines }
  | none => pure ()

/-- `Xmacro` macro.c:407-492. -/
def xMacro (fuel : Nat) (st : Status) (label : Option Str) (oper : Option Str) : M RC :=
  match label with
  | none => ubM .nullLabel
  | some label => do
    let s ← getS
    if oper.isSome then error c!"no operand allowed in macro statement"
    else if s.macrolevel ≠ 0 then error c!"nested macro definition"
    else do
      whenM (st.lst) (outputline)
      let key ← (if st.act then do
          let k ← deflabel (label.take LABLEN) {} .macro 0
          pure (some k)
        else pure none : M (Option Str))
      let (lines, a, b) ← macroLoop st fuel []
      if a ≠ [] ∨ b ≠ [] then error c!"illegal ENDM instruction"
      else do
        (match key with
          | none => pure ()
          | some k => setLines k lines)
        pure .cont

/-- `#define MAXSOURCEDEEP` macro.c:33. -/
def maxSourceDeep : Nat := 10

/-- macro.c:744-749: entry 0 of `source[]` is the main file. -/
def checkDepth : M Unit := do
  let s ← getS
  whenM (maxSourceDeep ≤ s.stack.length + 1) (fatal c!"too many nested INCLUDEs and MACROs")

/-- macro.c:766-788: the arguments, each cut at 59 characters. The second capture of the filter is shorter
    than the operand, so its length plus one is enough fuel. -/
def macroArgs : Nat → List Str → Str → M (List Str)
  | 0, _, _ => stopWith .fuel
  | n + 1, acc, o =>
    if o = [] then pure acc.reverse
    else if 8 < acc.length then error c!"Too many arguments in a macro call"
    else do
      match ← filter2 o c!"?_,_?" with
      | some (a, b) => macroArgs n (a.take 59 :: acc) b
      | none => pure ((o.take 59 :: acc).reverse)

/-- macro.c:818-827. -/
def macroRun (self : Status → M RC) (st : Status) : Nat → M RC
  | 0 => stopWith .fuel
  | n + 1 => do
    let r ← catchErr (do linegets; self st) (do bumpErr; pure .cont)
    match r with
    | .cont => macroRun self st n
    | r => pure r

/-- macro.c:743: `labmacro->flags |= USED`. -/
def markUsed (key : Str) : M Unit := modS fun s =>
  match s.tree.find key with
  | some l => { s with tree := s.tree.put key { l with flags := { l.flags with used := true } } }
  | none => s

/-- `macrocall(labmacro, status, oper)` macro.c:734-859; `key` is the tree key of `labmacro`. -/
def macrocall (self : Status → M RC) (fuel : Nat) (key : Str) (lab : Label) (st : Status)
    (oper : Option Str) : M Unit := do
  markUsed key
  checkDepth
  let s0 ← getS
  let o := orEmpty oper
  let args ← macroArgs (o.length + 1) [] o
  match lab.ptr with
  | .lines ls => do
    whenM (s0.flags.macrolistOn && st.lst) (outputline)
    modS fun s => { s with
      stack := { oldlist := s0.flags.listOn, oldprefix := s0.lineprefix, oldlinnum := s0.linenumber,
                 kind := .macro args (o.take 59) ls } :: s.stack,
      lineprefix := some 'M', macrolevel := s.macrolevel + 1,
      thiscall := s.thiscall + 1, segment := s.thiscall + 1,
      log := .opened s.passnumber (s.stack.length + 1) (.macro args (o.take 59) ls) :: s.log }
    let r ← macroRun self (st.and ⟨s0.flags.macrolistOn, true⟩) fuel
    modS fun s => { s with
      macrolevel := s.macrolevel - 1, linenumber := s0.linenumber, lineprefix := s0.lineprefix,
      flags := { s.flags with listOn := s0.flags.listOn },
      stack := s.stack.drop (s.stack.length - s0.stack.length), segment := s0.segment }
    if r ≠ .endm ∧ r ≠ .exitm then error c!"ELSE or ENDC illegal here"
    else do
      let s ← getS
      if !s.flags.macrolistOn then do
        modS fun s => { s with curline := s0.curline }
        whenM (st.lst) (outputline)
      else pure ()
  | _ => ubM .nullMacro

/-- `Xinclude` macro.c:682-727. -/
def xInclude (oper : Option Str) : M Unit :=
  match oper with
  | none => error c!"no filename"
  | some name => do
    let s ← getS
    match s.env.fs name with
    | none => error c!"can't open include file"
    | some text => do
      checkDepth
      whenM (s.flags.listOn) (outputline)
      modS fun s' => { s' with
        stack := { oldlist := s.flags.listOn, oldprefix := s.lineprefix, oldlinnum := s.linenumber,
                   kind := .file text false } :: s'.stack,
        linenumber := 0,
        flags := { s'.flags with listOn := s'.flags.listOn && s'.flags.includelistOn },
        log := .opened s'.passnumber (s'.stack.length + 1) (.file text false) :: s'.log }

/-! ### Lines -/

/-- A call through the `ptr` of a mnemonic: `arg` is the first argument (status or modifier).
    crasm.c:532, 537, 562. -/
def callHandler (self : Status → M RC) (fuel : Nat) (h : Handler) (arg : Int) (label oper : Option Str) :
    M RC :=
  let unit (m : M Unit) : M RC := do m; pure .cont
  match h with
  | .h6800 h => unit (C6800.call h arg oper)
  | .h6502 h => unit (C6502.call h arg oper)
  | .hz80 h => unit (Z80.call h arg oper)
  | .pseudo p =>
    match p with
    | .equ => unit (xEqu label oper)
    | .asc => unit (xAsc oper)
    | .align => unit (xAlign oper)
    | .clist => unit (xClist oper)
    | .code => unit (xCode true oper)
    | .cpu => unit (xCpu oper)
    | .dc => unit (xDc arg oper)
    | .dummy => unit (xCode false oper)
    | .ds => unit (xDs oper)
    | .else_ => xElse oper
    | .endc => xEndc oper
    | .endm => xEndm (.ofInt arg) oper
    | .exitm => xExitm (.ofInt arg) oper
    | .fail => unit (xFail oper)
    | .if_ => xIf self fuel (.ofInt arg) oper
    | .ilist => unit (xIlist oper)
    | .include => unit (xInclude oper)
    | .list => unit (xList oper)
    | .macro => xMacro fuel (.ofInt arg) label oper
    | .mlist => unit (xMlist oper)
    | .nam => unit (xNam oper)
    | .page => unit (xPage oper)
    | .output => unit (xOutput oper)
    | .skip => unit (xSkip oper)

/-- `herelabel(label)` crasm.c:282-311. -/
def herelabel (label : Str) : M Unit := do
  if label = starKey then error c!"illegal star definition"
  else do
    let s ← getS
    let v := (starLabel s).value
    if s.flags.orgGv then do
      let key ← deflabel label { noredef := true } (addrType s.flags) v
      note (.label key v)
      whenM (!s.flags.codeOn) (echoAddr v)
    else error c!"undefinable label: no org given"

/-- crasm.c:336-348. -/
def usable (key : Str) (l : Label) : Option (Str × Label) :=
  if !l.flags.undef && (l.type = .mnemo || l.type = .macro) then some (key, l) else none

/-- `findmnemo(mnemo)` crasm.c:314-349: key and label. -/
def findmnemo (mnemo : Str) : M (Option (Str × Label)) := do
  let s ← getS
  match searchlabel s mnemo with
  | some l => pure (usable (canon s.segment mnemo) l)
  | none => do
    match ← filter2 mnemo c!"?.?" with
    | none => pure none
    | some (aux, _) =>
      match searchlabel s aux with
      | some l =>
        if l.modifier < 0 then do
          whenM ((usable (canon s.segment aux) l).isSome) (note .odd)
          pure (usable (canon s.segment aux) l)
        else pure none
      | none => pure none

/-- `nospacein(s)` crasm.c:352-365. -/
def nospacein (s : Str) : Bool := s.all fun c => !isblank c

/-- The three fields of a statement and the vocabulary entry of the mnemonic.
    crasm.c:370-373: the local variables `label`, `mnemo`, `oper`, `labmnemo`. -/
structure Fields where
  label : Option Str
  mnemo : Str
  oper : Option Str
  entry : Option (Str × Label)

/-- crasm.c:461-482, once a label has been set apart. -/
def splitMnemo (label : Option Str) (s : Str) : M Fields := do
  let r ← filter2 s c!"? _?"
  match r with
  | some (m :: ms, o :: os) => do
    let e ← findmnemo (m :: ms)
    pure { label, mnemo := m :: ms, oper := some (o :: os), entry := e }
  | _ => do
    let e ← findmnemo s
    pure { label, mnemo := s, oper := none, entry := e }

/-- crasm.c:444-483. -/
def splitLine (s : Str) : M Fields := do
  let eq ← filter2 s c!"?_=_?"
  match (match eq with | some (l, o) => if nospacein l then some (l, o) else none | none => none) with
  | some (label, oper) => do
    let e ← findmnemo c!"equ"
    if !checklabel label then error c!"malformed label"
    else pure { label := some label, mnemo := c!"equ", oper := some oper, entry := e }
  | none => do
    let f ← splitMnemo none s
    match f.oper, f.entry with
    | some rest, none =>
      if !checklabel f.mnemo then error c!"malformed label"
      else splitMnemo (some f.mnemo) rest
    | _, _ => pure f

/-- crasm.c:376-386: location counter and origin flag at the start of a line. -/
def startLine : M Unit := do
  modS fun s => { s with advance := 0 }
  let s ← getS
  let star := starLabel s
  modFlags fun f => { f with orgGv := !star.flags.undef }
  whenM (!star.flags.undef) (setpc star.value)
  zerobuffer

/-- crasm.c:407-417: blanks at the end of the line are cut off. -/
def rtrim (s : Str) : Str := (s.reverse.dropWhile isblank).reverse

/-- crasm.c:400-422: drop the comment, or the blanks around the line (the trailing ones in `curline`
    itself). -/
def stripLine : M Str := do
  let s ← getS
  match ← filter2 s.curline c!"_?_;?" with
  | some (l, _) => pure l
  | none => do
    let t := rtrim s.curline
    modS fun s => { s with curline := t }
    pure (t.dropWhile isblank)

/-- Does the line start in column 0 (crasm.c:390)? -/
def startsFlush (s : Str) : Bool := match s with | [] => true | c :: _ => !isblank c

/-- crasm.c:530-579: execute a statement whose mnemonic is known. -/
def execLine (self : Status → M RC) (fuel : Nat) (st : Status) (label oper : Option Str) (key : Str)
    (lab : Label) : M RC :=
  if lab.flags.defcond || lab.flags.defmacro then
    match lab.ptr with
    | .handler h => callHandler self fuel h st.toInt label oper
    | _ => ubM .nullHandler
  else if lab.type = .macro then
    if label.isSome && (orEmpty oper).take 5 = c!"MACRO" then
      error c!"macro is already defined"
    else do
      (if st.act then macrocall self fuel key lab st oper else whenM (st.lst) (outputline))
      pure .cont
  else if lab.type = .mnemo then do
    whenM st.act (do
      match lab.ptr with
      | .handler h => do
        let _ ← callHandler self fuel h lab.modifier label oper
        pure ()
      | _ => ubM .nullHandler)
    bumpStar
    whenM (st.lst) (outputline)
    pure .cont
  else fatal c!"proc asmline failure"

/-- crasm.c:485-528: labels, then the statement. -/
def doFields (self : Status → M RC) (fuel : Nat) (st : Status) (flush : Bool) (f : Fields) : M RC :=
  match f.entry with
  | none =>
    if flush && f.label.isNone && f.oper.isNone then do
      whenM (st.act) (herelabel f.mnemo)
      whenM (st.lst) (outputline)
      pure .cont
    else error c!"unknown macro or mnemonic"
  | some (key, lab) =>
    if lab.flags.nolabel && f.label.isSome then error c!"labels not allowed here"
    else do
      (match f.label with
        | none => whenM (lab.flags.deflabel) (error c!"label required here")
        | some l => whenM (!lab.flags.deflabel && st.act) (herelabel l))
      execLine self fuel st f.label f.oper key lab

/-- `asmline(curline, status)` crasm.c:368-580. -/
def asmlineF (self : Status → M RC) (fuel : Nat) (st : Status) : M RC := do
  startLine
  let s ← getS
  let flush := startsFlush s.curline
  let t ← stripLine
  if t = [] then do
    whenM (st.lst) (outputline)
    pure .cont
  else do
    let f ← splitLine t
    doFields self fuel st flush f

/-- `asmline` with fuel for the nesting depth and for the loops. crasm.c:368-580. -/
def asmline : Nat → Status → M RC
  | 0, _ => stopWith .fuel
  | n + 1, st => asmlineF (asmline n) n st

/-! ### Passes -/

/-- crasm.c:272-277. -/
def passBody (n : Nat) : M Unit := do
  linegets
  let r ← asmline n ⟨true, true⟩
  whenM (r ≠ .cont) (error c!"ELSE, ENDC, ENDM, EXITM illegal here")

/-- crasm.c:265-278. After an error the loop resumes at the setjmp, i.e. without testing for end of file:
    `check` tells whether the test is made. -/
def passLoop (fuel : Nat) : Nat → Bool → M Unit
  | 0, _ => stopWith .fuel
  | n + 1, check => do
    let s ← getS
    if check && s.mainEof then pure ()
    else do
      let again ← catchErr (do passBody fuel; pure true) (do bumpErr; pure false)
      passLoop fuel n again

/-- crasm.c:233-263. -/
def passInit (n : Nat) : M Unit := do
  modS fun s => { s with
    main := s.source, mainEof := false,
    flags := { s.flags with codeOn := true, listOn := s.flags.listOn || !s.flags.nolist,
                            macrolistOn := false, iflistOn := true },
    macrolevel := 0, thiscall := 0, segment := 0, linenumber := 0, lineprefix := none }
  let l ← findlabel starKey
  putLabel starKey { l with flags := { l.flags with undef := true, noredef := false, forward := false } }
  modS fun s => { s with passnumber := n, errnumber := 0 }

/-- `pass(n)` crasm.c:231-279. -/
def pass (fuel : Nat) (n : Nat) : M Unit := do
  passInit n
  passLoop fuel fuel true

end Crasm

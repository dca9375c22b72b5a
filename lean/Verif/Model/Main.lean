import Verif.Model.Asm
/-
  crasm.c:82-228 (main, crasm), 648-693 (fatal, syntax); xref.c (result and symbol table).
-/

namespace Crasm

/-! ### xref.c -/

/-- xref.c:34. -/
def RECLEN : Nat := LABLEN + 13

/-- xref.c:35 with the modifier filled in. -/
def typeText (undef : Bool) (l : Label) : Str :=
  if undef then c!"Undefined"
  else match l.type with
    | .mnemo => c!"Mnemonic"
    | .macro => c!"Macro"
    | .absolute => c!"Abs"
    | .relative => c!"Rel"
    | .regs => c!"Register(s)"
    | .directbit => c!"Bit" ++ intDigits l.modifier

/-- xref.c:65: `name[0]` is a (signed) char, so characters from 128 on compare as negative numbers; an empty
    name has first character NUL. -/
def hiddenName (k : Str) : Bool :=
  match k with
  | [] => true
  | c :: _ => c.toNat ≤ 57 || 128 ≤ c.toNat

/-- xref.c:52-68: labels that are not printed. -/
def hiddenLabel (k : Str) (l : Label) : Bool :=
  (l.type ≠ .absolute && l.type ≠ .relative && l.flags.noredef) || hiddenName k

/-- `printlabel(label)` xref.c:37-112. Its writes to `label->type` are not seen by anything else. -/
def printlabel (k : Str) (l : Label) : M Unit := do
  let s ← getS
  whenM (s.lst.llen ≤ s.lst.lpos + RECLEN) (outputEOL)
  let s ← getS
  let newpos := s.lst.lpos + RECLEN
  if hiddenLabel k l then pure ()
  else do
    let undef := l.flags.undef && !l.flags.forward
    outputcar (if !l.flags.used then '?' else if l.flags.forward then '^' else ' ')
    whenM (!undef && (l.type = .absolute || l.type = .relative || l.type = .directbit))
      (outputaddr l.value)
    let t := typeText undef l
    position (newpos - LABLEN - 2 - t.length)
    output t
    position (newpos - LABLEN - 1)
    output (k.take LABLEN)
    position newpos

/-- `xref2` xref.c:115-123, over the nodes in order. -/
def printlabels : List (Str × Label) → M Unit
  | [] => pure ()
  | (k, l) :: ls => do printlabel k l; printlabels ls

/-- `xref()` xref.c:167-173. -/
def xref : M Unit := do
  outputEOP
  let s ← getS
  printlabels s.tree.toList
  outputEOL
  outputEOP

/-- `sprintf` into `buffer[40]` (xref.c:130), then print it on a line. -/
def resultLine (t : Str) : M Unit :=
  if 40 ≤ t.length then ubM .resultBuffer
  else do
    output t
    outputEOL

/-- xref.c:152, 155. -/
def sizeLine (msg : Str) (v : Word) : Str :=
  msg ++ padLeft 8 (hexLower v.toNat) ++ c!" (" ++ intDigits v.toInt ++ c!")"

/-- `result()` xref.c:126-164; `warnnumber` is never incremented. -/
def result : M Unit := do
  let s ← getS
  whenM ((s.lst.plen : Int) - s.lst.ppos < 10) (do
    outputEOP
    outputEOL
    outputEOL)
  outputEOL
  resultLine (c!"ERRORS:    " ++ padLeft 4 (digits s.errnumber))
  resultLine (c!"WARNINGS:  " ++ padLeft 4 (digits 0))
  outputEOL
  if s.errnumber = 0 then do
    output c!"Successful assembly..."
    outputEOL
    resultLine (sizeLine c!" Last address " (s.code.pc - 1))
    resultLine (sizeLine c!" Code length  " s.code.codelen)
  else do
    output c!"No code generated..."
    outputEOL

/-! ### crasm.c -/

/-- The bits SCODE, LIST, XREF, WARN of crasm.c:32-35; `scode` carries the name given with -o. -/
structure Opts where
  list : Bool := true
  warn : Bool := true
  xref : Bool := false
  scode : Option Str := none
  input : Option Str := none
deriving DecidableEq, Repr

/-- crasm.c:177. -/
def pass1Flags : Flags := { nolist := true, nowarning := true, noerror := true, nocode := true }

/-- State on entry of `crasm()` once the source file is open (crasm.c:160-177). -/
def initSt (env : Env) (source : Str) : St :=
  { env := env, source := source, flags := pass1Flags, lst := { llen := 76, plen := 66 } }

/-- crasm.c:185-200. -/
def pass2Flags (o : Opts) (f : Flags) : Flags :=
  { f with noerror := false
           nocode := f.nocode && o.scode.isNone
           nolist := f.nolist && !o.list
           nowarning := f.nowarning && !o.warn }

/-- crasm.c:160 and 180-215: both passes and the closing of the code file. -/
def assemble (fuel : Nat) (o : Opts) : M Unit := do
  initLabelList .pseudos pseudos
  pass fuel 1
  modFlags (pass2Flags o)
  undeflabels
  pass fuel 2
  modS fun s =>
    if s.code.file.isSome then { s with code := s.code.close s.flags.codeHex } else s
  modFlags fun f => { f with listOn := true }

/-- What happens to the file named by -o. scode.c:56-69, crasm.c:219-222. -/
inductive CodeFile
  /-- never opened, nor removed -/
  | untouched
  /-- created or truncated, with this text -/
  | written (t : Str)
  /-- removed at the end (crasm.c:221) -/
  | removed
deriving DecidableEq, Repr

/-- Observable result of a run: exit status, standard output, fate of the code file; or a run that has no
    defined result. crasm.c:82-228, 648-652. -/
inductive Run
  | exit (code : Nat) (stdout : Str) (file : CodeFile)
  | ub (u : UB)
  | hang
  | fuel
deriving DecidableEq, Repr

/-- Everything printed, output.c:100-153. -/
def stdoutOf (s : St) : Str := s.lst.out.reverse.flatten

/-- The file after `closescodefile` scode.c:153-170. -/
def fileOf (s : St) : CodeFile :=
  match s.code.file with
  | some t => .written t
  | none => .untouched

/-- crasm.c:650. -/
def fatalText (msg : Str) : Str := c!"FATAL ERROR: " ++ msg ++ c!"\n"

/-- crasm.c:180-227 and the ways out of it. The removal of the code file (line 219) lies between `result`
    and `xref`. -/
def finish (fuel : Nat) (o : Opts) (s0 : St) : Run :=
  match assemble fuel o s0 with
  | .stop (.fatal m) s => .exit 10 (stdoutOf s ++ fatalText m) (fileOf s)
  | .stop (.ub u) _ => .ub u
  | .stop .hang _ => .hang
  | .stop .fuel _ => .fuel
  | .err _ => .ub .nullHandler   -- longjmp without setjmp; cannot happen
  | .ok _ s1 =>
    match result s1 with
    | .stop (.fatal m) s => .exit 10 (stdoutOf s ++ fatalText m) (fileOf s)
    | .stop (.ub u) _ => .ub u
    | .stop .hang _ => .hang
    | .stop .fuel _ => .fuel
    | .err _ => .ub .nullHandler
    | .ok _ s2 =>
      let file := if s1.errnumber ≠ 0 ∧ o.scode.isSome then .removed else fileOf s2
      if o.xref || (s1.errnumber = 0 && o.list) then
        match xref s2 with
        | .stop (.fatal m) s => .exit 10 (stdoutOf s ++ fatalText m) file
        | .stop (.ub u) _ => .ub u
        | .stop .hang _ => .hang
        | .stop .fuel _ => .fuel
        | .err _ => .ub .nullHandler
        | .ok _ s3 => .exit 0 (stdoutOf s3) file
      else .exit 0 (stdoutOf s2) file

/-- `crasm(flag)` crasm.c:158-228. -/
def crasm (fuel : Nat) (env : Env) (o : Opts) (name : Str) : Run :=
  match env.fs name with
  | none => .exit 10 (fatalText c!"can't open source file") .untouched
  | some src => finish fuel o (initSt env src)

/-- `syntax(s)` crasm.c:670-693. -/
def syntaxText (msg : Str) : Str :=
  msg ++ c!"\nSyntax:  crasm [-slx] [-o SCODEFILE] INPUTFILE\nCrasm 1.11 known CPUs:"
    ++ c!"\n\t 6800 6801 6803\n\t 6500 6502 65C02\n\t Z80\n"

/-- crasm.c:102-131: the letters of one option word. `rest` are the words that follow. -/
def optLetters (o : Opts) (rest : List Str) : Str → Except Str (Opts × List Str)
  | [] => .ok (o, rest)
  | c :: s =>
    if c = 's' then optLetters { o with warn := false } rest s
    else if c = 'l' then optLetters { o with list := false } rest s
    else if c = 'x' then optLetters { o with xref := true } rest s
    else if c = 'o' then
      match s, rest, o.scode with
      | [], w :: rest', none => .ok ({ o with scode := some w }, rest')
      | _, _, _ => optLetters o rest s
    else .error c!"Bad Option(s)"

/-- crasm.c:98-143. -/
def parseArgs : Nat → Opts → List Str → Except Str Opts
  | 0, o, _ => .ok o
  | _, o, [] => .ok o
  | n + 1, o, w :: ws =>
    match w with
    | '-' :: s =>
      match optLetters o ws s with
      | .error e => .error e
      | .ok (o, ws) => parseArgs n o ws
    | _ => if o.input.isSome then .error c!"One input only" else parseArgs n { o with input := some w } ws

/-- `main` crasm.c:82-155; `args` are the words after the program name. -/
def mainC (fuel : Nat) (env : Env) (args : List Str) : Run :=
  match parseArgs args.length {} args with
  | .error e => .exit 10 (syntaxText e) .untouched
  | .ok o =>
    match o.input with
    | none => .exit 10 (syntaxText c!"No input!") .untouched
    | some name => crasm fuel env o name

end Crasm

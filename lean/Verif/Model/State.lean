import Verif.Model.Filter
/-
  The global state of crasm, the outcomes of a C function, and the monad in which the model is written.
-/

namespace Crasm

/-- A `long` / `unsigned long` (LP64: 64 bits, two's complement). label.h:42, scode.c:30-32. -/
abbrev Word := BitVec 64
/-- An unsigned char, scode.c:49. -/
abbrev Byte := BitVec 8

/-- label.h:54-60, the type tags. -/
inductive LType | mnemo | macro | absolute | relative | regs | directbit
deriving DecidableEq, Repr

/-- label.h:65-73, the bits of `flags`. -/
structure LFlags where
  undef : Bool := false
  forward : Bool := false
  used : Bool := false
  noredef : Bool := false
  nolabel : Bool := false
  deflabel : Bool := false
  defmacro : Bool := false
  defcond : Bool := false
deriving DecidableEq, Repr

/-- `presult->flags |= parg->flags`. operator.c:284-468. -/
def LFlags.or (a b : LFlags) : LFlags :=
  { undef := a.undef || b.undef, forward := a.forward || b.forward, used := a.used || b.used,
    noredef := a.noredef || b.noredef, nolabel := a.nolabel || b.nolabel,
    deflabel := a.deflabel || b.deflabel, defmacro := a.defmacro || b.defmacro,
    defcond := a.defcond || b.defcond }

/-- The pseudo-instructions of stdvocabulary.c:32-62 (one constructor per C function). -/
inductive Pseudo
  | equ | asc | align | clist | code | cpu | dc | dummy | ds | else_ | endc | endm | exitm | fail
  | if_ | ilist | include | list | macro | mlist | nam | page | output | skip
deriving DecidableEq, Repr

/-- Instruction handlers of cpu6800.c. cpu6800.c:27-208. -/
inductive H6800 | branch | single | standard | standard2 | standard3
deriving DecidableEq, Repr
/-- Instruction handlers of cpu6502.c. cpu6502.c:45-258. -/
inductive H6502 | branch | single | standard
deriving DecidableEq, Repr
/-- Instruction handlers of cpuz80.c. cpuz80.c:228-872. -/
inductive HZ80
  | simple | im | rst | relbranch | jr | jp | call | ret | ex | inout | bitop | onreg8 | logical
  | stackop | arith | incr | ld
deriving DecidableEq, Repr

/-- What the `ptr` field of a mnemonic can point to. label.h:41, stdvocabulary.c:29-62, cpu.h:36-40. -/
inductive Handler
  | pseudo (p : Pseudo) | h6800 (h : H6800) | h6502 (h : H6502) | hz80 (h : HZ80)
deriving DecidableEq, Repr

/-- The `ptr` field (label.h:41): a function, or (macro.c:488) the list of lines of a macro. -/
inductive Ptr | null | handler (h : Handler) | lines (ls : List Str)
deriving DecidableEq, Repr

/-- The static arrays of predefined symbols.
    stdvocabulary.c:32, cpu6800.c:212, 331, cpu6502.c:261, 342, cpuz80.c:875. -/
inductive TableId | pseudos | m6800 | m6801 | m6502 | m65c02 | mz80
deriving DecidableEq, Repr

/-- label.h:33-43 without name and links.  `origin` tells whether the node is an element of one of the
    static arrays (init_label_list links the array elements themselves into the tree) or was allocated. -/
structure Label where
  flags : LFlags := {}
  type : LType := .absolute
  modifier : Int := 0
  ptr : Ptr := .null
  value : Word := 0
  origin : Option TableId := none
deriving DecidableEq, Repr

/-- label.h:45-52. -/
structure Result where
  flags : LFlags := {}
  type : LType := .absolute
  modifier : Int := 0
  ptr : Ptr := .null
  value : Word := 0
deriving DecidableEq, Repr

/-- The binary tree rooted at `lroot` (label.c:39). -/
inductive Tree where
  | leaf
  | node (l : Tree) (k : Str) (v : Label) (r : Tree)
deriving Repr

/-- label.c:116-131: descent in the tree. -/
def Tree.find (k : Str) : Tree → Option Label
  | .leaf => none
  | .node l k' v r =>
    match scmp k k' with
    | .eq => some v
    | .gt => r.find k
    | .lt => l.find k

/-- Write through the pointer found by the same descent: update the node, or hang a new one at `*addrpos`
    (label.c:170, label.c:287). -/
def Tree.put (k : Str) (x : Label) : Tree → Tree
  | .leaf => .node .leaf k x .leaf
  | .node l k' v r =>
    match scmp k k' with
    | .eq => .node l k' x r
    | .gt => .node l k' v (r.put k x)
    | .lt => .node (l.put k x) k' v r

/-- Apply `f` to every node. label.c:301-325. -/
def Tree.map (f : Label → Label) : Tree → Tree
  | .leaf => .leaf
  | .node l k v r => .node (l.map f) k (f v) (r.map f)

/-- In-order listing (xref.c:115-123). -/
def Tree.toList : Tree → List (Str × Label)
  | .leaf => []
  | .node l k v r => l.toList ++ (k, v) :: r.toList

/-- dcl.h:66-83, the bits of `asmflags`. -/
structure Flags where
  cpuGv : Bool := false
  orgGv : Bool := false
  codeOn : Bool := false
  listOn : Bool := false
  iflistOn : Bool := false
  macrolistOn : Bool := false
  includelistOn : Bool := false
  lohi : Bool := false
  addr16 : Bool := false
  addr24 : Bool := false
  relatif : Bool := false
  codeHex : Bool := false
  codeScode : Bool := false
  nolist : Bool := false
  nowarning : Bool := false
  noerror : Bool := false
  nocode : Bool := false
deriving DecidableEq, Repr

/-- Listing side: output.c's variables plus `llen plen ppos lpos` of crasm.c:48-51.
    `line` is the string held by `linebuffer`, reversed; `out` the text printed so far (chunks, latest
    first). -/
structure Lst where
  llen : Nat := 0
  plen : Nat := 0
  ppos : Nat := 0
  lpos : Nat := 0
  line : Str := []
  lastoffset : Nat := 0
  title : Str := []
  pagenumber : Nat := 0
  titleFlag : Bool := false
  pageFlag : Bool := false
  mypc : Word := 0
  out : List Str := []
  /-- not in the program, for use in statements: the settings made by PAGE (pass, page length, line length),
      latest first -/
  pages : List (Nat × Nat × Nat) := []
  /-- not in the program: the lines printed below the tops of the pages, latest first -/
  lines : List Str := []

/-- Object-code side: scode.c:30-35. `rawnumber` is `raw.length`; `file` is `none` while `scode == NULL`,
    else the text written to the code file so far. -/
structure Code where
  pc : Word := 0
  codelen : Word := 0
  rawstart : Word := 0
  raw : List Byte := []
  rawextended : BitVec 32 := 0
  file : Option Str := none

/-- What an entry of `source[]` (macro.c:498-519) reads from. -/
inductive SrcKind where
  | file (rest : Str) (isEnd : Bool)
  | macro (args : List Str) (allArgs : Str) (lines : List Str)
deriving DecidableEq, Repr

/-- `source[]` macro.c:498-519. -/
structure Src where
  oldlist : Bool
  oldprefix : Option Char
  oldlinnum : Nat
  kind : SrcKind
deriving Repr

/-- The environment of a run: the file system crasm reads from, and whether the code file can be created.
    scode.c:56-69, macro.c:682-727, crasm.c:158-228. -/
structure Env where
  fs : Str → Option Str
  canCreate : Bool := true

/-- A number that decides how many bytes follow or where they go.
    Not in the C program; the numbers of pseudos.c:161-197, 462-486, cpu6502.c:138-258, cpu6800.c:84-154. -/
inductive Choice where
  /-- the count of a DS -/
  | count (n : Int)
  /-- the outcome of an IF -/
  | test (b : Bool)
  /-- the value given to `*` by EQU -/
  | origin (v : Word)
deriving DecidableEq, Repr

/-- Remarks on a run, for use in statements. Not in the C program. -/
inductive Note where
  /-- a choice; `soft` tells that it depends on a symbol marked FORWARD, or on the modifier of a number, which is
      left over from earlier expressions (operator.c:34-39) -/
  | choice (soft : Bool) (c : Choice)
  /-- an operator or a bit number is refused, or a mnemonic is found by dropping a suffix (crasm.c:329) -/
  | odd
  /-- a label at the start of a line gets this value -/
  | label (key : Str) (v : Word)
deriving DecidableEq, Repr

/-- What a run does, for use in statements: a byte generated by `insert8` (pass, location counter, value,
    whether CODE was in force), a call of `error()` (pass, whether its message was printed), a line read
    (pass, number of open sources above the main file, text), the opening of an include file or a macro
    expansion (pass, number of open sources above the main file from then on, what is read from it).
    Not in the C program; the events are those of scode.c:49-89, crasm.c:596-626, macro.c:528-727. -/
inductive Event where
  | byte (pass : Nat) (addr : Word) (value : Byte) (on : Bool)
  | error (pass : Nat) (shown : Bool)
  | line (pass : Nat) (depth : Nat) (text : Str)
  | opened (pass : Nat) (depth : Nat) (kind : SrcKind)
deriving DecidableEq, Repr

/-- All global variables. The main source file is `main`/`mainEof` (`file` and its `feof`), the entries
    1..sourcelevel of `source[]` are `stack` (innermost first).
    crasm.c:40-64, scode.c:30-35, output.c:45-50, macro.c:498-522, filter.c:33-35. -/
structure St where
  env : Env
  flags : Flags := {}
  passnumber : Nat := 0
  macrolevel : Nat := 0
  segment : Nat := 0
  thiscall : Nat := 0
  advance : Int := 0
  linenumber : Nat := 0
  lineprefix : Option Char := none
  curline : Str := []
  errnumber : Nat := 0
  bufpos : Nat := 0
  calcR : Result := {}
  tree : Tree := .leaf
  cpuflag : Int := 0
  lst : Lst := {}
  code : Code := {}
  source : Str := []
  main : Str := []
  mainEof : Bool := false
  stack : List Src := []
  /-- history variable, latest first: not in the C program, written but never read by the model -/
  log : List Event := []
  /-- remarks, latest first, each with the pass: not in the C program -/
  notes : List (Nat × Note) := []

/-- Undefined behaviour crasm can run into. Each constructor cites the place. -/
inductive UB
  /-- write past `buffer[4000]` of filter.c:34 -/
  | filterBuffer
  /-- write past `linebuffer[1000]` of output.c:48 -/
  | lineBuffer
  /-- write past `raw[80]` of crasm.c:598 -/
  | errorBuffer
  /-- write past `buffer[40]` of xref.c:130 -/
  | resultBuffer
  /-- signed overflow in an expression (operator.c:268-468) or in the location counter (crasm.c:368-580) -/
  | signedOverflow
  /-- shift count negative or not less than 64 (operator.c:454-468), or of a register (operator.c:326-347) -/
  | shiftCount
  /-- ASC string without closing delimiter: reads past the end of the operand (pseudos.c:233) -/
  | ascOverread
  /-- DS with a negative count: the loop of pseudos.c:190 runs through all negative ints -/
  | dsNegative
  /-- use of a NULL macro line (macro.c:612-618) -/
  | nullMacro
  /-- call through a NULL or non-function pointer (crasm.c:532, 537, 562) -/
  | nullHandler
  /-- NULL label passed to a pseudo that needs one (pseudos.c:34-61, macro.c:407-492) -/
  | nullLabel
  /-- index outside a static table (cpu6502.c:38) -/
  | tableIndex
deriving DecidableEq, Repr

/-- Ways in which the program stops before reaching the end of `main`. crasm.c:648-652. -/
inductive Stop
  /-- `fatal(s)`: prints the message and calls exit(10) -/
  | fatal (msg : Str)
  | ub (u : UB)
  /-- the C code loops forever (operator.c:344) -/
  | hang
  /-- the model ran out of fuel (not an outcome of the C program) -/
  | fuel
deriving DecidableEq, Repr

/-- Outcome of a C function: normal return, `longjmp(errorjump)`, or stop. crasm.c:596-652. -/
inductive Res (α : Type) where
  | ok (a : α) (s : St)
  | err (s : St)
  | stop (w : Stop) (s : St)

/-- A C function with access to the global variables (crasm.c:40-64): not in the C program. -/
def M (α : Type) := St → Res α

/-- `return`: not in the C program. -/
def M.pure (a : α) : M α := fun s => .ok a s
/-- One statement after another: not in the C program. -/
def M.bind (m : M α) (f : α → M β) : M β := fun s =>
  match m s with
  | .ok a s' => f a s'
  | .err s' => .err s'
  | .stop w s' => .stop w s'

instance : Monad M where
  pure := M.pure
  bind := M.bind

/-- Reading global variables (crasm.c:40-64). -/
def getS : M St := fun s => .ok s s
/-- Writing global variables (crasm.c:40-64). -/
def modS (f : St → St) : M Unit := fun s => .ok () (f s)
/-- `longjmp(errorjump, -1)` crasm.c:625. -/
def throwErr : M α := fun s => .err s
/-- `exit` as in crasm.c:648-652, or an end without result. -/
def stopWith (w : Stop) : M α := fun s => .stop w s
/-- Undefined behaviour: see `UB`. -/
def ubM (u : UB) : M α := stopWith (.ub u)

/-- `setjmp`: run `m`; if it longjmps, run `h` in the state at the time of the longjmp.
    crasm.c:267, macro.c:229, 302, 446, 820. -/
def catchErr (m h : M α) : M α := fun s =>
  match m s with
  | .err s' => h s'
  | r => r

/-- `if (c) m;`. Not a function of the C program. -/
def whenM (c : Prop) [Decidable c] (m : M Unit) : M Unit := if c then m else pure ()

/-- `setflag`, `clrflag` crasm.c:696-705 and assignments to `asmflags`. -/
def modFlags (f : Flags → Flags) : M Unit := modS fun s => { s with flags := f s.flags }
/-- Assignments to the variables of output.c:45-50. -/
def modLst (f : Lst → Lst) : M Unit := modS fun s => { s with lst := f s.lst }
/-- Assignments to the variables of scode.c:30-35. -/
def modCode (f : Code → Code) : M Unit := modS fun s => { s with code := f s.code }

/-- Add a remark to the history: not in the C program. -/
def note (n : Note) : M Unit := modS fun s => { s with notes := (s.passnumber, n) :: s.notes }

/-- `fatal(s)` of crasm.c:648-652. -/
def fatal (msg : Str) : M α := stopWith (.fatal msg)

/-- Size of `buffer` in filter.c:34. -/
def bufSize : Nat := 4000

/-- `zerobuffer()` filter.c:40-43. -/
def zerobuffer : M Unit := modS fun s => { s with bufpos := 0 }

/-- A call of `filter` with the current `bufferpos`; returns the captures and `chars_consumed_by_filter`.
    filter.c:33-35, 52-171. -/
def filterC (s pat : Str) : M (Option (List Str × Nat)) := do
  let st ← getS
  let o := filter s pat
  if bufSize ≤ st.bufpos + o.wrote then ubM .filterBuffer
  else if o.ok then do
    modS fun s => { s with bufpos := s.bufpos + o.wrote }
    pure (some (o.caps, o.consumed))
  else pure none

/-- `filter` used as a test with no wildcard of interest. filter.c:52-171. -/
def filter0 (s pat : Str) : M Bool := do
  let r ← filterC s pat
  pure r.isSome

/-- `filter` with one wildcard. filter.c:52-171. -/
def filter1 (s pat : Str) : M (Option Str) := do
  let r ← filterC s pat
  match r with
  | some ([a], _) => pure (some a)
  | _ => pure none

/-- `filter` with two wildcards. filter.c:52-171. -/
def filter2 (s pat : Str) : M (Option (Str × Str)) := do
  let r ← filterC s pat
  match r with
  | some ([a, b], _) => pure (some (a, b))
  | _ => pure none

/-- `filter` on a possibly NULL string (filter.c:59). -/
def orEmpty : Option Str → Str
  | some s => s
  | none => []

end Crasm

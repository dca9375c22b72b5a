import Verif.Model.Label
/-
  operator.c and parse.c: constants, operators and the expression parser.
-/

namespace Crasm

/-! ### Constants (operator.c:46-246) -/

/-- operator.c:57. -/
def badDecimal : Str := c!"bad decimal number"
/-- operator.c:41. -/
def overflowMsg : Str := c!"overflow"
/-- operator.c:42. -/
def badtype : Str := c!"illegal operator"

/-- `cstdecimal` operator.c:46-79, loop. -/
def decLoop : Nat → Str → Except Str Nat
  | val, [] => .ok val
  | val, c :: s =>
    if !isdigit c then .error badDecimal
    else
      let r := c.toNat - 48
      if 0xffffffff / 10 < val then .error overflowMsg
      else if 0xffffffff - r < val * 10 then .error overflowMsg
      else decLoop (val * 10 + r) s

/-- operator.c:96-107. -/
def hexVal (c : Char) : Nat :=
  if 97 ≤ c.toNat then c.toNat - 97 + 10
  else if 65 ≤ c.toNat then c.toNat - 65 + 10
  else c.toNat - 48

/-- `csthexa` operator.c:82-119, loop. -/
def hexLoop : Nat → Str → Except Str Nat
  | val, [] => .ok val
  | val, c :: s =>
    if !isxdigit c then .error c!"bad hexadecimal number"
    else if 0xfffffff < val then .error overflowMsg
    else hexLoop (val * 16 + hexVal c) s

/-- `cstoctal` operator.c:122-148, loop. -/
def octLoop : Nat → Str → Except Str Nat
  | val, [] => .ok val
  | val, c :: s =>
    if c.toNat < 48 ∨ 55 < c.toNat then .error c!"bad octal number"
    else if 0x1fffffff < val then .error overflowMsg
    else octLoop (val * 8 + (c.toNat - 48)) s

/-- `cstbinary` operator.c:151-177, loop. -/
def binLoop : Nat → Str → Except Str Nat
  | val, [] => .ok val
  | val, c :: s =>
    if c ≠ '1' ∧ c ≠ '0' then .error c!"bad binary number"
    else if 0xefffffff < val then .error overflowMsg
    else binLoop (val * 2 + (c.toNat - 48)) s

/-- operator.c:201-227 (and pseudos.c:237-263): the character after a backslash. -/
def escape (c : Char) : Option Nat :=
  if c = 't' then some 9
  else if c = 'n' then some 10
  else if c = 'r' then some 13
  else if c = '0' then some 0
  else if c = '"' ∨ c = '\\' ∨ c = '\'' then some c.toNat
  else none

/-- operator.c:230-237: shift in one more character, detecting overflow of `unsigned long`. -/
def asciiStep (val r : Nat) : Except Str Nat :=
  let v := (val * 256 + r) % 2 ^ 64
  if v / 256 ≠ val then .error overflowMsg else .ok v

/-- `cstascii` operator.c:180-246, loop from line 190 on the text after the opening delimiter.
    `esc` is set just after a backslash. -/
def asciiLoop (delim : Char) : Bool → Nat → Str → Except Str Nat
  | false, _, [] => .error c!"bad ascii constant"          -- isprint(0) is false
  | true, _, [] => .error c!"Bad \\X sequence"
  | true, val, c :: s =>
    match escape c with
    | none => .error c!"Bad \\X sequence"
    | some r =>
      match asciiStep val r with
      | .error e => .error e
      | .ok v => asciiLoop delim false v s
  | false, val, c :: s =>
    if c = delim then (if s = [] then .ok val else .error c!"syntax error")
    else if !isprint c then .error c!"bad ascii constant"
    else if c = '\\' then asciiLoop delim true val s
    else
      match asciiStep val c.toNat with
      | .error e => .error e
      | .ok v => asciiLoop delim false v s

/-! ### Operators (operator.c:266-468) -/

/-- The functions of two arguments in the table of parse.c:75-91. -/
inductive Op2 | rlist | add | sub | mul | div | or | and | xor | lsh | rsh | bit
deriving DecidableEq, Repr
/-- The functions of one argument in the table of parse.c:85-90. -/
inductive Op1 | minus | not | bitnumb | bitaddr | lo | hi
deriving DecidableEq, Repr

/-- Outcome of an operator. With `err` comes the value left in `*presult`. operator.c:268-468. -/
inductive OpRes
  | ok (r : Result)
  | err (msg : Str) (r : Result)
  | ub (u : UB)
  | hang

/-- The result of arithmetic that may overflow, as in operator.c:268-468. -/
def ofOpt (r : Result) : Option Word → OpRes
  | some v => .ok { r with value := v }
  | none => .ub .signedOverflow

/-- Both operands must be absolute; flags are merged (e.g. operator.c:404-406). -/
def absolute2 (p a : Result) (k : Result → OpRes) : OpRes :=
  if p.type ≠ .absolute then .err (typeMsg p.type) p
  else if a.type ≠ .absolute then .err (typeMsg a.type) p
  else k { p with flags := p.flags.or a.flags }

/-- operator.c:329: the `lo < 32` with `1 << lo == value`; `1 << lo` is an int, sign-extended. -/
def regIndexFrom (v : Word) : Nat → Nat → Option Nat
  | 0, _ => none
  | f + 1, i => if (BitVec.ofNat 32 (2 ^ i)).signExtend 64 = v then some i else regIndexFrom v f (i + 1)

/-- operator.c:326-347: the number of a register given as `1 << n`. -/
def regIndex (v : Word) : Option Nat := regIndexFrom v 32 0

/-- operator.c:326-347: a register range. If `value` is no single register the loop evaluates `1 << 32`
    (undefined); a proper range never leaves the loop of line 344. -/
def regRange (p a : Result) : OpRes :=
  match regIndex p.value, regIndex a.value with
  | some lo, some hi => if hi < lo then .err c!"illegal register list" p else .hang
  | _, _ => .ub .shiftCount

/-- The dyadic operators: presult is the left operand, parg the right one. operator.c:284-372, 402-468. -/
def applyOp2 (op : Op2) (p a : Result) : OpRes :=
  match op with
  | .add =>     -- operator.c:284-305
    match addS p.value a.value with
    | none => .ub .signedOverflow
    | some v =>
      let r := { p with value := v, flags := p.flags.or a.flags }
      if p.type = .absolute ∧ a.type = .absolute then .ok { r with type := .absolute }
      else if p.type = .absolute ∧ a.type = .relative then .ok { r with type := .relative }
      else .err badtype r
  | .sub =>     -- operator.c:308-358
    let r := { p with flags := p.flags.or a.flags }
    if p.type = a.type ∧ (p.type = .relative ∨ p.type = .absolute) then
      ofOpt { r with type := .absolute } (subS p.value a.value)
    else if p.type = .relative ∧ a.type = .absolute then
      ofOpt { r with type := .relative } (subS p.value a.value)
    else if p.type = .regs ∧ a.type = .regs then regRange r a
    else .err badtype r
  | .mul => absolute2 p a fun r => ofOpt r (mulS p.value a.value)   -- operator.c:402-408
  | .div => absolute2 p a fun r =>                                  -- operator.c:410-419
      if a.value = 0 then .ok r
      else if p.value = BitVec.intMin 64 ∧ a.value = -1#64 then .ub .signedOverflow
      else .ok { r with value := p.value.sdiv a.value }
  | .rlist =>   -- operator.c:421-428
    let r := { p with flags := p.flags.or a.flags }
    if p.type ≠ .regs then .err (typeMsg p.type) r
    else if a.type ≠ .regs then .err (typeMsg a.type) r
    else .ok { r with value := p.value ||| a.value }
  | .or => absolute2 p a fun r => .ok { r with value := p.value ||| a.value }
  | .and => absolute2 p a fun r => .ok { r with value := p.value &&& a.value }
  | .xor => absolute2 p a fun r => .ok { r with value := p.value ^^^ a.value }
  | .lsh => absolute2 p a fun r =>
      if a.value.toNat < 64 then .ok { r with value := p.value <<< a.value.toNat } else .ub .shiftCount
  | .rsh => absolute2 p a fun r =>
      if a.value.toNat < 64 then .ok { r with value := p.value.sshiftRight a.value.toNat }
      else .ub .shiftCount
  | .bit => absolute2 p a fun r =>  -- operator.c:360-372
      let r := { r with type := .directbit, modifier := (a.value.setWidth 16).toInt }
      if (32#64).slt a.value then .err overflowMsg r else .ok r

/-- The monadic operators. operator.c:268-279, 374-400. -/
def applyOp1 (op : Op1) (p : Result) : OpRes :=
  match op with
  | .minus =>
    if p.type ≠ .absolute then .err (typeMsg p.type) p
    else if p.value = BitVec.intMin 64 then .ub .signedOverflow
    else .ok { p with value := -p.value }
  | .not =>
    if p.type ≠ .absolute then .err (typeMsg p.type) p else .ok { p with value := ~~~p.value }
  | .bitaddr =>   -- operator.c:374-379
    if p.type ≠ .directbit then .err (typeMsg p.type) p
    else .ok { p with type := .absolute, modifier := 0 }
  | .bitnumb =>   -- operator.c:381-387
    if p.type ≠ .directbit then .err (typeMsg p.type) p
    else .ok { p with type := .absolute, value := BitVec.ofInt 64 p.modifier, modifier := 0 }
  | .lo =>
    if p.type ≠ .absolute then .err (typeMsg p.type) p else .ok { p with value := p.value &&& 0xff }
  | .hi =>
    if p.type ≠ .absolute then .err (typeMsg p.type) p
    else .ok { p with value := p.value.sshiftRight 8 &&& 0xff }

/-! ### The parser (parse.c) -/

/-- parse.c:67-92: the rows tried on the reversed expression. -/
inductive Ent
  | dya (alts : List (Str × Op2))
  | mon (pat : Str) (op : Op1)
  | paren (pat : Str)

/-- parse.c:75-92: the rows tried on the reversed expression. -/
def revTable : List Ent :=
  [ .dya [(c!"?_\\_?", .rlist)],
    .dya [(c!"?_+_?", .add), (c!"?_-_?", .sub)],
    .dya [(c!"?_*_?", .mul), (c!"?_/_?", .div)],
    .dya [(c!"?_|_?", .or), (c!"?_&_?", .and), (c!"?_^_?", .xor)],
    .dya [(c!"?_<<_?", .lsh), (c!"?_>>_?", .rsh)],
    .mon c!"?_-" .minus,
    .mon c!"?_~" .not,
    .mon c!")_?_(_TIB" .bitnumb,
    .mon c!")_?_(_RDDA" .bitaddr,
    .mon c!")_?_(_OL" .lo,
    .mon c!")_?_(_IH" .hi,
    .dya [(c!"}_?_{_?", .bit)],
    .paren c!")_?_(" ]

/-- `csthexa`, `cstbinary`, `cstoctal` operator.c:82-177. -/
inductive Base | hex | bin | oct
deriving DecidableEq, Repr

/-- parse.c:97-104: the rows tried on the expression in normal order. -/
def constTable : List (Str × Base) :=
  [ (c!"$?", .hex), (c!"?H", .hex), (c!"0X?", .hex), (c!"%?", .bin), (c!"?B", .bin), (c!"0B?", .bin),
    (c!"?Q", .oct) ]

/-- The loops of operator.c:82-177. -/
def baseLoop : Base → Str → Except Str Nat
  | .hex => hexLoop 0
  | .bin => binLoop 0
  | .oct => octLoop 0

/-- Write `*presult`. `tgt` tells whether presult is `&calcresult` (parse.c:233) or the local `arg` of an
    enclosing call (parse.c:151); the latter's initial modifier and ptr are indeterminate but never used. -/
def setRes (tgt : Bool) (r : Result) : M Result := do
  whenM (tgt) (modS fun s => { s with calcR := r })
  pure r

/-- `cst(presult, val)` operator.c:34-39: modifier and ptr keep their old contents. -/
def cst (tgt : Bool) (val : Nat) : M Result := do
  let s ← getS
  let old : Result := if tgt then s.calcR else {}
  setRes tgt { old with flags := {}, type := .absolute, value := BitVec.ofNat 64 val }

/-- The end of `cstdecimal`, `csthexa`, `cstoctal`, `cstbinary`, `cstascii` operator.c:46-246. -/
def cstE (tgt : Bool) (v : Except Str Nat) : M Result :=
  match v with
  | .error e => error e
  | .ok n => cst tgt n

/-- `cstlabel(presult, s)` operator.c:249-264. -/
def cstlabel (tgt : Bool) (name : Str) : M Result := do
  let l ← findlabel name
  let r ← setRes tgt { flags := l.flags, type := l.type, modifier := l.modifier, ptr := l.ptr,
                       value := l.value }
  if l.flags.undef && !l.flags.forward then error c!"Undefined label" else pure r

/-- Finish an operator: write the result or report. operator.c:268-468. -/
def finishOp (tgt : Bool) : OpRes → M Result
  | .ok r => setRes tgt r
  | .err msg r => do
    let _ ← setRes tgt r
    refuse msg
  | .ub u => ubM u
  | .hang => stopWith .hang

/-- parse.c:174-182 for each constant row, then parse.c:200-214. -/
def parseConst (tgt : Bool) (e : Str) : List (Str × Base) → M Result
  | (pat, b) :: rows => do
    let r ← filter1 e pat
    match r with
    | some (c :: ca) => cstE tgt (baseLoop b (c :: ca))
    | _ => parseConst tgt e rows
  | [] =>
    match e with
    | [] => error c!"syntax error in an expression"
    | c :: s =>
      if isdigit c then cstE tgt (decLoop 0 e)
      else if c = '\'' ∨ c = '"' then cstE tgt (asciiLoop c false 0 s)
      else error c!"syntax error in an expression"

/-- parse.c:184-194: label test, then constants. `e` is the expression in normal order. -/
def parseLeaf (tgt : Bool) (e : Str) : M Result :=
  if checklabel e then cstlabel tgt e else parseConst tgt e constTable

/-- parse.c:130-143: every pattern of the group is tried; the first that matches wins (a later match lies at
    a higher buffer address, so `cb < c2` is never true). -/
def firstMatch (e : Str) : List (Str × Op2) → M (Option (Str × Str × Op2))
  | [] => pure none
  | (pat, op) :: alts => do
    let r ← filter2 e pat
    let rest ← firstMatch e alts
    match r with
    | some (ca, cb) => pure (some (ca, cb, op))
    | none => pure rest

/-- parse.c:123-198: the rows of the table in turn. `rec` is the recursive call of parse2. -/
def parseRows (rec : Bool → Str → M Result) (tgt : Bool) (e : Str) : List Ent → M Result
  | [] => parseLeaf tgt (creverse e)
  | .dya alts :: rows => do
    let m ← firstMatch e alts
    match m with
    | some (c1, c2, op) =>
      if c1 = [] ∨ c2 = [] then parseRows rec tgt e rows
      else do
        let p ← rec tgt c2
        let a ← rec false c1
        finishOp tgt (applyOp2 op p a)
    | none => parseRows rec tgt e rows
  | .mon pat op :: rows => do
    let r ← filter1 e pat
    match r with
    | some (c :: ca) => do
      let p ← rec tgt (c :: ca)
      finishOp tgt (applyOp1 op p)
    | _ => parseRows rec tgt e rows
  | .paren pat :: rows => do
    let r ← filter1 e pat
    match r with
    | some (c :: ca) => rec tgt (c :: ca)
    | _ => parseRows rec tgt e rows

/-- `parse2(expr, presult)` parse.c:110-215. Every recursive call is on a strictly shorter string, so the
    length plus one is enough fuel. -/
def parse2 : Nat → Bool → Str → M Result
  | 0, _, _ => stopWith .fuel
  | n + 1, tgt, e => parseRows (parse2 n) tgt e revTable

/-- `parse(expr)` parse.c:218-236. -/
def parse (expr : Option Str) : M Result :=
  match expr with
  | none => error c!"expression expected"
  | some [] => error c!"expression expected"
  | some e => do
    let r ← filter0 e c!"(?)"
    whenM (r) (warning c!"external parenthesis ignored")
    parse2 (e.length + 1) true (creverse e)

/-- `parse` followed by `checktype(r, L_ABSOLUTE)`. parse.c:218-236, pseudos.c:64-100. -/
def parseAbs (expr : Option Str) : M Result := do
  let r ← parse expr
  checktype r .absolute
  pure r

end Crasm

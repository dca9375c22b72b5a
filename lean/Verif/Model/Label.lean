import Verif.Model.Output
/-
  label.c: symbols.
-/

namespace Crasm

/-- `error(msg)`, with the remark `odd` in the history.
    `error` is crasm.c:596-626; the remark is not in the C program. -/
def refuse (msg : Str) : M α := catchErr (error msg) (do note .odd; throwErr)

/-- label.h:31. -/
def LABLEN : Nat := 48

/-- `checklabel(name)` label.c:44-74. -/
def checklabel (name : Str) : Bool :=
  if LABLEN < name.length then false
  else if name = c!"*" then true
  else match name with
    | [] => false
    | c :: rest =>
      (isalpha c || c = '_' || c = '.') && rest.all (fun c => isalnum c || c = '_' || c = '.')

/-- label.c:90-112: the key under which `name` is stored, i.e. `localname`: upper-cased, prefixed by the
    scope number for names starting with a dot, cut at LABLEN characters. -/
def canon (segment : Nat) (name : Str) : Str :=
  ((match name with
    | '.' :: _ => digits segment
    | _ => []) ++ name.map toupper).take LABLEN

/-- `searchlabel(name)` label.c:83-132. -/
def searchlabel (s : St) (name : Str) : Option Label := s.tree.find (canon s.segment name)

/-- A change of a node or a new node of the tree, label.c:137-238. -/
def putLabel (key : Str) (l : Label) : M Unit := modS fun s => { s with tree := s.tree.put key l }

/-- `asmflags & F_RELATIF ? L_RELATIVE : L_ABSOLUTE` (label.c:192, crasm.c:292). -/
def addrType (f : Flags) : LType := if f.relatif then .relative else .absolute

/-- `findlabel(name)` label.c:183-197. -/
def findlabel (name : Str) : M Label := do
  let s ← getS
  let l := match searchlabel s name with
    | some l => l
    | none => { flags := { undef := true, forward := true, noredef := true },
                type := addrType s.flags }
  let l := { l with flags := { l.flags with used := true } }
  putLabel (canon s.segment name) l
  pure l

/-- `deflabel(name, flags, type, value)` label.c:204-238; returns the key of the label. -/
def deflabel (name : Str) (flags : LFlags) (type : LType) (value : Word) : M Str := do
  let s ← getS
  let key := canon s.segment name
  -- makelabel, label.c:212: the new node is linked before anything can fail (and nothing can, as it is UNDEF)
  let q := match s.tree.find key with
    | some q => q
    | none => { flags := { undef := true }, type := type }
  if !q.flags.undef && (q.flags.noredef || flags.noredef) then
    if q.type = .absolute ∨ q.type = .relative then error c!"illegal label redefinition"
    else error c!"attempt to redefine a keyword"
  else do
    let kept : LFlags := { used := q.flags.used, noredef := q.flags.noredef, forward := q.flags.forward }
    putLabel key { q with
      flags := kept.or { flags with used := false }, type := type, ptr := .null, value := value }
    pure key

/-- An element of a static array of labels.
    label.h:33-43, with the macros of cpu.h:36-40 and stdvocabulary.c:29-30. -/
structure Entry where
  name : Str
  label : Label

/-- label.c:258-295: the order in which `init_label_list` visits an array of `count` elements
    (1-based indices): `incr/2, incr/2 + incr, ...` for `incr` a decreasing power of two. -/
def visitRow : Nat → Nat → Nat → Nat → List Nat
  | 0, _, _, _ => []
  | f + 1, i, incr, count => if count < i then [] else i :: visitRow f (i + incr) incr count

/-- label.c:266-295. -/
def visitRows : Nat → Nat → Nat → List Nat
  | 0, _, _ => []
  | f + 1, incr, count =>
    if incr ≤ 1 then [] else visitRow (count + 1) (incr / 2) incr count ++ visitRows f (incr / 2) count

/-- label.c:261-264. -/
def firstIncr : Nat → Nat → Nat → Nat
  | 0, incr, _ => incr
  | f + 1, incr, count => if incr ≤ count then firstIncr f (incr * 2) count else incr

/-- label.c:258-295. -/
def visitOrder (count : Nat) : List Nat := visitRows (count + 2) (firstIncr (count + 1) 1 count) count

/-- label.c:272-289 for one element of table `t`. An element that is already linked is found under its own
    name with `origin = some t`; otherwise the node found is another symbol and the element (never linked,
    hence never UNDEF) only causes the warning. -/
def bindOne (t : TableId) (e : Entry) : M Unit := do
  let s ← getS
  let key := canon s.segment e.name
  match s.tree.find key with
  | some q =>
    if q.origin = some t ∧ q.flags.undef then
      putLabel key { q with flags := { q.flags with undef := false } }
    else warning c!"user's symbol overrides new keyword"
  | none => putLabel key { e.label with origin := some t }

/-- label.c:268-295: the loop over the elements. -/
def bindAll (t : TableId) (es : List Entry) : List Nat → M Unit
  | [] => pure ()
  | i :: is => do
    (match es[i - 1]? with
      | some e => bindOne t e
      | none => pure ())
    bindAll t es is

/-- `init_label_list(array)` label.c:243-296. -/
def initLabelList (t : TableId) (es : List Entry) : M Unit := bindAll t es (visitOrder es.length)

/-- `undeflabels(lroot)` label.c:301-325, effect on one node: FORWARD survives only for a NOREDEF label that
    is defined; everything becomes UNDEF except the elements of `pseudos`, which line 323 restores. -/
def undefOne (l : Label) : Label :=
  { l with flags := { l.flags with
      forward := if !l.flags.noredef || l.flags.undef then false else l.flags.forward,
      undef := if l.origin = some .pseudos then false else true } }

/-- `undeflabels(lroot)` label.c:301-325. -/
def undeflabels : M Unit := modS fun s => { s with tree := s.tree.map undefOne }

/-- `checktype(r, type)` pseudos.c:64-100: the message, if the type is not the wanted one. -/
def typeMsg : LType → Str
  | .mnemo => c!"illegal use of a mnemonic"
  | .macro => c!"illegal use of a macro"
  | .absolute => c!"illegal use of an absolute reference"
  | .relative => c!"illegal use of a relative reference"
  | .regs => c!"illegal use of registers"
  | .directbit => c!"illegal use of direct bit reference"

/-- `checktype(r, type)` pseudos.c:64-100. -/
def checktype (r : Result) (t : LType) : M Unit :=
  if r.type = t then pure () else error (typeMsg r.type)

end Crasm

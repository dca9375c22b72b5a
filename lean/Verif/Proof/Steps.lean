import Verif.Model.Main

/-!
Every function of the model is a sequence of primitive steps (`NStep` ⊂ `HStep` ⊂ `Step`). This file defines
the steps and the predicate `Walk`; `Proof/Walk*.lean` prove it for the whole assembler. An invariant of a run
then only has to be checked for the primitive steps.
-/

namespace Crasm

/-- Running normally; inside a longjmp (error() has been called); stopped. -/
inductive Mode | live | pend | dead
deriving DecidableEq

abbrev Cfg := St × Mode

inductive Star (R : Cfg → Cfg → Prop) : Cfg → Cfg → Prop
  | refl (a : Cfg) : Star R a a
  | tail {a b c : Cfg} : Star R a b → R b c → Star R a c

theorem Star.one {R : Cfg → Cfg → Prop} {a b : Cfg} (h : R a b) : Star R a b := .tail (.refl a) h
theorem Star.trans {R : Cfg → Cfg → Prop} {a b c : Cfg} (h : Star R a b) (h' : Star R b c) :
    Star R a c := by
  induction h' with
  | refl => exact h
  | tail _ r ih => exact .tail ih r
theorem Star.mono {R S : Cfg → Cfg → Prop} (hRS : ∀ a b, R a b → S a b) {a b : Cfg}
    (h : Star R a b) : Star S a b := by
  induction h with
  | refl => exact .refl _
  | tail _ r ih => exact .tail ih (hRS _ _ r)

/-- What `starlabel->value += advance` does to the tree, when defined. -/
def bumped (s : St) (t : Tree) : Prop :=
  ∃ v, addS (starLabel s).value (BitVec.ofInt 64 s.advance) = some v ∧
    t = s.tree.put starKey { starLabel s with value := v }

/-- The label `findlabel` leaves in the tree. -/
def usedLabel (s : St) (old : Option Label) : Label :=
  let l := match old with
    | some l => l
    | none => { flags := { undef := true, forward := true, noredef := true }, type := addrType s.flags }
  { l with flags := { l.flags with used := true } }

/-- Steps of functions that neither generate code nor change anything but listing, work buffers and the marks
    set by looking a name up. -/
inductive NStep : Cfg → Cfg → Prop
  | scratch (s : St) (lst : Lst) (bufpos : Nat) (calcR : Result) (listOn : Bool) :
      NStep (s, .live)
        ({ s with lst, bufpos, calcR, flags := { s.flags with listOn } }, .live)
  | use (s : St) (k : Str) :
      NStep (s, .live) ({ s with tree := s.tree.put k (usedLabel s (s.tree.find k)) }, .live)
  /-- error() with nothing generated on the line -/
  | error0 (s : St) (h : s.advance = 0) :
      NStep (s, .live) ({ s with log := .error s.passnumber (!s.flags.noerror) :: s.log }, .pend)
  /-- error() after some bytes -/
  | error1 (s : St) (t : Tree) (h : s.advance ≠ 0) (hb : bumped s t) :
      NStep (s, .live)
        ({ s with tree := t, log := .error s.passnumber (!s.flags.noerror) :: s.log }, .pend)
  /-- a remark on the error -/
  | odd (s : St) : NStep (s, .pend) ({ s with notes := (s.passnumber, .odd) :: s.notes }, .pend)
  /-- the program stops; the last instruction may have been caught in the middle -/
  | die (s : St) (lst : Lst) (bufpos : Nat) (code : Code) (listOn : Bool) :
      NStep (s, .live) ({ s with lst, bufpos, code, flags := { s.flags with listOn } }, .dead)

/-- The code file is opened by the first byte. -/
def Code.opened (s : St) : Code :=
  if !s.flags.nocode && s.code.file.isNone then { s.code with file := some [], rawextended := 0 }
  else s.code

/-- What generating `x` does to the code side. -/
def Code.emitted (s : St) (x : Byte) : Code :=
  let c := Code.opened s
  let c := if s.flags.codeOn then { c.push s.flags.codeHex x with codelen := c.codelen + 1 } else c
  { c with pc := c.pc + 1 }

/-- Effect of `insert8 x` on everything but the listing. -/
def emitSt (s : St) (x : Byte) : St :=
  { s with
    code := Code.emitted s x, advance := s.advance + 1,
    log := .byte s.passnumber s.code.pc x s.flags.codeOn :: s.log }

/-- Steps of instructions and data directives. -/
inductive HStep : Cfg → Cfg → Prop
  | n {a b : Cfg} (h : NStep a b) : HStep a b
  | emit (s : St) (x : Byte) (ho : s.flags.orgGv = true)
      (hc : s.flags.nocode = false → s.code.file = none → s.env.canCreate = true) :
      HStep (s, .live) (emitSt s x, .live)
  | note (s : St) (n : Note) (hn : ∀ k v, n ≠ .label k v) :
      HStep (s, .live) ({ s with notes := (s.passnumber, n) :: s.notes }, .live)
  | lohi (s : St) (b : Bool) : HStep (s, .live) ({ s with flags := { s.flags with lohi := b } }, .live)

/-- The label a successful `deflabel` leaves in the tree. -/
def defdLabel (old : Option Label) (flags : LFlags) (type : LType) (value : Word) : Label :=
  let q := match old with
    | some q => q
    | none => { flags := { undef := true }, type := type }
  let kept : LFlags := { used := q.flags.used, noredef := q.flags.noredef, forward := q.flags.forward }
  { q with flags := kept.or { flags with used := false }, type := type, ptr := .null, value := value }

/-- May `deflabel` define over `old`? -/
def defOk (old : Option Label) (noredef : Bool) : Prop :=
  ∀ q, old = some q → q.flags.undef = true ∨ (q.flags.noredef = false ∧ noredef = false)

/-- The pseudo-instructions executed even in skipped text. -/
def condPseudos : List Pseudo := [.if_, .else_, .endc, .macro, .endm, .exitm]

/-- The static tables. -/
def tableOf : TableId → List Entry
  | .pseudos => pseudos
  | .m6800 => C6800.m6800
  | .m6801 => C6800.m6801
  | .m6502 => C6502.m6502
  | .m65c02 => C6502.m65c02
  | .mz80 => Z80.mz80

/-- Does a mnemonic of a table have this function, this modifier, and the same need of a label? -/
def Listed (flags : LFlags) (ptr : Ptr) (modifier : Int) : Prop :=
  ∃ t, ∃ e ∈ tableOf t, e.label.type = .mnemo ∧ e.label.ptr = ptr ∧ e.label.modifier = modifier ∧ e.label.flags.deflabel = flags.deflabel

/-- Only these carry the flags that say so; and mnemonics come from the tables. -/
def SpecialOk (flags : LFlags) (type : LType) (ptr : Ptr) (modifier : Int) : Prop :=
  ((flags.defcond = true ∨ flags.defmacro = true) →
    type = .mnemo ∧ ∃ p ∈ condPseudos, ptr = .handler (.pseudo p)) ∧
  (type = .mnemo → Listed flags ptr modifier)

def GoodTree (t : Tree) : Prop := ∀ k l, t.find k = some l → SpecialOk l.flags l.type l.ptr l.modifier

/-- The state with label `l` stored under key `k`. -/
def St.putL (s : St) (k : Str) (l : Label) : St := { s with tree := s.tree.put k l }

/-- The line the assembler sees when it reads on from `t`. -/
def delivered (t : Str) : Str := (lineText (fgets (lineMax - 1) t).1).filter keepChar

/-- Steps of the directives that do not define symbols of the program. -/
inductive PStep : Cfg → Cfg → Prop
  | h {a b : Cfg} (h : HStep a b) : PStep a b
  /-- options and processor flags -/
  | flags (s : St) (f : Flags) (cpuflag : Int)
      (hf : f.orgGv = s.flags.orgGv ∧ f.codeOn = s.flags.codeOn ∧ f.nolist = s.flags.nolist ∧
        f.nowarning = s.flags.nowarning ∧ f.noerror = s.flags.noerror ∧ f.nocode = s.flags.nocode ∧
        (s.flags.relatif = false → f.relatif = false) ∧ (s.passnumber ≠ 2 → f.cpuGv = s.flags.cpuGv) ∧ f.addr24 = s.flags.addr24) :
      PStep (s, .live) ({ s with cpuflag, flags := f }, .live)
  /-- CODE, DUMMY -/
  | sect (s : St) (on : Bool) :
      PStep (s, .live)
        ({ s with thiscall := s.thiscall + 1, segment := s.thiscall + 1,
                  flags := { s.flags with codeOn := on } }, .live)
  /-- CPU: bring a vocabulary entry (back) to life -/
  | bindNew (s : St) (t : TableId) (e : Entry) (he : e ∈ tableOf t)
      (hn : s.tree.find (canon s.segment e.name) = none) :
      PStep (s, .live)
        (s.putL (canon s.segment e.name) { e.label with origin := some t }, .live)
  | bindOld (s : St) (t : TableId) (e : Entry) (he : e ∈ tableOf t) (l : Label)
      (hl : s.tree.find (canon s.segment e.name) = some l)
      (ho : l.origin = some t) (hu : l.flags.undef = true) :
      PStep (s, .live)
        (s.putL (canon s.segment e.name) { l with flags := { l.flags with undef := false } }, .live)
  /-- bookkeeping of source lines -/
  | misc (s : St) (curline : Str) (lineprefix : Option Char) (linenumber : Nat) :
      PStep (s, .live) ({ s with curline, lineprefix, linenumber }, .live)
  /-- an include file is opened -/
  | push (s : St) (src : Src) (hd : s.stack.length + 1 < maxSourceDeep)
      (hk : ∃ name text, s.env.fs name = some text ∧ src.kind = .file text false) :
      PStep (s, .live)
        ({ s with stack := src :: s.stack, log := .opened s.passnumber (s.stack.length + 1) src.kind :: s.log }, .live)

/-- All steps of line processing within a pass. -/
inductive Step : Cfg → Cfg → Prop
  | p {a b : Cfg} (h : PStep a b) : Step a b
  /-- a label at the start of a line -/
  | here (s : St) (name : Str) (hne : name ≠ starKey) (horg : s.flags.orgGv = true)
      (hd : defOk (s.tree.find (canon s.segment name)) true) :
      Step (s, .live)
        ({ s.putL (canon s.segment name)
            (defdLabel (s.tree.find (canon s.segment name)) { noredef := true } (addrType s.flags)
              (starLabel s).value) with
           notes := (s.passnumber, .label (canon s.segment name) (starLabel s).value) :: s.notes }, .live)
  /-- EQU -/
  | equ (s : St) (name : Str) (flags : LFlags) (type : LType) (modifier : Int) (ptr : Ptr) (value : Word)
      (hf : flags.noredef = false ∧ flags.undef = false)
      (hd : defOk (s.tree.find (canon s.segment name)) false)
      (hp : GoodTree s.tree → SpecialOk flags type ptr modifier) :
      Step (s, .live)
        (s.putL (canon s.segment name)
          { defdLabel (s.tree.find (canon s.segment name)) flags type value with modifier, ptr }, .live)
  /-- MACRO: the name, then the text -/
  | macroName (s : St) (name : Str)
      (hd : defOk (s.tree.find (canon s.segment name)) false) :
      Step (s, .live)
        (s.putL (canon s.segment name)
          (defdLabel (s.tree.find (canon s.segment name)) {} .macro 0), .live)
  | macroText (s : St) (k : Str) (l : Label) (hl : s.tree.find k = some l) (ht : l.type = .macro)
      (ls : List Str) :
      Step (s, .live) (s.putL k { l with ptr := .lines ls }, .live)
  | markUsed (s : St) (k : Str) (l : Label) (hl : s.tree.find k = some l) :
      Step (s, .live) (s.putL k { l with flags := { l.flags with used := true } }, .live)
  /-- end of a line: the location counter moves over what the line generated -/
  | bump (s : St) (t : Tree) (hb : bumped s t) : Step (s, .live) ({ s with tree := t }, .live)
  /-- start of a line -/
  | start0 (s : St) (hu : (starLabel s).flags.undef = true) :
      Step (s, .live)
        ({ s with advance := 0, bufpos := 0, flags := { s.flags with orgGv := false } }, .live)
  | start1 (s : St) (hu : (starLabel s).flags.undef = false) :
      Step (s, .live)
        ({ s with
            advance := 0, bufpos := 0, flags := { s.flags with orgGv := true },
            code := if (starLabel s).value ≠ s.code.pc then
                { s.code.flush s.flags.codeHex with
                  rawstart := (starLabel s).value, pc := (starLabel s).value, raw := [] }
              else s.code }, .live)
  | enter (s : St) :
      Step (s, .live) ({ s with thiscall := s.thiscall + 1, segment := s.thiscall + 1,
                                macrolevel := s.macrolevel + 1 }, .live)
  /-- end of a macro expansion -/
  | leave (s : St) (segment macrolevel : Nat) : Step (s, .live) ({ s with segment, macrolevel }, .live)
  /-- a line of the main file -/
  | readMain (s : St) (hs : s.stack = []) :
      Step (s, .live)
        ({ s with
            curline := delivered s.main, linenumber := s.linenumber + 1,
            log := .line s.passnumber 0 (delivered s.main) :: s.log,
            main := (fgets (lineMax - 1) s.main).2.1,
            mainEof := s.mainEof || (fgets (lineMax - 1) s.main).2.2 }, .live)
  /-- a line of an include file -/
  | readFile (s : St) (src : Src) (rest : List Src) (t : Str) (e : Bool) (hk : src.kind = .file t e)
      (hs : s.stack = src :: rest) :
      Step (s, .live)
        ({ s with
            curline := delivered t, linenumber := s.linenumber + 1,
            log := .line s.passnumber (rest.length + 1) (delivered t) :: s.log,
            stack := { src with
              kind := .file (fgets (lineMax - 1) t).2.1 (fgets (lineMax - 1) t).2.2 } :: rest }, .live)
  /-- a line of a macro -/
  | readMacro (s : St) (src : Src) (rest : List Src) (args : List Str) (all l : Str) (ls : List Str)
      (hk : src.kind = .macro args all (l :: ls)) (hs : s.stack = src :: rest) :
      Step (s, .live)
        ({ s with
            curline := (expandLine args all false [] l).1.reverse,
            log := .line s.passnumber (rest.length + 1) (expandLine args all false [] l).1.reverse :: s.log,
            stack := { src with kind := .macro args all ls } :: rest }, .live)
  /-- a macro is called -/
  | call (s : St) (src : Src) (hd : s.stack.length + 1 < maxSourceDeep) :
      Step (s, .live)
        ({ s with stack := src :: s.stack, log := .opened s.passnumber (s.stack.length + 1) src.kind :: s.log }, .live)
  | drop (s : St) (n : Nat) : Step (s, .live) ({ s with stack := s.stack.drop n }, .live)
  /-- setjmp returns a second time -/
  | caught (s : St) : Step (s, .pend) ({ s with errnumber := s.errnumber + 1 }, .live)

theorem Step.h {a b : Cfg} (h : HStep a b) : Step a b :=
    .p (.h h)
theorem Step.flags (s : St) (f : Flags) (cpuflag : Int)
        (hf : f.orgGv = s.flags.orgGv ∧ f.codeOn = s.flags.codeOn ∧ f.nolist = s.flags.nolist ∧
          f.nowarning = s.flags.nowarning ∧ f.noerror = s.flags.noerror ∧ f.nocode = s.flags.nocode ∧
        (s.flags.relatif = false → f.relatif = false) ∧ (s.passnumber ≠ 2 → f.cpuGv = s.flags.cpuGv) ∧ f.addr24 = s.flags.addr24) :
        Step (s, .live) ({ s with cpuflag, flags := f }, .live) :=
    .p (.flags s f cpuflag hf)
theorem Step.sect (s : St) (on : Bool) :
        Step (s, .live)
          ({ s with thiscall := s.thiscall + 1, segment := s.thiscall + 1,
                    flags := { s.flags with codeOn := on } }, .live) :=
    .p (.sect s on)
theorem Step.bindNew (s : St) (t : TableId) (e : Entry) (he : e ∈ tableOf t)
        (hn : s.tree.find (canon s.segment e.name) = none) :
        Step (s, .live)
          (s.putL (canon s.segment e.name) { e.label with origin := some t }, .live) :=
    .p (.bindNew s t e he hn)
theorem Step.bindOld (s : St) (t : TableId) (e : Entry) (he : e ∈ tableOf t) (l : Label)
        (hl : s.tree.find (canon s.segment e.name) = some l)
        (ho : l.origin = some t) (hu : l.flags.undef = true) :
        Step (s, .live)
          (s.putL (canon s.segment e.name) { l with flags := { l.flags with undef := false } }, .live) :=
    .p (.bindOld s t e he l hl ho hu)
theorem Step.misc (s : St) (curline : Str) (lineprefix : Option Char) (linenumber : Nat) :
        Step (s, .live) ({ s with curline, lineprefix, linenumber }, .live) :=
    .p (.misc s curline lineprefix linenumber)

/-- The outcome of a function is explained by steps from `R`. -/
def Out (R : Cfg → Cfg → Prop) (s : St) : Res α → Prop
  | .ok _ s' => Star R (s, .live) (s', .live)
  | .err s' => Star R (s, .live) (s', .pend)
  | .stop _ s' => Star R (s, .live) (s', .dead)

def Walk (R : Cfg → Cfg → Prop) (m : M α) : Prop := ∀ s, Out R s (m s)

/-! ### Monad equations -/

@[simp] theorem pure_run (a : α) (s : St) : (pure a : M α) s = .ok a s := rfl
theorem bind_run (m : M α) (f : α → M β) (s : St) :
    (m >>= f) s = match m s with
      | .ok a s' => f a s'
      | .err s' => .err s'
      | .stop w s' => .stop w s' := rfl
@[simp] theorem getS_run (s : St) : getS s = .ok s s := rfl
@[simp] theorem modS_run (f : St → St) (s : St) : modS f s = .ok () (f s) := rfl
@[simp] theorem throwErr_run (s : St) : (throwErr : M α) s = .err s := rfl
@[simp] theorem stopWith_run (w : Stop) (s : St) : (stopWith w : M α) s = .stop w s := rfl
@[simp] theorem ubM_run (u : UB) (s : St) : (ubM u : M α) s = .stop (.ub u) s := rfl
@[simp] theorem fatal_run (u : Str) (s : St) : (fatal u : M α) s = .stop (.fatal u) s := rfl
@[simp] theorem getS_bind_run (f : St → M β) (s : St) : (getS >>= f) s = f s s := rfl
@[simp] theorem modS_bind_run (g : St → St) (f : Unit → M β) (s : St) : (modS g >>= f) s = f () (g s) := rfl
@[simp] theorem pure_bind_run (a : α) (f : α → M β) (s : St) : ((pure a : M α) >>= f) s = f a s := rfl

/-! ### Structure of walks -/

variable {R : Cfg → Cfg → Prop}

theorem Walk.mono {R S : Cfg → Cfg → Prop} (hRS : ∀ a b, R a b → S a b) {m : M α} (h : Walk R m) :
    Walk S m := by
  intro s
  have := h s
  unfold Out at *
  split <;> rename_i heq <;> rw [heq] at this <;> exact this.mono hRS

theorem Walk.pure (a : α) : Walk R (Pure.pure a : M α) := fun s => .refl (s, .live)

theorem Walk.bind {m : M α} {f : α → M β} (hm : Walk R m) (hf : ∀ a, Walk R (f a)) :
    Walk R (m >>= f) := by
  intro s
  have h1 := hm s
  rw [bind_run]
  cases h : m s with
  | ok a s' =>
    rw [h] at h1
    have h2 := hf a s'
    simp only
    unfold Out at *
    split <;> rename_i heq <;> rw [heq] at h2 <;> exact h1.trans h2
  | err s' => rw [h] at h1; exact h1
  | stop w s' => rw [h] at h1; exact h1

theorem Walk.getS : Walk R Crasm.getS := fun s => .refl (s, .live)

/-- A read followed by a use of what was read. -/
theorem Walk.getS_bind {f : St → M β} (hf : ∀ s, Out R s (f s s)) : Walk R (Crasm.getS >>= f) := hf

theorem Walk.modS {f : St → St} (h : ∀ s, Star R (s, .live) (f s, .live)) : Walk R (modS f) := h

theorem Walk.ite {c : Prop} [Decidable c] {a b : M α} (ha : Walk R a) (hb : Walk R b) :
    Walk R (if c then a else b) := by split <;> assumption

theorem Walk.whenM {c : Prop} [Decidable c] {a : M Unit} (ha : Walk R a) :
    Walk R (whenM c a) := by unfold Crasm.whenM; exact Walk.ite ha (Walk.pure ())

theorem Out.bind {s : St} {m : M α} {f : α → M β} (hm : Out R s (m s))
    (hf : ∀ a s', Star R (s, .live) (s', .live) → m s = .ok a s' → Out R s' (f a s')) :
    Out R s ((m >>= f) s) := by
  rw [bind_run]
  cases h : m s with
  | ok a s' =>
    rw [h] at hm
    have h2 := hf a s' hm h
    simp only
    unfold Out at *
    split <;> rename_i heq <;> rw [heq] at h2 <;> exact hm.trans h2
  | err s' => rw [h] at hm; exact hm
  | stop w s' => rw [h] at hm; exact hm

end Crasm

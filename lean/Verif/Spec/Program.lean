import Verif.Spec.Line
import Verif.Spec.Bytes
import Verif.Spec.Source

/-! What a program means: the bytes it stands for and their addresses.

This is a reference semantics for programs made of labels, origins, equates, data and instructions.  It takes the lines
one after the other, with the addresses of all labels given beforehand; a program is consistent with these addresses if
every label is met at the address given for it.  There are no passes and no symbol table, and nothing here refers to the
model of the assembler. -/

namespace Spec.Program

abbrev Name := List Char

/-- Case does not matter in names. -/
def key (x : Name) : Name := x.map Char.toUpper

/-- A processor: the words that cannot be labels, the order of the bytes in a number of several bytes, and the
    instructions: how they are written (mnemonic in capitals, operand field), the names used in them and the bytes they
    stand for, given the values of names, which names are defined below their first use, and the address; `fixed` are the
    names used in them that the number of bytes depends on. -/
structure Isa where
  words : List Name
  little : Bool
  Ins : Type
  writes : Ins → Name → Option (List Char) → Prop
  uses : Ins → List Name
  code : Ins → (Name → Int) → (Name → Bool) → Int → List (BitVec 8) → Prop
  fixed : Ins → List Name := fun _ => []

/-- The name of a label or an equate: no dots, not a word of the vocabulary. -/
structure Free (isa : Isa) (x : Name) : Prop where
  name : IsName x
  global : '.' ∉ x
  free : key x ∉ isa.words

/-- What a line asks for, besides its label. -/
inductive Body (Ins : Type) where
  | nothing
  /-- `*= e` -/
  | org (e : Expr)
  /-- `label = e` -/
  | equ (e : Expr)
  /-- numbers of `size` bytes, in the byte order of the processor or (`swap`) in the opposite one -/
  | data (size : Nat) (swap : Bool) (es : List Expr)
  | ins (i : Ins)

/-- The data directives. -/
def directives : List (Name × Nat × Bool) :=
  [(c!"DB", 1, false), (c!"DW", 2, false), (c!"DDB", 2, true), (c!"DL", 4, false)]

/-- The directives, in capitals. -/
def commands : List Name :=
  [c!"EQU", c!"ASC", c!"ALIGN", c!"CLIST", c!"CODE", c!"CPU", c!"DB", c!"DDB", c!"DL", c!"DW", c!"DUMMY", c!"DS", c!"ELSE",
   c!"ENDC", c!"ENDM", c!"EXITM", c!"FAIL", c!"IF", c!"ILIST", c!"INCLUDE", c!"LIST", c!"MACRO", c!"MLIST", c!"NAM", c!"PAGE",
   c!"OUTPUT", c!"SKIP"]

inductive All2 (R : α → β → Prop) : List α → List β → Prop
  | nil : All2 R [] []
  | cons {a b as bs} : R a b → All2 R as bs → All2 R (a :: as) (b :: bs)

/-- An operand that is a number. -/
def Number (t : List Char) (e : Expr) : Prop := Operand t ∧ ∃ k, Text k e t

/-- How the lines are written. -/
inductive Line (isa : Isa) : List Char → Option Name → Body isa.Ins → Prop
  /-- nothing but blanks and a comment -/
  | blank {line} : Around [] line → Line isa line none .nothing
  /-- a label in the first column -/
  | label {line l} : Around l line → (∃ c r, line = c :: r ∧ ¬ IsBlank c) → Free isa l → Line isa line (some l) .nothing
  | org {line t m o e k} : Around t line → Stmt (fun w => key w ∈ isa.words) t (some ['*']) m (some o) →
      key m = c!"EQU" → Text k e o → Line isa line none (.org e)
  | equ {line t l m o e k} : Around t line → Stmt (fun w => key w ∈ isa.words) t (some l) m (some o) →
      key m = c!"EQU" → Free isa l → Text k e o → Line isa line (some l) (.equ e)
  | data {line t l m o size swap os es} : Around t line → Stmt (fun w => key w ∈ isa.words) t l m (some o) →
      (key m, size, swap) ∈ directives → (∀ x ∈ l, Free isa x) → Joined os o → All2 Number os es →
      Line isa line l (.data size swap es)
  | ins {line t l m o i} : Around t line → Stmt (fun w => key w ∈ isa.words) t l m o →
      isa.writes i (key m) o → (∀ x ∈ l, Free isa x) → Line isa line l (.ins i)

/-- The names used in a line. -/
def Body.uses {isa : Isa} : Body isa.Ins → List Name
  | .nothing => []
  | .org e => e.names
  | .equ e => e.names
  | .data _ _ es => es.flatMap Expr.names
  | .ins i => isa.uses i

/-- The names that the address of the next line depends on. -/
def Body.fixed {isa : Isa} : Body isa.Ins → List Name
  | .org e => e.names
  | .ins i => isa.fixed i
  | _ => []

abbrev Lines (isa : Isa) := List (Option Name × Body isa.Ins)

/-- The labels of a program. -/
def labels {isa : Isa} : Lines isa → List Name
  | [] => []
  | (some _, .equ _) :: p => labels p
  | (some l, _) :: p => key l :: labels p
  | (none, _) :: p => labels p
/-- Its equates. -/
def equates {isa : Isa} : Lines isa → List Name
  | [] => []
  | (some l, .equ _) :: p => key l :: equates p
  | _ :: p => equates p
/-- Does it contain an origin? -/
def hasOrg {isa : Isa} : Lines isa → Bool
  | [] => false
  | (_, .org _) :: _ => true
  | _ :: p => hasOrg p

/-- Lines that generate bytes. -/
def Body.generates {Ins : Type} : Body Ins → Bool
  | .data .. => true
  | .ins _ => true
  | _ => false

/-- Is `k` a label used above the line it is defined in? -/
def late {isa : Isa} : Lines isa → Name → Bool
  | [], _ => false
  | x :: p, k => !(labels [x]).contains k && (((x.2.uses.map key).contains k && (labels p).contains k) || late p k)

/-- The names with a value that depends on a label used above its definition, when the lines are done: `m` says which
    labels are, and which names are before the lines. -/
def marks {isa : Isa} : (Name → Bool) → Lines isa → Name → Bool
  | m, [] => m
  | m, (some l, .equ e) :: p => marks (fun y => m y || (decide (y = key l) && e.names.any fun n => m (key n))) p
  | m, _ :: p => marks m p

/-- The names used in a line are labels of the program, equates above it or, behind an origin, the location counter; labels are defined once, and not as equates; an
    origin is given before anything is generated and before any label; neither an origin nor the size of an area depends
    on a label used above its definition. -/
structure Proper {isa : Isa} (p : Lines isa) : Prop where
  closed : ∀ a x b, p = a ++ x :: b → ∀ n ∈ x.2.uses, (key n ∈ labels p ∨ key n ∈ equates a) ∨ (key n = ['*'] ∧ hasOrg a = true)
  once : (labels p).Nodup
  apart : ∀ n ∈ equates p, n ∉ labels p
  origin : ∀ a x b, p = a ++ x :: b → x.2.generates = true ∨ labels [x] ≠ [] → hasOrg a = true
  settled : ∀ a x b, p = a ++ x :: b → ∀ n ∈ x.2.fixed, marks (late p) a (key n) = false

/-- The state between two lines: the location counter, and the equates met so far, with a mark for those whose value
    depends on something defined further below. -/
structure State where
  pc : Option Int := none
  env : Name → Option (Int × Bool) := fun _ => none

/-- The value of a name, the addresses of the labels being `addr`; `*` is the location counter. -/
def State.value (σ : State) (addr : Name → Int) (x : Name) : Int :=
  match σ.env (key x) with
  | some (v, _) => v
  | none => if key x = ['*'] then σ.pc.getD 0 else addr (key x)
/-- Is it defined further below? -/
def State.late (σ : State) (late : Name → Bool) (x : Name) : Bool :=
  match σ.env (key x) with
  | some (_, b) => b
  | none => late (key x)

def State.set (σ : State) (x : Name) (v : Int × Bool) : State :=
  { σ with env := fun y => if y = key x then some v else σ.env y }

/-- Bytes at consecutive addresses. -/
def place : Int → List (BitVec 8) → List (Int × BitVec 8)
  | _, [] => []
  | a, b :: bs => (a, b) :: place (a + 1) bs

/-- The number of 64 bits with the value `v`. -/
def bits (v : Int) : Nat := (BitVec.ofInt 64 v).toNat

/-- One line: the state before and after it, and what it generates. -/
inductive Step (isa : Isa) (addr : Name → Int) (late : Name → Bool) :
    State → Option Name × Body isa.Ins → List (Int × BitVec 8) → State → Prop
  | nothing {σ} : Step isa addr late σ (none, .nothing) [] σ
  | label {σ a l} : σ.pc = some a → addr (key l) = a → Step isa addr late σ (some l, .nothing) [] σ
  | org {σ : State} {e : Expr} {v} : e.eval (σ.value addr) = .ok v → Step isa addr late σ (none, .org e) [] { σ with pc := some v }
  | equ {σ : State} {l : Name} {e : Expr} {v} : e.eval (σ.value addr) = .ok v →
      Step isa addr late σ (some l, .equ e) [] (σ.set l (v, (σ.env (key l)).any (·.2) || e.names.any (σ.late late)))
  | data {σ : State} {a l size swap vs} {es : List Expr} : σ.pc = some a → (∀ x ∈ l, addr (key x) = a) →
      All2 (fun (e : Expr) v => e.eval (σ.value addr) = .ok v) es vs →
      Step isa addr late σ (l, .data size swap es)
        (place a (vs.flatMap fun v => endian (isa.little != swap) size (bits v)))
        { σ with pc := some (a + (vs.flatMap fun v => endian (isa.little != swap) size (bits v)).length) }
  | ins {σ : State} {a l i bs} : σ.pc = some a → (∀ x ∈ l, addr (key x) = a) →
      isa.code i (σ.value addr) (σ.late late) a bs →
      Step isa addr late σ (l, .ins i) (place a bs) { σ with pc := some (a + bs.length) }

/-- All lines. -/
inductive Run (isa : Isa) (addr : Name → Int) (late : Name → Bool) :
    State → Lines isa → List (Int × BitVec 8) → State → Prop
  | nil {σ} : Run isa addr late σ [] [] σ
  | cons {σ x img σ' p img' σ''} : Step isa addr late σ x img σ' → Run isa addr late σ' p img' σ'' →
      Run isa addr late σ (x :: p) (img ++ img') σ''

/-- The source is a program for the processor `cpu`: a CPU directive in the first line, then the lines `p`. -/
def Source (isa : Isa) (cpu : Name) (src : List Char) (p : Lines isa) : Prop :=
  ∃ first rest m b o, lines src = first :: rest ∧ Around (m ++ (b ++ o)) first ∧ Gap b ∧ key m = c!"CPU" ∧ key o = cpu ∧
    All2 (fun t x => Line isa t x.1 x.2) rest p

end Spec.Program

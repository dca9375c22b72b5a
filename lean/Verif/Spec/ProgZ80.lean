import Verif.Spec.Extra
import Verif.Spec.MZ80

/-! Programs for the Z80.  The operand field of `EX AF,AF'` has a quote that is not closed, so there is no statement with
it in the sense of `Spec.Line`; CPDR is left out because its code is wrong. -/

namespace Spec.Z80
open Spec.Program (Isa Number)

/-- The words that have a meaning to the assembler: directives, mnemonics and registers. -/
def words : List Name :=
  Spec.Program.commands ++ plain.map Prod.fst ++ logic.map Prod.fst ++ shifts.map Prod.fst ++ jumps.map Prod.fst ++
  [c!"INC", c!"DEC", c!"PUSH", c!"POP", c!"LD", c!"ADD", c!"ADC", c!"SBC", c!"IN", c!"OUT", c!"BIT", c!"RES", c!"SET",
   c!"IM", c!"RST", c!"DJNZ", c!"JR", c!"EX"] ++ registers.map Prod.fst

/-- Operands: a register; one of those without expression; an expression, alone or in an addressing mode. -/
inductive Opnd
  | reg (k : Kind)
  | fixed (k : Kind)
  | form (f : Form) (e : Expr)

def Form.kind : Form → Kind
  | .expr => .num
  | .ind => .mem
  | .plus x => .at x
  | .minus x => .at x

def Opnd.kind : Opnd → Kind
  | .reg k => k
  | .fixed k => k
  | .form f _ => f.kind

def Opnd.names : Opnd → List Name
  | .form _ e => e.names
  | _ => []

/-- How it is written. -/
inductive Opnd.Writes : Opnd → List Char → Prop
  | reg {w k x} : (w, k) ∈ registers → Word w x → Writes (.reg k) x
  | fixed {k o} : Fixed k o → Writes (.fixed k) o
  | form {f e k t o} : Written f t o → Text k e t → Writes (.form f e) o

/-- What it stands for, given the values of the names. -/
inductive Opnd.Is (val : Name → Int) : Opnd → Arg → Prop
  | reg {k} : Is val (.reg k) ⟨k, 0⟩
  | fixed {k} : Is val (.fixed k) ⟨k, 0⟩
  | form {f v} {e : Expr} : e.eval val = .ok v → Is val (.form f e) (f.value ⟨.num, v⟩)

inductive Ins
  /-- without operand -/
  | plain (n : Name)
  /-- with one operand -/
  | one (n : Name) (p : Opnd)
  /-- with two -/
  | two (n : Name) (p q : Opnd)
  /-- IN and OUT: the port and the register -/
  | port (n : Name) (p r : Opnd)
  /-- BIT, RES, SET: the number of the bit, and where it is -/
  | bit (n : Name) (b : Nat) (p : Opnd)
  | im (e : Expr)
  | rst (e : Expr)
  /-- RET with a condition -/
  | ret (c : Name)
  /-- JP, CALL -/
  | jump (n : Name) (e : Expr)
  | jumpIf (n c : Name) (e : Expr)
  /-- JP to the address in a register -/
  | jumpTo (p : Opnd)
  /-- JR, DJNZ -/
  | rel (n : Name) (e : Expr)
  | jrIf (c : Name) (e : Expr)
  | exDE
  /-- EX with the top of the stack -/
  | exSP (p : Opnd)

/-- Two operands with a comma between them. -/
def Pair2 (o1 o2 t : List Char) : Prop := ∃ b b', Bl b ∧ Bl b' ∧ t = o1 ++ (b ++ ',' :: (b' ++ o2))

/-- The branches without condition. -/
def branches : List (Name × Nat) := [(c!"JR", 0x18), (c!"DJNZ", 0x10)]

inductive Writes : Ins → Name → Option (List Char) → Prop
  /-- all but CPDR -/
  | plain {n} : plain.lookup n ≠ none → n ≠ c!"CPDR" → Writes (.plain n) n none
  | one {n p o} : one n p.kind ≠ none → p.Writes o → Writes (.one n p) n (some o)
  | two {n p q o1 o2 t} : two n p.kind q.kind ≠ none → p.Writes o1 → q.Writes o2 → Pair2 o1 o2 t → Writes (.two n p q) n (some t)
  | inp {p r o1 o2 t} : port c!"IN" p.kind r.kind ≠ none → p.Writes o1 → r.Writes o2 → Pair2 o2 ('(' :: (o1 ++ [')'])) t →
      Writes (.port c!"IN" p r) c!"IN" (some t)
  | out {p r o1 o2 t} : port c!"OUT" p.kind r.kind ≠ none → p.Writes o1 → r.Writes o2 → Pair2 ('(' :: (o1 ++ [')'])) o2 t →
      Writes (.port c!"OUT" p r) c!"OUT" (some t)
  /-- the number of the bit is given by an expression without names, of which 32 bits count -/
  | bit {n b e v p o1 o2 t} : bits n b p.kind ≠ none → Number o1 e → e.names = [] → e.eval (fun _ => 0) = .ok v → v % 2 ^ 32 = b →
      p.Writes o2 → Pair2 o1 o2 t → Writes (.bit n b p) n (some t)
  | im {e k o} : Text k e o → Writes (.im e) c!"IM" (some o)
  | rst {e k o} : Text k e o → Writes (.rst e) c!"RST" (some o)
  | ret {c i x} : (c, i) ∈ conds → Word c x → Writes (.ret c) c!"RET" (some x)
  /-- an address in parentheses would be taken for a register in parentheses -/
  | jump {n a b e o} : (n, a, b) ∈ jumps → Number o e → (n = c!"JP" → ∀ c r, o = c :: r → c ≠ '(') → Writes (.jump n e) n (some o)
  | jumpIf {n a b c i x e o t} : (n, a, b) ∈ jumps → (c, i) ∈ conds → Word c x → Number o e → Pair2 x o t →
      Writes (.jumpIf n c e) n (some t)
  | jumpTo {p o b1 b2} : jpTo p.kind ≠ none → p.Writes o → Bl b1 → Bl b2 →
      Writes (.jumpTo p) c!"JP" (some ('(' :: (b1 ++ (o ++ (b2 ++ [')'])))))
  | rel {n i e o} : (n, i) ∈ branches → Number o e → Writes (.rel n e) n (some o)
  | jrIf {c i x e o t} : (c, i) ∈ conds.take 4 → Word c x → Number o e → Pair2 x o t → Writes (.jrIf c e) c!"JR" (some t)
  | exDE {x y t} : Word c!"DE" x → Word c!"HL" y → Pair2 x y t → Writes .exDE c!"EX" (some t)
  | exHL {x y t} : Word c!"HL" x → Word c!"DE" y → Pair2 x y t → Writes .exDE c!"EX" (some t)
  | exSP {p o x b1 b2 t} : exSP p.kind ≠ none → p.Writes o → Word c!"SP" x → Bl b1 → Bl b2 →
      (Pair2 ('(' :: (b1 ++ (x ++ (b2 ++ [')'])))) o t ∨ Pair2 o ('(' :: (b1 ++ (x ++ (b2 ++ [')'])))) t) →
      Writes (.exSP p) c!"EX" (some t)

def Ins.names : Ins → List Name
  | .one _ p => p.names
  | .two _ p q => p.names ++ q.names
  | .port _ p q => p.names ++ q.names
  | .im e | .rst e | .jump _ e | .jumpIf _ _ e | .rel _ e | .jrIf _ e => e.names
  | .bit _ _ p | .jumpTo p | .exSP p => p.names
  | _ => []

def bytes (l : List Nat) : List (BitVec 8) := l.map (BitVec.ofNat 8)

/-- An opcode and an address. -/
def address (op : Nat) (v : Int) : List (BitVec 8) := [BitVec.ofNat 8 op, BitVec.ofInt 8 v, BitVec.ofInt 8 (v / 256)]

/-- The bytes.  Of the number in RST 16 bits count.  A branch leads to its target. -/
inductive Encodes (val : Name → Int) (a : Int) : Ins → List (BitVec 8) → Prop
  | plain {n l} : plain.lookup n = some l → Encodes val a (.plain n) (bytes l)
  | one {n p x c} : p.Is val x → one n x.kind = some c → Encodes val a (.one n p) (fill1 x c)
  | two {n p q x y c} : p.Is val x → q.Is val y → two n x.kind y.kind = some c → Encodes val a (.two n p q) (fill2 x y c)
  | port {n p r x y c} : p.Is val x → r.Is val y → port n x.kind y.kind = some c → Encodes val a (.port n p r) (fill2 x y c)
  | bit {n b p x c} : p.Is val x → bits n b x.kind = some c → Encodes val a (.bit n b p) (fill1 x c)
  | im {v l} {e : Expr} : e.eval val = .ok v → im v = some l → Encodes val a (.im e) (bytes l)
  | rst {v l} {e : Expr} : e.eval val = .ok v → rst (v % 65536) = some l → Encodes val a (.rst e) (bytes l)
  | ret {c i} : conds.lookup c = some i → Encodes val a (.ret c) [BitVec.ofNat 8 (0xC0 + 8 * i)]
  | jump {n p q v} {e : Expr} : jumps.lookup n = some (p, q) → e.eval val = .ok v → Encodes val a (.jump n e) (address p v)
  | jumpIf {n c p q i v} {e : Expr} : jumps.lookup n = some (p, q) → conds.lookup c = some i → e.eval val = .ok v →
      Encodes val a (.jumpIf n c e) (address (q + 8 * i) v)
  | jumpTo {p x c} : p.Is val x → jpTo x.kind = some c → Encodes val a (.jumpTo p) (fill1 x c)
  | rel {n op v} {e : Expr} {d : BitVec 8} : branches.lookup n = some op → e.eval val = .ok v → (a + 2 + d.toInt - v) % 2 ^ 32 = 0 →
      Encodes val a (.rel n e) [BitVec.ofNat 8 op, d]
  | jrIf {c i v} {e : Expr} {d : BitVec 8} : (conds.take 4).lookup c = some i → e.eval val = .ok v → (a + 2 + d.toInt - v) % 2 ^ 32 = 0 →
      Encodes val a (.jrIf c e) [BitVec.ofNat 8 (0x20 + 8 * i), d]
  | exDE : Encodes val a .exDE [0xEB]
  | exSP {p x c} : p.Is val x → exSP x.kind = some c → Encodes val a (.exSP p) (fill1 x c)

def isa : Isa where
  words := words
  little := true
  Ins := Ins
  writes := Writes
  uses := Ins.names
  code := fun i val _ a bs => Encodes val a i bs

/-- With `ASC`, `DS` and `ALIGN`. -/
abbrev full : Isa := (isa).plus

end Spec.Z80

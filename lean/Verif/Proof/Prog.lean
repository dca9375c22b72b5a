import Verif.Proof.Tame
import Verif.Spec.Prog6502
import Verif.Props.C22
import Verif.Props.C20
import Verif.Props.C06

/-! Programs: what the assembler does with the instructions, seen as steps of a reference semantics. -/

namespace Crasm.C42
open Spec.Program (Isa)

/-- The part of a vocabulary entry that matters. -/
def AsWord (a b : Label) : Prop :=
  b.type = a.type ∧ b.modifier = a.modifier ∧ b.ptr = a.ptr ∧ b.flags.undef = false ∧ b.flags.nolabel = a.flags.nolabel ∧
  b.flags.deflabel = a.flags.deflabel ∧ b.flags.defmacro = a.flags.defmacro ∧ b.flags.defcond = a.flags.defcond ∧
  b.value = a.value

/-- The words of the table are in force. -/
def Vocab (voc : List Entry) (s : St) : Prop :=
  ∀ e ∈ voc, ∃ l, s.tree.find (e.name.map toupper) = some l ∧ AsWord e.label l

/-- The words that are not names of the program. -/
def Reserved (isa : Isa) (k : Str) : Prop := k = starKey ∨ k ∈ isa.words

/-- The words that cannot be used in expressions. -/
def Worded (isa : Isa) (k : Str) : Prop := k ∈ isa.words

/-- An instruction can be executed. -/
structure Ready (isa : Isa) (voc : List Entry) (cpuflag : Option Int) (s : St) : Prop where
  org : s.flags.orgGv = true
  lohi : s.flags.lohi = isa.little
  cpu : ∀ k ∈ cpuflag, s.cpuflag = k
  seg : s.segment = 0
  numeric : Numeric (Worded isa) s
  vocab : Vocab voc s
  fresh : s.advance = 0

/-- The names are not marked as used before their definition, nor will they be. -/
def Steady (N : Str → Prop) (s : St) (names : List Str) : Prop :=
  ∀ n ∈ names, ∀ s', Star (TStep N) (s, .live) (s', .live) → ∀ l, s'.tree.find (canon 0 n) = some l → l.flags.forward = false

/-- A plain instruction. -/
def Instr (l : Label) : Prop :=
  l.type = .mnemo ∧ l.flags.nolabel = false ∧ l.flags.deflabel = false ∧ l.flags.defmacro = false ∧ l.flags.defcond = false

instance (l : Label) : Decidable (Instr l) := inferInstanceAs (Decidable (_ ∧ _))

/-- The assembler has the instructions of the processor. -/
structure Machine (isa : Isa) (voc : List Entry) (cpuflag : Option Int) : Prop where
  words : ∀ k, k ∈ isa.words ↔ k ∈ (pseudos ++ voc).map fun e => e.name.map toupper
  tidy : ∀ e ∈ voc, e.name.length ≤ LABLEN ∧ e.name.head? ≠ some '.' ∧ e.name.head? ≠ some '*'
  short : ∀ {i m o ρ φ a bs}, isa.writes i m o → (∀ t ∈ o, t.length ≤ 600) → isa.code i ρ φ a bs → bs.length < 2 ^ 63
  fixed : ∀ {i n}, n ∈ isa.fixed i → n ∈ isa.uses i
  ins : ∀ {i m o}, isa.writes i m o → ∃ e ∈ pseudos ++ voc, e.name.map toupper = m ∧ Instr e.label ∧ ∃ h, e.label.ptr = .handler h ∧
    (∀ {P : Prop} {ρ : Str → Int} {φ : Str → Bool} {self fuel label s rc s'}, Ready isa voc cpuflag s →
      Outside (Worded isa) s (isa.uses i) → Values P s ρ φ (isa.uses i) →
      callHandler self fuel h e.label.modifier label o s = .ok rc s' →
      ∃ bs, Gen bs s s' ∧ Star HStep (s, .live) (s', .live) ∧ (∀ n ∈ isa.uses i, Met s (canon s.segment n)) ∧
        (P → isa.code i ρ φ s.code.pc.toInt bs)) ∧
    ∀ {N keys : Str → Prop} {self fuel label s}, Able keys s → Vocab voc s → s.advance = 0 →
      (∀ n ∈ isa.uses i, ¬ keys (canon 0 n) ∧ N (canon 0 n)) → Steady N s (isa.fixed i) → Goes N s (callHandler self fuel h e.label.modifier label o s)

/-- The same for the instructions alone, in a form that is easier to show. -/
structure Core (isa : Isa) (voc : List Entry) (cpuflag : Option Int) : Prop where
  words : ∀ k, k ∈ isa.words ↔ k ∈ (pseudos ++ voc).map fun e => e.name.map toupper
  tidy : ∀ e ∈ voc, e.name.length ≤ LABLEN ∧ e.name.head? ≠ some '.' ∧ e.name.head? ≠ some '*'
  short : ∀ {i ρ φ a bs}, isa.code i ρ φ a bs → bs.length < 2 ^ 63
  ins : ∀ {i m o}, isa.writes i m o → ∃ e ∈ voc, e.name.map toupper = m ∧ Instr e.label ∧ ∃ h, e.label.ptr = .handler h ∧
    (∀ {P : Prop} {ρ : Str → Int} {φ : Str → Bool} {self fuel label s rc s'}, Ready isa voc cpuflag s →
      Outside (Worded isa) s (isa.uses i) → Values P s ρ φ (isa.uses i) →
      callHandler self fuel h e.label.modifier label o s = .ok rc s' →
      ∃ bs, Gen bs s s' ∧ Star ChipStep (s, .live) (s', .live) ∧ (∀ n ∈ isa.uses i, Met s (canon s.segment n)) ∧
        (P → isa.code i ρ φ s.code.pc.toInt bs)) ∧
    ∀ {N keys : Str → Prop} {self fuel label s}, Able keys s → Vocab voc s →
      (∀ n ∈ isa.uses i, ¬ keys (canon 0 n) ∧ N (canon 0 n)) → Goes N s (callHandler self fuel h e.label.modifier label o s)

end Crasm.C42

import Verif.Proof.ProgZ80I

/-! Programs: the instructions of the Z80. -/

namespace Crasm
namespace C44
open C24 C42 Zop
open _root_.Spec.Z80 (Kind Arg Form Written Opnd Ins Writes Encodes isa fill1 fill2 Pair2 Bl conds jumps plain)
open Z80 (mz80)

/-! ### The vocabulary -/

theorem lookup_mem {α : Type} {n : Str} {l : List (Str × α)} (h : l.lookup n ≠ none) : n ∈ l.map Prod.fst := by
  induction l with
  | nil => exact absurd rfl h
  | cons x l ih =>
    rw [List.map_cons, List.mem_cons]
    by_cases e : n = x.1
    · exact .inl e
    · right
      refine ih fun h' => h ?_
      rw [List.lookup_cons]
      have : (n == x.1) = false := by simpa using e
      rw [this]
      exact h'

def names1 : List Str :=
  _root_.Spec.Z80.logic.map Prod.fst ++ _root_.Spec.Z80.shifts.map Prod.fst ++ [c!"INC", c!"DEC", c!"PUSH", c!"POP"]
def names2 : List Str := _root_.Spec.Z80.logic.map Prod.fst ++ [c!"LD", c!"ADD", c!"ADC", c!"SBC"]

theorem one_mem {n : Str} {k : Kind} (h : _root_.Spec.Z80.one n k ≠ none) : n ∈ names1 := by
  unfold names1
  rw [List.mem_append, List.mem_append]
  by_cases h1 : _root_.Spec.Z80.logic.lookup n = none
  rotate_left
  · exact .inl (.inl (lookup_mem h1))
  by_cases h2 : _root_.Spec.Z80.shifts.lookup n = none
  rotate_left
  · exact .inl (.inr (lookup_mem h2))
  right
  unfold _root_.Spec.Z80.one at h
  rw [h1, h2] at h
  dsimp only at h
  by_cases e1 : n = c!"INC"
  · rw [e1]; decide
  rw [if_neg e1] at h
  by_cases e2 : n = c!"DEC"
  · rw [e2]; decide
  rw [if_neg e2] at h
  by_cases e3 : n = c!"PUSH"
  · rw [e3]; decide
  rw [if_neg e3] at h
  by_cases e4 : n = c!"POP"
  · rw [e4]; decide
  rw [if_neg e4] at h
  exact absurd rfl h

theorem two_mem {n : Str} {k k' : Kind} (h : _root_.Spec.Z80.two n k k' ≠ none) : n ∈ names2 := by
  unfold names2
  rw [List.mem_append]
  by_cases h1 : _root_.Spec.Z80.logic.lookup n = none
  rotate_left
  · exact .inl (lookup_mem h1)
  right
  unfold _root_.Spec.Z80.two at h
  rw [h1] at h
  dsimp only at h
  by_cases e1 : n = c!"LD"
  · rw [e1]; decide
  rw [if_neg e1] at h
  by_cases e2 : n = c!"ADD"
  · rw [e2]; decide
  rw [if_neg e2] at h
  by_cases e3 : n = c!"ADC"
  · rw [e3]; decide
  rw [if_neg e3] at h
  by_cases e4 : n = c!"SBC"
  · rw [e4]; decide
  rw [if_neg e4] at h
  exact absurd rfl h

theorem bits_mem {n : Str} {b : Nat} {k : Kind} (h : _root_.Spec.Z80.bits n b k ≠ none) : b < 8 ∧ n ∈ [c!"BIT", c!"RES", c!"SET"] := by
  unfold _root_.Spec.Z80.bits at h
  by_cases hb : b < 8
  rotate_left
  · rw [if_neg hb] at h; exact absurd rfl h
  refine ⟨hb, ?_⟩
  rw [if_pos hb] at h
  by_cases e1 : n = c!"BIT"
  · rw [e1]; decide
  rw [if_neg e1] at h
  by_cases e2 : n = c!"RES"
  · rw [e2]; decide
  rw [if_neg e2] at h
  by_cases e3 : n = c!"SET"
  · rw [e3]; decide
  rw [if_neg e3] at h
  exact absurd rfl h

theorem port_mem {n : Str} {k k' : Kind} (h : _root_.Spec.Z80.port n k k' ≠ none) : n ∈ [c!"IN", c!"OUT"] := by
  unfold _root_.Spec.Z80.port at h
  by_cases e1 : n = c!"IN"
  · rw [e1]; decide
  by_cases e2 : n = c!"OUT"
  · rw [e2]; decide
  exfalso
  simp only [if_neg e1, if_neg e2] at h
  split at h <;> exact h rfl

theorem entries : (wanted.all fun p => mz80.any fun e => C22.upper e = p.1 && decide (Instr e.label) && decide (kindOf e = some p.2)) = true := by
  decide +kernel

theorem entry {n : Str} {k : HZ80} (h : (n, k) ∈ wanted) : ∃ e ∈ mz80, C22.upper e = n ∧ Instr e.label ∧ kindOf e = some k := by
  obtain ⟨e, he, h⟩ := List.any_eq_true.1 (List.all_eq_true.1 entries _ h)
  simp only [Bool.and_eq_true, decide_eq_true_eq] at h
  exact ⟨e, he, h.1.1, h.1.2, h.2⟩

theorem entry1 {n : Str} (h : n ∈ names1) : ∃ e ∈ mz80, C22.upper e = n ∧ Instr e.label ∧ ∃ k, kindOf e = some k ∧ (fin1 k).isSome = true := by
  have : (names1.all fun n => wanted.any fun p => p.1 = n && (fin1 p.2).isSome) = true := by decide +kernel
  obtain ⟨⟨n', k⟩, hp, h'⟩ := List.any_eq_true.1 (List.all_eq_true.1 this _ h)
  simp only [Bool.and_eq_true, decide_eq_true_eq] at h'
  obtain ⟨rfl, h'⟩ := h'
  obtain ⟨e, he, h1, h2, h3⟩ := entry hp
  exact ⟨e, he, h1, h2, k, h3, h'⟩

theorem entry2 {n : Str} (h : n ∈ names2) : ∃ e ∈ mz80, C22.upper e = n ∧ Instr e.label ∧ ∃ k, kindOf e = some k ∧ (fin2 k).isSome = true := by
  have : (names2.all fun n => wanted.any fun p => p.1 = n && (fin2 p.2).isSome) = true := by decide +kernel
  obtain ⟨⟨n', k⟩, hp, h'⟩ := List.any_eq_true.1 (List.all_eq_true.1 this _ h)
  simp only [Bool.and_eq_true, decide_eq_true_eq] at h'
  obtain ⟨rfl, h'⟩ := h'
  obtain ⟨e, he, h1, h2, h3⟩ := entry hp
  exact ⟨e, he, h1, h2, k, h3, h'⟩

theorem words_agree : ((isa.words.all fun k => ((pseudos ++ mz80).map fun e => e.name.map toupper).contains k) &&
    ((pseudos ++ mz80).map fun e => e.name.map toupper).all fun k => isa.words.contains k) = true := by decide +kernel

/-! ### Operands that are accepted are none of the odd ones -/

abbrev Side1 (enc : Kind → Option _root_.Spec.Z80.Code) (odd : Kind → Prop) (k : Kind) : Prop :=
  enc k ≠ none → ¬ odd k ∧ ¬ odd .other ∧ enc .other = none
abbrev Side2 (enc : Kind → Kind → Option _root_.Spec.Z80.Code) (odd : Kind → Kind → Prop) (k1 k2 : Kind) : Prop :=
  enc k1 k2 ≠ none → ¬ odd k1 k2 ∧ (¬ odd .other .other ∧ enc .other .other = none) ∧ (¬ odd .other k2 ∧ enc .other k2 = none) ∧
    ¬ odd k1 .other ∧ enc k1 .other = none

theorem side_one {n : Str} {k : Kind} (h : n ∈ names1) : Side1 (_root_.Spec.Z80.one n) (odd1 n) k := by
  have : (names1.all fun n => kinds.all fun k => decide (Side1 (_root_.Spec.Z80.one n) (odd1 n) k)) = true := by decide +kernel
  exact of_decide_eq_true (List.all_eq_true.1 (List.all_eq_true.1 this n h) k (mem_kinds k))

theorem side_two {n : Str} {k k' : Kind} (h : n ∈ names2) : Side2 (_root_.Spec.Z80.two n) (odd2 n) k k' := by
  have : (names2.all fun n => kinds.all fun k => kinds.all fun k' => decide (Side2 (_root_.Spec.Z80.two n) (odd2 n) k k')) = true := by decide +kernel
  exact of_decide_eq_true (List.all_eq_true.1 (List.all_eq_true.1 (List.all_eq_true.1 this n h) k (mem_kinds k)) k' (mem_kinds k'))

theorem side_port {n : Str} {k k' : Kind} (h : n ∈ [c!"IN", c!"OUT"]) : Side2 (_root_.Spec.Z80.port n) oddPort k k' := by
  have : ([c!"IN", c!"OUT"].all fun n => kinds.all fun k => kinds.all fun k' => decide (Side2 (_root_.Spec.Z80.port n) oddPort k k')) = true := by decide +kernel
  exact of_decide_eq_true (List.all_eq_true.1 (List.all_eq_true.1 (List.all_eq_true.1 this n h) k (mem_kinds k)) k' (mem_kinds k'))

theorem side_bits {n : Str} {b : Nat} {k : Kind} (h : n ∈ [c!"BIT", c!"RES", c!"SET"]) (hb : b < 8) : Side1 (_root_.Spec.Z80.bits n b) (· = .unknown) k := by
  have : ([c!"BIT", c!"RES", c!"SET"].all fun n => (List.range 8).all fun b => kinds.all fun k => decide (Side1 (_root_.Spec.Z80.bits n b) (· = .unknown) k)) = true := by
    decide +kernel
  exact of_decide_eq_true (List.all_eq_true.1 (List.all_eq_true.1 (List.all_eq_true.1 this n h) b (List.mem_range.2 hb)) k (mem_kinds k))

theorem side_jp {k : Kind} : Side1 _root_.Spec.Z80.jpTo (· = .unknown) k := by
  have : (kinds.all fun k => decide (Side1 _root_.Spec.Z80.jpTo (· = .unknown) k)) = true := by decide +kernel
  exact of_decide_eq_true (List.all_eq_true.1 this k (mem_kinds k))

theorem side_ex {k : Kind} : Side1 _root_.Spec.Z80.exSP (· = .unknown) k := by
  have : (kinds.all fun k => decide (Side1 _root_.Spec.Z80.exSP (· = .unknown) k)) = true := by decide +kernel
  exact of_decide_eq_true (List.all_eq_true.1 this k (mem_kinds k))

theorem ran1' {P : Prop} {ρ : Str → Int} {φ : Str → Bool} {enc : Kind → Option _root_.Spec.Z80.Code} {odd : Kind → Prop} {p : Opnd} {o : Str} {s s' : St} {rc : RC}
    (h : Acts1 enc odd o s (.ok rc s' : Res RC)) (hp : p.Writes o) (hr : C42.Ready isa mz80 none s) (hout : Outside (Worded isa) s p.names)
    (hval : Values P s ρ φ p.names) (h1 : enc p.kind ≠ none) (h2 : Side1 enc odd p.kind) :
    (∀ n ∈ p.names, Met s (canon s.segment n)) ∧ ∃ a c, enc a.kind = some c ∧ Gen (fill1 a c) s s' ∧ (P → p.Is ρ a) :=
  ran1 h hp hr hout hval (h2 h1).1 (h2 h1).2

theorem ran2' {P : Prop} {ρ : Str → Int} {φ : Str → Bool} {enc : Kind → Kind → Option _root_.Spec.Z80.Code} {odd : Kind → Kind → Prop} {p q : Opnd} {o1 o2 : Str} {s s' : St} {rc : RC}
    (h : Acts2 enc odd o1 o2 s (.ok rc s' : Res RC)) (hp : p.Writes o1) (hq : q.Writes o2) (hr : C42.Ready isa mz80 none s)
    (hout : Outside (Worded isa) s (p.names ++ q.names)) (hval : Values P s ρ φ (p.names ++ q.names)) (h1 : enc p.kind q.kind ≠ none)
    (h2 : Side2 enc odd p.kind q.kind) :
    (∀ n ∈ p.names ++ q.names, Met s (canon s.segment n)) ∧
      ∃ a b c, enc a.kind b.kind = some c ∧ Gen (fill2 a b c) s s' ∧ (P → p.Is ρ a ∧ q.Is ρ b) := by
  obtain ⟨g1, g2, g3, g4⟩ := h2 h1
  refine ran2 h hp hq hr hout hval g1 ?_
  rintro k k' (⟨rfl, rfl | rfl⟩ | ⟨rfl, rfl⟩)
  · exact g2
  · exact g3
  · exact g4

/-! ### Words -/

theorem alpha_word {w x : Str} (h : w.all isalpha = true ∧ w ≠ []) (hx : _root_.Spec.Z80.Word w x) : (∀ c ∈ x, isalpha c = true) ∧ x ≠ [] := by
  refine ⟨fun c hc => alpha_of_upper (List.all_eq_true.1 h.1 _ ?_), fun e => ?_⟩
  · rw [← hx]
    exact List.mem_map_of_mem hc
  · subst e
    exact h.2 hx.symm

theorem cond_word {c x : Str} {i : Nat} (h : (c, i) ∈ conds) (hx : _root_.Spec.Z80.Word c x) :
    Spec.Operand x ∧ Bare x ∧ conds.lookup (x.map toupper) = some i := by
  have : (conds.all fun p => p.1.all isalpha && decide (p.1 ≠ []) && decide (conds.lookup p.1 = some p.2)) = true := by decide +kernel
  have := List.all_eq_true.1 this _ h
  simp only [Bool.and_eq_true, decide_eq_true_eq] at this
  obtain ⟨h1, h2⟩ := alpha_word this.1 hx
  refine ⟨operand_word h1 h2, ?_, ?_⟩
  · rintro c r rfl
    exact alpha_ne (h1 c (by simp)) (by decide)
  · rw [show x.map toupper = c from hx]
    exact this.2

theorem cond4 {c : Str} {i : Nat} (h : (c, i) ∈ conds.take 4) : (conds.take 4).lookup c = some i ∧ i < 4 := by
  have : ((conds.take 4).all fun p => decide ((conds.take 4).lookup p.1 = some p.2 ∧ p.2 < 4)) = true := by decide +kernel
  exact of_decide_eq_true (List.all_eq_true.1 this _ h)

theorem bare_pair {x o t : Str} (h : Spec.Operand x) (hb : Bare x) (ht : Pair2 x o t) : Bare t := by
  obtain ⟨b, b', -, -, rfl⟩ := ht
  cases x with
  | nil => exact absurd rfl h.ne
  | cons c x =>
    rintro d r e
    cases e
    exact hb c x rfl

theorem ex_reg {p : Opnd} {o : Str} (h : _root_.Spec.Z80.exSP p.kind ≠ none) (hp : p.Writes o) : Bare o ∧ ∀ c ∈ o, c ≠ '\'' := by
  cases hp with
  | reg hw hx =>
    have ht := reg_text hw hx
    refine ⟨?_, fun c hc => alpha_ne (ht.alpha c hc) (by decide)⟩
    rintro c r rfl
    exact alpha_ne (ht.alpha c (by simp)) (by decide)
  | fixed hf =>
    cases hf with
    | mk hm =>
      exfalso
      simp only [_root_.Spec.Z80.fixed, List.mem_cons, Prod.mk.injEq, List.not_mem_nil, or_false] at hm
      rcases hm with ⟨-, rfl⟩ | ⟨-, rfl⟩ | ⟨-, rfl⟩ | ⟨-, rfl⟩ | ⟨-, rfl⟩ <;> exact h rfl
  | @form f =>
    exfalso
    cases f <;> exact h rfl

/-! ### Branches -/

theorem rel_tells {P : Prop} {ρ : Str → Int} {φ : Str → Bool} {code : BitVec 32} {e : Spec.Expr} {k : Spec.Level} {o : Str} {s s' : St} {u : Unit} {b : Nat}
    (h : relBranch code (some o) { s with bufpos := b } = .ok u s') (ht : Spec.Text k e o) (hr : C42.Ready isa mz80 none s)
    (hout : Outside (Worded isa) s e.names) (hval : Values P s ρ φ e.names) :
    (∀ n ∈ e.names, Met s (canon s.segment n)) ∧ ∃ d : Byte, Gen [lowByte code, d] s s' ∧
      (P → ∃ v, e.eval ρ = .ok v ∧ (s.code.pc.toInt + 2 + d.toInt - v) % 2 ^ 32 = 0) := by
  have h0 := h
  unfold relBranch at h0
  obtain ⟨r, s1, h1, -⟩ := bind_ok h0
  have hb := rel_run (code := code) (ready_buf hr b).org h1
  rw [run_ok h] at hb
  obtain ⟨h2, h3⟩ := parseAbs_ok h1
  obtain ⟨-, t2⟩ := parse_tells (P := P) (ρ := ρ) (φ := φ) ht (ready_buf hr b).numeric hout hval h2
  refine ⟨fun n hn => parse_met ht h2 n hn, ?_⟩
  rcases hb with ⟨d, s2, h4, g, hd⟩ | ⟨d, s2, h4, -⟩ | ⟨w, s2, h4⟩
  · cases h4
    refine ⟨d, ?_, fun hP => ⟨_, (t2 hP).1, hd⟩⟩
    have := (gen_bufpos s b).trans g
    simpa using this
  · cases h4
  · cases h4

theorem djnz {e : Entry} (he : e ∈ mz80) (hk : kindOf e = some .relbranch) : lowByte (BitVec.ofInt 32 e.label.modifier) = 0x10 := by
  revert e; decide +kernel

theorem jr_low {i : Nat} (h : i < 4) : lowByte (0x20 + BitVec.ofNat 32 (8 * i)) = BitVec.ofNat 8 (0x20 + 8 * i) := by
  revert i; decide

/-! ### Codes are short -/

theorem lookup_all {α : Type} {p : α → Prop} {l : List (Str × α)} {n : Str} {x : α} (h : l.lookup n = some x) (hp : ∀ y ∈ l, p y.2) : p x := by
  induction l with
  | nil => cases h
  | cons y l ih =>
    rw [List.lookup_cons] at h
    split at h
    · cases h; exact hp y (by simp)
    · exact ih h fun z hz => hp z (by simp [hz])

theorem plain_short {n : Str} {l : List Nat} (h : plain.lookup n = some l) : l.length ≤ 4 :=
  lookup_all (p := fun l => l.length ≤ 4) h (by decide +kernel)

def len4 (c : Option _root_.Spec.Z80.Code) : Bool := match c with | none => true | some c => decide (c.length ≤ 4)

theorem one_short {n : Str} {k : Kind} {c : _root_.Spec.Z80.Code} (h : _root_.Spec.Z80.one n k = some c) : c.length ≤ 4 := by
  have : (names1.all fun n => kinds.all fun k => len4 (_root_.Spec.Z80.one n k)) = true := by decide +kernel
  have := List.all_eq_true.1 (List.all_eq_true.1 this n (one_mem (k := k) (by rw [h]; simp))) k (mem_kinds k)
  rw [h] at this
  exact of_decide_eq_true this
theorem two_short {n : Str} {k k' : Kind} {c : _root_.Spec.Z80.Code} (h : _root_.Spec.Z80.two n k k' = some c) : c.length ≤ 4 := by
  have : (names2.all fun n => kinds.all fun k => kinds.all fun k' => len4 (_root_.Spec.Z80.two n k k')) = true := by decide +kernel
  have := List.all_eq_true.1 (List.all_eq_true.1 (List.all_eq_true.1 this n (two_mem (k := k) (k' := k') (by rw [h]; simp))) k (mem_kinds k)) k' (mem_kinds k')
  rw [h] at this
  exact of_decide_eq_true this
theorem port_short {n : Str} {k k' : Kind} {c : _root_.Spec.Z80.Code} (h : _root_.Spec.Z80.port n k k' = some c) : c.length ≤ 4 := by
  have : ([c!"IN", c!"OUT"].all fun n => kinds.all fun k => kinds.all fun k' => len4 (_root_.Spec.Z80.port n k k')) = true := by decide +kernel
  have := List.all_eq_true.1 (List.all_eq_true.1 (List.all_eq_true.1 this n (port_mem (k := k) (k' := k') (by rw [h]; simp))) k (mem_kinds k)) k' (mem_kinds k')
  rw [h] at this
  exact of_decide_eq_true this
theorem bits_short {n : Str} {b : Nat} {k : Kind} {c : _root_.Spec.Z80.Code} (h : _root_.Spec.Z80.bits n b k = some c) : c.length ≤ 4 := by
  have : ([c!"BIT", c!"RES", c!"SET"].all fun n => (List.range 8).all fun b => kinds.all fun k => len4 (_root_.Spec.Z80.bits n b k)) = true := by decide +kernel
  obtain ⟨h1, h2⟩ := bits_mem (n := n) (b := b) (k := k) (by rw [h]; simp)
  have := List.all_eq_true.1 (List.all_eq_true.1 (List.all_eq_true.1 this n h2) b (List.mem_range.2 h1)) k (mem_kinds k)
  rw [h] at this
  exact of_decide_eq_true this
theorem jp_short {k : Kind} {c : _root_.Spec.Z80.Code} (h : _root_.Spec.Z80.jpTo k = some c) : c.length ≤ 4 := by
  have : (kinds.all fun k => len4 (_root_.Spec.Z80.jpTo k)) = true := by decide +kernel
  have := List.all_eq_true.1 this k (mem_kinds k)
  rw [h] at this
  exact of_decide_eq_true this
theorem ex_short {k : Kind} {c : _root_.Spec.Z80.Code} (h : _root_.Spec.Z80.exSP k = some c) : c.length ≤ 4 := by
  have : (kinds.all fun k => len4 (_root_.Spec.Z80.exSP k)) = true := by decide +kernel
  have := List.all_eq_true.1 this k (mem_kinds k)
  rw [h] at this
  exact of_decide_eq_true this
theorem im_length {v : Int} {l : List Nat} (h : _root_.Spec.Z80.im v = some l) : l.length = 2 := by
  unfold _root_.Spec.Z80.im at h
  split at h
  · cases h; rfl
  · split at h
    · cases h; rfl
    · split at h
      · cases h; rfl
      · cases h
theorem rst_length {v : Int} {l : List Nat} (h : _root_.Spec.Z80.rst v = some l) : l.length = 1 := by
  unfold _root_.Spec.Z80.rst at h
  split at h
  · cases h; rfl
  · split at h
    · cases h; rfl
    · cases h

theorem code_short {ρ : Str → Int} {a : Int} {i : Ins} {bs : List Byte} (h : Encodes ρ a i bs) : bs.length ≤ 4 := by
  cases h with
  | plain h => simpa [_root_.Spec.Z80.bytes] using plain_short h
  | one _ h => simpa [fill1] using one_short h
  | two _ _ h => simpa [fill2] using two_short h
  | port _ _ h => simpa [fill2] using port_short h
  | bit _ h => simpa [fill1] using bits_short h
  | im _ h => have := im_length h; simp [_root_.Spec.Z80.bytes]; omega
  | rst _ h => have := rst_length h; simp [_root_.Spec.Z80.bytes]; omega
  | jumpTo _ h => simpa [fill1] using jp_short h
  | exSP _ h => simpa [fill1] using ex_short h
  | _ => simp [_root_.Spec.Z80.address]

/-! ### The machine -/

theorem core : C42.Core isa mz80 none := by
  constructor
  · intro k
    have h := words_agree
    simp only [Bool.and_eq_true] at h
    constructor
    · intro hk
      exact List.contains_iff_mem.1 (List.all_eq_true.1 h.1 k hk)
    · intro hk
      exact List.contains_iff_mem.1 (List.all_eq_true.1 h.2 k hk)
  · decide +kernel
  · intro i ρ φ a bs h
    exact Nat.lt_of_le_of_lt (code_short h) (by decide)
  · intro i m o hw
    cases hw with
    | @plain n hb hc =>
      by_cases hret : m = c!"RET"
      · subst hret
        obtain ⟨e, he, hn, hi, hk⟩ := entry (n := c!"RET") (k := .ret) (by decide +kernel)
        refine ⟨e, he, hn, hi, _, kindOf_some hk, fun {P ρ φ self fuel label s rc s'} hr hout hval hok => ?_, fun {N keys self fuel label s} hfit hvoc hN => ?_⟩
        rotate_left
        · exact goes_call ret_goes
        obtain ⟨h', e', hm, -⟩ := C24_ret (self := self) (fuel := fuel) (label := label) he hn hr.org
        rw [kindOf_some hk] at e'
        cases e'
        rw [hok] at hm
        obtain ⟨bs, h1, h2⟩ := hm
        cases h1
        exact ⟨_, h2, star_call hok, (fun n hn => by cases hn), fun _ => .plain (l := [0xC9]) (by decide +kernel)⟩
      have hm : (m, HZ80.simple) ∈ wanted := by
        have : ((plain.map Prod.fst).all fun n => decide (n ≠ c!"RET" → (n, HZ80.simple) ∈ wanted)) = true := by decide +kernel
        exact of_decide_eq_true (List.all_eq_true.1 this m (lookup_mem hb)) hret
      obtain ⟨e, he, rfl, hi, hk⟩ := entry hm
      refine ⟨e, he, rfl, hi, _, kindOf_some hk, fun {P ρ φ self fuel label s rc s'} hr hout hval hok => ?_, fun {N keys self fuel label s} hfit hvoc hN => ?_⟩
      rotate_left
      · exact goes_call (Walk.goes (by unfold Z80.call; walk) s)
      obtain ⟨h', e', bs, hb', hm, -⟩ := C24_plain_partial (self := self) (fuel := fuel) (label := label) he hk hc hr.org
      rw [kindOf_some hk] at e'
      cases e'
      rw [hok] at hm
      obtain ⟨bs', h1, h2⟩ := hm
      cases h1
      exact ⟨_, h2, star_call hok, (fun n hn => by cases hn), fun _ => .plain hb'⟩
    | @one n p o hb hp =>
      have hmem := one_mem hb
      obtain ⟨e, he, rfl, hi, k, hk, hk1⟩ := entry1 hmem
      refine ⟨e, he, rfl, hi, _, kindOf_some hk, fun {P ρ φ self fuel label s rc s'} hr hout hval hok => ?_, fun {N keys self fuel label s} hfit hvoc hN => ?_⟩
      rotate_left
      · exact goes_call (one_goes hk1 (fine hp hfit hvoc hN))
      obtain ⟨h', e', hm⟩ := C24_one_partial (self := self) (fuel := fuel) (label := label) he hk hk1 (Opnd.spelled hp) hr.org hr.lohi
      rw [kindOf_some hk] at e'
      cases e'
      rw [hok] at hm
      obtain ⟨h1, a, c, h2, g, h3⟩ := ran1' hm hp hr hout hval hb (side_one hmem)
      exact ⟨_, g, star_call hok, h1, fun hP => .one (h3 hP) h2⟩
    | @two n p q o1 o2 t hb hp hq ht =>
      have hmem := two_mem hb
      obtain ⟨e, he, rfl, hi, k, hk, hk2⟩ := entry2 hmem
      refine ⟨e, he, rfl, hi, _, kindOf_some hk, fun {P ρ φ self fuel label s rc s'} hr hout hval hok => ?_, fun {N keys self fuel label s} hfit hvoc hN => ?_⟩
      rotate_left
      · exact goes_call (two_goes hk2 (fine hp hfit hvoc fun n hn => hN n (List.mem_append_left _ hn))
          (fine hq hfit hvoc fun n hn => hN n (List.mem_append_right _ hn)) ht)
      obtain ⟨h', e', hm⟩ := C24_two_partial (self := self) (fuel := fuel) (label := label) he hk hk2 (Opnd.spelled hp) (Opnd.spelled hq) ht hr.org hr.lohi
      rw [kindOf_some hk] at e'
      cases e'
      rw [hok] at hm
      obtain ⟨h1, a, b, c, h2, g, h3⟩ := ran2' hm hp hq hr hout hval hb (side_two hmem)
      exact ⟨_, g, star_call hok, h1, fun hP => .two (h3 hP).1 (h3 hP).2 h2⟩
    | @inp p q o1 o2 t hb hp hq ht =>
      obtain ⟨e, he, hn, hi, hk⟩ := entry (n := c!"IN") (k := .inout) (by decide +kernel)
      have hpt : PortText (C22.upper e) o1 o2 t := by
        rw [hn]
        obtain ⟨b, b', h1, h2, rfl⟩ := ht
        exact .inp h1 h2
      refine ⟨e, he, hn, hi, _, kindOf_some hk, fun {P ρ φ self fuel label s rc s'} hr hout hval hok => ?_, fun {N keys self fuel label s} hfit hvoc hN => ?_⟩
      rotate_left
      · exact goes_call (in_goes he hk hpt (fine hp hfit hvoc fun n hn => hN n (List.mem_append_left _ hn))
          (fine hq hfit hvoc fun n hn => hN n (List.mem_append_right _ hn)))
      obtain ⟨h', e', hm⟩ := C24_port (self := self) (fuel := fuel) (label := label) he hk (Opnd.spelled hp) (Opnd.spelled hq) hpt hr.org hr.lohi
      rw [kindOf_some hk] at e'
      cases e'
      rw [hok, hn] at hm
      obtain ⟨h1, a, b, c, h2, g, h3⟩ := ran2' hm hp hq hr hout hval hb (side_port (by decide))
      exact ⟨_, g, star_call hok, h1, fun hP => .port (h3 hP).1 (h3 hP).2 h2⟩
    | @out p q o1 o2 t hb hp hq ht =>
      obtain ⟨e, he, hn, hi, hk⟩ := entry (n := c!"OUT") (k := .inout) (by decide +kernel)
      have hpt : PortText (C22.upper e) o1 o2 t := by
        rw [hn]
        obtain ⟨b, b', h1, h2, rfl⟩ := ht
        have := PortText.out (p := o1) (r := o2) h1 h2
        simpa using this
      refine ⟨e, he, hn, hi, _, kindOf_some hk, fun {P ρ φ self fuel label s rc s'} hr hout hval hok => ?_, fun {N keys self fuel label s} hfit hvoc hN => ?_⟩
      rotate_left
      · exact goes_call (in_goes he hk hpt (fine hp hfit hvoc fun n hn => hN n (List.mem_append_left _ hn))
          (fine hq hfit hvoc fun n hn => hN n (List.mem_append_right _ hn)))
      obtain ⟨h', e', hm⟩ := C24_port (self := self) (fuel := fuel) (label := label) he hk (Opnd.spelled hp) (Opnd.spelled hq) hpt hr.org hr.lohi
      rw [kindOf_some hk] at e'
      cases e'
      rw [hok, hn] at hm
      obtain ⟨h1, a, b, c, h2, g, h3⟩ := ran2' hm hp hq hr hout hval hb (side_port (by decide))
      exact ⟨_, g, star_call hok, h1, fun hP => .port (h3 hP).1 (h3 hP).2 h2⟩
    | @bit n b x v p o1 o2 t hb hnum hno hev hmod hp ht =>
      obtain ⟨hop, k, htx⟩ := hnum
      obtain ⟨hb8, hmem⟩ := bits_mem hb
      have hm : (m, HZ80.bitop) ∈ wanted := by
        have : ([c!"BIT", c!"RES", c!"SET"].all fun n => decide ((n, HZ80.bitop) ∈ wanted)) = true := by decide +kernel
        exact of_decide_eq_true (List.all_eq_true.1 this m hmem)
      obtain ⟨e, he, rfl, hi, hk⟩ := entry hm
      have none_out : ∀ keys s, Outside keys s x.names := fun keys s y hy => by rw [hno] at hy; cases hy
      have none_val : ∀ s, Values True s (fun _ => 0) (fun _ => false) x.names := fun s _ y hy => by rw [hno] at hy; cases hy
      refine ⟨e, he, rfl, hi, _, kindOf_some hk, fun {P ρ φ self fuel label s rc s'} hr hout hval hok => ?_, fun {N keys self fuel label s} hfit hvoc hN => ?_⟩
      rotate_left
      · refine goes_call (bit_goes hop (fine hp hfit hvoc hN) ht (fun b => (parse_sure htx (fit_buf hfit b) fun y hy => ?_).goes) fun b r s' hpa => ?_)
        · rw [hno] at hy; cases hy
        · obtain ⟨-, t2⟩ := parse_tells (P := True) htx (fit_buf hfit b).numeric (none_out _ _) (none_val _) (parseAbs_ok hpa).1
          have := (t2 trivial).1
          rw [hev] at this
          cases this
          omega
      obtain ⟨h', e', hm⟩ := C24_bit (self := self) (fuel := fuel) (label := label) he hk hop (Opnd.spelled hp) ht hr.org hr.lohi
      rw [kindOf_some hk] at e'
      cases e'
      have hm := hm _ rfl
      rw [hok] at hm
      obtain ⟨-, w, hq, hw⟩ := forValue_ok (P := True) hm htx hr (none_out _ _) (none_val _)
      have hw := hw trivial
      rw [hev] at hw
      cases hw
      have hvb : (v % 2 ^ 32).toNat = b := by omega
      rw [if_pos (by omega), hvb] at hq
      obtain ⟨h1, a, c, h2, g, h3⟩ := ran1' hq hp hr hout hval hb (side_bits hmem hb8)
      exact ⟨_, g, star_call hok, h1, fun hP => .bit (h3 hP) h2⟩
    | @im x k o ht =>
      obtain ⟨e, he, hn, hi, hk⟩ := entry (n := c!"IM") (k := .im) (by decide +kernel)
      refine ⟨e, he, hn, hi, _, kindOf_some hk, fun {P ρ φ self fuel label s rc s'} hr hout hval hok => ?_, fun {N keys self fuel label s} hfit hvoc hN => ?_⟩
      rotate_left
      · exact goes_call (im_goes (parse_sure ht hfit hN).goes)
      obtain ⟨h', e', hm⟩ := C24_im (self := self) (fuel := fuel) (label := label) he hn hr.org hr.lohi
      rw [kindOf_some hk] at e'
      cases e'
      have hm := hm _ rfl
      rw [hok] at hm
      obtain ⟨h1, v, ⟨bs, h2, g⟩, h3⟩ := forValue_ok hm ht hr hout hval
      obtain ⟨l, h5, rfl⟩ := Option.map_eq_some_iff.1 h2
      exact ⟨_, g, star_call hok, h1, fun hP => .im (h3 hP) h5⟩
    | @rst x k o ht =>
      obtain ⟨e, he, hn, hi, hk⟩ := entry (n := c!"RST") (k := .rst) (by decide +kernel)
      refine ⟨e, he, hn, hi, _, kindOf_some hk, fun {P ρ φ self fuel label s rc s'} hr hout hval hok => ?_, fun {N keys self fuel label s} hfit hvoc hN => ?_⟩
      rotate_left
      · exact goes_call (rst_goes (parse_sure ht hfit hN).goes)
      obtain ⟨h', e', hm⟩ := C24_rst (self := self) (fuel := fuel) (label := label) he hn hr.org
      rw [kindOf_some hk] at e'
      cases e'
      have hm := hm _ rfl
      rw [hok] at hm
      obtain ⟨h1, v, ⟨bs, h2, g⟩, h3⟩ := forValue_ok hm ht hr hout hval
      obtain ⟨l, h5, rfl⟩ := Option.map_eq_some_iff.1 h2
      exact ⟨_, g, star_call hok, h1, fun hP => .rst (h3 hP) h5⟩
    | @ret c i x hc hx =>
      obtain ⟨hop, -, hl⟩ := cond_word hc hx
      obtain ⟨e, he, hn, hi, hk⟩ := entry (n := c!"RET") (k := .ret) (by decide +kernel)
      refine ⟨e, he, hn, hi, _, kindOf_some hk, fun {P ρ φ self fuel label s rc s'} hr hout hval hok => ?_, fun {N keys self fuel label s} hfit hvoc hN => ?_⟩
      rotate_left
      · exact goes_call ret_goes
      obtain ⟨h', e', -, hm⟩ := C24_ret (self := self) (fuel := fuel) (label := label) he hn hr.org
      rw [kindOf_some hk] at e'
      cases e'
      have hm := hm x hop.ne
      rw [hok, hl] at hm
      obtain ⟨bs, h1, h2⟩ := hm
      cases h1
      refine ⟨_, h2, star_call hok, (fun n hn => by cases hn), fun _ => .ret ?_⟩
      rw [← hl, show x.map toupper = c from hx]
    | @jump n a b x o hj hnum hbare =>
      obtain ⟨hop, k, ht⟩ := hnum
      have hm : ∃ k, (m, k) ∈ wanted ∧ jumps.lookup m = some (a, b) := by
        simp only [jumps, List.mem_cons, Prod.mk.injEq, List.not_mem_nil, or_false] at hj
        rcases hj with ⟨rfl, rfl, rfl⟩ | ⟨rfl, rfl, rfl⟩
        · exact ⟨.jp, by decide +kernel, by decide +kernel⟩
        · exact ⟨.call, by decide +kernel, by decide +kernel⟩
      obtain ⟨k', hm, hlook⟩ := hm
      obtain ⟨e, he, rfl, hi, hk⟩ := entry hm
      refine ⟨e, he, rfl, hi, _, kindOf_some hk, fun {P ρ φ self fuel label s rc s'} hr hout hval hok => ?_, fun {N keys self fuel label s} hfit hvoc hN => ?_⟩
      rotate_left
      · obtain ⟨c, q, hto⟩ := jump_toward he hj hk hbare s
        exact goes_call (.toward hto (.toward (plain_toward hop s) (tail_goes (parse_sure ht hfit hN).goes)))
      obtain ⟨h', e', hm⟩ := C24_jump (self := self) (fuel := fuel) (label := label) he hj hop hbare hr.org hr.lohi
      rw [kindOf_some hk] at e'
      cases e'
      have hm := hm _ rfl
      rw [hok] at hm
      obtain ⟨h1, v, ⟨bs, h2, g⟩, h3⟩ := forValue_ok hm ht hr hout hval
      cases h2
      exact ⟨_, g, star_call hok, h1, fun hP => .jump hlook (h3 hP)⟩
    | @jumpIf n a b c i x y o t hj hc hx hnum hpair =>
      obtain ⟨hop, k, ht⟩ := hnum
      obtain ⟨hcx, hcb, hl⟩ := cond_word hc hx
      have hm : ∃ k, (m, k) ∈ wanted ∧ jumps.lookup m = some (a, b) := by
        simp only [jumps, List.mem_cons, Prod.mk.injEq, List.not_mem_nil, or_false] at hj
        rcases hj with ⟨rfl, rfl, rfl⟩ | ⟨rfl, rfl, rfl⟩
        · exact ⟨.jp, by decide +kernel, by decide +kernel⟩
        · exact ⟨.call, by decide +kernel, by decide +kernel⟩
      obtain ⟨k', hm, hlook⟩ := hm
      obtain ⟨e, he, rfl, hi, hk⟩ := entry hm
      refine ⟨e, he, rfl, hi, _, kindOf_some hk, fun {P ρ φ self fuel label s rc s'} hr hout hval hok => ?_, fun {N keys self fuel label s} hfit hvoc hN => ?_⟩
      rotate_left
      · obtain ⟨c, q, hto⟩ := jump_toward he hj hk (fun _ => bare_pair hcx hcb hpair) s
        obtain ⟨b', hb'⟩ := cond_toward (base := c) (plain := q) hcx hop hl hpair s
        exact goes_call (.toward hto (.toward hb' (Goes.scratch (tail_goes (parse_sure ht (fit_buf hfit b') hN).goes))))
      obtain ⟨h', e', hm⟩ := C24_jump_cond (self := self) (fuel := fuel) (label := label) he hj hcx hop (fun _ => hcb) hpair hr.org hr.lohi
      rw [kindOf_some hk] at e'
      cases e'
      have hm := hm _ rfl
      rw [hok, hl] at hm
      obtain ⟨h1, v, ⟨bs, h2, g⟩, h3⟩ := forValue_ok hm ht hr hout hval
      cases h2
      refine ⟨_, g, star_call hok, h1, fun hP => .jumpIf hlook ?_ (h3 hP)⟩
      rw [← hl, show x.map toupper = c from hx]
    | @jumpTo p o b1 b2 hb hp h1 h2 =>
      obtain ⟨e, he, hn, hi, hk⟩ := entry (n := c!"JP") (k := .jp) (by decide +kernel)
      refine ⟨e, he, hn, hi, _, kindOf_some hk, fun {P ρ φ self fuel label s rc s'} hr hout hval hok => ?_, fun {N keys self fuel label s} hfit hvoc hN => ?_⟩
      rotate_left
      · have hf := fine hp hfit hvoc hN
        obtain ⟨b, hto⟩ := jp_reg_toward (Opnd.spelled hp).operand h1 h2 s
        exact goes_call (.toward hto (Goes.scratch (oneOp_goes (Fine.buf hf _))))
      obtain ⟨h', e', hm⟩ := C24_jump_reg (self := self) (fuel := fuel) (label := label) he hn (Opnd.spelled hp) h1 h2 hr.org hr.lohi
      rw [kindOf_some hk] at e'
      cases e'
      rw [hok] at hm
      obtain ⟨h1, a, c, h2, g, h3⟩ := ran1' hm hp hr hout hval hb side_jp
      exact ⟨_, g, star_call hok, h1, fun hP => .jumpTo (h3 hP) h2⟩
    | @rel n i x o hb hnum =>
      obtain ⟨hop, k, ht⟩ := hnum
      simp only [_root_.Spec.Z80.branches, List.mem_cons, Prod.mk.injEq, List.not_mem_nil, or_false] at hb
      rcases hb with ⟨rfl, rfl⟩ | ⟨rfl, rfl⟩
      · obtain ⟨e, he, hn, hi, hk⟩ := entry (n := c!"JR") (k := .jr) (by decide +kernel)
        refine ⟨e, he, hn, hi, _, kindOf_some hk, fun {P ρ φ self fuel label s rc s'} hr hout hval hok => ?_, fun {N keys self fuel label s} hfit hvoc hN => ?_⟩
        rotate_left
        · exact goes_call (.toward (jr_toward hop s) (relBranch_goes (parse_sure ht hfit hN).goes))
        have hst := star_call hok
        obtain ⟨u, s2, h1, h2⟩ := bind_ok hok
        cases h2
        have hto := jr_toward hop s
        rcases hto with hto | ⟨s3, hto⟩
        rotate_left
        · exact absurd (hto.symm.trans h1) (by simp)
        obtain ⟨h4, d, g, h5⟩ := rel_tells (b := s.bufpos) (hto.symm.trans h1) ht hr hout hval
        refine ⟨_, g, hst, h4, fun hP => ?_⟩
        obtain ⟨v, h6, h7⟩ := h5 hP
        exact .rel (op := 0x18) (by decide) h6 h7
      · obtain ⟨e, he, hn, hi, hk⟩ := entry (n := c!"DJNZ") (k := .relbranch) (by decide +kernel)
        refine ⟨e, he, hn, hi, _, kindOf_some hk, fun {P ρ φ self fuel label s rc s'} hr hout hval hok => ?_, fun {N keys self fuel label s} hfit hvoc hN => ?_⟩
        rotate_left
        · exact goes_call (relBranch_goes (parse_sure ht hfit hN).goes)
        have hst := star_call hok
        obtain ⟨u, s2, h1, h2⟩ := bind_ok hok
        cases h2
        obtain ⟨h4, d, g, h5⟩ := rel_tells (b := s.bufpos) (code := BitVec.ofInt 32 e.label.modifier) h1 ht hr hout hval
        rw [djnz he hk] at g
        refine ⟨_, g, hst, h4, fun hP => ?_⟩
        obtain ⟨v, h6, h7⟩ := h5 hP
        exact .rel (op := 0x10) (by decide) h6 h7
    | @jrIf c i x y o t hc hx hnum hpair =>
      obtain ⟨hop, k, ht⟩ := hnum
      obtain ⟨hcx, hcb, -⟩ := cond_word (List.mem_of_mem_take hc) hx
      obtain ⟨hl, hi4⟩ := cond4 hc
      have hl' : (conds.take 4).lookup (x.map toupper) = some i := by rw [show x.map toupper = c from hx]; exact hl
      obtain ⟨e, he, hn, hi, hk⟩ := entry (n := c!"JR") (k := .jr) (by decide +kernel)
      refine ⟨e, he, hn, hi, _, kindOf_some hk, fun {P ρ φ self fuel label s rc s'} hr hout hval hok => ?_, fun {N keys self fuel label s} hfit hvoc hN => ?_⟩
      rotate_left
      · obtain ⟨b, hto⟩ := jr_cond_toward hcx hop hl' hpair s
        exact goes_call (.toward hto (Goes.scratch (relBranch_goes (parse_sure ht (fit_buf hfit b) hN).goes)))
      have hst := star_call hok
      obtain ⟨u, s2, h1, h2⟩ := bind_ok hok
      cases h2
      obtain ⟨b, hto⟩ := jr_cond_toward hcx hop hl' hpair s
      rcases hto with hto | ⟨s3, hto⟩
      rotate_left
      · exact absurd (hto.symm.trans h1) (by simp)
      obtain ⟨h4, d, g, h5⟩ := rel_tells (b := b) (hto.symm.trans h1) ht hr hout hval
      rw [jr_low hi4] at g
      refine ⟨_, g, hst, h4, fun hP => ?_⟩
      obtain ⟨v, h6, h7⟩ := h5 hP
      exact .jrIf hl h6 h7
    | @exDE x y t hx hy ht =>
      obtain ⟨e, he, hn, hi, hk⟩ := entry (n := c!"EX") (k := .ex) (by decide +kernel)
      refine ⟨e, he, hn, hi, _, kindOf_some hk, fun {P ρ φ self fuel label s rc s'} hr hout hval hok => ?_, fun {N keys self fuel label s} hfit hvoc hN => ?_⟩
      rotate_left
      · obtain ⟨b, hto⟩ := ex_de_toward (.inl ⟨hx, hy⟩) ht s
        exact goes_call (.toward hto (Goes.scratch (Walk.goes (by walk) _)))
      obtain ⟨h', e', hm⟩ := C24_ex_de (self := self) (fuel := fuel) (label := label) he hn (.inl ⟨hx, hy⟩) ht hr.org hr.lohi
      rw [kindOf_some hk] at e'
      cases e'
      rw [hok] at hm
      obtain ⟨bs, h1, g⟩ := hm
      cases h1
      exact ⟨_, g, star_call hok, (fun n hn => by cases hn), fun _ => .exDE⟩
    | @exHL x y t hx hy ht =>
      obtain ⟨e, he, hn, hi, hk⟩ := entry (n := c!"EX") (k := .ex) (by decide +kernel)
      refine ⟨e, he, hn, hi, _, kindOf_some hk, fun {P ρ φ self fuel label s rc s'} hr hout hval hok => ?_, fun {N keys self fuel label s} hfit hvoc hN => ?_⟩
      rotate_left
      · obtain ⟨b, hto⟩ := ex_de_toward (.inr ⟨hx, hy⟩) ht s
        exact goes_call (.toward hto (Goes.scratch (Walk.goes (by walk) _)))
      obtain ⟨h', e', hm⟩ := C24_ex_de (self := self) (fuel := fuel) (label := label) he hn (.inr ⟨hx, hy⟩) ht hr.org hr.lohi
      rw [kindOf_some hk] at e'
      cases e'
      rw [hok] at hm
      obtain ⟨bs, h1, g⟩ := hm
      cases h1
      exact ⟨_, g, star_call hok, (fun n hn => by cases hn), fun _ => .exDE⟩
    | @exSP p o x b1 b2 t hb hp hx hb1 hb2 ht =>
      obtain ⟨e, he, hn, hi, hk⟩ := entry (n := c!"EX") (k := .ex) (by decide +kernel)
      obtain ⟨hq1, hq2⟩ := ex_reg hb hp
      have hst : StackText o t := ⟨_, x, b1, b2, hx, hb1, hb2, rfl, ht.imp id fun h => ⟨h, hq1, hq2⟩⟩
      refine ⟨e, he, hn, hi, _, kindOf_some hk, fun {P ρ φ self fuel label s rc s'} hr hout hval hok => ?_, fun {N keys self fuel label s} hfit hvoc hN => ?_⟩
      rotate_left
      · exact goes_call (ex_goes (fine hp hfit hvoc hN) hst)
      obtain ⟨h', e', hm⟩ := C24_ex_stack (self := self) (fuel := fuel) (label := label) he hn (Opnd.spelled hp) hst hr.org hr.lohi
      rw [kindOf_some hk] at e'
      cases e'
      rw [hok] at hm
      obtain ⟨h1, a, c, h2, g, h3⟩ := ran1' hm hp hr hout hval hb side_ex
      exact ⟨_, g, star_call hok, h1, fun hP => .exSP (h3 hP) h2⟩

/-! ### The bytes are determined -/

theorem is_kind {ρ : Str → Int} {p : Opnd} {x : Arg} (h : p.Is ρ x) : x.kind = p.kind := by
  cases h with
  | reg => rfl
  | fixed => rfl
  | @form f => cases f <;> rfl

theorem is_same {ρ ρ' : Str → Int} {p : Opnd} {x x' : Arg} (h : p.Is ρ x) (h' : p.Is ρ' x') (hn : ∀ n ∈ p.names, ρ n = ρ' n) : x = x' := by
  cases h with
  | reg => cases h'; rfl
  | fixed => cases h'; rfl
  | @form f v e h1 =>
    cases h' with
    | @form _ v' _ h2 =>
    rw [← eval_same e hn, h1] at h2
    cases h2
    rfl

theorem definite : Definite isa := by
  constructor
  · intro i n hn; cases hn
  · intro i ρ ρ' φ φ' a bs bs' h h' hn _
    change Encodes ρ a i bs at h
    change Encodes ρ' a i bs' at h'
    cases h with
    | plain h1 => cases h' with | plain h2 => rw [h1] at h2; cases h2; rfl
    | one h1 h2 => cases h' with | one h3 h4 => rw [is_kind h1] at h2; rw [is_kind h3, h2] at h4; cases h4; simp [fill1]
    | two h1 h2 h3 => cases h' with | two h4 h5 h6 => rw [is_kind h1, is_kind h2] at h3; rw [is_kind h4, is_kind h5, h3] at h6; cases h6; simp [fill2]
    | port h1 h2 h3 => cases h' with | port h4 h5 h6 => rw [is_kind h1, is_kind h2] at h3; rw [is_kind h4, is_kind h5, h3] at h6; cases h6; simp [fill2]
    | bit h1 h2 => cases h' with | bit h3 h4 => rw [is_kind h1] at h2; rw [is_kind h3, h2] at h4; cases h4; simp [fill1]
    | im h1 h2 => cases h' with | im h3 h4 => simp [_root_.Spec.Z80.bytes, im_length h2, im_length h4]
    | rst h1 h2 => cases h' with | rst h3 h4 => simp [_root_.Spec.Z80.bytes, rst_length h2, rst_length h4]
    | jumpTo h1 h2 => cases h' with | jumpTo h3 h4 => rw [is_kind h1] at h2; rw [is_kind h3, h2] at h4; cases h4; simp [fill1]
    | exSP h1 h2 => cases h' with | exSP h3 h4 => rw [is_kind h1] at h2; rw [is_kind h3, h2] at h4; cases h4; simp [fill1]
    | _ => cases h'; rfl
  · intro i ρ ρ' φ φ' a bs bs' h h' hn
    change Encodes ρ a i bs at h
    change Encodes ρ' a i bs' at h'
    have hn : ∀ n ∈ i.names, ρ n = ρ' n := fun n h => (hn n h).2
    have near : ∀ {v : Int} {d d' : Byte}, (a + 2 + d.toInt - v) % 2 ^ 32 = 0 → (a + 2 + d'.toInt - v) % 2 ^ 32 = 0 → d = d' := by
      intro v d d' h3 h6
      apply BitVec.eq_of_toInt_eq
      have a1 := BitVec.toInt_lt (x := d)
      have a2 := BitVec.toInt_lt (x := d')
      have a3 := BitVec.le_toInt (x := d)
      have a4 := BitVec.le_toInt (x := d')
      omega
    cases h with
    | plain h1 => cases h' with | plain h2 => rw [h1] at h2; cases h2; rfl
    | one h1 h2 => cases h' with | one h3 h4 => cases is_same h1 h3 hn; rw [h2] at h4; cases h4; rfl
    | two h1 h2 h3 => cases h' with | two h4 h5 h6 =>
      cases is_same h1 h4 fun n h => hn n (List.mem_append_left _ h)
      cases is_same h2 h5 fun n h => hn n (List.mem_append_right _ h)
      rw [h3] at h6; cases h6; rfl
    | port h1 h2 h3 => cases h' with | port h4 h5 h6 =>
      cases is_same h1 h4 fun n h => hn n (List.mem_append_left _ h)
      cases is_same h2 h5 fun n h => hn n (List.mem_append_right _ h)
      rw [h3] at h6; cases h6; rfl
    | bit h1 h2 => cases h' with | bit h3 h4 => cases is_same h1 h3 hn; rw [h2] at h4; cases h4; rfl
    | @im v l e h1 h2 => cases h' with | im h3 h4 => rw [← eval_same e hn, h1] at h3; cases h3; rw [h2] at h4; cases h4; rfl
    | @rst v l e h1 h2 => cases h' with | rst h3 h4 => rw [← eval_same e hn, h1] at h3; cases h3; rw [h2] at h4; cases h4; rfl
    | ret h1 => cases h' with | ret h2 => rw [h1] at h2; cases h2; rfl
    | @jump n p q v e h1 h2 => cases h' with | jump h3 h4 => rw [← eval_same e hn, h2] at h4; cases h4; rw [h1] at h3; cases h3; rfl
    | @jumpIf n c p q i v e h1 h2 h3 => cases h' with | jumpIf h4 h5 h6 =>
      rw [← eval_same e hn, h3] at h6; cases h6
      rw [h1] at h4; cases h4
      rw [h2] at h5; cases h5
      rfl
    | jumpTo h1 h2 => cases h' with | jumpTo h3 h4 => cases is_same h1 h3 hn; rw [h2] at h4; cases h4; rfl
    | @rel n op v e d h1 h2 h3 => cases h' with | rel h4 h5 h6 =>
      rw [← eval_same e hn, h2] at h5; cases h5
      rw [h1] at h4; cases h4
      rw [near h3 h6]
    | @jrIf c i v e d h1 h2 h3 => cases h' with | jrIf h4 h5 h6 =>
      rw [← eval_same e hn, h2] at h5; cases h5
      rw [h1] at h4; cases h4
      rw [near h3 h6]
    | exDE => cases h'; rfl
    | exSP h1 h2 => cases h' with | exSP h3 h4 => cases is_same h1 h3 hn; rw [h2] at h4; cases h4; rfl

/-! ### The CPU directive -/

def flagsZ80 (g : Flags) : Flags := { g with codeHex := true, addr16 := true, lohi := true, relatif := false }

theorem chosen : Chosen .z80 [.mz80] flagsZ80 mz80 none isa.little where
  init := fun s => by
    have h1 : inits [.mz80] = initLabelList .mz80 mz80 := bind_pure _
    rw [h1]
    rfl
  flags := fun _ => ⟨rfl, rfl, rfl⟩
  fresh := by decide +kernel
  found := by decide +kernel
  nodup := by decide +kernel
  all := by decide +kernel
  entry := fun e he => ⟨.mz80, .head _, he⟩
  back := fun t ht e he => by cases List.mem_singleton.1 ht; exact he
  good := by decide +kernel
  first := by decide +kernel

theorem named : cpuOf c!"Z80" = some .z80 ∧ Mild c!"Z80" := ⟨by decide +kernel, by decide +kernel⟩

end C44
end Crasm

import Verif.Proof.ProgFull
import Verif.Proof.ProgUnique
import Verif.Proof.Prog6502
import Verif.Spec.Prog6800
import Verif.Props.C23

/-! Programs: the instructions of the 6800, 6801 and 6803. -/

namespace Crasm
namespace C6800
instance (c : BitVec 32) (o : Option Str) : W ChipStep (single c o) := ⟨by unfold single; walk⟩
instance (c a v : BitVec 32) : W ChipStep (codemode c a v) := ⟨by unfold codemode; walk⟩
instance (c : BitVec 32) (o : Option Str) : W ChipStep (standard c o) := ⟨by unfold standard; walk⟩
instance (c : BitVec 32) (o : Option Str) : W ChipStep (standard2 c o) := ⟨by unfold standard2; walk⟩
instance (c : BitVec 32) (o : Option Str) : W ChipStep (standard3 c o) := ⟨by unfold standard3; walk⟩
instance (h : H6800) (m : Int) (o : Option Str) : W ChipStep (call h m o) := ⟨by unfold call; walk⟩
instance (c a v : BitVec 32) : W (TStep N) (codemode c a v) := ⟨by unfold codemode; walk⟩
instance (c : BitVec 32) (o : Option Str) : W (TStep N) (single c o) := ⟨by unfold single; walk⟩
end C6800

namespace C43
open _root_.Spec.M6800 (Chip Form Written Meaning encode bare Ins Writes Code isa forJsr)
open C23 C42 C6800

/-! ### The operands -/

theorem tables16 : (cpus.all fun c => (table c).all fun e => match kindOfOp e with
    | none => true
    | some k => forms.all fun f => [false, true].all fun b => [false, true].all fun l =>
      decide (plan k (BitVec.ofInt 32 e.label.modifier) f b l = (_root_.Spec.M6800.mode (forJsr c (C22.upper e)) (C22.upper e) f (!b) l).map asOp)) = true := by
  decide +kernel

theorem agree16 {c : Chip} {e : Entry} (he : e ∈ table c) {k : H6800} (hk : kindOfOp e = some k) (f : Form) (b l : Bool) :
    plan k (BitVec.ofInt 32 e.label.modifier) f b l = (_root_.Spec.M6800.mode (forJsr c (C22.upper e)) (C22.upper e) f (!b) l).map asOp := by
  have h := List.all_eq_true.mp (List.all_eq_true.mp tables16 c (mem_cpus c)) e he
  rw [hk] at h
  exact of_decide_eq_true (List.all_eq_true.mp (List.all_eq_true.mp (List.all_eq_true.mp h f (mem_forms f)) b (by cases b <;> decide)) l
    (by cases l <;> decide))

theorem mode_size {c : Chip} {n : Str} {f : Form} {a b : Bool} {x : Nat × Nat} (h : _root_.Spec.M6800.mode c n f a b = some x) : x.2 = 1 ∨ x.2 = 2 := by
  unfold _root_.Spec.M6800.mode at h
  cases f with
  | imm =>
    simp only at h
    cases h1 : _root_.Spec.M6800.opcode c n .imm with
    | some op => rw [h1] at h; cases h; exact .inl rfl
    | none =>
      rw [h1] at h
      cases h2 : _root_.Spec.M6800.opcode c n .imm16 with
      | some op => rw [h2] at h; cases h; exact .inr rfl
      | none => rw [h2] at h; cases h
  | index =>
    simp only at h
    split at h
    · simp only [Option.map_eq_some_iff] at h
      obtain ⟨a, -, rfl⟩ := h
      exact .inl rfl
    · cases h
  | addr =>
    simp only at h
    split at h
    · cases h; exact .inl rfl
    · simp only [Option.map_eq_some_iff] at h
      obtain ⟨a, -, rfl⟩ := h
      exact .inr rfl

/-- Numbers count modulo 65536. -/
theorem plan_enc16 {c : Chip} {e : Entry} (he : e ∈ table c) {k : H6800} (hk : kindOfOp e = some k) (f : Form) (v : Result) :
    encode (forJsr c (C22.upper e)) (C22.upper e) f (.num (v.value.toNat % 65536) v.flags.forward) =
      (plan k (BitVec.ofInt 32 e.label.modifier) f (bigB (v.value.setWidth 32)) v.flags.forward).map (bytesHL (v.value.setWidth 32)) := by
  rw [agree16 he hk]
  have hb : decide (v.value.toNat % 65536 < 256) = (!bigB (v.value.setWidth 32)) := by
    unfold bigB
    have h1 := big_iff v.value
    by_cases hbig : 256 ≤ v.value.toNat % 65536
    · rw [decide_eq_true (h1.mpr hbig), decide_eq_false (by omega)]; rfl
    · have h3 : ¬ (v.value.setWidth 32 : BitVec 32) &&& 0xff00 ≠ 0 := fun h => hbig (h1.mp h)
      rw [decide_eq_false h3, decide_eq_true (by omega)]; rfl
  change (_root_.Spec.M6800.mode (forJsr c (C22.upper e)) (C22.upper e) f (decide (v.value.toNat % 65536 < 256)) v.flags.forward).map (fun x =>
      if x.2 = 1 then [_root_.Spec.M6800.lo x.1, _root_.Spec.M6800.lo (v.value.toNat % 65536)] else
        [_root_.Spec.M6800.lo x.1, _root_.Spec.M6800.hi (v.value.toNat % 65536), _root_.Spec.M6800.lo (v.value.toNat % 65536)]) = _
  rw [hb]
  have hl : lowByte (v.value.setWidth 32) = _root_.Spec.M6800.lo (v.value.toNat % 65536) := by
    rw [C23.lowByte_lo]
    unfold _root_.Spec.M6800.lo
    apply BitVec.eq_of_toNat_eq
    simp only [BitVec.toNat_ofNat]
    omega
  have hh : lowByte ((v.value.setWidth 32 : BitVec 32) >>> 8) = _root_.Spec.M6800.hi (v.value.toNat % 65536) := by
    rw [C23.lowByte_hi]
    unfold _root_.Spec.M6800.hi
    apply BitVec.eq_of_toNat_eq
    simp only [BitVec.toNat_ofNat]
    omega
  cases hmo : _root_.Spec.M6800.mode (forJsr c (C22.upper e)) (C22.upper e) f (!bigB (v.value.setWidth 32)) v.flags.forward with
  | none => rfl
  | some x =>
    obtain ⟨op, n⟩ := x
    rcases mode_size hmo with h1 | h1 <;> cases h1
    · simp [asOp, bytesHL, hl]; rfl
    · simp [asOp, bytesHL, hl, hh]; rfl

theorem kind_ptr {e : Entry} {k : H6800} (h : kindOfOp e = some k) : e.label.ptr = .handler (.h6800 k) ∧ k ∈ operandKinds := by
  unfold kindOfOp at h
  split at h
  · next k' h1 =>
    split at h
    · next h2 => cases h; exact ⟨h1, h2⟩
    · cases h
  · cases h

/-- The handlers look for the mode of the operand first. -/
theorem call_first {k : H6800} (hk : k ∈ operandKinds) (m : Int) (o : Str) :
    ∃ g : BitVec 32 × BitVec 32 → M Unit, C6800.call k m (some o) = (findmode (some o) addmodes >>= g) ∧ ∀ N x, Walk (TStep N) (g x) := by
  simp only [operandKinds, List.mem_cons, List.not_mem_nil, or_false] at hk
  rcases hk with rfl | rfl | rfl
  · exact ⟨_, rfl, fun N x => by obtain ⟨a, v⟩ := x; walk⟩
  · exact ⟨_, rfl, fun N x => by obtain ⟨a, v⟩ := x; walk⟩
  · exact ⟨_, rfl, fun N x => by obtain ⟨a, v⟩ := x; walk⟩

/-- An accepted instruction with an operand that is a number. -/
theorem operand16 {c : Chip} {e : Entry} (he : e ∈ table c) {k : H6800} (hk : kindOfOp e = some k) {f : Form} {t o : Str}
    (hw : Written f t o) {s s' : St} {u : Unit} (ho : s.flags.orgGv = true) (hl : s.flags.lohi = false)
    (h : C6800.call k e.label.modifier (some o) s = .ok u s') :
    ∃ b v s1, parse (some t) { s with bufpos := b } = .ok v s1 ∧ ∃ bs,
      encode (forJsr c (C22.upper e)) (C22.upper e) f (.num (v.value.toNat % 65536) v.flags.forward) = some bs ∧ Gen bs s s' := by
  obtain ⟨g, hg, -⟩ := call_first (kind_ptr hk).2 e.label.modifier o
  have h' := h
  rw [hg] at h'
  obtain ⟨x, s2, h1, -⟩ := bind_ok h'
  obtain ⟨b, hb | ⟨s3, hb⟩⟩ := form_text hw s
  rotate_left
  · rw [hb] at h1; cases h1
  have h2 := h1
  rw [hb] at h2
  unfold modeValue at h2
  obtain ⟨v, s1, h3, -⟩ := bind_ok h2
  obtain ⟨hp, ht⟩ := parseAbs_ok h3
  refine ⟨b, v, s1, hp, ?_⟩
  rw [plan_enc16 he hk]
  have g : Gen [] s s1 := by
    have := (gen_bufpos s b).trans (nwalk_gen W.walk hp)
    simpa using this
  rw [modeValue_run hp ht] at hb
  have := Makes.before g (call_run (kind_ptr hk).2 (md := e.label.modifier) hb (by rw [g.orgGv]; exact ho) (by rw [g.lohi]; exact hl))
  rw [h] at this
  exact this

/-! ### The vocabulary -/

def names (c : Chip) : List Str := (_root_.Spec.M6800.base ++ if c = .m6801 then _root_.Spec.M6800.more else []).map Prod.fst

theorem inSet_mem {set : List (Str × List (_root_.Spec.M6800.Mode × Nat))} {n : Str} {m : _root_.Spec.M6800.Mode}
    (h : _root_.Spec.M6800.inSet set n m ≠ none) : n ∈ set.map Prod.fst := by
  unfold _root_.Spec.M6800.inSet at h
  obtain ⟨op, h⟩ := Option.ne_none_iff_exists'.1 h
  obtain ⟨x, hx, h⟩ := List.exists_of_findSome?_eq_some h
  obtain ⟨n', ms⟩ := x
  dsimp only at h
  by_cases e : n' = n
  · rw [← e]; exact List.mem_map_of_mem (f := Prod.fst) hx
  · rw [if_neg e] at h; cases h

theorem opcode_mem {c : Chip} {n : Str} {m : _root_.Spec.M6800.Mode} (h : _root_.Spec.M6800.opcode c n m ≠ none) : n ∈ names c := by
  unfold names
  rw [List.map_append, List.mem_append]
  cases c with
  | m6800 => exact .inl (inSet_mem h)
  | m6801 =>
    unfold _root_.Spec.M6800.opcode at h
    dsimp only at h
    by_cases h1 : _root_.Spec.M6800.inSet _root_.Spec.M6800.base n m = none
    · right
      rw [h1] at h
      exact inSet_mem h
    · exact .inl (inSet_mem h1)

theorem bare_mem {c : Chip} {n : Str} (h : bare c n ≠ none) : n ∈ names c := by
  unfold bare at h
  refine opcode_mem (m := .inherent) fun e => h ?_
  rw [e]
  rfl

theorem mode_mem {c : Chip} {n : Str} {f : Form} {a b : Bool} (h : _root_.Spec.M6800.mode c n f a b ≠ none) : n ∈ names c := by
  unfold _root_.Spec.M6800.mode at h
  cases f with
  | imm =>
    dsimp only at h
    by_cases h1 : _root_.Spec.M6800.opcode c n .imm = none
    · refine opcode_mem (m := .imm16) fun e => h ?_
      rw [h1, e]
      rfl
    · exact opcode_mem h1
  | index =>
    dsimp only at h
    refine opcode_mem (m := .indexed) fun e => h ?_
    rw [e]
    split <;> rfl
  | addr =>
    dsimp only at h
    split at h
    · rename_i op e
      split at e
      · exact opcode_mem (m := .direct) (by rw [e]; simp)
      · cases e
    · refine opcode_mem (m := .extended) fun e => h ?_
      rw [e]
      rfl

theorem jsr_mem {c : Chip} {n x : Str} (h : n ∈ names (forJsr c x)) : n ∈ names c := by
  unfold forJsr at h
  split at h
  · unfold names at h ⊢
    rw [if_neg (by decide), List.append_nil] at h
    rw [List.map_append, List.mem_append]
    exact .inl h
  · exact h

/-- There is an entry for the name, of the kind wanted. -/
def has (c : Chip) (n : Str) (p : Entry → Bool) : Bool := (table c).any fun e => C22.upper e = n && decide (Instr e.label) && p e

theorem has_iff {c : Chip} {n : Str} {p : Entry → Bool} (h : has c n p = true) : ∃ e ∈ table c, C22.upper e = n ∧ Instr e.label ∧ p e = true := by
  unfold has at h
  obtain ⟨e, he, h⟩ := List.any_eq_true.1 h
  simp only [Bool.and_eq_true, decide_eq_true_eq] at h
  exact ⟨e, he, h.1.1, h.1.2, h.2⟩

def covers (c : Chip) (n : Str) : Bool :=
  (decide (bare c n = none) || has c n isSingle) &&
  (forms.all fun f => [false, true].all fun a => [false, true].all fun b =>
    decide (_root_.Spec.M6800.mode (forJsr c n) n f a b = none) || has c n fun e => (kindOfOp e).isSome) &&
  (match _root_.Spec.M6800.opcode c n .rel with | none => true | some op => has c n fun e => isBranch e op && e.label.ptr = .handler (.h6800 .branch))

theorem all_covered : (cpus.all fun c => (names c).all (covers c)) = true := by decide +kernel

theorem covered {c : Chip} {n : Str} (h : n ∈ names c) : covers c n = true :=
  List.all_eq_true.1 (List.all_eq_true.1 all_covered c (mem_cpus c)) n h

theorem words_agree : (cpus.all fun c => ((isa c).words.all fun k => ((pseudos ++ table c).map fun e => e.name.map toupper).contains k) &&
    ((pseudos ++ table c).map fun e => e.name.map toupper).all fun k => (isa c).words.contains k) = true := by decide +kernel

theorem star_call {h : H6800} {k : Int} {o : Option Str} {s s' : St} {rc : RC}
    (e : (do C6800.call h k o; pure RC.cont : M RC) s = .ok rc s') : Star ChipStep (s, .live) (s', .live) := by
  have w : Walk ChipStep (do C6800.call h k o; pure RC.cont : M RC) := by walk
  have := w s
  rw [e] at this
  exact this

theorem goes_call {N : Str → Prop} {h : H6800} {k : Int} {o : Option Str} {s : St} (e : Goes N s (C6800.call h k o s)) :
    Goes N s ((do C6800.call h k o; pure RC.cont : M RC) s) :=
  e.bind fun _ s' _ _ => Walk.goes (by walk) s'

theorem operand_goes {N : Str → Prop} {k : H6800} (hk : k ∈ operandKinds) {m : Int} {f : Form} {t o : Str} (hw : Written f t o) {s : St}
    (h : ∀ b, Goes N { s with bufpos := b } (parse (some t) { s with bufpos := b })) : Goes N s (C6800.call k m (some o) s) := by
  obtain ⟨g, hg, hwalk⟩ := call_first hk m o
  rw [hg]
  refine Goes.bind ?_ fun x s' _ _ => Walk.goes (hwalk N x) s'
  obtain ⟨b, hb⟩ := form_text hw s
  refine .toward hb (.after (.one (.scratch s s.lst b s.calcR s.flags.listOn)) ?_)
  show Goes N { s with bufpos := b } _
  unfold modeValue
  refine (parseAbs_goes (h b)).bind fun r s' _ _ => Walk.goes ?_ s'
  walk

theorem code_short {c : Chip} {ρ : Str → Int} {φ : Str → Bool} {a : Int} {i : Ins} {bs : List Byte}
    (h : _root_.Spec.M6800.Code c ρ φ a i bs) : bs.length ≤ 3 := by
  cases h with
  | bare h =>
    unfold bare at h
    obtain ⟨op, -, rfl⟩ := Option.map_eq_some_iff.1 h
    simp
  | oper _ h =>
    unfold encode at h
    obtain ⟨⟨op, n⟩, -, rfl⟩ := Option.map_eq_some_iff.1 h
    dsimp only
    split <;> simp
  | branch => simp

theorem core (c : Chip) : C42.Core (isa c) (table c) none := by
  constructor
  · intro k
    have h := List.all_eq_true.1 words_agree c (mem_cpus c)
    simp only [Bool.and_eq_true] at h
    constructor
    · intro hk
      have := List.all_eq_true.1 h.1 k hk
      exact List.contains_iff_mem.1 this
    · intro hk
      have := List.all_eq_true.1 h.2 k hk
      exact List.contains_iff_mem.1 this
  · have h : ∀ c : Chip, ∀ e ∈ table c, e.name.length ≤ LABLEN ∧ e.name.head? ≠ some '.' ∧ e.name.head? ≠ some '*' := by
      intro c; cases c <;> decide +kernel
    exact h c
  · intro i ρ φ a bs h
    exact Nat.lt_of_le_of_lt (code_short h) (by decide)
  · intro i m o hw
    cases hw with
    | bare hb =>
      have hc := covered (bare_mem hb)
      unfold covers at hc
      simp only [Bool.and_eq_true, Bool.or_eq_true, decide_eq_true_eq] at hc
      obtain ⟨e, he, rfl, hi, hp⟩ := has_iff (hc.1.1.resolve_left hb)
      have hx : e.label.ptr = .handler (.h6800 .single) := of_decide_eq_true hp
      refine ⟨e, he, rfl, hi, _, hx, fun {P ρ φ self fuel label s rc s'} hr _ _ hok => ?_, fun {N keys self fuel label s} _ _ _ => ?_⟩
      rotate_left
      · exact goes_call (Walk.goes (by unfold C6800.call; walk) s)
      obtain ⟨h', e', hm⟩ := C23_bare (self := self) (fuel := fuel) (label := label) he (.inl hp) hr.org
      rw [hx] at e'
      cases e'
      rw [hok] at hm
      obtain ⟨bs, h1, h2⟩ := hm
      exact ⟨bs, h2, star_call hok, (fun n hn => by cases hn), fun _ => .bare h1⟩
    | @oper n f e' k t o hb hwr ht =>
      obtain ⟨a, b, hb⟩ := hb
      have hc := covered (jsr_mem (mode_mem hb))
      unfold covers at hc
      simp only [Bool.and_eq_true] at hc
      have hc := List.all_eq_true.1 (List.all_eq_true.1 (List.all_eq_true.1 hc.1.2 f (mem_forms f)) a (by cases a <;> decide)) b (by cases b <;> decide)
      simp only [Bool.or_eq_true, decide_eq_true_eq] at hc
      obtain ⟨e, he, rfl, hi, hp⟩ := has_iff (hc.resolve_left hb)
      obtain ⟨k', hk⟩ := Option.isSome_iff_exists.1 hp
      refine ⟨e, he, rfl, hi, _, (kind_ptr hk).1, fun {P ρ φ self fuel label s rc s'} hr hout hval hok => ?_, fun {N keys self fuel label s} hfit _ hN => ?_⟩
      rotate_left
      · exact goes_call (operand_goes (kind_ptr hk).2 hwr fun b => (parse_sure ht (fit_buf hfit b) hN).goes)
      have hst := star_call hok
      obtain ⟨u, s2, h1, h2⟩ := bind_ok hok
      cases h2
      obtain ⟨b, v, s1, h2, bs, h4, g⟩ := operand16 (u := u) he hk hwr hr.org hr.lohi h1
      obtain ⟨t1, t2⟩ := parse_tells (P := P) (ρ := ρ) (φ := φ) ht (ready_buf hr b).numeric hout hval h2
      refine ⟨bs, g, hst, (fun n hn => parse_met ht h2 n hn), fun hP => ?_⟩
      obtain ⟨q1, q2⟩ := t2 hP
      refine .oper q1 ?_
      rw [toNat_mod, ← q2]
      exact h4
    | @branch n e' k o hb ht =>
      have hc := covered (opcode_mem hb)
      unfold covers at hc
      simp only [Bool.and_eq_true] at hc
      obtain ⟨op, hop⟩ := Option.ne_none_iff_exists'.1 hb
      have hc := hc.2
      rw [hop] at hc
      obtain ⟨e, he, rfl, hi, hp⟩ := has_iff hc
      simp only [Bool.and_eq_true, decide_eq_true_eq] at hp
      obtain ⟨h, hh, hbr⟩ := C21_branch hp.1
      rw [hp.2] at hh
      cases hh
      refine ⟨e, he, rfl, hi, _, hp.2, fun {P ρ φ self fuel label s rc s'} hr hout hval hok => ?_, fun {N keys self fuel label s} hfit _ hN => ?_⟩
      rotate_left
      · exact goes_call (relBranch_goes (parse_sure ht hfit hN).goes)
      have hst := star_call hok
      obtain ⟨v, s1, h1, hty⟩ : ∃ v s1, parse (some o) s = .ok v s1 ∧ v.type = .absolute := by
        obtain ⟨u, s2, h1, -⟩ := bind_ok hok
        change relBranch (BitVec.ofInt 32 e.label.modifier) (some o) s = _ at h1
        unfold relBranch at h1
        obtain ⟨v, s3, h2, -⟩ := bind_ok h1
        exact ⟨v, s3, parseAbs_ok h2⟩
      have hb := hbr (self := self) (fuel := fuel) (label := label) hr.org h1 hty
      rw [hok] at hb
      obtain ⟨-, t2⟩ := parse_tells (P := P) (ρ := ρ) (φ := φ) ht hr.numeric hout hval h1
      rcases hb with ⟨d, s2, h2, g, hd⟩ | ⟨d, s2, h2, -⟩ | ⟨w, s2, h2⟩
      · cases h2
        exact ⟨_, g, hst, parse_met ht h1, fun hP => .branch hop (t2 hP).1 hd⟩
      · cases h2
      · cases h2

theorem definite (c : Chip) : Definite (isa c) := by
  constructor
  · intro i n hn; cases hn
  · intro i ρ ρ' φ φ' a bs bs' h h' hn _
    change _root_.Spec.M6800.Code c ρ φ a i bs at h
    change _root_.Spec.M6800.Code c ρ' φ' a i bs' at h'
    cases h with
    | bare h1 => cases h' with | bare h2 => rw [h1] at h2; cases h2; rfl
    | @oper n f _ v e h1 h2 =>
      cases h' with
      | @oper _ _ _ v' _ h3 h4 =>
      have hn : ∀ n ∈ e.names, φ n = φ' n ∧ (φ n = false → ρ n = ρ' n) := hn
      rw [← any_same fun n h => (hn n h).1] at h4
      unfold encode at h2 h4
      obtain ⟨⟨op, k⟩, j1, j2⟩ := Option.map_eq_some_iff.1 h2
      obtain ⟨⟨op', k'⟩, j3, j4⟩ := Option.map_eq_some_iff.1 h4
      have : k = k' := by
        cases hl : e.names.any φ with
        | true =>
          rw [hl] at j1 j3
          unfold _root_.Spec.M6800.mode at j1 j3
          cases f with
          | imm => dsimp only at j1 j3; rw [j1] at j3; cases j3; rfl
          | addr =>
            simp only [Bool.not_true, Bool.and_false] at j1 j3
            rw [j1] at j3
            cases j3
            rfl
          | index =>
            dsimp only at j1 j3
            split at j1
            · split at j3
              · rw [j1] at j3; cases j3; rfl
              · cases j3
            · cases j1
        | false =>
          have : e.eval ρ = e.eval ρ' := eval_same e fun n h => (hn n h).2 (by
            rw [List.any_eq_false] at hl
            simpa using hl n h)
          rw [← this, h1] at h3
          cases h3
          rw [j1] at j3
          cases j3
          rfl
      subst this
      subst j2
      subst j4
      dsimp only
      split <;> rfl
    | branch => cases h' with | branch => rfl
  · intro i ρ ρ' φ φ' a bs bs' h h' hn
    change _root_.Spec.M6800.Code c ρ φ a i bs at h
    change _root_.Spec.M6800.Code c ρ' φ' a i bs' at h'
    cases h with
    | bare h1 => cases h' with | bare h2 => rw [h1] at h2; cases h2; rfl
    | @oper n f _ v e h1 h2 =>
      cases h' with
      | @oper _ _ _ v' _ h3 h4 =>
      have hn : ∀ n ∈ e.names, φ n = φ' n ∧ ρ n = ρ' n := hn
      rw [← any_same fun n h => (hn n h).1] at h4
      rw [← eval_same e fun n h => (hn n h).2, h1] at h3
      cases h3
      rw [h2] at h4
      cases h4
      rfl
    | @branch n op v e d h1 h2 h3 =>
      cases h' with
      | @branch _ op' v' _ d' h4 h5 h6 =>
      have hn : ∀ n ∈ e.names, φ n = φ' n ∧ ρ n = ρ' n := hn
      rw [← eval_same e fun n h => (hn n h).2, h2] at h5
      cases h5
      rw [h1] at h4
      cases h4
      have : d = d' := by
        apply BitVec.eq_of_toInt_eq
        have a1 := BitVec.toInt_lt (x := d)
        have a2 := BitVec.toInt_lt (x := d')
        have a3 := BitVec.le_toInt (x := d)
        have a4 := BitVec.le_toInt (x := d')
        omega
      rw [this]

/-! ### The CPU directive -/

def tablesFor : Chip → List TableId
  | .m6800 => [.m6800]
  | .m6801 => [.m6800, .m6801]
/-- The flags that the 6800 wants. -/
def flags6800 (g : Flags) : Flags := { g with addr16 := true, lohi := false, relatif := false }

inductive CpuFor : Chip → Cpu → Prop
  | m6800 : CpuFor .m6800 .c6800
  | m6801 : CpuFor .m6801 .c6801
  | m6803 : CpuFor .m6801 .c6803

theorem init6800 {c : Chip} {cpu : Cpu} (h : CpuFor c cpu) (s : St) : cpu.init s = inits (tablesFor c) { s with flags := flags6800 s.flags } := by
  have h1 : inits [.m6801] = initLabelList .m6801 C6800.m6801 := bind_pure _
  cases h with
  | m6800 => rfl
  | m6801 =>
    unfold tablesFor inits
    rw [h1]
    rfl
  | m6803 =>
    unfold tablesFor inits
    rw [h1]
    rfl

theorem chosen {c : Chip} {cpu : Cpu} (h : CpuFor c cpu) : Chosen cpu (tablesFor c) flags6800 (table c) none (isa c).little where
  init := init6800 h
  flags := fun _ => ⟨rfl, rfl, rfl⟩
  fresh := by cases c <;> decide +kernel
  found := by cases c <;> decide +kernel
  nodup := by cases c <;> decide +kernel
  all := by cases c <;> decide +kernel
  entry := fun e he => by
    cases c with
    | m6801 =>
      rcases List.mem_append.1 he with h | h
      · exact ⟨.m6800, .head _, h⟩
      · exact ⟨.m6801, .tail _ (.head _), h⟩
    | m6800 => exact ⟨.m6800, .head _, he⟩
  back := fun t ht e he => by
    cases c with
    | m6801 =>
      rcases List.mem_cons.1 ht with rfl | ht
      · exact List.mem_append_left _ he
      · cases List.mem_singleton.1 ht
        exact List.mem_append_right _ he
    | m6800 => cases List.mem_singleton.1 ht; exact he
  good := by cases c <;> decide +kernel
  first := by cases c <;> decide +kernel

theorem named {c : Chip} {n : Str} (h : _root_.Spec.M6800.Named c n) : ∃ cpu, CpuFor c cpu ∧ cpuOf n = some cpu ∧ Mild n := by
  cases h with
  | m6800 => exact ⟨_, .m6800, by decide +kernel, by decide +kernel⟩
  | m6801 => exact ⟨_, .m6801, by decide +kernel, by decide +kernel⟩
  | m6803 => exact ⟨_, .m6803, by decide +kernel, by decide +kernel⟩

end C43
end Crasm

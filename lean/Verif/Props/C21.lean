import Verif.Props.C37
import Verif.Proof.Lawful
import Verif.Proof.Words

/-! # C21: relative branches -/

namespace Crasm

theorem reach_iff (d : Byte) (v pc : Word) :
    d.signExtend 32 = (v - pc - 2).setWidth 32 ↔ (pc.toInt + 2 + d.toInt - v.toInt) % 2 ^ 32 = 0 := by
  have h1 : (d.signExtend 32).toInt = d.toInt := BitVec.toInt_signExtend_of_le (by decide)
  have h2 : ((v - pc - 2).setWidth 32 : BitVec 32).toNat = (v - pc - 2).toNat % 2 ^ 32 := by
    rw [BitVec.toNat_setWidth]
  have h3 : (v - pc - 2).toNat = (2 ^ 64 - 2 + (2 ^ 64 - pc.toNat + v.toNat) % 2 ^ 64) % 2 ^ 64 := by
    rw [BitVec.toNat_sub, BitVec.toNat_sub]; rfl
  have h4 := v.isLt
  have h5 := pc.isLt
  have h6 := d.isLt
  constructor
  · intro h
    have h := congrArg BitVec.toInt h
    rw [h1, BitVec.toInt_eq_toNat_cond ((v - pc - 2).setWidth 32), h2, h3] at h
    simp only [BitVec.toInt_eq_toNat_cond] at *
    omega
  · intro h
    apply BitVec.eq_of_toInt_eq
    rw [h1, BitVec.toInt_eq_toNat_cond ((v - pc - 2).setWidth 32), h2, h3]
    simp only [BitVec.toInt_eq_toNat_cond] at *
    omega

theorem low_sign (d : Byte) : lowByte (d.signExtend 32) = d := by
  unfold lowByte
  ext i hi
  simp only [BitVec.getElem_setWidth, BitVec.getLsbD_signExtend]
  simp [hi]
  omega

/-- How a branch at `pc` to `target` may end when its operand has been read: accepted, rejected, or the program
    cannot go on at all (e.g. because the code file cannot be created). -/
def Branches (op : Byte) (target : Word) (s : St) (r : Res RC) : Prop :=
  (∃ d s', r = .ok .cont s' ∧ Gen [op, d] s s' ∧
    (s.code.pc.toInt + 2 + d.toInt - target.toInt) % 2 ^ 32 = 0) ∨
  (∃ d s', r = .err s' ∧
    s'.log = .error s.passnumber (!s.flags.noerror) ::
      (byteEvents s.passnumber s.flags.codeOn s.code.pc [op, d]).reverse ++ s.log ∧
    ∀ d : Byte, (s.code.pc.toInt + 2 + d.toInt - target.toInt) % 2 ^ 32 ≠ 0) ∨
  (∃ w s', r = .stop w s')

theorem rel_run {code : BitVec 32} {o : Option Str} {s s1 : St} {r : Result} (ho : s.flags.orgGv = true)
    (hp : parseAbs o s = .ok r s1) :
    Branches (lowByte code) r.value s ((do relBranch code o; pure RC.cont : M RC) s) := by
  have g0 : Gen [] s s1 := nwalk_gen W.walk hp
  unfold relBranch
  rw [bind_assoc]
  rw [run_ok hp, bind_assoc, getS_bind_run]
  have hpc : s1.code.pc = s.code.pc := by simpa using g0.pc
  rw [hpc]
  generalize hd : (BitVec.setWidth 32 (r.value - s.code.pc - 2) : BitVec 32) = dd
  dsimp only
  obtain ⟨f0, hf0⟩ := g0.flags
  rw [bind_assoc]
  rcases insert8_no_err (x := lowByte code) (s := s1) (by rw [hf0]; exact ho) with ⟨s2, e2, g2⟩ | ⟨w, s2, e⟩
  rotate_left
  · exact .inr (.inr ⟨w, s2, run_stop e⟩)
  rw [run_ok e2, bind_assoc]
  obtain ⟨f2, hf2⟩ := g2.flags
  rcases insert8_no_err (x := lowByte dd) (s := s2) (by rw [hf2, hf0]; exact ho) with ⟨s3, e3, g3⟩ | ⟨w, s3, e⟩
  rotate_left
  · exact .inr (.inr ⟨w, s3, run_stop e⟩)
  rw [run_ok e3]
  have g := (g0.trans g2).trans g3
  simp only [List.nil_append, List.cons_append] at g
  by_cases hc : (lowByte dd).signExtend 32 = dd
  · refine .inl ⟨lowByte dd, s3, ?_, g, ?_⟩
    · unfold whenM
      rw [if_neg (by simpa using hc)]
      rfl
    · rw [← reach_iff, hd]; exact hc
  · unfold whenM
    rw [if_pos hc]
    rcases error_run (α := Unit) c!"too long branch" s3 with ⟨w, s4, e, -⟩ | ⟨s4, s5, e, -, h⟩
    · exact .inr (.inr ⟨w, s4, run_stop e⟩)
    · refine .inr (.inl ⟨lowByte dd, s5, run_err e, ?_, ?_⟩)
      · obtain ⟨f, hf⟩ := g.flags
        have : s5.log = .error s3.passnumber (!s3.flags.noerror) :: s3.log := by
          rcases h with ⟨-, rfl⟩ | ⟨t, -, -, rfl⟩ <;> rfl
        rw [this, g.log, g.pass, hf]
        rfl
      · intro d h
        rw [← reach_iff, hd] at h
        rw [← h, low_sign] at hc
        exact hc rfl

/-- The branch instructions and their opcodes. -/
def Spec.branches6502 : List (Str × Nat) :=
  [(c!"BPL", 0x10), (c!"BMI", 0x30), (c!"BVC", 0x50), (c!"BVS", 0x70), (c!"BCC", 0x90), (c!"BCS", 0xB0),
   (c!"BNE", 0xD0), (c!"BEQ", 0xF0)]
def Spec.branches65c02 : List (Str × Nat) := [(c!"BRA", 0x80)]
def Spec.branches6800 : List (Str × Nat) :=
  [(c!"BRA", 0x20), (c!"BHI", 0x22), (c!"BLS", 0x23), (c!"BCC", 0x24), (c!"BCS", 0x25), (c!"BNE", 0x26),
   (c!"BEQ", 0x27), (c!"BVC", 0x28), (c!"BVS", 0x29), (c!"BPL", 0x2A), (c!"BMI", 0x2B), (c!"BGE", 0x2C),
   (c!"BLT", 0x2D), (c!"BGT", 0x2E), (c!"BLE", 0x2F), (c!"BSR", 0x8D)]
def Spec.branches6801 : List (Str × Nat) := [(c!"BRN", 0x21)]
def Spec.branchesZ80 : List (Str × Nat) := [(c!"DJNZ", 0x10)]

/-- Each of them is in the vocabulary (once), as a branch with that opcode. -/
def isBranch (e : Entry) (op : Nat) : Bool :=
  e.label.type = .mnemo && e.label.modifier = op &&
  (e.label.ptr = .handler (.h6502 .branch) || e.label.ptr = .handler (.h6800 .branch) ||
    e.label.ptr = .handler (.hz80 .relbranch))
def bound (table : List Entry) (b : Str × Nat) : Bool :=
  table.any (fun e => e.name.map toupper = b.1) &&
  table.all fun e => e.name.map toupper ≠ b.1 || isBranch e b.2

theorem C21_vocabulary :
    (Spec.branches6502.all (bound C6502.m6502) && Spec.branches65c02.all (bound C6502.m65c02) &&
    Spec.branches6800.all (bound C6800.m6800) && Spec.branches6801.all (bound C6800.m6801) &&
    Spec.branchesZ80.all (bound Z80.mz80)) = true := by decide +kernel

/-- **C21.**  A branch instruction with opcode `op`, once an origin is given and its operand has the numeric
    value `r.value`: it generates the opcode and a displacement that leads to the target; it is rejected, after
    generating two bytes, exactly when there is no such displacement. -/
theorem C21_branch {e : Entry} {op : Nat} (he : isBranch e op = true) :
    ∃ h, e.label.ptr = .handler h ∧ ∀ {self fuel label o s s1 r}, s.flags.orgGv = true →
      parse o s = .ok r s1 → r.type = .absolute →
      Branches (BitVec.ofNat 8 op) r.value s (callHandler self fuel h e.label.modifier label o s) := by
  unfold isBranch at he
  simp only [Bool.and_eq_true, Bool.or_eq_true, decide_eq_true_eq] at he
  obtain ⟨⟨-, hm⟩, hp⟩ := he
  have hpar : ∀ {o : Option Str} {s s1 : St} {r : Result}, parse o s = .ok r s1 → r.type = .absolute →
      parseAbs o s = .ok r s1 := by
    intro o s s1 r h1 h2
    unfold parseAbs
    rw [run_ok h1]
    unfold checktype
    rw [if_pos h2]
    rfl
  have hlow : lowByte (BitVec.ofInt 32 (op : Int)) = BitVec.ofNat 8 op := by
    rw [BitVec.ofInt_natCast]
    unfold lowByte
    apply BitVec.eq_of_toNat_eq
    simp only [BitVec.toNat_setWidth, BitVec.toNat_ofNat]
    omega
  rcases hp with (hp | hp) | hp <;> refine ⟨_, hp, ?_⟩ <;> intro self fuel label o s s1 r ho h1 h2
  · have := rel_run (code := BitVec.ofInt 32 e.label.modifier) ho (hpar h1 h2)
    rw [hm, hlow] at this
    rw [hm]
    exact this
  · have := rel_run (code := BitVec.ofInt 32 e.label.modifier) ho (hpar h1 h2)
    rw [hm, hlow] at this
    rw [hm]
    exact this
  · have := rel_run (code := BitVec.ofInt 32 e.label.modifier) ho (hpar h1 h2)
    rw [hm, hlow] at this
    rw [hm]
    exact this

/-! JR, with and without condition -/

theorem findCond_run {cc : Str} : ∀ (qs : List Str) (i k : Nat) (q : Str) (s : St), (∀ q ∈ qs, Word1 q) →
    qs[i]? = some q → cc.map toupper = q.map toupper →
    (∀ j q', j < i → qs[j]? = some q' → cc.map toupper ≠ q'.map toupper) →
    Z80.findCond cc k qs s = .ok (some (k + i)) s ∨ ∃ w s', Z80.findCond cc k qs s = .stop w s' := by
  intro qs
  induction qs with
  | nil => intro i k q s _ h; simp at h
  | cons q0 qs ih =>
    intro i k q s hw hi hm hn
    unfold Z80.findCond
    have h0 := filter0_word (hw q0 (by simp)) cc s
    by_cases hb : bufSize ≤ s.bufpos
    · rw [if_pos hb] at h0
      exact .inr ⟨_, _, run_stop h0⟩
    · rw [if_neg hb] at h0
      rw [run_ok h0]
      cases i with
      | zero =>
        simp only [List.getElem?_cons_zero, Option.some.injEq] at hi
        subst hi
        rw [if_pos (by simp [hm])]
        exact .inl rfl
      | succ i =>
        have := hn 0 q0 (by omega) rfl
        rw [if_neg (by simp [this])]
        have := ih i (k + 1) q s (fun x hx => hw x (by simp [hx])) (by simpa using hi) hm
          (fun j q' hj hq => hn (j + 1) q' (by omega) (by simpa using hq))
        rw [show k + (i + 1) = k + 1 + i by omega]
        exact this

/-- The opcodes of JR: without condition, and with each of the four conditions it can have. -/
def Spec.jrPlain : Nat := 0x18
def Spec.jrConds : List (Str × Nat) := [(c!"NZ", 0x20), (c!"Z", 0x28), (c!"NC", 0x30), (c!"C", 0x38)]

theorem jr_entry {e : Entry} (he : e ∈ Z80.mz80) (hn : e.name.map toupper = c!"JR") :
    e.label.type = .mnemo ∧ e.label.ptr = .handler (.hz80 .jr) := by
  revert e; decide +kernel
example : Z80.mz80.any (fun e => e.name.map toupper = c!"JR") = true := by decide +kernel

theorem parseAbs_of {o : Option Str} {s s1 : St} {r : Result} (h1 : parse o s = .ok r s1) (h2 : r.type = .absolute) :
    parseAbs o s = .ok r s1 := by
  unfold parseAbs
  rw [run_ok h1]
  unfold checktype
  rw [if_pos h2]
  rfl

theorem C21_jr {e : Entry} (he : e ∈ Z80.mz80) (hn : e.name.map toupper = c!"JR") {o : Str} (hop : Spec.Operand o) :
    ∃ h, e.label.ptr = .handler h ∧ ∀ {self fuel label s s1 r}, s.flags.orgGv = true →
      parse (some o) s = .ok r s1 → r.type = .absolute →
      Branches (BitVec.ofNat 8 Spec.jrPlain) r.value s (callHandler self fuel h e.label.modifier label (some o) s) := by
  refine ⟨_, (jr_entry he hn).2, ?_⟩
  intro self fuel label s s1 r ho h1 h2
  simp only [callHandler, Z80.call]
  have hm := filter2_miss (s := o) (pat := c!"?_,_?") (filter_sep_none (c := ',') (by decide) (by decide) (operand_noTop hop)).1 s
  unfold Z80.jr Z80.searchcond
  rw [bind_assoc, bind_assoc]
  show Branches _ _ _ ((filter2 o c!"?_,_?" >>= _) s)
  split at hm
  · exact .inr (.inr ⟨_, _, run_stop hm⟩)
  · rw [run_ok hm]
    exact rel_run ho (parseAbs_of h1 h2)

theorem C21_jr_cond {e : Entry} (he : e ∈ Z80.mz80) (hn : e.name.map toupper = c!"JR") {cc q o t : Str} {op : Nat}
    (hc : (q, op) ∈ Spec.jrConds) (hcc : cc.map toupper = q) (hop : Spec.Operand o) (ht : Spec.Joined [cc, o] t) :
    ∃ h, e.label.ptr = .handler h ∧ ∀ {self fuel label s}, s.flags.orgGv = true →
      (∃ b, ∀ r s1, parse (some o) { s with bufpos := b } = .ok r s1 → r.type = .absolute →
        Branches (BitVec.ofNat 8 op) r.value s (callHandler self fuel h e.label.modifier label (some t) s)) ∨
      ∃ w s', callHandler self fuel h e.label.modifier label (some t) s = .stop w s' := by
  refine ⟨_, (jr_entry he hn).2, ?_⟩
  intro self fuel label s ho
  simp only [callHandler, Z80.call]
  -- the condition is a word of letters
  have hlet : ∀ (q : Str) (op : Nat), (q, op) ∈ Spec.jrConds → (∀ c ∈ q, isalpha c = true) ∧ q ≠ [] ∧
      ∃ i, (Z80.condcodes.take 4)[i]? = some q ∧ op = 0x20 + 8 * i ∧ i < 4 := by
    intro q op h
    simp only [Spec.jrConds, List.mem_cons, Prod.mk.injEq, List.not_mem_nil, or_false] at h
    rcases h with ⟨rfl, rfl⟩ | ⟨rfl, rfl⟩ | ⟨rfl, rfl⟩ | ⟨rfl, rfl⟩
    · exact ⟨by decide, by decide, 0, rfl, rfl, by omega⟩
    · exact ⟨by decide, by decide, 1, rfl, rfl, by omega⟩
    · exact ⟨by decide, by decide, 2, rfl, rfl, by omega⟩
    · exact ⟨by decide, by decide, 3, rfl, rfl, by omega⟩
  obtain ⟨hq1, hq2, i, hi, hopi, hi4⟩ := hlet q op hc
  have hopc : Spec.Operand cc := by
    refine operand_word (fun c hc => alpha_of_upper (hq1 _ ?_)) ?_
    · rw [← hcc]; exact List.mem_map_of_mem hc
    · rintro rfl; exact hq2 hcc.symm
  have hup : cc.map toupper = q.map toupper := by rw [← hcc, List.map_map]; congr 1; funext c; exact (toupper_idem c).symm
  have hfirst : ∀ j q', j < i → (Z80.condcodes.take 4)[j]? = some q' → cc.map toupper ≠ q'.map toupper := by
    rw [hup]
    have : ∀ i < 4, ∀ j < i, ∀ a b, (Z80.condcodes.take 4)[j]? = some b → (Z80.condcodes.take 4)[i]? = some a →
        a.map toupper ≠ b.map toupper := by
      have : ∀ i < 4, ∀ j < i, ((Z80.condcodes.take 4)[i]?.map (·.map toupper)) ≠
        ((Z80.condcodes.take 4)[j]?.map (·.map toupper)) := by decide
      intro i hi j hj a b hb ha e
      have := this i hi j hj
      rw [ha, hb] at this
      exact this (by simp [e])
    intro j q' hj hq'
    exact this i hi4 j hj q q' hq' hi
  have key : ∀ t, (∃ k, filter t c!"?_,_?" = ⟨true, [cc, o], 2 + cc.length + o.length, k⟩) →
      (∃ b, ∀ r s1, parse (some o) { s with bufpos := b } = .ok r s1 → r.type = .absolute →
        Branches (BitVec.ofNat 8 op) r.value s ((do Z80.jr (some t); pure RC.cont : M RC) s)) ∨
      ∃ w s', (do Z80.jr (some t); pure RC.cont : M RC) s = .stop w s' := by
    rintro t ⟨k, hf⟩
    have hm := filter2_hit hf s
    unfold Z80.jr Z80.searchcond
    rw [bind_assoc, bind_assoc]
    split at hm
    · exact .inr ⟨_, _, run_stop hm⟩
    · have e : ∀ (f : Option (Str × Str) → M RC), (filter2 (orEmpty (some t)) c!"?_,_?" >>= f) s =
          f (some (cc, o)) { s with bufpos := s.bufpos + (2 + cc.length + o.length) } := fun f => run_ok hm
      rw [e]
      dsimp only
      rw [bind_assoc]
      rcases findCond_run (cc := cc) (Z80.condcodes.take 4) i 0 q
        { s with bufpos := s.bufpos + (2 + cc.length + o.length) } (by decide) hi hup hfirst with h | ⟨w, s', h⟩
      · rw [run_ok h]
        refine .inl ⟨s.bufpos + (2 + cc.length + o.length), fun r s1 h1 h2 => ?_⟩
        have := rel_run (code := 0x20 + BitVec.ofNat 32 (8 * i))
          (s := { s with bufpos := s.bufpos + (2 + cc.length + o.length) }) ho (parseAbs_of h1 h2)
        have hlow : lowByte (0x20 + BitVec.ofNat 32 (8 * i)) = BitVec.ofNat 8 op := by
          have : ∀ i < 4, lowByte (0x20 + BitVec.ofNat 32 (8 * i)) = BitVec.ofNat 8 (0x20 + 8 * i) := by decide
          rw [hopi]; exact this i hi4
        rw [hlow] at this
        simp only [Nat.zero_add]
        rcases this with ⟨d, s', a1, a2, a3⟩ | ⟨d, s', a1, a2, a3⟩ | h
        · refine .inl ⟨d, s', a1, ?_, a3⟩
          exact ⟨a2.log, a2.pc, a2.advance, a2.flags, a2.pass, a2.segment, a2.tree, a2.entered⟩
        · exact .inr (.inl ⟨d, s', a1, a2, a3⟩)
        · exact .inr (.inr h)
      · exact .inr ⟨w, s', run_stop h⟩
  cases ht with
  | more _ b b' t' _ hb hb' hj =>
    cases hj with
    | one => exact key _ (joined_filter hopc hb hb' (Lead.of hop.first))
    | more _ _ _ _ _ _ _ hj => cases hj

/-- Non-vacuity: a forward and a backward branch, and the two extreme ones; one byte further is rejected. -/
def branchBytes (src : Str) : List (Nat × Nat) × Nat :=
  match assemble 60 { scode := none, list := false } (initSt { fs := fun _ => none } src) with
  | .ok _ s => ((codeOf 2 s.log).map fun x => (x.1.toNat, x.2.toNat), s.errnumber)
  | _ => ([], 0)
example : branchBytes c!" cpu 6502\n *=$1000\n bne $1081\n" = ([(0x1000, 0xD0), (0x1001, 0x7F)], 0) := by decide +kernel
example : branchBytes c!" cpu 6502\n *=$1000\n bne $1082\n" = ([(0x1000, 0xD0), (0x1001, 0x80)], 1) := by decide +kernel
example : branchBytes c!" cpu z80\n *=$1000\n jr nC , $F82\n" = ([(0x1000, 0x30), (0x1001, 0x80)], 0) := by decide +kernel
example : branchBytes c!" cpu 6800\n *=$1000\n bsr *\n" = ([(0x1000, 0x8D), (0x1001, 0xFE)], 0) := by decide +kernel

end Crasm

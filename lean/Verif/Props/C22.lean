import Verif.Proof.Modes
import Verif.Proof.Emit
import Verif.Props.C27

/-! # C22: instructions of the 6500, 6502 and 65C02 -/

namespace Crasm
namespace C22
open _root_.Spec.M6502 (Chip Form Written Meaning encode bare)
open C6502

/-! ### What the tables of the assembler make of a mode -/

/-- The long mode is used for big values and forward references, except after `#`. -/
def wide (mode : Nat) (big later : Bool) : Nat := if (big || later) && mode ≠ 12 then mode ||| 1 else mode

def pickOp (code : BitVec 32) (m : Nat) : Option (Nat × Nat) :=
  match m2offset code m with
  | none => none
  | some off =>
    let m' := if off = 0 then m ||| 1 else m
    match m2offset code m' with
    | none => none
    | some 0 => none
    | some off => some (m', off)

/-- The checks made after the bytes have been generated. -/
def lateBad (cf : Int) (code : BitVec 32) (m : Nat) (opcode : BitVec 32) : Bool :=
  (cf < 1 ∧ code = BitVec.ofNat 32 (0x60 ||| 0x100 ||| F_noimm ||| F_noindy)) ∨
  (cf < 2 ∧ (m = 4 ∨ opcode = 0x7c ∨ opcode = 0x89 ∨ opcode = 0x1a ∨ opcode = 0x3a))

def finalOp (cf : Int) (code : BitVec 32) (m : Nat) : Option (Byte × Nat) :=
  match pickOp code m with
  | none => none
  | some (m', off) =>
    let opcode : BitVec 32 := ((code &&& 0xff) + BitVec.ofNat 32 off) &&& 0xff
    if lateBad cf code m' opcode then none else some (lowByte opcode, if m' < 14 then if m' % 2 = 1 then 2 else 1 else 0)

def early (code : BitVec 32) (mode : Nat) : Bool :=
  (hasFlag code F_noacc && 14 ≤ mode) || (hasFlag code F_noimm && mode = 12)
      || (hasFlag code F_noindx && mode = 6) || (hasFlag code F_noindy && mode = 8)

def bytesFor (v : BitVec 32) : Byte × Nat → List Byte
  | (op, 0) => [op]
  | (op, 1) => [op, lowByte v]
  | (op, _) => [op, lowByte v, lowByte (v >>> 8)]

/-! ### Running the handler -/

theorem finish_run {code : BitVec 32} {m : Nat} {v : BitVec 32} {cf : Int} {s : St} (ho : s.flags.orgGv = true)
    (hl : s.flags.lohi = true) (ht : ∀ m < 16, (m2offset code m).isSome = true) (hm : m < 16) :
    Makes ((finalOp cf code m).map (bytesFor v)) s ((do
      let (mode, off) ← opcodeFor code m
      let opcode : BitVec 32 := ((code &&& 0xff) + BitVec.ofNat 32 off) &&& 0xff
      insert8 (lowByte opcode)
      whenM (mode < 14)
        (if mode % 2 = 1 then insert16 (v.setWidth 16) else insert8 (lowByte v))
      whenM (cf < 1 ∧ code = BitVec.ofNat 32 (0x60 ||| 0x100 ||| F_noimm ||| F_noindy))
        (error c!"no ROR instruction on 6500")
      whenM (cf < 2 ∧ (mode = 4 ∨ opcode = 0x7c ∨ opcode = 0x89 ∨ opcode = 0x1a ∨ opcode = 0x3a))
        (error c!"illegal use of 65C02 addressing mode") : M Unit) s) := by
  have hor : m ||| 1 < 16 := by
    have : ∀ m < 16, m ||| 1 < 16 := by decide
    exact this m hm
  unfold finalOp pickOp opcodeFor
  cases h1 : m2offset code m with
  | none => have := ht m hm; rw [h1] at this; cases this
  | some off =>
    simp only
    generalize hm' : (if off = 0 then m ||| 1 else m) = m'
    have hm'' : m' < 16 := by subst hm'; split <;> assumption
    cases h2 : m2offset code m' with
    | none => have := ht m' hm''; rw [h2] at this; cases this
    | some off' =>
      cases off' with
      | zero => exact Makes.bad_bind
      | succ k =>
        simp only
        change Makes _ s ((do
          insert8 (lowByte (((code &&& 0xff) + BitVec.ofNat 32 (k + 1)) &&& 0xff))
          whenM (m' < 14)
            (if m' % 2 = 1 then insert16 (v.setWidth 16) else insert8 (lowByte v))
          whenM (cf < 1 ∧ code = BitVec.ofNat 32 (0x60 ||| 0x100 ||| F_noimm ||| F_noindy))
            (error c!"no ROR instruction on 6500")
          whenM (cf < 2 ∧ (m' = 4 ∨ (((code &&& 0xff) + BitVec.ofNat 32 (k + 1)) &&& 0xff) = 0x7c ∨ (((code &&& 0xff) + BitVec.ofNat 32 (k + 1)) &&& 0xff) = 0x89 ∨ (((code &&& 0xff) + BitVec.ofNat 32 (k + 1)) &&& 0xff) = 0x1a ∨ (((code &&& 0xff) + BitVec.ofNat 32 (k + 1)) &&& 0xff) = 0x3a))
            (error c!"illegal use of 65C02 addressing mode") : M Unit) s)
        generalize (((code &&& 0xff) + BitVec.ofNat 32 (k + 1)) &&& 0xff) = opc
        rcases insert8_no_err (x := lowByte opc) ho with ⟨s1, e1, g1⟩ | ⟨w, s1, e1⟩
        rotate_left
        · rw [run_stop e1]; trivial
        rw [run_ok e1]
        -- the operand
        have hop : Makes (some (if m' < 14 then if m' % 2 = 1 then [lowByte v, lowByte (v >>> 8)] else [lowByte v] else [])) s1
            ((whenM (m' < 14) (if m' % 2 = 1 then insert16 (v.setWidth 16) else insert8 (lowByte v)) : M Unit) s1) := by
          unfold whenM
          by_cases h14 : m' < 14
          · rw [if_pos h14, if_pos h14]
            by_cases hodd : m' % 2 = 1
            · rw [if_pos hodd, if_pos hodd]
              rcases insert16_no_err (x := v.setWidth 16) (s := s1) (by rw [g1.orgGv]; exact ho) with ⟨s2, e2, g2⟩ | h
              · rw [e2]
                rw [g1.lohi, hl, if_pos rfl] at g2
                refine ⟨_, rfl, ?_⟩
                have a1 : BitVec.setWidth 8 (BitVec.setWidth 16 v) = lowByte v := by unfold lowByte; ext i; simp
                have a2 : BitVec.setWidth 8 (BitVec.setWidth 16 v >>> 8) = lowByte (v >>> 8) := by
                  unfold lowByte; ext i; simp; omega
                rw [a1, a2] at g2
                exact g2
              · exact .stop h
            · rw [if_neg hodd, if_neg hodd]
              rcases insert8_no_err (x := lowByte v) (s := s1) (by rw [g1.orgGv]; exact ho) with ⟨s2, e2, g2⟩ | h
              · rw [e2]; exact ⟨_, rfl, g2⟩
              · exact .stop h
          · rw [if_neg h14, if_neg h14]
            exact ⟨[], rfl, .refl _⟩
        cases hr : (whenM (m' < 14) (if m' % 2 = 1 then insert16 (v.setWidth 16) else insert8 (lowByte v)) : M Unit) s1 with
        | err s2 => rw [hr] at hop; cases hop
        | stop w s2 => rw [run_stop hr]; trivial
        | ok u s2 =>
          rw [hr] at hop
          rw [run_ok hr]
          obtain ⟨bs, hb, g2⟩ := hop
          cases hb
          have g := g1.trans g2
          unfold whenM
          by_cases b1 : cf < 1 ∧ code = BitVec.ofNat 32 (0x60 ||| 0x100 ||| F_noimm ||| F_noindy)
          · rw [if_pos b1]
            have hb : lateBad cf code m' opc = true := by unfold lateBad; rw [decide_eq_true_eq]; exact .inl b1
            rw [hb]
            exact Makes.bad_bind
          · rw [if_neg b1]
            show Makes _ s ((whenM (cf < 2 ∧ (m' = 4 ∨ opc = 0x7c ∨ opc = 0x89 ∨ opc = 0x1a ∨ opc = 0x3a))
              (error c!"illegal use of 65C02 addressing mode") : M Unit) s2)
            unfold whenM
            by_cases b2 : cf < 2 ∧ (m' = 4 ∨ opc = 0x7c ∨ opc = 0x89 ∨ opc = 0x1a ∨ opc = 0x3a)
            · rw [if_pos b2]
              have hb : lateBad cf code m' opc = true := by unfold lateBad; rw [decide_eq_true_eq]; exact .inr b2
              rw [hb]
              exact Makes.bad
            · rw [if_neg b2]
              have hb : lateBad cf code m' opc = false := by
                unfold lateBad; rw [decide_eq_false_iff_not]; exact fun h => h.elim b1 b2
              rw [hb]
              refine ⟨_, rfl, ?_⟩
              by_cases h14 : m' < 14
              · by_cases hodd : m' % 2 = 1
                · simp only [if_pos h14, if_pos hodd] at g ⊢; exact g
                · simp only [if_pos h14, if_neg hodd] at g ⊢; exact g
              · simp only [if_neg h14] at g ⊢; exact g

def bigV (r : Result) : Bool := (r.value.setWidth 32 : BitVec 32) &&& 0xff00 ≠ 0
/-- The mode after the operand has been evaluated. -/
def opMode (mode : Nat) (r : Result) : Option Nat :=
  if mode = 10 ∧ r.type = .regs ∧ r.modifier = 0 then some 15
  else if r.type = .absolute then some (wide mode (bigV r) r.flags.forward)
  else none

theorem operand_run {mode : Nat} {t : Str} {s s1 : St} {r : Result} (hp : parse (some t) s = .ok r s1) :
    (∃ w s', operand mode t s = .stop w s') ∨ (opMode mode r = none ∧ ∃ s', operand mode t s = .err s') ∨
    (∃ m s', opMode mode r = some m ∧ operand mode t s = .ok (m, r.value.setWidth 32) s') := by
  unfold operand opMode
  rw [run_ok hp]
  dsimp only
  by_cases ha : mode = 10 ∧ r.type = .regs ∧ r.modifier = 0
  · have e0 : (whenM (!decide (mode = 10 ∧ r.type = .regs ∧ r.modifier = 0)) (checktype r .absolute)) s1 = .ok () s1 := by
      rw [decide_eq_true ha]; rfl
    rw [run_ok e0, if_pos ha]
    simp only [decide_eq_true ha, if_true]
    refine .inr (.inr ⟨15, s1, rfl, ?_⟩)
    by_cases hb : (decide (r.value.setWidth 32 &&& (0xff00 : BitVec 32) ≠ 0) || r.flags.forward) = true
    · rw [if_pos hb]; rfl
    · rw [if_neg hb]; rfl
  · rw [if_neg ha]
    simp only [decide_eq_false ha, if_false, Bool.false_eq_true]
    by_cases ht : r.type = .absolute
    · have e0 : (whenM (!decide (mode = 10 ∧ r.type = .regs ∧ r.modifier = 0)) (checktype r .absolute)) s1 = .ok () s1 := by
        unfold checktype; rw [decide_eq_false ha, if_pos ht]; rfl
      rw [run_ok e0, if_pos ht]
      refine .inr (.inr ⟨wide mode (bigV r) r.flags.forward, ?_⟩)
      unfold wide bigV
      by_cases hb : (decide (r.value.setWidth 32 &&& (0xff00 : BitVec 32) ≠ 0) || r.flags.forward) = true
      · rw [if_pos hb]
        by_cases hm : mode = 12
        · rw [if_neg (by simp [hm]), if_neg (by simp [hm])]
          unfold whenM
          by_cases hv : r.value.setWidth 32 &&& (0xff00 : BitVec 32) ≠ 0
          · rw [if_pos (by simp only [decide_eq_true_eq]; exact hv)]
            obtain ⟨l, hw⟩ := warning_run c!"operand overflow" s1
            rw [run_ok hw]
            exact ⟨_, rfl, rfl⟩
          · rw [if_neg (by simp only [decide_eq_true_eq]; exact hv)]
            exact ⟨s1, rfl, rfl⟩
        · rw [if_pos hm, if_pos (by rw [hb]; simp [hm])]
          exact ⟨s1, rfl, rfl⟩
      · rw [if_neg hb, if_neg (by rw [Bool.not_eq_true] at hb; rw [hb]; simp)]
        exact ⟨s1, rfl, rfl⟩
    · have e0 : (whenM (!decide (mode = 10 ∧ r.type = .regs ∧ r.modifier = 0)) (checktype r .absolute)) s1 = (error (typeMsg r.type)) s1 := by
        unfold checktype; rw [decide_eq_false ha, if_neg ht]; rfl
      rw [if_neg ht]
      rcases error_cases (α := Unit) (typeMsg r.type) s1 with ⟨s2, h⟩ | ⟨w, s2, h⟩
      · rw [run_err (e0.trans h)]
        exact .inr (.inl ⟨rfl, s2, rfl⟩)
      · rw [run_stop (e0.trans h)]
        exact .inl ⟨w, s2, rfl⟩

/-! ### The tables of the assembler against the published ones -/

/-- The vocabulary of a processor. -/
def table : Chip → List Entry
  | .m65c02 => m6502 ++ m65c02
  | _ => m6502
def cpuNum : Chip → Int
  | .m6500 => 0
  | .m6502 => 1
  | .m65c02 => 2
def upper (e : Entry) : Str := e.name.map toupper
def isStandard (e : Entry) : Bool := e.label.ptr = .handler (.h6502 .standard)
def isSingle (e : Entry) : Bool := e.label.ptr = .handler (.h6502 .single)

def cpus : List Chip := [.m6500, .m6502, .m65c02]
def forms : List Form := [.imm, .dir, .dirX, .dirY, .ind, .indX, .indY]
theorem mem_cpus (c : Chip) : c ∈ cpus := by cases c <;> decide
theorem mem_forms (f : Form) : f ∈ forms := by cases f <;> decide

/-- Names the assembler accepts with the operand `A` though the processor has no such instruction. -/
def accNames : List Str := [c!"LDX", c!"LDY", c!"CPX", c!"CPY", c!"BIT", c!"TSB", c!"TRB"]
def oddNum (c : Chip) (name : Str) (f : Form) : Bool :=
  (c = .m6500 ∧ name = c!"ROR") ∨ (c ≠ .m65c02 ∧ name = c!"BIT" ∧ f = .dirX)
def oddAcc (c : Chip) (name : Str) : Bool := (c = .m6500 ∧ name = c!"ROR") ∨ name ∈ accNames

def asOp (x : Nat × Nat) : Byte × Nat := (BitVec.ofNat 8 x.1, x.2)

def numOk (c : Chip) (e : Entry) (f : Form) (big later : Bool) : Bool :=
  let code := BitVec.ofInt 32 e.label.modifier
  let want := (_root_.Spec.M6502.mode c (upper e) f (!big) later).map asOp
  if early code (modeNum f) then want = none
  else oddNum c (upper e) f || finalOp (cpuNum c) code (wide (modeNum f) big later) = want
def accOk (c : Chip) (e : Entry) : Bool :=
  let code := BitVec.ofInt 32 e.label.modifier
  oddAcc c (upper e) || finalOp (cpuNum c) code 15 = (_root_.Spec.M6502.opcode c (upper e) .acc).map fun op => (BitVec.ofNat 8 op, 0)

theorem tables_agree : (cpus.all fun c => (table c).all fun e => !isStandard e ||
    (accOk c e && forms.all fun f => [false, true].all fun b => [false, true].all fun l => numOk c e f b l)) = true := by
  decide +kernel

theorem agree {c : Chip} {e : Entry} (he : e ∈ table c) (hs : isStandard e = true) :
    accOk c e = true ∧ ∀ f b l, numOk c e f b l = true := by
  have h := List.all_eq_true.mp (List.all_eq_true.mp tables_agree c (mem_cpus c)) e he
  rw [hs] at h
  simp only [Bool.not_true, Bool.false_or, Bool.and_eq_true] at h
  refine ⟨h.1, fun f b l => ?_⟩
  exact List.all_eq_true.mp (List.all_eq_true.mp (List.all_eq_true.mp h.2 f (mem_forms f)) b (by cases b <;> decide)) l
    (by cases l <;> decide)

theorem table_total {c : Chip} {e : Entry} (he : e ∈ table c) (hs : isStandard e = true) :
    ∀ m < 16, (m2offset (BitVec.ofInt 32 e.label.modifier) m).isSome = true := by
  have : (cpus.all fun c => (table c).all fun e => !isStandard e ||
      (List.range 16).all fun m => (m2offset (BitVec.ofInt 32 e.label.modifier) m).isSome) = true := by decide +kernel
  have h := List.all_eq_true.mp (List.all_eq_true.mp this c (mem_cpus c)) e he
  rw [hs] at h
  simp only [Bool.not_true, Bool.false_or] at h
  intro m hm
  exact List.all_eq_true.mp h m (by simpa using hm)

/-- What the value of an operand is to the instruction. -/
def meaning (r : Result) : Meaning :=
  if r.type = .absolute then .num r.value.toNat r.flags.forward
  else if r.type = .regs ∧ r.modifier = 0 then .acc
  else .other

/-- The cases in which the assembler departs from the published instruction sets. -/
def odd (c : Chip) (name : Str) (f : Form) : Meaning → Prop
  | .num v _ => (256 ≤ v ∧ v % 65536 < 256 ∧ f ≠ .imm) ∨ oddNum c name f = true
  | .acc => oddAcc c name = true
  | .other => False

theorem lowByte_lo (v : Word) : lowByte (v.setWidth 32) = _root_.Spec.M6502.lo v.toNat := by
  unfold lowByte _root_.Spec.M6502.lo
  apply BitVec.eq_of_toNat_eq
  simp only [BitVec.toNat_setWidth, BitVec.toNat_ofNat]
  omega
theorem lowByte_hi (v : Word) : lowByte ((v.setWidth 32 : BitVec 32) >>> 8) = _root_.Spec.M6502.hi v.toNat := by
  unfold lowByte _root_.Spec.M6502.hi
  apply BitVec.eq_of_toNat_eq
  simp only [BitVec.toNat_setWidth, BitVec.toNat_ofNat, BitVec.toNat_ushiftRight, Nat.shiftRight_eq_div_pow]
  omega

theorem opMode_enc {c : Chip} {e : Entry} (he : e ∈ table c) (hs : isStandard e = true) {f : Form} {v : Result}
    (hE : early (BitVec.ofInt 32 e.label.modifier) (modeNum f) = false) (ho : ¬ odd c (upper e) f (meaning v)) :
    encode c (upper e) f (meaning v) = (opMode (modeNum f) v).bind fun m =>
      (finalOp (cpuNum c) (BitVec.ofInt 32 e.label.modifier) m).map (bytesFor (v.value.setWidth 32)) := by
  obtain ⟨hacc, hnum⟩ := agree he hs
  unfold opMode
  by_cases ht : v.type = .absolute
  · have hm : meaning v = .num v.value.toNat v.flags.forward := by unfold meaning; rw [if_pos ht]
    rw [hm] at ho ⊢
    rw [if_neg (by rw [ht]; simp), if_pos ht, Option.bind_some]
    simp only [odd, not_or, Bool.not_eq_true] at ho
    have h := hnum f (bigV v) v.flags.forward
    unfold numOk at h
    simp only [hE] at h
    simp only [Bool.false_eq_true, if_false, ho.2, Bool.false_or, decide_eq_true_eq] at h
    rw [h]
    change (_root_.Spec.M6502.mode c (upper e) f (decide (v.value.toNat < 256)) v.flags.forward).map (fun x =>
      if x.2 = 1 then [_root_.Spec.M6502.lo x.1, _root_.Spec.M6502.lo v.value.toNat] else
        [_root_.Spec.M6502.lo x.1, _root_.Spec.M6502.lo v.value.toNat, _root_.Spec.M6502.hi v.value.toNat]) = _
    by_cases hf : f = .imm
    · -- the size of the value does not matter after `#`
      subst hf
      have e1 : ∀ b, _root_.Spec.M6502.mode c (upper e) .imm b v.flags.forward =
          (_root_.Spec.M6502.opcode c (upper e) .imm).map fun op => (op, 1) := by
        intro b
        unfold _root_.Spec.M6502.mode
        simp only [decide_true, Bool.true_or, if_true, Form.short, Form.long, Option.bind_none]
        cases _root_.Spec.M6502.opcode c (upper e) .imm <;> rfl
      rw [e1, e1]
      cases _root_.Spec.M6502.opcode c (upper e) .imm with
      | none => rfl
      | some op => simp [asOp, bytesFor, lowByte_lo]; rfl
    · have hb : (!bigV v) = decide (v.value.toNat < 256) := by
        unfold bigV
        have h1 := big_iff v.value
        by_cases hbig : 256 ≤ v.value.toNat % 65536
        · have h2 : ¬ v.value.toNat < 256 := by have := Nat.mod_le v.value.toNat 65536; omega
          rw [decide_eq_true (h1.mpr hbig), decide_eq_false h2]; rfl
        · have h2 : v.value.toNat < 256 := by
            rcases Nat.lt_or_ge v.value.toNat 256 with h | h
            · exact h
            · exact absurd ⟨h, by omega, hf⟩ ho.1
          have h3 : ¬ (v.value.setWidth 32 : BitVec 32) &&& 0xff00 ≠ 0 := fun h => hbig (h1.mp h)
          rw [decide_eq_false h3, decide_eq_true h2]; rfl
      rw [← hb]
      have hn : ∀ x, _root_.Spec.M6502.mode c (upper e) f (!bigV v) v.flags.forward = some x → x.2 = 1 ∨ x.2 = 2 := by
        intro x hx
        unfold _root_.Spec.M6502.mode at hx
        split at hx
        · cases hx; exact .inl rfl
        · cases hL : f.long with
          | none => rw [hL] at hx; cases hx
          | some m =>
            rw [hL] at hx
            simp only [Option.bind_some, Option.map_eq_some_iff] at hx
            obtain ⟨a, -, rfl⟩ := hx
            exact .inr rfl
      cases hmo : _root_.Spec.M6502.mode c (upper e) f (!bigV v) v.flags.forward with
      | none => rfl
      | some x =>
        obtain ⟨op, n⟩ := x
        rcases hn _ hmo with h1 | h1 <;> cases h1
        · simp [asOp, bytesFor, lowByte_lo]; rfl
        · simp [asOp, bytesFor, lowByte_lo, lowByte_hi]; rfl
  · by_cases hr : v.type = .regs ∧ v.modifier = 0
    · have hm : meaning v = .acc := by unfold meaning; rw [if_neg ht, if_pos hr]
      rw [hm] at ho ⊢
      simp only [odd, Bool.not_eq_true] at ho
      change (if f = .dir then (_root_.Spec.M6502.opcode c (upper e) .acc).map fun op => [_root_.Spec.M6502.lo op] else none) = _
      by_cases hf : f = .dir
      · subst hf
        rw [if_pos rfl, if_pos (show modeNum .dir = 10 ∧ _ from ⟨rfl, hr⟩), Option.bind_some]
        unfold accOk at hacc
        rw [ho] at hacc
        simp only [Bool.false_or, decide_eq_true_eq] at hacc
        rw [hacc]
        cases _root_.Spec.M6502.opcode c (upper e) .acc <;> rfl
      · have h10 : modeNum f ≠ 10 := by intro h; cases f <;> simp [modeNum] at h hf
        rw [if_neg hf, if_neg (fun h => h10 h.1), if_neg ht]
        rfl
    · have hm : meaning v = .other := by unfold meaning; rw [if_neg ht, if_neg hr]
      rw [hm]
      rw [if_neg (fun h => hr h.2), if_neg ht]
      rfl

/-- What `standard` does when the mode and the expression are known. -/
def rest (cf : Int) (code : BitVec 32) (mode : Nat) (toparse : Str) : M Unit :=
  if early code mode then
    error c!"illegal addressing mode"
  else do
    let (mode, value) ← (if mode < 14 then operand mode toparse else pure (mode, 0))
    let (mode, off) ← opcodeFor code mode
    let opcode : BitVec 32 := ((code &&& 0xff) + BitVec.ofNat 32 off) &&& 0xff
    insert8 (lowByte opcode)
    whenM (mode < 14)
      (if mode % 2 = 1 then insert16 (value.setWidth 16) else insert8 (lowByte value))
    whenM (cf < 1 ∧ code = BitVec.ofNat 32 (0x60 ||| 0x100 ||| F_noimm ||| F_noindy))
      (error c!"no ROR instruction on 6500")
    whenM (cf < 2 ∧ (mode = 4 ∨ opcode = 0x7c ∨ opcode = 0x89 ∨ opcode = 0x1a ∨ opcode = 0x3a))
      (error c!"illegal use of 65C02 addressing mode")

theorem standard_some {code : BitVec 32} {o t : Str} {m : Nat} {s s1 : St}
    (h : searchMode o addmodes s = .ok (some (m, t)) s1) : standard code (some o) s = rest s.cpuflag code m t s1 := by
  unfold standard
  rw [getS_bind_run]
  change ((searchMode o addmodes >>= _) >>= _) s = _
  rw [bind_assoc, run_ok h]
  rfl
theorem standard_none {code : BitVec 32} {s : St} : standard code none s = rest s.cpuflag code 14 [] s := by
  unfold standard
  rw [getS_bind_run]
  rfl

theorem wide_lt (f : Form) (b l : Bool) : wide (modeNum f) b l < 16 := by
  cases f <;> cases b <;> cases l <;> decide
theorem opMode_lt {f : Form} {v : Result} {m : Nat} (h : opMode (modeNum f) v = some m) : m < 16 := by
  unfold opMode at h
  split at h
  · cases h; decide
  · split at h
    · cases h; exact wide_lt _ _ _
    · cases h

theorem early_none {c : Chip} {e : Entry} (he : e ∈ table c) (hs : isStandard e = true) {f : Form}
    (hE : early (BitVec.ofInt 32 e.label.modifier) (modeNum f) = true) (m : Meaning) : encode c (upper e) f m = none := by
  obtain ⟨-, hnum⟩ := agree he hs
  have hf : f ≠ .dir := by
    intro h; subst h
    unfold early at hE
    simp [modeNum] at hE
  cases m with
  | num v l =>
    have h := hnum f (!decide (v < 256)) l
    unfold numOk at h
    simp only [hE] at h
    simp only [if_true, Bool.not_not, decide_eq_true_eq, Option.map_eq_none_iff] at h
    change (_root_.Spec.M6502.mode c (upper e) f (decide (v < 256)) l).map _ = none
    rw [h]
    rfl
  | acc => unfold encode; simp only [hf, if_false]
  | other => rfl

end C22
open C22
open _root_.Spec.M6502 (Chip Form Written Meaning encode bare)

/-- **C22**, instructions with operand.  For each processor, each mnemonic with addressing modes, each way to write an
    operand and each expression in it: the instruction makes the opcode of the published table, followed by one or two
    bytes of the value of the expression; it is refused if there is no such instruction or the expression is refused.
    Excepted are the cases listed in `odd`. -/
theorem C22_operand_partial {c : Chip} {e : Entry} (he : e ∈ table c) (hs : isStandard e = true) {f : Form} {t o : Str}
    (hw : Written f t o) {self : Status → M RC} {fuel : Nat} {label : Option Str} {s : St} (ho : s.flags.orgGv = true)
    (hl : s.flags.lohi = true) (hc : s.cpuflag = cpuNum c) :
    ∃ h, e.label.ptr = .handler h ∧ Does meaning t (encode c (upper e) f) (odd c (upper e) f) s
      (callHandler self fuel h e.label.modifier label (some o) s) := by
  refine ⟨_, of_decide_eq_true hs, ?_⟩
  change Does meaning t _ _ s ((do C6502.standard (BitVec.ofInt 32 e.label.modifier) (some o); pure RC.cont : M RC) s)
  generalize hcode : BitVec.ofInt 32 e.label.modifier = code
  refine does_of ?_
  obtain ⟨b, hb | ⟨s1, hb⟩⟩ := mode_text hw s
  rotate_left
  · left
    unfold C6502.standard
    rw [getS_bind_run]
    change ∃ w s', ((C6502.searchMode o C6502.addmodes >>= _) >>= _) s = _
    rw [bind_assoc, run_stop hb]
    exact ⟨_, _, rfl⟩
  rw [standard_some hb]
  unfold rest
  by_cases hE : early code (modeNum f) = true
  · rw [if_pos hE]
    rcases error_cases (α := Unit) c!"illegal addressing mode" { s with bufpos := b } with h | h
    · exact .inr (.inl ⟨h, early_none he hs (by rw [hcode]; exact hE)⟩)
    · exact .inl h
  · rw [if_neg hE, if_pos (show modeNum f < 14 by cases f <;> decide)]
    have hE : early code (modeNum f) = false := by simpa using hE
    rcases res_cases (parse (some t) { s with bufpos := b }) with ⟨v, s1, hp⟩ | ⟨s1, hp⟩ | ⟨w, s1, hp⟩
    · refine .inr (.inr (.inr ⟨b, v, s1, hp, ?_⟩))
      by_cases hodd : odd c (upper e) f (meaning v)
      · exact .inl hodd
      right
      have henc := opMode_enc he hs (by rw [hcode]; exact hE) hodd
      rw [henc, hcode]
      rcases operand_run (mode := modeNum f) hp with ⟨w, s2, h⟩ | ⟨hn, s2, h⟩ | ⟨m, s2, hn, h⟩
      · rw [run_stop h]; trivial
      · rw [run_err h, hn]; exact rfl
      · have g : Gen [] s s2 := by
          have := (gen_bufpos s b).trans (nwalk_gen W.walk h)
          simpa using this
        rw [run_ok h, hn, Option.bind_some, hc]
        refine Makes.before g ?_
        exact finish_run (by rw [g.orgGv]; exact ho) (by rw [g.lohi]; exact hl)
          (by rw [← hcode]; exact table_total he hs) (opMode_lt hn)
    · refine .inr (.inr (.inl ⟨b, ⟨s1, hp⟩, s1, ?_⟩))
      unfold C6502.operand
      rw [bind_assoc, run_err hp]
    · left
      unfold C6502.operand
      rw [bind_assoc, run_stop hp]
      exact ⟨_, _, rfl⟩

/-! ### Without operand -/

namespace C22

def bareOk (c : Chip) (e : Entry) : Bool :=
  let code := BitVec.ofInt 32 e.label.modifier
  let want := bare c (upper e)
  (!isSingle e || want = some [lowByte code]) &&
  (!isStandard e || (c = .m6500 && upper e = c!"ROR") ||
    (if early code 14 then none else (finalOp (cpuNum c) code 14).map (bytesFor 0)) = want)

theorem bare_agree : (cpus.all fun c => (table c).all fun e => bareOk c e) = true := by decide +kernel

/-- All names with an implied, accumulator or other mode are in the vocabulary, as what they are. -/
def known (c : Chip) (x : Str × List (_root_.Spec.M6502.Mode × Nat)) : Bool :=
  (c = .m6500 && x.1 = c!"ROR") ||
  (table c).any (fun e => upper e = x.1) &&
  (table c).all fun e => upper e ≠ x.1 || (match x.2 with
    | [(.implied, _)] => isSingle e
    | [(.rel, op)] => isBranch e op
    | _ => isStandard e)

end C22

/-- Every instruction of each processor is in its vocabulary: branches as branches (see C21), those without operand as
    such, and the others with `standard`. -/
theorem C22_vocabulary :
    (cpus.all fun c => _root_.Spec.M6502.nmos.all (known c)) = true ∧
    _root_.Spec.M6502.cmos.all (known .m65c02) = true := by
  constructor <;> decide +kernel

/-- Nothing else is: a name that is not in the published table of the processor is not in its vocabulary, but for four
    other names of branches and the names of the registers. -/
theorem C22_vocabulary_only : (cpus.all fun c => (table c).all fun e =>
    (_root_.Spec.M6502.nmos.any fun x => x.1 = upper e) || (c = .m65c02 && _root_.Spec.M6502.cmos.any fun x => x.1 = upper e) ||
    [(c!"BHI", 0xb0), (c!"BLO", 0x90), (c!"BGT", 0x10), (c!"BLE", 0x30)].any (fun x => upper e = x.1 && isBranch e x.2) ||
    e.label.type = .regs) = true := by decide +kernel

/-- **C22**, instructions without operand (ROR on the 6500 excepted). -/
theorem C22_bare_partial {c : Chip} {e : Entry} (he : e ∈ table c) (hs : isSingle e = true ∨ isStandard e = true)
    (hr : ¬ (c = .m6500 ∧ upper e = c!"ROR"))
    {self : Status → M RC} {fuel : Nat} {label : Option Str} {s : St} (ho : s.flags.orgGv = true)
    (hl : s.flags.lohi = true) (hc : s.cpuflag = cpuNum c) :
    ∃ h, e.label.ptr = .handler h ∧ Makes (bare c (upper e)) s (callHandler self fuel h e.label.modifier label none s) := by
  have hb := List.all_eq_true.mp (List.all_eq_true.mp bare_agree c (mem_cpus c)) e he
  unfold bareOk at hb
  simp only [Bool.and_eq_true] at hb
  rcases hs with hs | hs
  · refine ⟨_, of_decide_eq_true hs, ?_⟩
    have h1 := hb.1
    rw [hs] at h1
    simp only [Bool.not_true, Bool.false_or, decide_eq_true_eq] at h1
    rw [h1]
    change Makes _ s ((do C6502.single (BitVec.ofInt 32 e.label.modifier) none; pure RC.cont : M RC) s)
    unfold C6502.single
    rw [bind_assoc]
    rcases insert8_no_err (x := lowByte (BitVec.ofInt 32 e.label.modifier)) ho with ⟨s1, e1, g1⟩ | ⟨w, s1, e1⟩
    · rw [run_ok e1]
      exact ⟨_, rfl, g1⟩
    · rw [run_stop e1]; trivial
  · refine ⟨_, of_decide_eq_true hs, ?_⟩
    have h1 := hb.2
    have hr' : (decide (c = .m6500) && decide (upper e = c!"ROR")) = false := by simpa using hr
    rw [hs, hr'] at h1
    simp only [Bool.not_true, Bool.false_or, decide_eq_true_eq] at h1
    rw [← h1]
    change Makes _ s ((do C6502.standard (BitVec.ofInt 32 e.label.modifier) none; pure RC.cont : M RC) s)
    refine Makes.then ?_ (fun {_ s1} _ => ⟨[], rfl, .refl s1⟩)
    rw [standard_none]
    unfold rest
    by_cases hE : early (BitVec.ofInt 32 e.label.modifier) 14 = true
    · rw [if_pos hE, if_pos hE]
      exact Makes.bad
    · rw [if_neg hE, if_neg hE, hc]
      exact finish_run (v := 0) (m := 14) ho hl (table_total he hs) (by decide)

/-- An operand on an instruction that has none is refused, and there is no such instruction. -/
theorem C22_no_operand {c : Chip} {e : Entry} (he : e ∈ table c) (hs : isSingle e = true) {o : Str}
    {self : Status → M RC} {fuel : Nat} {label : Option Str} {s : St} :
    (∀ f m, encode c (upper e) f m = none) ∧
    ∃ h, e.label.ptr = .handler h ∧ ∀ rc s', callHandler self fuel h e.label.modifier label (some o) s ≠ .ok rc s' := by
  constructor
  · have : (cpus.all fun c => (table c).all fun e => !isSingle e || (_root_.Spec.M6502.opcode c (upper e) .acc = none &&
        forms.all fun f => [false, true].all fun b => [false, true].all fun l => _root_.Spec.M6502.mode c (upper e) f b l = none)) = true := by
      decide +kernel
    have h := List.all_eq_true.mp (List.all_eq_true.mp this c (mem_cpus c)) e he
    rw [hs] at h
    simp only [Bool.not_true, Bool.false_or, Bool.and_eq_true, decide_eq_true_eq] at h
    intro f m
    cases m with
    | num v l =>
      have h1 := List.all_eq_true.mp (List.all_eq_true.mp (List.all_eq_true.mp h.2 f (mem_forms f)) (decide (v < 256))
        (by cases decide (v < 256) <;> decide)) l (by cases l <;> decide)
      change (_root_.Spec.M6502.mode c (upper e) f (decide (v < 256)) l).map _ = none
      rw [of_decide_eq_true h1]
      rfl
    | acc =>
      change (if f = .dir then (_root_.Spec.M6502.opcode c (upper e) .acc).map _ else none) = none
      rw [h.1]
      split <;> rfl
    | other => rfl
  · refine ⟨_, of_decide_eq_true hs, ?_⟩
    intro rc s' h
    change (do C6502.single (BitVec.ofInt 32 e.label.modifier) (some o); pure RC.cont : M RC) s = .ok rc s' at h
    obtain ⟨_, s1, h1, -⟩ := bind_ok h
    unfold C6502.single at h1
    obtain ⟨_, s2, -, h3⟩ := bind_ok h1
    exact absurd h3 error_not_ok

/-! ### Examples and exceptions -/

/-- The number of errors and the bytes of the second pass, in order. -/
def outcome (src : Str) : Option (Nat × List Byte) :=
  match assemble 60 { scode := some c!"o", list := false } (initSt { fs := fun _ => none } src) with
  | .ok _ s => some (s.errnumber, ((bytesOf s.log).filterMap fun b => if b.1 = 2 then some b.2.2.1 else none).reverse)
  | _ => none

example : ∃ e ∈ table .m6502, upper e = c!"LDA" ∧ isStandard e = true := by decide +kernel
example : Written .indY c!"ptr+1" c!"( ptr+1 ) ,Y" :=
  .indY (b1 := c!" ") (b2 := c!" ") (b3 := c!" ") (b4 := []) ⟨
    .plain _ _ _ (by decide) (by decide) (by decide) (by decide) rfl
      (.plain _ _ _ (by decide) (by decide) (by decide) (by decide) rfl
      (.plain _ _ _ (by decide) (by decide) (by decide) (by decide) rfl
      (.plain _ _ _ (by decide) (by decide) (by decide) (by decide) rfl
      (.plain _ _ _ (by decide) (by decide) (by decide) (by decide) rfl (.nil _))))), by decide,
    by rintro c r ⟨⟩; decide,
    by
      intro c r e
      have := congrArg List.getLast? e
      simp at this
      subst this
      decide⟩
    (by unfold _root_.Spec.M6502.Bl; decide) (by unfold _root_.Spec.M6502.Bl; decide) (by unfold _root_.Spec.M6502.Bl; decide)
    (by unfold _root_.Spec.M6502.Bl; decide) (.inl rfl)
example : outcome c!" cpu 6502\nptr = $80\n *= $1000\n lda ( ptr+1 ) ,Y\n lda #3\n lda ptr\n lda $1234,x\n asl a\n asl\n rts\n jmp later\nlater ldx ptr,y\n" =
  some (0, [0xb1, 0x81, 0xa9, 3, 0xa5, 0x80, 0xbd, 0x34, 0x12, 0x0a, 0x0a, 0x60, 0x4c, 0x0f, 0x10, 0xb6, 0x80]) := by decide +kernel

/-- The exceptions are real: these lines are accepted. -/
theorem C22_false_ror : outcome c!" cpu 6500\n *= 0\n ror $12\n" = some (0, [0x66, 0x12]) ∧
    _root_.Spec.M6502.encode .m6500 c!"ROR" .dir (.num 0x12 false) = none := by decide +kernel
theorem C22_false_bit : outcome c!" cpu 6502\n *= 0\n bit $12,x\n" = some (0, [0x34, 0x12]) ∧
    _root_.Spec.M6502.encode .m6502 c!"BIT" .dirX (.num 0x12 false) = none := by decide +kernel
theorem C22_false_acc : outcome c!" cpu 65c02\n *= 0\n ldx a\n ldy a\n cpx a\n cpy a\n bit a\n tsb a\n trb a\n" =
      some (0, [0xaa, 0xa8, 0xe8, 0xc8, 0x58, 0x78, 0x88]) ∧
    ∀ n ∈ accNames, _root_.Spec.M6502.encode .m65c02 n .dir .acc = none := by decide +kernel
theorem C22_false_wide : outcome c!" cpu 6502\n *= 0\n lda $10012\n" = some (0, [0xa5, 0x12]) ∧
    _root_.Spec.M6502.encode .m6502 c!"LDA" .dir (.num 0x10012 false) = some [0xad, 0x12, 0x00] := by decide +kernel

end Crasm

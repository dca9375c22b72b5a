import Verif.Proof.EncZ
import Verif.Props.C22

/-! # C24: instructions of the Z80 -/

namespace Crasm
namespace C24
open Zop
open Z80 (Z Idx getreg docode isreg8 isreg16 mz80)
open _root_.Spec.Z80 (R8 Ix Pair Kind Arg Form Written Fixed Word Bl Item fill1 fill2)

def r8s : List R8 := [.a, .b, .c, .d, .e, .h, .l]
def pairs : List Pair := [.bc, .de, .hl, .sp, .af, .index .ix, .index .iy]
def kinds : List Kind :=
  r8s.map .r8 ++ pairs.map .r16 ++ [.i, .r, .f, .atHL, .atBC, .atDE, .at .ix, .at .iy, .mem, .num, .unknown, .other]
theorem mem_kinds (k : Kind) : k ∈ kinds := by
  cases k with
  | r8 r => cases r <;> decide
  | r16 p => cases p with
    | index x => cases x <;> decide
    | _ => decide
  | «at» x => cases x <;> decide
  | _ => decide

/-- Operands that are accepted after `A,` (and where `A,` is left out) without being any the processor could take. -/
def loose : Kind → Bool
  | .r16 _ | .i | .r | .f | .atBC | .atDE | .mem => true
  | _ => false
def odd1 (name : Str) (k : Kind) : Prop :=
  k = .unknown ∨ ((_root_.Spec.Z80.logic.lookup name).isSome = true ∧ loose k = true)
def odd2 (name : Str) (k1 k2 : Kind) : Prop :=
  k1 = .unknown ∨ k2 = .unknown ∨ (name ≠ c!"LD" ∧ k1 = .r8 .a ∧ loose k2 = true)
instance (name : Str) (k : Kind) : Decidable (odd1 name k) := inferInstanceAs (Decidable (_ ∨ _))
instance (name : Str) (k1 k2 : Kind) : Decidable (odd2 name k1 k2) := inferInstanceAs (Decidable (_ ∨ _))

/-! ### One operand -/

def finReg8 (code : BitVec 32) (r : Int) (_ : Z) : Fin :=
  if !isreg8 r then .error Z80.needreg8 else .ok (code + BitVec.ofInt 32 r, false)
def finLogic (code : BitVec 32) (r : Int) (_ : Z) : Fin :=
  if r = Z80.IMDATA then .ok (code + 0x46, true) else .ok (code + BitVec.ofInt 32 r, false)
def swapAF (r : Int) : Int := if r = 19 then 11 else if r = 11 then 19 else r
def finStack (code : BitVec 32) (r : Int) (_ : Z) : Fin :=
  if !isreg16 (swapAF r) then .error c!"Operates with AF,BC,DE,HL,IX,IY" else .ok (code + BitVec.ofInt 32 (swapAF r * 16), false)
def finIncr (code : BitVec 32) (r : Int) (_ : Z) : Fin :=
  if isreg8 r then .ok (BitVec.ofInt 32 (r * 8) + code.sshiftRight 8, false)
  else if isreg16 r then .ok ((code &&& 0xff) + BitVec.ofInt 32 ((r - 8) * 16), false)
  else .error Z80.badop

theorem noImm (z : Z) : ({ z with arg8flag := z.arg8flag || false } : Z) = z := by simp
theorem withImm (z : Z) : ({ z with arg8flag := z.arg8flag || true } : Z) = { z with arg8flag := true } := by simp

theorem onreg8_eq (code : BitVec 32) (o : Str) : Z80.onreg8 code (some o) = oneOp (finReg8 code) o := by
  unfold Z80.onreg8 oneOp finReg8
  congr 1
  funext ⟨r, z⟩
  dsimp only
  cases h : isreg8 r
  · rfl
  · exact congrArg (fun z => docode z _) (noImm z).symm
theorem stack_eq (code : BitVec 32) (o : Str) : Z80.stackop code (some o) = oneOp (finStack code) o := by
  unfold Z80.stackop oneOp finStack
  congr 1
  funext ⟨r, z⟩
  dsimp only
  change (if !isreg16 (swapAF r) then _ else docode z (code + BitVec.ofInt 32 (swapAF r * 16))) = _
  cases h : isreg16 (swapAF r)
  · rfl
  · exact congrArg (fun z => docode z _) (noImm z).symm
theorem incr_eq (code : BitVec 32) (o : Str) : Z80.incr code (some o) = oneOp (finIncr code) o := by
  unfold Z80.incr oneOp finIncr
  congr 1
  funext ⟨r, z⟩
  dsimp only
  cases h : isreg8 r
  · cases h' : isreg16 r
    · rfl
    · exact congrArg (fun z => docode z _) (noImm z).symm
  · exact congrArg (fun z => docode z _) (noImm z).symm
theorem logicEnd (code : BitVec 32) (r : Int) (z z' : Z) :
    (if r = Z80.IMDATA then docode { z with arg8flag := true } (code + 0x46) else docode z (code + BitVec.ofInt 32 r)) =
      Zop.finish z (finLogic code r z') := by
  unfold finLogic
  by_cases h : r = Z80.IMDATA
  · rw [if_pos h, if_pos h]
    exact congrArg (fun z => docode z _) (withImm z).symm
  · rw [if_neg h, if_neg h]
    exact congrArg (fun z => docode z _) (noImm z).symm
theorem logic_eq (code : BitVec 32) (o : Str) : Z80.logicalTail {} code o = oneOp (finLogic code) o := by
  unfold Z80.logicalTail oneOp
  congr 1
  funext ⟨r, z⟩
  exact logicEnd code r z _

theorem sep_miss {o : Str} (h : Spec.Operand o) : (filter o c!"?_,_?").ok = false :=
  (filter_sep_none (c := ',') (by decide) (by decide) (operand_noTop h)).1
theorem logical_one {code : BitVec 32} {o : Str} (h : Spec.Operand o) (s : St) :
    Toward (Z80.logical code (some o) s) (oneOp (finLogic code) o s) := by
  unfold Z80.logical
  rw [← logic_eq]
  exact Toward.bind (toward_miss2 (sep_miss h) s) (.refl _)

def fin1 : HZ80 → Option (BitVec 32 → Int → Z → Fin)
  | .onreg8 => some finReg8
  | .logical => some finLogic
  | .stackop => some finStack
  | .incr => some finIncr
  | _ => none
def kindOf (e : Entry) : Option HZ80 :=
  match e.label.ptr with
  | .handler (.hz80 k) => some k
  | _ => none
theorem kindOf_some {e : Entry} {k : HZ80} (h : kindOf e = some k) : e.label.ptr = .handler (.hz80 k) := by
  unfold kindOf at h
  split at h
  · next h1 => cases h; exact h1
  · cases h

def oneOk (e : Entry) : Bool :=
  match (kindOf e).bind fin1 with
  | none => true
  | some f => kinds.all fun k => good1 (f (BitVec.ofInt 32 e.label.modifier)) k &&
      (decide (odd1 (C22.upper e) k) || plan1 (f (BitVec.ofInt 32 e.label.modifier)) k = _root_.Spec.Z80.one (C22.upper e) k)
theorem one_ok : mz80.all oneOk = true := by decide +kernel

/-! ### Two operands -/

def goLd (_ : Int) (_ : Z) : Except Str Bool := .ok false
def finLd (r1 r2 : Int) (_ : Z) : Fin :=
  match Z80.ldCode r1 r2 with
  | none => .error Z80.badop
  | some x => .ok x
def goLogic (r : Int) (_ : Z) : Except Str Bool := if r ≠ Z80.ACCUMULATOR then .error Z80.needacc else .ok false
def goArith (code : BitVec 32) (r : Int) (z : Z) : Except Str Bool :=
  if r = Z80.ACCUMULATOR then .ok true
  else if r = Z80.HLREGISTER then
    if z.indexflag ≠ .hl ∧ code ≠ 0x80 then .error c!"illegal index operation" else .ok false
  else .error Z80.badop
def finArith (code : BitVec 32) (r1 r2 : Int) (z : Z) : Fin :=
  if r1 = Z80.ACCUMULATOR then finLogic code r2 z
  else if !isreg16 r2 then .error Z80.badop else .ok (Z80.arithBase code + BitVec.ofInt 32 (r2 * 16), false)

theorem toward_bind {m : M α} {f g : α → M β} (h : ∀ a s, Toward (f a s) (g a s)) (s : St) : Toward ((m >>= f) s) ((m >>= g) s) := by
  rcases res_cases (m s) with ⟨a, s1, hm⟩ | ⟨s1, hm⟩ | ⟨w, s1, hm⟩
  · rw [run_ok hm, run_ok hm]; exact h a s1
  · rw [run_err hm, run_err hm]; exact .refl _
  · rw [run_stop hm, run_stop hm]; exact .refl _

theorem ld_two {o1 o2 t : Str} (ht : ∃ w k, filter t c!"?_,_?" = ⟨true, [o1, o2], w, k⟩) (s : St) :
    ∃ b, Toward (Z80.ld (some t) s) (twoOps false goLd finLd o1 o2 { s with bufpos := b }) := by
  obtain ⟨w, k, ht⟩ := ht
  refine ⟨s.bufpos + w, Toward.bind (toward_filter2 ht s) ?_⟩
  refine .inl (congrFun ?_ _)
  unfold twoOps goLd
  dsimp only
  congr 1
  funext ⟨r1, z⟩
  dsimp only
  change _ = (getreg z o2 >>= _)
  congr 1
  funext ⟨r2, z2⟩
  dsimp only
  unfold finLd
  cases Z80.ldCode r1 r2 with
  | none => rfl
  | some x => rfl

theorem logical_two {code : BitVec 32} {o1 o2 t : Str} (ht : ∃ w k, filter t c!"?_,_?" = ⟨true, [o1, o2], w, k⟩) (s : St) :
    ∃ b, Toward (Z80.logical code (some t) s) (twoOps true goLogic (fun _ => finLogic code) o1 o2 { s with bufpos := b }) := by
  obtain ⟨w, k, ht⟩ := ht
  refine ⟨s.bufpos + w, Toward.bind (toward_filter2 ht s) ?_⟩
  refine .inl (congrFun ?_ _)
  unfold twoOps goLogic
  dsimp only
  congr 1
  funext ⟨r1, z⟩
  dsimp only
  by_cases h : r1 ≠ Z80.ACCUMULATOR
  · rw [if_pos h, if_pos h]
  · rw [if_neg h, if_neg h]
    change (warning _ >>= _) = (warning _ >>= _)
    congr 1
    funext _
    change (getreg z o2 >>= _) = (getreg z o2 >>= _)
    congr 1
    funext ⟨r2, z2⟩
    exact logicEnd code r2 z2 _

theorem arith_two {code : BitVec 32} {o1 o2 t : Str} (h2 : Spec.Operand o2) (ht : ∃ w k, filter t c!"?_,_?" = ⟨true, [o1, o2], w, k⟩) (s : St) :
    ∃ b, Toward (Z80.arith code (some t) s) (twoOps false (goArith code) (finArith code) o1 o2 { s with bufpos := b }) := by
  obtain ⟨w, k, ht⟩ := ht
  refine ⟨s.bufpos + w, Toward.bind (toward_filter2 ht s) ?_⟩
  unfold twoOps
  refine toward_bind ?_ _
  rintro ⟨r1, z⟩ s1
  dsimp only
  unfold goArith finArith
  by_cases h : r1 = Z80.ACCUMULATOR
  · rw [if_pos h, if_pos h]
    simp only [if_pos h]
    exact logical_one h2 s1
  · rw [if_neg h, if_neg h]
    simp only [if_neg h]
    by_cases h' : r1 = Z80.HLREGISTER
    · rw [if_pos h', if_pos h']
      by_cases hi : z.indexflag ≠ .hl ∧ code ≠ 0x80
      · rw [if_pos hi, if_pos (show (flags z).indexflag ≠ .hl ∧ code ≠ 0x80 from hi)]
        exact .refl _
      · rw [if_neg hi, if_neg (show ¬ ((flags z).indexflag ≠ .hl ∧ code ≠ 0x80) from hi)]
        refine .inl (congrFun ?_ _)
        change (getreg z o2 >>= _) = (getreg z o2 >>= _)
        congr 1
        funext ⟨r2, z2⟩
        dsimp only
        cases hr : isreg16 r2
        · rfl
        · exact congrArg (fun z => docode z _) (noImm z2).symm
    · rw [if_neg h', if_neg h']
      exact .refl _

def fin2 : HZ80 → Option (BitVec 32 → (Int → Z → Except Str Bool) × (Int → Int → Z → Fin))
  | .ld => some fun _ => (goLd, finLd)
  | .logical => some fun code => (goLogic, fun _ => finLogic code)
  | .arith => some fun code => (goArith code, finArith code)
  | _ => none
def twoOk (e : Entry) : Bool :=
  match (kindOf e).bind fin2 with
  | none => true
  | some f => kinds.all fun k1 => kinds.all fun k2 =>
      good2 (f (BitVec.ofInt 32 e.label.modifier)).1 (f (BitVec.ofInt 32 e.label.modifier)).2 k1 k2 &&
      (decide (odd2 (C22.upper e) k1 k2) ||
        plan2 (f (BitVec.ofInt 32 e.label.modifier)).1 (f (BitVec.ofInt 32 e.label.modifier)).2 k1 k2 = _root_.Spec.Z80.two (C22.upper e) k1 k2)
theorem two_ok : mz80.all twoOk = true := by decide +kernel


/-- Two operands with a comma between them. -/
def Both (o1 o2 t : Str) : Prop := ∃ b b', Bl b ∧ Bl b' ∧ t = o1 ++ (b ++ ',' :: (b' ++ o2))

theorem Both.filter {o1 o2 t : Str} (ht : Both o1 o2 t) (h1 : Spec.Operand o1) (h2 : Spec.Operand o2) :
    ∃ w k, filter t c!"?_,_?" = ⟨true, [o1, o2], w, k⟩ := by
  obtain ⟨b, b', hb, hb', rfl⟩ := ht
  obtain ⟨k, h⟩ := joined_filter h1 hb hb' (.of h2.first)
  exact ⟨_, k, h⟩

end C24
open C24 Zop
open _root_.Spec.Z80 (Kind)

/-- **C24**, one operand.  INC, DEC, PUSH, POP, the shifts and rotations, SUB, AND, OR, XOR, CP: the bytes are those of the
    published table for what the operand is, or the instruction is refused and there is none. -/
theorem C24_one_partial {e : Entry} (he : e ∈ Z80.mz80) {k : HZ80} (hk : kindOf e = some k) (hk1 : (fin1 k).isSome = true) {o : Str}
    (hs : Spelled o) {self : Status → M RC} {fuel : Nat} {label : Option Str} {s : St} (ho : s.flags.orgGv = true) (hl : s.flags.lohi = true) :
    ∃ h, e.label.ptr = .handler h ∧
      Acts1 (_root_.Spec.Z80.one (C22.upper e)) (odd1 (C22.upper e)) o s (callHandler self fuel h e.label.modifier label (some o) s) := by
  refine ⟨_, kindOf_some hk, ?_⟩
  obtain ⟨f, hf⟩ := Option.isSome_iff_exists.1 hk1
  have hok := List.all_eq_true.1 one_ok e he
  unfold oneOk at hok
  rw [hk, Option.bind_some, hf] at hok
  simp only [List.all_eq_true, Bool.and_eq_true, Bool.or_eq_true, decide_eq_true_eq] at hok
  have main : Acts1 (_root_.Spec.Z80.one (C22.upper e)) (odd1 (C22.upper e)) o s (oneOp (f (BitVec.ofInt 32 e.label.modifier)) o s) :=
    oneOp_run (fun k => (hok k (mem_kinds k)).1) (.inl rfl) (fun k => (hok k (mem_kinds k)).2) hs ho hl
  change Acts1 _ _ o s ((do Z80.call k e.label.modifier (some o); pure RC.cont : M RC) s)
  refine Acts1.cont ?_
  cases k <;> simp only [fin1] at hf <;> first | cases hf | skip
  · change Acts1 _ _ o s (Z80.onreg8 _ (some o) s)
    rw [onreg8_eq]
    exact main
  · exact .toward (logical_one hs.operand s) main
  · change Acts1 _ _ o s (Z80.stackop _ (some o) s)
    rw [stack_eq]
    exact main
  · change Acts1 _ _ o s (Z80.incr _ (some o) s)
    rw [incr_eq]
    exact main

/-- **C24**, two operands.  LD, ADD, ADC, SBC, and SUB, AND, OR, XOR, CP with the accumulator mentioned. -/
theorem C24_two_partial {e : Entry} (he : e ∈ Z80.mz80) {k : HZ80} (hk : kindOf e = some k) (hk2 : (fin2 k).isSome = true) {o1 o2 t : Str}
    (h1 : Spelled o1) (h2 : Spelled o2) (ht : Both o1 o2 t) {self : Status → M RC} {fuel : Nat} {label : Option Str} {s : St}
    (ho : s.flags.orgGv = true) (hl : s.flags.lohi = true) :
    ∃ h, e.label.ptr = .handler h ∧
      Acts2 (_root_.Spec.Z80.two (C22.upper e)) (odd2 (C22.upper e)) o1 o2 s (callHandler self fuel h e.label.modifier label (some t) s) := by
  refine ⟨_, kindOf_some hk, ?_⟩
  obtain ⟨f, hf⟩ := Option.isSome_iff_exists.1 hk2
  have hok := List.all_eq_true.1 two_ok e he
  unfold twoOk at hok
  rw [hk, Option.bind_some, hf] at hok
  simp only [List.all_eq_true, Bool.and_eq_true, Bool.or_eq_true, decide_eq_true_eq] at hok
  have main : ∀ warn b, Acts2 (_root_.Spec.Z80.two (C22.upper e)) (odd2 (C22.upper e)) o1 o2 s
      (twoOps warn (f (BitVec.ofInt 32 e.label.modifier)).1 (f (BitVec.ofInt 32 e.label.modifier)).2 o1 o2 { s with bufpos := b }) := by
    intro warn b
    refine .before (gen_bufpos s b) ?_
    exact twoOps_run (fun k1 k2 => (hok k1 (mem_kinds k1) k2 (mem_kinds k2)).1)
      (fun k1 k2 h => h.elim .inl fun h => .inr (.inl h)) (fun k1 k2 => (hok k1 (mem_kinds k1) k2 (mem_kinds k2)).2) h1 h2 ho hl
  have hfi := ht.filter h1.operand h2.operand
  change Acts2 _ _ o1 o2 s ((do Z80.call k e.label.modifier (some t); pure RC.cont : M RC) s)
  refine Acts2.cont ?_
  cases k <;> simp only [fin2] at hf <;> first | cases hf | skip
  · obtain ⟨b, hb⟩ := logical_two (code := BitVec.ofInt 32 e.label.modifier) hfi s
    exact .toward hb (main true b)
  · obtain ⟨b, hb⟩ := arith_two (code := BitVec.ofInt 32 e.label.modifier) h2.operand hfi s
    exact .toward hb (main false b)
  · obtain ⟨b, hb⟩ := ld_two hfi s
    exact .toward hb (main false b)

namespace C24
open Z80 (Z Idx getreg docode isreg8 isreg16 mz80)
open _root_.Spec.Z80 (R8 Ix Pair Kind Arg Form Written Fixed Word Bl Item fill1 fill2)

/-! ### IN and OUT -/

def goPort (r : Int) (_ : Z) : Except Str Bool := if r = Z80.IMDATA ∨ r = 1 then .ok false else .error c!"port is (C) or (nn)"
def finPort (code : BitVec 32) (r1 r2 : Int) (_ : Z) : Fin :=
  if r1 = Z80.IMDATA then
    if r2 ≠ Z80.ACCUMULATOR then .error Z80.needacc else .ok (code, true)
  else if !isreg8 r2 || r2 = 6 then .error c!"operates on reg8 only"
  else .ok (BitVec.ofInt 32 (0xed40 + (r2 * 8 + (if code &&& 8 = 0 then 1 else 0))), false)

/-- The texts of the operands: the port in parentheses comes second with IN, first with OUT. -/
inductive PortText : Str → Str → Str → Str → Prop
  | inp {p r b b'} (hb : Bl b) (hb' : Bl b') : PortText c!"IN" p r (r ++ (b ++ ',' :: (b' ++ '(' :: (p ++ [')']))))
  | out {p r b b'} (hb : Bl b) (hb' : Bl b') : PortText c!"OUT" p r ('(' :: (p ++ (')' :: (b ++ ',' :: (b' ++ r)))))

theorem seek_lit {c x : Char} {e : Bool} {tail r rest : Str} (hc : c ≠ '_') (hx : litMatch c x = true)
    (ht : matchSeg Quote.zero e tail r = .ok rest) {a : Str} :
    ∀ {q : Quote}, NoTop c q a → q.run a = Quote.zero →
      seek e (c :: tail) q (a ++ x :: r) = .ok (a, rest, Quote.zero) := by
  induction a with
  | nil =>
    intro q _ hz
    simp only [Quote.run_nil] at hz
    subst hz
    rw [List.nil_append, seek, matchSeg_lit _ _ hc, if_pos ⟨rfl, hx⟩, ht]
  | cons y a ih =>
    intro q hn hz
    rw [List.cons_append, seek, matchSeg_lit _ _ hc, if_neg]
    · simp only
      rw [ih hn.tail hz]
    · rintro ⟨rfl, hm⟩
      exact hn [] y a rfl hm rfl

theorem filter_two_hit {s pat seg0 seg1 seg2 rest rest' a b : Str} (hp : splitPat pat = (seg0, [seg1, seg2])) (h1 : seg1 ≠ [])
    (h : matchSeg Quote.zero false seg0 s = .ok rest) (hs : seek false seg1 Quote.zero rest = .ok (a, rest', Quote.zero))
    (hr : (seg2 = [] ∧ b = rest') ∨ (seg2 ≠ [] ∧ seek true seg2 Quote.zero rest' = .ok (b, [], Quote.zero))) :
    ∃ w k, filter s pat = ⟨true, [a, b], w, k⟩ := by
  unfold filter
  rw [hp]
  simp only [List.isEmpty_cons]
  rw [h]
  simp only
  rw [filterWild]
  · simp only [List.isEmpty_cons]
    rw [hs]
    simp only
    rcases hr with ⟨rfl, rfl⟩ | ⟨h2, hr⟩
    · simp only [filterWild]
      exact ⟨_, _, rfl⟩
    · rw [filterWild]
      · simp only [List.isEmpty_nil]
        rw [hr]
        simp only [filterWild]
        exact ⟨_, _, rfl⟩
      · intro h; exact absurd h h2
  · intro h; exact absurd h h1

theorem portIn {p r b b' : Str} (hp : Spec.Operand p) (hr : Spec.Operand r) (hb : Bl b) (hb' : Bl b') :
    ∃ w k, filter (r ++ (b ++ ',' :: (b' ++ '(' :: (p ++ [')'])))) c!"?_,_(?)" = ⟨true, [r, p], w, k⟩ := by
  refine filter_two_hit (seg0 := []) (seg1 := c!"_,_(") (seg2 := [')']) rfl (by decide) (matchSeg_nil _ _)
    (seek_sep (rest := p ++ [')']) (by decide) (by decide) (.of hb) (by decide) ?_ (Operand.noComma hr) (Operand.zero hr) (Operand.trail hr))
    (.inr ⟨by decide, seek_lit (by decide) (by decide) (by rfl) (Bal.noClose hp.bal) (Operand.zero hp)⟩)
  rw [matchSeg_blank, skipBlanks_append (.of hb'), skipBlanks_cons (by decide), matchSeg_lit _ _ (by decide), if_pos ⟨rfl, by decide⟩, matchSeg_nil]
theorem portOut {p r b b' : Str} (hp : Spec.Operand p) (hr : Spec.Operand r) (hb : Bl b) (hb' : Bl b') :
    ∃ w k, filter ('(' :: (p ++ (')' :: (b ++ ',' :: (b' ++ r))))) c!"(?)_,_?" = ⟨true, [p, r], w, k⟩ := by
  refine filter_two_hit (seg0 := ['(']) (seg1 := c!")_,_") (seg2 := []) rfl (by decide)
    (by rw [matchSeg_lit _ _ (by decide), if_pos ⟨rfl, by decide⟩, matchSeg_nil])
    (seek_lit (by decide) (by decide) (rest := r) ?_ (Bal.noClose hp.bal) (Operand.zero hp)) (.inl ⟨rfl, rfl⟩)
  rw [matchSeg_blank, skipBlanks_append (.of hb), skipBlanks_cons (by decide), matchSeg_lit _ _ (by decide), if_pos ⟨rfl, by decide⟩,
    matchSeg_blank, skipBlanks_append (.of hb'), (Operand.lead hr).skip, matchSeg_nil]

theorem inout_tail {code : BitVec 32} {p r : Str} (s : St) :
    (do let (x, z) ← getreg {} p
        if x = Z80.IMDATA then do
          let (x, z) ← getreg z r
          if x ≠ Z80.ACCUMULATOR then error Z80.needacc
          else docode { z with arg8flag := true } code
        else if x = 1 then do
          let (x, z) ← getreg z r
          if !isreg8 x || x = 6 then error c!"operates on reg8 only"
          else
            let x := x * 8 + (if code &&& 8 = 0 then 1 else 0)
            docode z (BitVec.ofInt 32 (0xed40 + x))
        else error c!"port is (C) or (nn)" : M Unit) s = twoOps false goPort (finPort code) p r s := by
  refine congrFun ?_ _
  unfold twoOps goPort finPort
  congr 1
  funext ⟨r1, z⟩
  dsimp only
  by_cases h1 : r1 = Z80.IMDATA
  · rw [if_pos h1, if_pos (.inl h1)]
    change (getreg z r >>= _) = (getreg z r >>= _)
    congr 1
    funext ⟨r2, z2⟩
    dsimp only
    rw [if_pos h1]
    by_cases h2 : r2 ≠ Z80.ACCUMULATOR
    · rw [if_pos h2, if_pos h2]; rfl
    · rw [if_neg h2, if_neg h2]
      exact congrArg (fun z => docode z _) (withImm z2).symm
  · rw [if_neg h1]
    by_cases h2 : r1 = 1
    · rw [if_pos h2, if_pos (show r1 = Z80.IMDATA ∨ r1 = 1 from .inr h2)]
      change (getreg z r >>= _) = (getreg z r >>= _)
      congr 1
      funext ⟨r2, z2⟩
      dsimp only
      rw [if_neg h1]
      by_cases h3 : (!isreg8 r2 || decide (r2 = 6)) = true
      · rw [if_pos h3, if_pos h3]; rfl
      · rw [if_neg h3, if_neg h3]
        exact congrArg (fun z => docode z _) (noImm z2).symm
    · rw [if_neg h2, if_neg (by rintro (h | h); · exact h1 h
                                · exact h2 h)]

theorem inout_in {code : BitVec 32} (hc : code &&& 8 ≠ 0) {p r t : Str} (ht : ∃ w k, filter t c!"?_,_(?)" = ⟨true, [r, p], w, k⟩) (s : St) :
    ∃ b, Toward (Z80.inout code (some t) s) (twoOps false goPort (finPort code) p r { s with bufpos := b }) := by
  obtain ⟨w, k, ht⟩ := ht
  refine ⟨s.bufpos + w, ?_⟩
  rw [← inout_tail]
  unfold Z80.inout Z80.inoutOps
  rw [if_neg hc]
  rw [bind_assoc]
  exact Toward.bind (toward_filter2 ht s) (.refl _)
theorem inout_out {code : BitVec 32} (hc : code &&& 8 = 0) {p r t : Str} (ht : ∃ w k, filter t c!"(?)_,_?" = ⟨true, [p, r], w, k⟩) (s : St) :
    ∃ b, Toward (Z80.inout code (some t) s) (twoOps false goPort (finPort code) p r { s with bufpos := b }) := by
  obtain ⟨w, k, ht⟩ := ht
  refine ⟨s.bufpos + w, ?_⟩
  rw [← inout_tail]
  unfold Z80.inout Z80.inoutOps
  rw [if_pos hc]
  exact Toward.bind (toward_filter2 ht s) (.refl _)

def oddPort (k1 k2 : Kind) : Prop := k1 = .unknown ∨ k2 = .unknown
instance (k1 k2 : Kind) : Decidable (oddPort k1 k2) := inferInstanceAs (Decidable (_ ∨ _))
def portOk (e : Entry) : Bool :=
  (kindOf e ≠ some .inout) ||
  ((C22.upper e = c!"IN" && BitVec.ofInt 32 e.label.modifier &&& 8 ≠ 0 || C22.upper e = c!"OUT" && BitVec.ofInt 32 e.label.modifier &&& 8 = 0) &&
  kinds.all fun k1 => kinds.all fun k2 => good2 goPort (finPort (BitVec.ofInt 32 e.label.modifier)) k1 k2 &&
    (decide (oddPort k1 k2) || plan2 goPort (finPort (BitVec.ofInt 32 e.label.modifier)) k1 k2 = _root_.Spec.Z80.port (C22.upper e) k1 k2))
theorem port_ok : mz80.all portOk = true := by decide +kernel

end C24

/-- **C24**, IN and OUT. -/
theorem C24_port {e : Entry} (he : e ∈ Z80.mz80) (hk : kindOf e = some .inout) {p r t : Str}
    (h1 : Spelled p) (h2 : Spelled r) (ht : PortText (C22.upper e) p r t) {self : Status → M RC} {fuel : Nat} {label : Option Str} {s : St}
    (ho : s.flags.orgGv = true) (hl : s.flags.lohi = true) :
    ∃ h, e.label.ptr = .handler h ∧
      Acts2 (_root_.Spec.Z80.port (C22.upper e)) oddPort p r s (callHandler self fuel h e.label.modifier label (some t) s) := by
  refine ⟨_, kindOf_some hk, ?_⟩
  have hok := List.all_eq_true.1 port_ok e he
  unfold portOk at hok
  rw [hk] at hok
  simp only [ne_eq, not_true, decide_false, Bool.false_or, List.all_eq_true, Bool.and_eq_true, Bool.or_eq_true, decide_eq_true_eq] at hok
  have main : ∀ b, Acts2 (_root_.Spec.Z80.port (C22.upper e)) oddPort p r s
      (twoOps false goPort (finPort (BitVec.ofInt 32 e.label.modifier)) p r { s with bufpos := b }) := by
    intro b
    refine .before (gen_bufpos s b) ?_
    exact twoOps_run (fun k1 k2 => (hok.2 k1 (mem_kinds k1) k2 (mem_kinds k2)).1)
      (fun k1 k2 h => h) (fun k1 k2 => (hok.2 k1 (mem_kinds k1) k2 (mem_kinds k2)).2) h1 h2 ho hl
  change Acts2 _ _ p r s ((do Z80.inout (BitVec.ofInt 32 e.label.modifier) (some t); pure RC.cont : M RC) s)
  refine Acts2.cont ?_
  generalize hn : C22.upper e = name at *
  cases ht with
  | inp hb hb' =>
    rcases hok.1 with h | h
    · obtain ⟨b, hb⟩ := inout_in h.2 (portIn h1.operand h2.operand hb hb') s
      exact .toward hb (main b)
    · exact absurd h.1 (by decide)
  | out hb hb' =>
    rcases hok.1 with h | h
    · exact absurd h.1 (by decide)
    · obtain ⟨b, hb⟩ := inout_out h.2 (portOut h1.operand h2.operand hb hb') s
      exact .toward hb (main b)


namespace C24
open Z80 (Z Idx getreg docode isreg8 isreg16 mz80)
open _root_.Spec.Z80 (R8 Ix Pair Kind Arg Form Written Fixed Word Bl Item fill1 fill2)

/-- Refused with an error message (or the program stops). -/
def Refused (r : Res α) : Prop := (∃ s', r = .err s') ∨ ∃ w s', r = .stop w s'
theorem Refused.error {msg : Str} {s : St} : Refused ((error msg : M α) s) := error_cases msg s
theorem Refused.refuse {msg : Str} {s : St} : Refused ((Crasm.refuse msg : M α) s) := by
  unfold Crasm.refuse catchErr
  rcases error_cases (α := α) msg s with ⟨s', h⟩ | ⟨w, s', h⟩ <;> rw [h]
  · exact .inl ⟨_, rfl⟩
  · exact .inr ⟨w, s', rfl⟩
theorem Refused.stop {r : Res α} (h : ∃ w s', r = .stop w s') : Refused r := .inr h
theorem Refused.bind {m : M α} {f : α → M β} {s : St} (h : Refused (m s)) : Refused ((m >>= f) s) := by
  rcases h with ⟨s', h⟩ | ⟨w, s', h⟩
  · exact .inl ⟨s', run_err h⟩
  · exact .inr ⟨w, s', run_stop h⟩
theorem Refused.toward {r r' : Res α} (h : Toward r r') (h' : Refused r') : Refused r := by
  rcases h with rfl | ⟨t, rfl⟩
  · exact h'
  · exact .inr ⟨_, _, rfl⟩

/-- `e` is evaluated: it has no value, and the instruction is refused; or it stands for a number `v`, and `P v` holds; or for
    something else, and the instruction is refused. -/
def ForValue (e : Str) (s : St) (P : Int → Prop) (r : Res α) : Prop :=
  (∃ w s', r = .stop w s') ∨ (NoValue e s ∧ Refused r) ∨ ∃ m, Evals e m s ∧ if m.kind = .num then P m.val else Refused r

theorem forValue {e : Str} {s s0 : St} (g : Gen [] s s0) {f : Result → M α} {P : Int → Prop}
    (h : ∀ v s1, Gen [] s s1 → v.type = .absolute → parse (some e) s0 = .ok v s1 → (parseAbs (some e) >>= f) s0 = f v s1 → P v.value.toInt) :
    ForValue e s P ((parseAbs (some e) >>= f) s0) := by
  rcases res_cases (parse (some e) s0) with ⟨v, s1, hp⟩ | ⟨s1, hp⟩ | ⟨w, s1, hp⟩
  · refine .inr (.inr ⟨meaning v, ⟨s0, v, s1, g, hp, rfl⟩, ?_⟩)
    by_cases ht : v.type = .absolute
    · have hm : meaning v = ⟨.num, v.value.toInt⟩ := by unfold meaning; rw [if_pos ht]
      rw [hm]
      dsimp only
      rw [if_pos rfl]
      exact h v s1 (by simpa using g.trans (parse_gen hp)) ht hp (run_ok (parseAbs_of hp ht))
    · rw [if_neg (meaning_not ht)]
      unfold parseAbs
      rw [bind_assoc, run_ok hp, bind_assoc]
      unfold checktype
      rw [if_neg ht]
      exact Refused.bind .error
  · refine .inr (.inl ⟨⟨s0, s1, g, hp⟩, .inl ⟨s1, ?_⟩⟩)
    unfold parseAbs
    rw [bind_assoc, run_err hp]
  · refine .inl ⟨w, s1, ?_⟩
    unfold parseAbs
    rw [bind_assoc, run_stop hp]

/-! ### BIT, RES and SET -/

def finBit (code : BitVec 32) (b : Int) (r : Int) (_ : Z) : Fin :=
  if !isreg8 r then .error Z80.needreg8 else .ok (code + BitVec.ofInt 32 (r + b * 8), false)
def bitOk (e : Entry) : Bool :=
  (kindOf e ≠ some .bitop) ||
  (List.range 8).all fun b => kinds.all fun k => good1 (finBit (BitVec.ofInt 32 e.label.modifier) b) k &&
    (k = .unknown || plan1 (finBit (BitVec.ofInt 32 e.label.modifier) b) k = _root_.Spec.Z80.bits (C22.upper e) b k)
theorem bit_ok : mz80.all bitOk = true := by decide +kernel

/-- The number of the bit is taken from the low 32 bits of the value. -/
theorem int_of (v : Word) : let u := v.toInt % 2 ^ 32
    if u < 8 then (v.setWidth 32 : BitVec 32).toInt = u else (v.setWidth 32 : BitVec 32).toInt < 0 ∨ 7 < (v.setWidth 32 : BitVec 32).toInt := by
  dsimp only
  have hu : v.toInt % 2 ^ 32 = ((v.setWidth 32 : BitVec 32).toNat : Int) := by
    rw [BitVec.toInt_eq_toNat_cond, BitVec.toNat_setWidth]
    have := v.isLt
    split <;> omega
  have h1 := (v.setWidth 32 : BitVec 32).isLt
  rw [hu, BitVec.toInt_eq_toNat_cond]
  split <;> split <;> omega

theorem bitop_run {code : BitVec 32} {n o t : Str} (h1 : Spec.Operand n) (h2 : Spec.Operand o) (ht : Both n o t) (s : St) :
    ∃ b, Toward (Z80.bitop code (some t) s) ((do
      let r ← parseAbs (some n)
      let bit := (r.value.setWidth 32 : BitVec 32).toInt
      if bit < 0 ∨ 7 < bit then refuse c!"illegal bit number"
      else oneOp (finBit code bit) o : M Unit) { s with bufpos := b }) := by
  obtain ⟨w, k, hfi⟩ := ht.filter h1 h2
  refine ⟨s.bufpos + w, ?_⟩
  unfold Z80.bitop
  refine Toward.bind (toward_filter2 hfi s) (.inl ?_)
  refine congrFun ?_ _
  dsimp only
  congr 1
  funext r
  by_cases hb : (r.value.setWidth 32 : BitVec 32).toInt < 0 ∨ 7 < (r.value.setWidth 32 : BitVec 32).toInt
  · rw [if_pos hb, if_pos hb]
  · rw [if_neg hb, if_neg hb]
    unfold oneOp finBit
    congr 1
    funext ⟨r, z⟩
    dsimp only
    cases h : Z80.isreg8 r
    · rfl
    · exact congrArg (fun z => Z80.docode z _) (noImm z).symm

end C24

/-- **C24**, BIT, RES and SET.  Of the number of the bit only 32 bits count. -/
theorem C24_bit {e : Entry} (he : e ∈ Z80.mz80) (hk : kindOf e = some .bitop) {n o t : Str}
    (h1 : Spec.Operand n) (h2 : Spelled o) (ht : Both n o t) {self : Status → M RC} {fuel : Nat} {label : Option Str} {s : St}
    (ho : s.flags.orgGv = true) (hl : s.flags.lohi = true) :
    ∃ h, e.label.ptr = .handler h ∧ ∀ r, r = callHandler self fuel h e.label.modifier label (some t) s →
      ForValue n s (fun v => if v % 2 ^ 32 < 8 then Acts1 (_root_.Spec.Z80.bits (C22.upper e) (v % 2 ^ 32).toNat) (· = .unknown) o s r
        else Refused r) r := by
  refine ⟨_, kindOf_some hk, ?_⟩
  rintro r rfl
  have hok := List.all_eq_true.1 bit_ok e he
  unfold bitOk at hok
  rw [hk] at hok
  simp only [ne_eq, not_true, decide_false, Bool.false_or, List.all_eq_true, Bool.and_eq_true, Bool.or_eq_true, decide_eq_true_eq] at hok
  obtain ⟨b, hrun⟩ := bitop_run (code := BitVec.ofInt 32 e.label.modifier) h1 h2.operand ht s
  change ForValue n s (fun v => if v % 2 ^ 32 < 8 then Acts1 _ _ o s
    ((do Z80.bitop (BitVec.ofInt 32 e.label.modifier) (some t); pure RC.cont : M RC) s) else Refused
      ((do Z80.bitop (BitVec.ofInt 32 e.label.modifier) (some t); pure RC.cont : M RC) s))
    ((do Z80.bitop (BitVec.ofInt 32 e.label.modifier) (some t); pure RC.cont : M RC) s)
  rcases hrun with heq | ⟨s', h⟩
  rotate_left
  · exact .inl ⟨_, s', run_stop h⟩
  have cont : ∀ m m' : M Unit, ∀ s s', m s = m' s' → (do m; pure RC.cont : M RC) s = (do m'; pure RC.cont : M RC) s' := by
    intro m m' s s' h
    rw [bind_run, bind_run, h]
  rw [cont _ _ _ _ heq, bind_assoc]
  refine forValue (gen_bufpos s _) ?_
  intro v s1 g ht hp hr
  rw [hr]
  dsimp only
  have hi := int_of v.value
  dsimp only at hi
  by_cases hb : v.value.toInt % 2 ^ 32 < 8
  · rw [if_pos hb] at hi
    rw [if_pos hb, hi, if_neg (by omega)]
    refine .before g (Acts1.cont ?_)
    have hv : v.value.toInt % 2 ^ 32 = ((v.value.toInt % 2 ^ 32).toNat : Int) := by omega
    have hx := hok (v.value.toInt % 2 ^ 32).toNat (List.mem_range.2 (by omega))
    rw [← hv] at hx
    exact oneOp_run (odd := (· = .unknown)) (fun k => (hx k (mem_kinds k)).1) rfl (fun k => (hx k (mem_kinds k)).2) h2 (by rw [g.orgGv]; exact ho) (by rw [g.lohi]; exact hl)
  · rw [if_neg hb] at hi
    rw [if_neg hb, if_pos hi]
    exact Refused.bind .refuse

namespace C24
open Z80 (Z Idx getreg docode isreg8 isreg16 mz80)
open _root_.Spec.Z80 (R8 Ix Pair Kind Arg Form Written Fixed Word Bl Item fill1 fill2)

theorem Makes.cont {want : Option (List Byte)} {s : St} {m : M Unit} (h : Makes want s (m s)) :
    Makes want s ((do m; pure RC.cont : M RC) s) := Makes.then h fun _ => makes_pure
theorem Makes.toward {want : Option (List Byte)} {s : St} {r r' : Res α} (h : Toward r r') (h' : Makes want s r') : Makes want s r := by
  rcases h with rfl | ⟨t, rfl⟩
  · exact h'
  · trivial

/-! ### Instructions without operand -/

def asBytes (l : List Nat) : List Byte := l.map (BitVec.ofNat 8)
def simpleBytes (code : BitVec 32) : List Byte := (if code &&& 0xff00 ≠ 0 then [lowByte (code.sshiftRight 8)] else []) ++ [lowByte code]
def plainOk (e : Entry) : Bool :=
  (kindOf e ≠ some .simple) || C22.upper e = c!"CPDR" ||
  (_root_.Spec.Z80.plain.lookup (C22.upper e)).map asBytes = some (simpleBytes (BitVec.ofInt 32 e.label.modifier))
theorem plain_ok : mz80.all plainOk = true := by decide +kernel

end C24

/-- **C24**, instructions without operand (except CPDR). -/
theorem C24_plain_partial {e : Entry} (he : e ∈ Z80.mz80) (hk : kindOf e = some .simple) (hn : C22.upper e ≠ c!"CPDR")
    {self : Status → M RC} {fuel : Nat} {label : Option Str} {s : St} (ho : s.flags.orgGv = true) :
    ∃ h, e.label.ptr = .handler h ∧ ∃ bs, _root_.Spec.Z80.plain.lookup (C22.upper e) = some bs ∧
      Makes (some (asBytes bs)) s (callHandler self fuel h e.label.modifier label none s) ∧
      ∀ o, Refused (callHandler self fuel h e.label.modifier label (some o) s) := by
  refine ⟨_, kindOf_some hk, ?_⟩
  have hok := List.all_eq_true.1 plain_ok e he
  unfold plainOk at hok
  rw [hk] at hok
  simp only [ne_eq, not_true, decide_false, Bool.false_or, Bool.or_eq_true, decide_eq_true_eq] at hok
  have hok := hok.resolve_left hn
  obtain ⟨bs, h1, h2⟩ := Option.map_eq_some_iff.1 hok
  refine ⟨bs, h1, ?_, ?_⟩
  · rw [h2]
    change Makes _ s ((do Z80.simple (BitVec.ofInt 32 e.label.modifier) none; pure RC.cont : M RC) s)
    refine Makes.cont ?_
    unfold Z80.simple simpleBytes
    refine Makes.seq (makes_when fun _ => makes_insert8 ho) fun _ s1 g => ?_
    have ho1 := ho; rw [← g.orgGv] at ho1
    exact Makes.then (makes_insert8 ho1) fun _ => makes_pure
  · intro o
    change Refused ((do Z80.simple (BitVec.ofInt 32 e.label.modifier) (some o); pure RC.cont : M RC) s)
    refine Refused.bind ?_
    unfold Z80.simple
    rcases res_cases (whenM (BitVec.ofInt 32 e.label.modifier &&& 0xff00 ≠ 0) (insert8 (lowByte ((BitVec.ofInt 32 e.label.modifier).sshiftRight 8))) s)
      with ⟨a, s1, h⟩ | ⟨s1, h⟩ | ⟨w, s1, h⟩
    · rw [run_ok h]
      rcases res_cases (insert8 (lowByte (BitVec.ofInt 32 e.label.modifier)) s1) with ⟨a, s2, h⟩ | ⟨s2, h⟩ | ⟨w, s2, h⟩
      · rw [run_ok h]
        exact Refused.error
      · exact .inl ⟨s2, run_err h⟩
      · exact .inr ⟨w, s2, run_stop h⟩
    · exact .inl ⟨s1, run_err h⟩
    · exact .inr ⟨w, s1, run_stop h⟩

/-- **C24**, IM. -/
theorem C24_im {e : Entry} (he : e ∈ Z80.mz80) (hn : C22.upper e = c!"IM") {o : Str}
    {self : Status → M RC} {fuel : Nat} {label : Option Str} {s : St} (ho : s.flags.orgGv = true) (hl : s.flags.lohi = true) :
    ∃ h, e.label.ptr = .handler h ∧ ∀ r, r = callHandler self fuel h e.label.modifier label (some o) s →
      ForValue o s (fun v => Makes ((_root_.Spec.Z80.im v).map asBytes) s r) r := by
  have hk : kindOf e = some .im := by revert e; decide +kernel
  refine ⟨_, kindOf_some hk, ?_⟩
  rintro r rfl
  change ForValue o s (fun v => Makes _ s ((do Z80.im (some o); pure RC.cont : M RC) s)) ((do Z80.im (some o); pure RC.cont : M RC) s)
  unfold Z80.im
  rw [bind_assoc]
  refine forValue (.refl _) ?_
  intro v s1 g ht hp hr
  rw [hr]
  refine Makes.before g (Makes.cont ?_)
  have ho1 := ho; rw [← g.orgGv] at ho1
  have hl1 := hl; rw [← g.lohi] at hl1
  unfold _root_.Spec.Z80.im
  have hv : ∀ k : Nat, k < 3 → (v.value = BitVec.ofNat 64 k ↔ v.value.toInt = k) := by
    intro k hk
    have h0 : (BitVec.ofNat 64 k).toInt = k := by
      have : ∀ k < 3, (BitVec.ofNat 64 k).toInt = (k : Int) := by decide
      exact this k hk
    constructor
    · intro h; rw [h, h0]
    · intro h; exact BitVec.eq_of_toInt_eq (by rw [h, h0])
  have hv0 : v.value = 0 ↔ v.value.toInt = 0 := hv 0 (by omega)
  have hv1 : v.value = 1 ↔ v.value.toInt = 1 := hv 1 (by omega)
  have hv2 : v.value = 2 ↔ v.value.toInt = 2 := hv 2 (by omega)
  by_cases h0 : v.value = 0
  · rw [if_pos h0, if_pos (hv0.1 h0)]
    exact makes_insert16 (x := 0x46ed) ho1 hl1
  rw [if_neg h0, if_neg (fun h => h0 (hv0.2 h))]
  by_cases h1 : v.value = 1
  · rw [if_pos h1, if_pos (hv1.1 h1)]
    exact makes_insert16 (x := 0x56ed) ho1 hl1
  rw [if_neg h1, if_neg (fun h => h1 (hv1.2 h))]
  by_cases h2 : v.value = 2
  · rw [if_pos h2, if_pos (hv2.1 h2)]
    exact makes_insert16 (x := 0x5eed) ho1 hl1
  rw [if_neg h2, if_neg (fun h => h2 (hv2.2 h))]
  rcases res_cases (insert16 0 s1) with ⟨a, s2, h⟩ | ⟨s2, h⟩ | ⟨w, s2, h⟩
  · rw [run_ok h]; exact Makes.bad
  · rw [run_err h]; rfl
  · rw [run_stop h]; trivial

namespace C24

def rstByte (v : Word) : Option (List Byte) :=
  let w := if v &&& 0xfff8 = 0 then v <<< 3 else v
  if w &&& 0xffc7 ≠ 0 then none else some [(0xc7 ||| w).setWidth 8]

theorem high_bits {n m : Nat} (hn : n < 65536) (hm : m >>> 6 = 2 ^ 10 - 1) (h : n &&& m = 0) : n < 64 := by
  have h1 : (n &&& m) >>> 6 = 0 := by rw [h]; rfl
  rw [Nat.shiftRight_and_distrib, hm, Nat.and_two_pow_sub_one_eq_mod, Nat.shiftRight_eq_div_pow] at h1
  omega
theorem rst_low : ∀ n < 64, (_root_.Spec.Z80.rst ((n : Nat) : Int)).map asBytes = rstByte (BitVec.ofNat 64 n) := by decide +kernel
theorem rst_small {v : Word} (h : v.toNat < 65536) : (_root_.Spec.Z80.rst (v.toNat : Int)).map asBytes = rstByte v := by
  by_cases hl : v.toNat < 64
  · have := rst_low _ hl
    rwa [BitVec.ofNat_toNat, BitVec.setWidth_eq] at this
  · have h1 : ¬ v &&& 0xfff8 = 0 := fun he => hl <| high_bits (m := 0xfff8) h (by decide) <| by
      have := congrArg BitVec.toNat he
      rwa [BitVec.toNat_and] at this
    have h2 : v &&& 0xffc7 ≠ 0 := fun he => hl <| high_bits (m := 0xffc7) h (by decide) <| by
      have := congrArg BitVec.toNat he
      rwa [BitVec.toNat_and] at this
    unfold rstByte
    simp only [if_neg h1, if_pos h2]
    unfold _root_.Spec.Z80.rst
    rw [if_neg (by omega), if_neg (by omega)]
    rfl

theorem and_mod (a m : Nat) (hm : m < 65536) : a &&& m = (a % 65536) &&& m := by
  have h1 := Nat.and_mod_two_pow (a := a) (b := m) (n := 16)
  rw [Nat.mod_eq_of_lt (a := m) (by omega), Nat.mod_eq_of_lt (Nat.lt_of_le_of_lt Nat.and_le_right (by omega))] at h1
  exact h1
/-- Only 16 bits of the value are looked at. -/
theorem rst_mod {v w : Word} (h : v.toNat % 65536 = w.toNat % 65536) : rstByte v = rstByte w := by
  have key : ∀ {x y : Word} (m : Word), m.toNat < 65536 → x.toNat % 65536 = y.toNat % 65536 → x &&& m = y &&& m := by
    intro x y m hm hxy
    apply BitVec.eq_of_toNat_eq
    rw [BitVec.toNat_and, BitVec.toNat_and, and_mod _ _ hm, hxy, ← and_mod _ _ hm]
  have low : ∀ {x y : Word}, x.toNat % 65536 = y.toNat % 65536 →
      (if x &&& 0xffc7 ≠ 0 then none else some [((0xc7 ||| x).setWidth 8 : Byte)]) =
      (if y &&& 0xffc7 ≠ 0 then none else some [((0xc7 ||| y).setWidth 8 : Byte)]) := by
    intro x y hxy
    rw [key 0xffc7 (by decide) hxy]
    have : ((0xc7 ||| x).setWidth 8 : Byte) = (0xc7 ||| y).setWidth 8 := by
      apply BitVec.eq_of_toNat_eq
      rw [BitVec.toNat_setWidth, BitVec.toNat_setWidth, BitVec.toNat_or, BitVec.toNat_or, Nat.or_mod_two_pow, Nat.or_mod_two_pow,
        show x.toNat % 2 ^ 8 = y.toNat % 2 ^ 8 by omega]
    rw [this]
  unfold rstByte
  rw [key 0xfff8 (by decide) h]
  by_cases h0 : w &&& 0xfff8 = 0
  · rw [if_pos h0, if_pos h0]
    refine low ?_
    rw [BitVec.toNat_shiftLeft, BitVec.toNat_shiftLeft, Nat.shiftLeft_eq, Nat.shiftLeft_eq]
    omega
  · rw [if_neg h0, if_neg h0]
    exact low h
theorem rst_all (v : Word) : (_root_.Spec.Z80.rst (v.toInt % 65536)).map asBytes = rstByte v := by
  have h1 : v.toInt % 65536 = ((BitVec.ofNat 64 (v.toNat % 65536) : Word).toNat : Int) := by
    rw [BitVec.toInt_eq_toNat_cond, BitVec.toNat_ofNat]
    have := v.isLt
    split <;> omega
  rw [h1, rst_small (by rw [BitVec.toNat_ofNat]; omega)]
  exact rst_mod (by rw [BitVec.toNat_ofNat]; omega)

end C24

/-- **C24**, RST.  Of the value only 16 bits count. -/
theorem C24_rst {e : Entry} (he : e ∈ Z80.mz80) (hn : C22.upper e = c!"RST") {o : Str}
    {self : Status → M RC} {fuel : Nat} {label : Option Str} {s : St} (ho : s.flags.orgGv = true) :
    ∃ h, e.label.ptr = .handler h ∧ ∀ r, r = callHandler self fuel h e.label.modifier label (some o) s →
      ForValue o s (fun v => Makes ((_root_.Spec.Z80.rst (v % 65536)).map asBytes) s r) r := by
  have hk : kindOf e = some .rst := by revert e; decide +kernel
  refine ⟨_, kindOf_some hk, ?_⟩
  rintro r rfl
  change ForValue o s (fun v => Makes _ s ((do Z80.rst (some o); pure RC.cont : M RC) s)) ((do Z80.rst (some o); pure RC.cont : M RC) s)
  unfold Z80.rst
  rw [bind_assoc]
  refine forValue (.refl _) ?_
  intro v s1 g ht hp hr
  rw [hr]
  refine Makes.before g (Makes.cont ?_)
  have ho1 := ho; rw [← g.orgGv] at ho1
  rw [rst_all]
  unfold rstByte
  generalize (if v.value &&& 0xfff8 = 0 then v.value <<< 3 else v.value) = w
  dsimp only
  by_cases hb : w &&& 0xffc7 ≠ 0
  · rw [if_pos hb]
    rcases res_cases (insert8 ((0xc7 ||| w).setWidth 8) s1) with ⟨a, s2, h⟩ | ⟨s2, h⟩ | ⟨w, s2, h⟩
    · rw [run_ok h]
      unfold whenM
      rw [if_pos hb]
      exact Makes.bad
    · rw [run_err h]; rfl
    · rw [run_stop h]; trivial
  · rw [if_neg hb]
    refine Makes.then (makes_insert8 ho1) fun _ => ?_
    unfold whenM
    rw [if_neg hb]
    exact makes_pure


/-! ### Conditions -/

namespace C24

theorem low_eq (v : Word) : BitVec.ofInt 8 v.toInt = ((v.setWidth 16 : BitVec 16).setWidth 8 : Byte) := by
  apply BitVec.eq_of_toNat_eq
  rw [BitVec.toNat_ofInt, BitVec.toInt_eq_toNat_cond]
  simp only [BitVec.toNat_setWidth]
  have := v.isLt
  split <;> omega
theorem high_eq (v : Word) : BitVec.ofInt 8 (v.toInt / 256) = (((v.setWidth 16 : BitVec 16) >>> 8).setWidth 8 : Byte) := by
  apply BitVec.eq_of_toNat_eq
  rw [BitVec.toNat_ofInt, BitVec.toInt_eq_toNat_cond]
  simp only [BitVec.toNat_setWidth, BitVec.toNat_ushiftRight, Nat.shiftRight_eq_div_pow]
  have := v.isLt
  split <;> omega

def condIdx (u : Str) : Nat → List Str → Option Nat
  | _, [] => none
  | k, q :: qs => if u = q.map toupper then some k else condIdx u (k + 1) qs
theorem condIdx_zip {u : Str} : ∀ {qs : List Str} {k : Nat}, (∀ q ∈ qs, q.map toupper = q) → condIdx u k qs = (qs.zipIdx k).lookup u := by
  intro qs
  induction qs with
  | nil => intro k _; rfl
  | cons q qs ih =>
    intro k h
    rw [List.zipIdx_cons, List.lookup_cons, condIdx, h q (by simp), ih fun q hq => h q (by simp [hq])]
    by_cases hu : u = q
    · rw [if_pos hu, beq_iff_eq.2 hu]
    · rw [if_neg hu, beq_eq_false_iff_ne.2 hu]
theorem condIdx_eq (u : Str) : condIdx u 0 Z80.condcodes = _root_.Spec.Z80.conds.lookup u :=
  condIdx_zip (by decide)
theorem toward_cond {cc : Str} {s : St} : ∀ {qs : List Str} {k : Nat}, (∀ q ∈ qs, Word1 q) →
    Toward (Z80.findCond cc k qs s) (.ok (condIdx (cc.map toupper) k qs) s) := by
  intro qs
  induction qs with
  | nil => intro k _; exact .refl _
  | cons q qs ih =>
    intro k h
    unfold Z80.findCond
    have h0 := filter0_word (h q (by simp)) cc s
    split at h0
    · exact .inr ⟨_, run_stop h0⟩
    · refine Toward.bind (.inl h0) ?_
      unfold condIdx
      by_cases hu : cc.map toupper = q.map toupper
      · rw [if_pos hu, decide_eq_true hu]; exact .refl _
      · rw [if_neg hu, decide_eq_false hu]
        exact ih fun q hq => h q (by simp [hq])
theorem cond_run (cc : Str) (s : St) :
    Toward (Z80.findCond cc 0 Z80.condcodes s) (.ok (_root_.Spec.Z80.conds.lookup (cc.map toupper)) s) := by
  rw [← condIdx_eq]
  exact toward_cond (by decide)

end C24

/-- **C24**, RET. -/
theorem C24_ret {e : Entry} (he : e ∈ Z80.mz80) (hn : C22.upper e = c!"RET")
    {self : Status → M RC} {fuel : Nat} {label : Option Str} {s : St} (ho : s.flags.orgGv = true) :
    ∃ h, e.label.ptr = .handler h ∧ Makes (some [0xC9]) s (callHandler self fuel h e.label.modifier label none s) ∧
      ∀ o, o ≠ [] → Makes ((_root_.Spec.Z80.conds.lookup (o.map toupper)).map fun i => [BitVec.ofNat 8 (0xC0 + 8 * i)]) s
        (callHandler self fuel h e.label.modifier label (some o) s) := by
  have hk : kindOf e = some .ret := by revert e; decide +kernel
  refine ⟨_, kindOf_some hk, ?_, ?_⟩
  · exact Makes.cont (m := Z80.ret none) (makes_insert8 ho)
  · intro o hne
    change Makes _ s ((do Z80.ret (some o); pure RC.cont : M RC) s)
    refine Makes.cont ?_
    unfold Z80.ret
    cases o with
    | nil => exact absurd rfl hne
    | cons c o =>
      refine Makes.toward (Toward.bind (cond_run _ s) (.refl _)) ?_
      cases hc : _root_.Spec.Z80.conds.lookup ((c :: o).map toupper) with
      | none => exact Makes.bad
      | some i =>
        have := makes_insert8 (x := 0xc0 + BitVec.ofNat 8 (8 * i)) ho
        rw [Option.map_some, BitVec.ofNat_add]
        exact this

namespace C24
/-- The bytes of JP and CALL: an opcode and an address. -/
def jumpBytes (op : Nat) (v : Int) : List Byte := [BitVec.ofNat 8 op, BitVec.ofInt 8 v, BitVec.ofInt 8 (v / 256)]

theorem makes_jump {op : Byte} {n : Nat} (hop : op = BitVec.ofNat 8 n) {v : Word} {s : St} (ho : s.flags.orgGv = true) (hl : s.flags.lohi = true) :
    Makes (some (jumpBytes n v.toInt)) s ((do insert8 op; insert16 (v.setWidth 16); pure RC.cont : M RC) s) := by
  unfold jumpBytes
  rw [low_eq, high_eq, ← hop]
  refine Makes.seq (b1 := [op]) (makes_insert8 ho) fun _ s1 g => ?_
  have ho1 := ho; rw [← g.orgGv] at ho1
  have hl1 := hl; rw [← g.lohi] at hl1
  exact Makes.then (makes_insert16 ho1 hl1) fun _ => makes_pure

/-- The common part of JP and CALL. -/
def jumpRun (base plain : Byte) (o : Str) : M RC := do
  Z80.condJump base plain (some o); pure RC.cont

theorem jump_plain {base plain : Byte} {n : Nat} (hn : plain = BitVec.ofNat 8 n) {o : Str} (hop : Spec.Operand o) {s : St}
    (ho : s.flags.orgGv = true) (hl : s.flags.lohi = true) :
    ForValue o s (fun v => Makes (some (jumpBytes n v)) s (jumpRun base plain o s)) (jumpRun base plain o s) := by
  have hr : Toward (jumpRun base plain o s) ((do
      let r ← parseAbs (some o)
      insert8 plain; insert16 (r.value.setWidth 16); pure RC.cont : M RC) s) := by
    unfold jumpRun Z80.condJump Z80.searchcond
    simp only [bind_assoc]
    exact Toward.bind (toward_miss2 (sep_miss hop) s) (.refl _)
  rcases hr with hr | ⟨t, hr⟩
  rotate_left
  · exact .inl ⟨_, _, hr⟩
  rw [hr]
  refine forValue (.refl _) ?_
  intro v s1 g ht hp hr
  rw [hr]
  exact .before g (makes_jump hn (by rw [g.orgGv]; exact ho) (by rw [g.lohi]; exact hl))

theorem jump_cond {base plain : Byte} {n i : Nat} (hn : base = BitVec.ofNat 8 n) {cc o t : Str} (h1 : Spec.Operand cc) (h2 : Spec.Operand o)
    (hc : _root_.Spec.Z80.conds.lookup (cc.map toupper) = some i) (ht : Both cc o t) {s : St}
    (ho : s.flags.orgGv = true) (hl : s.flags.lohi = true) :
    ForValue o s (fun v => Makes (some (jumpBytes (n + 8 * i) v)) s (jumpRun base plain t s)) (jumpRun base plain t s) := by
  obtain ⟨w, k, hf⟩ := ht.filter h1 h2
  have hr : Toward (jumpRun base plain t s) ((do
      let r ← parseAbs (some o)
      insert8 (base + BitVec.ofNat 8 (8 * i)); insert16 (r.value.setWidth 16); pure RC.cont : M RC) { s with bufpos := s.bufpos + w }) := by
    unfold jumpRun Z80.condJump Z80.searchcond
    simp only [bind_assoc]
    refine Toward.bind (toward_filter2 hf s) ?_
    dsimp only
    rw [bind_assoc]
    have := cond_run cc { s with bufpos := s.bufpos + w }
    rw [hc] at this
    exact Toward.bind this (.refl _)
  rcases hr with hr | ⟨t, hr⟩
  rotate_left
  · exact .inl ⟨_, _, hr⟩
  rw [hr]
  refine forValue (gen_bufpos s _) ?_
  intro v s1 g ht hp hr
  rw [hr]
  exact .before g (makes_jump (by rw [BitVec.ofNat_add, hn]) (by rw [g.orgGv]; exact ho) (by rw [g.lohi]; exact hl))

theorem jump_bad {base plain : Byte} {cc o t : Str} (h1 : Spec.Operand cc) (h2 : Spec.Operand o)
    (hc : _root_.Spec.Z80.conds.lookup (cc.map toupper) = none) (ht : Both cc o t) {s : St} : Refused (jumpRun base plain t s) := by
  obtain ⟨w, k, hf⟩ := ht.filter h1 h2
  unfold jumpRun Z80.condJump Z80.searchcond
  simp only [bind_assoc]
  refine Refused.toward (Toward.bind (toward_filter2 hf s) (.refl _)) ?_
  dsimp only
  rw [bind_assoc]
  have := cond_run cc { s with bufpos := s.bufpos + w }
  rw [hc] at this
  refine Refused.toward (Toward.bind this (.refl _)) ?_
  exact Refused.bind Refused.error

/-- Text that does not begin with a parenthesis. -/
def Bare (t : Str) : Prop := ∀ c r, t = c :: r → c ≠ '('

theorem jump_run {e : Entry} (he : e ∈ Z80.mz80) {p c : Nat} (hn : (C22.upper e, p, c) ∈ _root_.Spec.Z80.jumps) {t : Str}
    (hb : C22.upper e = c!"JP" → Bare t) (s : St) :
    ∃ k, kindOf e = some k ∧ Toward ((do Z80.call k e.label.modifier (some t); pure RC.cont : M RC) s)
      (jumpRun (BitVec.ofNat 8 c) (BitVec.ofNat 8 p) t s) := by
  have hk : (C22.upper e = c!"JP" ∧ kindOf e = some .jp ∧ p = 0xc3 ∧ c = 0xc2) ∨ (kindOf e = some .call ∧ p = 0xcd ∧ c = 0xc4) := by
    simp only [_root_.Spec.Z80.jumps, List.mem_cons, Prod.mk.injEq, List.not_mem_nil, or_false] at hn
    rcases hn with ⟨hn, rfl, rfl⟩ | ⟨hn, rfl, rfl⟩
    · refine .inl ⟨hn, ?_, rfl, rfl⟩
      clear hb; revert e; decide +kernel
    · refine .inr ⟨?_, rfl, rfl⟩
      clear hb; revert e; decide +kernel
  rcases hk with ⟨hj, hk, rfl, rfl⟩ | ⟨hk, rfl, rfl⟩
  · refine ⟨_, hk, ?_⟩
    change Toward ((do Z80.jp (some t); pure RC.cont : M RC) s) _
    unfold Z80.jp jumpRun
    rw [bind_assoc]
    exact Toward.bind (toward_miss1 (paren_misses (hb hj)).2.2 s) (.refl _)
  · exact ⟨_, hk, .refl _⟩

theorem ForValue.toward {e : Str} {s : St} {want : Int → Option (List Byte)} {r r' : Res α} (h : Toward r r')
    (h' : ForValue e s (fun v => Makes (want v) s r') r') : ForValue e s (fun v => Makes (want v) s r) r := by
  rcases h with rfl | ⟨t, rfl⟩
  · exact h'
  · exact .inl ⟨_, _, rfl⟩

def finJp (r : Int) (_ : Z) : Fin := if r = Z80.HLREGISTER then .ok (0xe9, false) else .error c!"illegal indirection"
end C24

/-- **C24**, JP and CALL with an address. -/
theorem C24_jump {e : Entry} (he : e ∈ Z80.mz80) {p c : Nat} (hn : (C22.upper e, p, c) ∈ _root_.Spec.Z80.jumps) {o : Str}
    (hop : Spec.Operand o) (hb : C22.upper e = c!"JP" → Bare o) {self : Status → M RC} {fuel : Nat} {label : Option Str} {s : St}
    (ho : s.flags.orgGv = true) (hl : s.flags.lohi = true) :
    ∃ h, e.label.ptr = .handler h ∧ ∀ r, r = callHandler self fuel h e.label.modifier label (some o) s →
      ForValue o s (fun v => Makes (some (jumpBytes p v)) s r) r := by
  obtain ⟨k, hk, hr⟩ := jump_run he hn hb s
  refine ⟨_, kindOf_some hk, ?_⟩
  rintro r rfl
  exact ForValue.toward hr (jump_plain rfl hop ho hl)

/-- **C24**, JP and CALL with a condition and an address. -/
theorem C24_jump_cond {e : Entry} (he : e ∈ Z80.mz80) {p c : Nat} (hn : (C22.upper e, p, c) ∈ _root_.Spec.Z80.jumps) {cc o t : Str}
    (h1 : Spec.Operand cc) (h2 : Spec.Operand o) (hb : C22.upper e = c!"JP" → Bare cc) (ht : Both cc o t)
    {self : Status → M RC} {fuel : Nat} {label : Option Str} {s : St}
    (ho : s.flags.orgGv = true) (hl : s.flags.lohi = true) :
    ∃ h, e.label.ptr = .handler h ∧ ∀ r, r = callHandler self fuel h e.label.modifier label (some t) s →
      match _root_.Spec.Z80.conds.lookup (cc.map toupper) with
      | some i => ForValue o s (fun v => Makes (some (jumpBytes (c + 8 * i) v)) s r) r
      | none => Refused r := by
  have hb' : C22.upper e = c!"JP" → Bare t := by
    intro h
    obtain ⟨b, b', -, -, rfl⟩ := ht
    cases cc with
    | nil => exact absurd rfl h1.ne
    | cons x cc =>
      intro y r hy
      simp only [List.cons_append, List.cons.injEq] at hy
      rw [← hy.1]
      exact hb h x cc rfl
  obtain ⟨k, hk, hr⟩ := jump_run he hn hb' s
  refine ⟨_, kindOf_some hk, ?_⟩
  rintro r rfl
  cases hc : _root_.Spec.Z80.conds.lookup (cc.map toupper) with
  | some i => exact ForValue.toward hr (jump_cond rfl h1 h2 hc ht ho hl)
  | none => exact Refused.toward hr (jump_bad h1 h2 hc ht)

/-- **C24**, JP with a register in parentheses. -/
theorem C24_jump_reg {e : Entry} (he : e ∈ Z80.mz80) (hn : C22.upper e = c!"JP") {o b1 b2 : Str}
    (hop : Spelled o) (hb1 : _root_.Spec.Z80.Bl b1) (hb2 : _root_.Spec.Z80.Bl b2) {self : Status → M RC} {fuel : Nat} {label : Option Str} {s : St}
    (ho : s.flags.orgGv = true) (hl : s.flags.lohi = true) :
    ∃ h, e.label.ptr = .handler h ∧ Acts1 _root_.Spec.Z80.jpTo (· = .unknown) o s
      (callHandler self fuel h e.label.modifier label (some ('(' :: (b1 ++ (o ++ (b2 ++ [')']))))) s) := by
  have hk : kindOf e = some .jp := by revert e; decide +kernel
  refine ⟨_, kindOf_some hk, ?_⟩
  change Acts1 _ _ o s ((do Z80.jp (some _); pure RC.cont : M RC) s)
  refine Acts1.cont ?_
  obtain ⟨n, k, hf⟩ := paren_hit hop.operand (Blank.of hb1) (Blank.of hb2)
  have hr : Toward (Z80.jp (some ('(' :: (b1 ++ (o ++ (b2 ++ [')']))))) s) (oneOp finJp o { s with bufpos := s.bufpos + n }) := by
    unfold Z80.jp
    refine Toward.bind (toward_filter1 hf s) (.inl ?_)
    refine congrFun ?_ _
    dsimp only
    unfold oneOp finJp
    congr 1
    funext ⟨r, z⟩
    dsimp only
    by_cases h : r = Z80.HLREGISTER
    · rw [if_pos h, if_pos h]
      exact congrArg (fun z => Z80.docode z _) (noImm z).symm
    · rw [if_neg h, if_neg h]; rfl
  refine Acts1.toward hr (.before (gen_bufpos s (s.bufpos + n)) ?_)
  have hok : ∀ k ∈ kinds, good1 finJp k = true ∧ (k = .unknown ∨ plan1 finJp k = _root_.Spec.Z80.jpTo k) := by decide +kernel
  exact oneOp_run (odd := (· = .unknown)) (fun k => (hok k (mem_kinds k)).1) rfl (fun k => (hok k (mem_kinds k)).2) hop ho hl


/-! ### EX -/

namespace C24

/-- Each character of a pattern occurs in a text that matches. -/
theorem match_contains {q : Quote} {e : Bool} : ∀ {seg s rest : Str}, matchSeg q e seg s = .ok rest →
    ∀ p ∈ seg, p ≠ '_' → ∃ c ∈ s, litMatch p c = true := by
  intro seg
  induction seg with
  | nil => intro s rest _ p hp; cases hp
  | cons a seg ih =>
    intro s rest h p hp hne
    by_cases ha : a = '_'
    · subst ha
      rw [matchSeg_blank] at h
      rcases List.mem_cons.1 hp with rfl | hp
      · exact absurd rfl hne
      obtain ⟨c, hc, hm⟩ := ih h p hp hne
      obtain ⟨b, h1, h2, h3⟩ := skipBlanks_spec s
      exact ⟨c, by rw [h1]; simp [hc], hm⟩
    · cases s with
      | nil => rw [matchSeg_end _ _ ha] at h; cases h
      | cons x s =>
        rw [matchSeg_lit _ _ ha] at h
        split at h
        · next hx =>
          rcases List.mem_cons.1 hp with rfl | hp
          · exact ⟨x, by simp, hx.2⟩
          · obtain ⟨c, hc, hm⟩ := ih h p hp hne
            exact ⟨c, by simp [hc], hm⟩
        · cases h
/-- The last character of a pattern that has to match the whole text. -/
theorem match_last {q : Quote} {p : Char} (hp : p ≠ '_') : ∀ {seg s rest : Str}, matchSeg q true (seg ++ [p]) s = .ok rest →
    ∃ l c, s = l ++ [c] ∧ litMatch p c = true := by
  intro seg
  induction seg with
  | nil =>
    intro s rest h
    cases s with
    | nil => rw [List.nil_append, matchSeg_end _ _ hp] at h; cases h
    | cons x s =>
      rw [List.nil_append, matchSeg_lit _ _ hp] at h
      split at h
      · next hx =>
        rw [matchSeg, if_pos rfl] at h
        split at h
        · next hs => exact ⟨[], x, by rw [hs.2]; rfl, hx.2⟩
        · cases h
      · cases h
  | cons a seg ih =>
    intro s rest h
    rw [List.cons_append] at h
    by_cases ha : a = '_'
    · subst ha
      rw [matchSeg_blank] at h
      obtain ⟨l, c, e, hm⟩ := ih h
      obtain ⟨b, h1, h2, h3⟩ := skipBlanks_spec s
      exact ⟨b ++ l, c, by rw [h1, e, List.append_assoc], hm⟩
    · cases s with
      | nil => rw [matchSeg_end _ _ ha] at h; cases h
      | cons x s =>
        rw [matchSeg_lit _ _ ha] at h
        split at h
        · obtain ⟨l, c, e, hm⟩ := ih h
          exact ⟨x :: l, c, by rw [e]; rfl, hm⟩
        · cases h
theorem seg_bad {q : Quote} {e : Bool} {seg s : Str} (h : ∀ r, matchSeg q e seg s ≠ .ok r) : ∃ b, matchSeg q e seg s = .bad b := by
  cases hm : matchSeg q e seg s with
  | ok r => exact absurd hm (h r)
  | bad b => exact ⟨b, rfl⟩
/-- A text without some character of the pattern. -/
theorem lacks {q : Quote} {e : Bool} {seg s : Str} {p : Char} (hp : p ∈ seg) (hne : p ≠ '_') (ha : isalpha p = false) (hs : p ≠ ' ')
    (h : ∀ c ∈ s, c ≠ p) : ∃ b, matchSeg q e seg s = .bad b :=
  seg_bad fun r hr => by
    obtain ⟨c, hc, hm⟩ := match_contains hr p hp hne
    exact h c hc (litMatch_eq ha hs hm)

/-- A word of two letters. -/
structure Two (w : Str) (p1 p2 : Char) : Prop where
  eq : w = [p1, p2]
  h1 : p1 ≠ '_'
  h2 : p2 ≠ '_'
  u1 : toupper p1 = p1
  u2 : toupper p2 = p2
  a1 : isalpha p1 = true
  a2 : isalpha p2 = true
theorem twoDE : Two c!"DE" 'D' 'E' := by constructor <;> decide
theorem twoHL : Two c!"HL" 'H' 'L' := by constructor <;> decide
theorem twoSP : Two c!"SP" 'S' 'P' := by constructor <;> decide
theorem twoAF : Two c!"AF" 'A' 'F' := by constructor <;> decide

theorem Two.spelled {w x : Str} {p1 p2 : Char} (t : Two w p1 p2) (hx : _root_.Spec.Z80.Word w x) :
    ∃ c1 c2, x = [c1, c2] ∧ toupper c1 = p1 ∧ toupper c2 = p2 := by
  obtain ⟨rfl, -⟩ := t
  obtain ⟨c1, l, rfl, hc1, hl⟩ := List.map_eq_cons_iff.1 hx
  obtain ⟨c2, l', rfl, hc2, hl'⟩ := List.map_eq_cons_iff.1 hl
  rw [List.map_eq_nil_iff] at hl'
  subst hl'
  exact ⟨c1, c2, rfl, hc1, hc2⟩
theorem Two.hit {w x : Str} {p1 p2 : Char} (t : Two w p1 p2) (hx : _root_.Spec.Z80.Word w x) {e : Bool} {seg s : Str} :
    matchSeg Quote.zero e (p1 :: p2 :: seg) (x ++ s) = matchSeg Quote.zero e seg s := by
  obtain ⟨c1, c2, rfl, hc1, hc2⟩ := t.spelled hx
  exact match_word t.h1 t.h2 (by rw [lit_upper t.u1 (alpha_space t.a1)]; simp [hc1]) (by rw [lit_upper t.u2 (alpha_space t.a2)]; simp [hc2])
theorem Two.alpha {w x : Str} {p1 p2 : Char} (t : Two w p1 p2) (hx : _root_.Spec.Z80.Word w x) : ∀ c ∈ x, isalpha c = true := by
  obtain ⟨c1, c2, rfl, hc1, hc2⟩ := t.spelled hx
  intro c hc
  simp only [List.mem_cons, List.not_mem_nil, or_false] at hc
  rcases hc with rfl | rfl
  · exact alpha_of_upper (by rw [hc1]; exact t.a1)
  · exact alpha_of_upper (by rw [hc2]; exact t.a2)
theorem Two.lead {w x s : Str} {p1 p2 : Char} (t : Two w p1 p2) (hx : _root_.Spec.Z80.Word w x) : Lead (x ++ s) := by
  have := t.alpha hx
  obtain ⟨c1, c2, rfl, -⟩ := t.spelled hx
  intro c r hc
  simp only [List.cons_append, List.cons.injEq] at hc
  rw [← hc.1]
  cases h : isblank c1 with
  | false => rfl
  | true => rcases isblank_eq h with rfl | rfl <;> exact absurd (this _ (List.mem_cons_self ..)) (by decide)
/-- Another first letter. -/
theorem Two.miss {w x : Str} {p1 p2 p : Char} (t : Two w p1 p2) (hx : _root_.Spec.Z80.Word w x) (hp : p ≠ '_') (hu : toupper p = p) (hs : p ≠ ' ')
    (hne : p1 ≠ p) {e : Bool} {seg s : Str} : ∃ b, matchSeg Quote.zero e (p :: seg) (x ++ s) = .bad b := by
  obtain ⟨c1, c2, rfl, hc1, -⟩ := t.spelled hx
  rw [List.cons_append, matchSeg_lit _ _ hp, if_neg]
  · exact ⟨_, rfl⟩
  · rw [lit_upper hu hs, hc1]
    simp [hne]
theorem first_bad {q : Quote} {e : Bool} {p : Char} {seg s : Str} (hp : p ≠ '_') (ha : isalpha p = true) (hu : toupper p = p) {c : Char} (hc : isalpha c = false) :
    ∃ b, matchSeg q e (p :: seg) (c :: s) = .bad b := by
  rw [matchSeg_lit _ _ hp, if_neg]
  · exact ⟨_, rfl⟩
  · rw [lit_upper hu (alpha_space ha)]
    rintro ⟨-, h⟩
    rw [decide_eq_true_eq] at h
    have : isalpha c = true := alpha_of_upper (by rw [h]; exact ha)
    rw [hc] at this
    cases this

theorem comma {e : Bool} {b b' seg s : Str} (hb : Blank b) (hb' : Blank b') (hs : Lead s) :
    matchSeg Quote.zero e ('_' :: ',' :: '_' :: seg) (b ++ ',' :: (b' ++ s)) = matchSeg Quote.zero e seg s := by
  rw [matchSeg_blank, skipBlanks_append hb, skipBlanks_cons (by decide), matchSeg_lit _ _ (by decide), if_pos ⟨rfl, by decide⟩, matchSeg_blank,
    skipBlanks_append hb', hs.skip]

theorem filter_none_hit {s pat : Str} (hp : splitPat pat = (pat, [])) (h : matchSeg Quote.zero true pat s = .ok []) : ∃ w k, filter s pat = ⟨true, [], w, k⟩ := by
  unfold filter
  rw [hp]
  simp only [List.isEmpty_nil]
  rw [h]
  exact ⟨_, _, rfl⟩

theorem miss_DE {t : Str} (h : ∃ b, matchSeg Quote.zero true c!"DE_,_HL" t = .bad b) : (filter t c!"DE_,_HL").ok = false := by
  obtain ⟨b, h⟩ := h
  exact filter_lead_bad (seg0 := c!"DE_,_HL") (segs := []) rfl h
theorem miss_HL {t : Str} (h : ∃ b, matchSeg Quote.zero true c!"HL_,_DE" t = .bad b) : (filter t c!"HL_,_DE").ok = false := by
  obtain ⟨b, h⟩ := h
  exact filter_lead_bad (seg0 := c!"HL_,_DE") (segs := []) rfl h

theorem makes_docode {s : St} (ho : s.flags.orgGv = true) (hl : s.flags.lohi = true) {code : Nat} (hc : code < 256) :
    Makes (some [BitVec.ofNat 8 code]) s (Z80.docode {} (BitVec.ofNat 32 code) s) := by
  have := docode_run (Holds.start 0 0) (by decide) (code := BitVec.ofNat 32 code) ho hl
  have ht : ∀ code < 256, (tmpl {} (BitVec.ofNat 32 code)).map (·.fill 0 0) = [BitVec.ofNat 8 code] := by decide +kernel
  rw [← ht code hc]
  exact this

end C24

/-- **C24**, EX DE,HL. -/
theorem C24_ex_de {e : Entry} (he : e ∈ Z80.mz80) (hn : C22.upper e = c!"EX") {x y t : Str}
    (hxy : (_root_.Spec.Z80.Word c!"DE" x ∧ _root_.Spec.Z80.Word c!"HL" y) ∨ (_root_.Spec.Z80.Word c!"HL" x ∧ _root_.Spec.Z80.Word c!"DE" y))
    (ht : Both x y t) {self : Status → M RC} {fuel : Nat} {label : Option Str} {s : St}
    (ho : s.flags.orgGv = true) (hl : s.flags.lohi = true) :
    ∃ h, e.label.ptr = .handler h ∧ Makes (some [0xEB]) s (callHandler self fuel h e.label.modifier label (some t) s) := by
  have hk : kindOf e = some .ex := by clear hxy; revert e; decide +kernel
  refine ⟨_, kindOf_some hk, ?_⟩
  change Makes _ s ((do Z80.ex (some t); pure RC.cont : M RC) s)
  refine Makes.cont ?_
  unfold Z80.ex
  dsimp only [orEmpty]
  obtain ⟨b, b', hb, hb', rfl⟩ := ht
  rcases hxy with ⟨hx, hy⟩ | ⟨hx, hy⟩
  · obtain ⟨w, k, hf⟩ := filter_none_hit (pat := c!"DE_,_HL") (s := x ++ (b ++ ',' :: (b' ++ y))) rfl (by
      have h1 := twoDE.hit hx (e := true) (seg := c!"_,_HL") (s := b ++ ',' :: (b' ++ y))
      have h2 := comma (e := true) (seg := c!"HL") (Blank.of hb) (Blank.of hb') (s := y) (by simpa using twoHL.lead hy (s := []))
      have h3 := twoHL.hit hy (e := true) (seg := []) (s := [])
      rw [List.append_nil] at h3
      exact h1.trans (h2.trans (h3.trans rfl)))
    refine Makes.toward (Toward.bind (toward_filter0 hf s) (.refl _)) (.before (gen_bufpos s (s.bufpos + w)) ?_)
    exact makes_docode (s := { s with bufpos := s.bufpos + w }) (code := 0xeb) ho hl (by decide)
  · have hm := miss_DE (t := x ++ (b ++ ',' :: (b' ++ y))) (twoHL.miss hx (by decide) (by decide) (by decide) (by decide))
    obtain ⟨w, k, hf⟩ := filter_none_hit (pat := c!"HL_,_DE") (s := x ++ (b ++ ',' :: (b' ++ y))) rfl (by
      have h1 := twoHL.hit hx (e := true) (seg := c!"_,_DE") (s := b ++ ',' :: (b' ++ y))
      have h2 := comma (e := true) (seg := c!"DE") (Blank.of hb) (Blank.of hb') (s := y) (by simpa using twoDE.lead hy (s := []))
      have h3 := twoDE.hit hy (e := true) (seg := []) (s := [])
      rw [List.append_nil] at h3
      exact h1.trans (h2.trans (h3.trans rfl)))
    refine Makes.toward (Toward.bind (toward_miss0 hm s) (Toward.bind (toward_filter0 hf s) (.refl _))) (.before (gen_bufpos s (s.bufpos + w)) ?_)
    exact makes_docode (s := { s with bufpos := s.bufpos + w }) (code := 0xeb) ho hl (by decide)


namespace C24

theorem blank_ne {b : Str} (hb : Blank b) {p : Char} (hp : isblank p = false) : ∀ c ∈ b, c ≠ p := by
  rintro c hc rfl
  have := hb c hc
  rw [hp] at this
  cases this
theorem Two.ne {w x : Str} {p1 p2 : Char} (t : Two w p1 p2) (hx : _root_.Spec.Z80.Word w x) {p : Char} (hp : isalpha p = false) : ∀ c ∈ x, c ≠ p := by
  rintro c hc rfl
  have := t.alpha hx c hc
  rw [hp] at this
  cases this

/-- Neither form with the stack is meant. -/
theorem miss_SP {t : Str} (h : ∀ c ∈ t, c ≠ '(') : (filter t c!"(_SP_)_,_?").ok = false ∧ (filter t c!"?_,_(_SP_)").ok = false := by
  constructor
  · obtain ⟨b, hb⟩ := lacks (q := Quote.zero) (e := false) (seg := c!"(_SP_)_,_") (p := '(') (by decide) (by decide) (by decide) (by decide) h
    exact filter_lead_bad (segs := [[]]) rfl hb
  · obtain ⟨n, -, hn⟩ := seek_none (e := true) (seg := c!"_,_(_SP_)") (s := t) (q := Quote.zero) fun p r e =>
      lacks (p := '(') (by decide) (by decide) (by decide) (by decide) fun c hc => h c (by rw [e]; simp [hc])
    exact filter_one_miss (seg0 := []) (seg := c!"_,_(_SP_)") rfl (by decide) (matchSeg_nil _ _) hn

theorem firstOf_none {o : Str} {s : St} : ∀ {ps : List Str}, (∀ p ∈ ps, (filter o p).ok = false) → Toward (Z80.firstOf o ps s) (.ok none s) := by
  intro ps
  induction ps with
  | nil => intro _; exact .refl _
  | cons p ps ih =>
    intro h
    unfold Z80.firstOf
    exact Toward.bind (toward_miss1 (h p (by simp)) s) (ih fun p hp => h p (by simp [hp]))
theorem firstOf_hit {o p a : Str} {s : St} {w k : Nat} (hp : filter o p = ⟨true, [a], w, k⟩) {ps' : List Str} : ∀ {ps : List Str}, (∀ p ∈ ps, (filter o p).ok = false) →
    Toward (Z80.firstOf o (ps ++ p :: ps') s) (.ok (some a) { s with bufpos := s.bufpos + w }) := by
  intro ps
  induction ps with
  | nil =>
    intro _
    rw [List.nil_append]
    unfold Z80.firstOf
    exact Toward.bind (toward_filter1 hp s) (.refl _)
  | cons q ps ih =>
    intro h
    rw [List.cons_append]
    unfold Z80.firstOf
    exact Toward.bind (toward_miss1 (h q (by simp)) s) (ih fun p hp => h p (by simp [hp]))

/-- EX that is not one of the first forms. -/
theorem ex_rest {t : Str} (h1 : (filter t c!"DE_,_HL").ok = false) (h2 : (filter t c!"HL_,_DE").ok = false) (s : St) :
    Toward (Z80.ex (some t) s) ((do
      match ← Z80.firstOf t [c!"(_SP_)_,_?", c!"?_,_(_SP_)"] with
      | some op2 => do
        let (r, z) ← Z80.getreg {} op2
        if r = Z80.HLREGISTER then Z80.docode z 0xe3 else Z80.exAf z t
      | none => Z80.exAf {} t : M Unit) s) := by
  unfold Z80.ex
  exact Toward.bind (toward_miss0 h1 s) (Toward.bind (toward_miss0 h2 s) (.refl _))

end C24

/-- **C24**, EX AF,AF'. -/
theorem C24_ex_af {e : Entry} (he : e ∈ Z80.mz80) (hn : C22.upper e = c!"EX") {x y t : Str}
    (hx : _root_.Spec.Z80.Word c!"AF" x) (hy : _root_.Spec.Z80.Word c!"AF" y)
    (ht : Both x (y ++ ['\'']) t ∨ Both (x ++ ['\'']) y t) {self : Status → M RC} {fuel : Nat} {label : Option Str} {s : St}
    (ho : s.flags.orgGv = true) (hl : s.flags.lohi = true) :
    ∃ h, e.label.ptr = .handler h ∧ Makes (some [0x08]) s (callHandler self fuel h e.label.modifier label (some t) s) := by
  have hk : kindOf e = some .ex := by clear ht; revert e; decide +kernel
  refine ⟨_, kindOf_some hk, ?_⟩
  change Makes _ s ((do Z80.ex (some t); pure RC.cont : M RC) s)
  refine Makes.cont ?_
  -- the text begins with AF and there is no parenthesis
  have hbegin : ∃ r, t = x ++ r := by
    rcases ht with ⟨b, b', -, -, rfl⟩ | ⟨b, b', -, -, rfl⟩
    · exact ⟨_, rfl⟩
    · exact ⟨_, List.append_assoc ..⟩
  have hpar : ∀ c ∈ t, c ≠ '(' := by
    have h1 := twoAF.ne hx (p := '(') (by decide)
    have h2 := twoAF.ne hy (p := '(') (by decide)
    rcases ht with ⟨b, b', hb, hb', rfl⟩ | ⟨b, b', hb, hb', rfl⟩
    all_goals
      have h3 := blank_ne (Blank.of hb) (p := '(') (by decide)
      have h4 := blank_ne (Blank.of hb') (p := '(') (by decide)
      intro c hc
      simp only [List.mem_append, List.mem_cons, List.not_mem_nil, or_false] at hc
    · rcases hc with hc | hc | rfl | hc | hc | rfl
      · exact h1 c hc
      · exact h3 c hc
      · decide
      · exact h4 c hc
      · exact h2 c hc
      · decide
    · rcases hc with (hc | rfl) | hc | rfl | hc | hc
      · exact h1 c hc
      · decide
      · exact h3 c hc
      · decide
      · exact h4 c hc
      · exact h2 c hc
  obtain ⟨m1, m2⟩ := miss_SP hpar
  have d1 : (filter t c!"DE_,_HL").ok = false := by
    obtain ⟨r, rfl⟩ := hbegin
    exact miss_DE (twoAF.miss hx (by decide) (by decide) (by decide) (by decide))
  have d2 : (filter t c!"HL_,_DE").ok = false := by
    obtain ⟨r, rfl⟩ := hbegin
    exact miss_HL (twoAF.miss hx (by decide) (by decide) (by decide) (by decide))
  refine Makes.toward (ex_rest d1 d2 s) (Makes.toward (Toward.bind (firstOf_none ?_) (.refl _)) ?_)
  · intro p hp
    simp only [List.mem_cons, List.not_mem_nil, or_false] at hp
    rcases hp with rfl | rfl
    · exact m1
    · exact m2
  dsimp only
  have final : ∀ w, Makes (some [0x08]) s (Z80.docode {} 0x08 { s with bufpos := s.bufpos + w }) := fun w =>
    .before (gen_bufpos s (s.bufpos + w)) (makes_docode (s := { s with bufpos := s.bufpos + w }) (code := 8) ho hl (by decide))
  unfold Z80.exAf
  rcases ht with ⟨b, b', hb, hb', rfl⟩ | ⟨b, b', hb, hb', rfl⟩
  · obtain ⟨w, k, hf⟩ := filter_one_rest (pat := c!"AF_,_AF'_?") (seg0 := c!"AF_,_AF'_") (s := x ++ (b ++ ',' :: (b' ++ (y ++ ['\''])))) (rest := []) rfl (by
      have h1 := twoAF.hit hx (e := false) (seg := c!"_,_AF'_") (s := b ++ ',' :: (b' ++ (y ++ ['\''])))
      have h2 := comma (e := false) (seg := c!"AF'_") (Blank.of hb) (Blank.of hb') (s := y ++ ['\'']) (twoAF.lead hy)
      have h3 := twoAF.hit hy (e := false) (seg := c!"'_") (s := ['\''])
      exact h1.trans (h2.trans (h3.trans rfl)))
    refine Makes.toward (Toward.bind (firstOf_hit hf (ps := []) (ps' := [c!"AF'_,_AF_?"]) (by simp)) (.refl _)) ?_
    exact final w
  · have hm : (filter ((x ++ ['\'']) ++ (b ++ ',' :: (b' ++ y))) c!"AF_,_AF'_?").ok = false := by
      refine filter_lead_bad (seg0 := c!"AF_,_AF'_") (segs := [[]]) (b := false) rfl ?_
      have h1 := twoAF.hit hx (e := false) (seg := c!"_,_AF'_") (s := ['\''] ++ (b ++ ',' :: (b' ++ y)))
      rw [← List.append_assoc] at h1
      exact h1.trans rfl
    obtain ⟨w, k, hf⟩ := filter_one_rest (pat := c!"AF'_,_AF_?") (seg0 := c!"AF'_,_AF_") (s := (x ++ ['\'']) ++ (b ++ ',' :: (b' ++ y))) (rest := []) rfl (by
      have h1 := twoAF.hit hx (e := false) (seg := c!"'_,_AF_") (s := ['\''] ++ (b ++ ',' :: (b' ++ y)))
      have h2 := comma (e := false) (seg := c!"AF_") (Blank.of hb) (Blank.of hb') (s := y) (by simpa using twoAF.lead hy (s := []))
      have h3 := twoAF.hit hy (e := false) (seg := c!"_") (s := [])
      rw [List.append_nil] at h3
      rw [← List.append_assoc] at h1
      exact h1.trans (h2.trans (h3.trans rfl)))
    refine Makes.toward (Toward.bind (firstOf_hit hf (ps := [c!"AF_,_AF'_?"]) (ps' := []) ?_) (.refl _)) ?_
    · intro p hp
      rw [List.mem_singleton] at hp
      subst hp
      exact hm
    · exact final w

namespace C24
def finEx (r : Int) (_ : Z80.Z) : Fin := if r = Z80.HLREGISTER then .ok (0xe3, false) else .error c!"Illegal EX instruction"

/-- `(SP),r` or `r,(SP)`. -/
def StackText (r t : Str) : Prop := ∃ p x b1 b2, _root_.Spec.Z80.Word c!"SP" x ∧ _root_.Spec.Z80.Bl b1 ∧ _root_.Spec.Z80.Bl b2 ∧ p = '(' :: (b1 ++ (x ++ (b2 ++ [')']))) ∧
  (Both p r t ∨ (Both r p t ∧ Bare r ∧ ∀ c ∈ r, c ≠ '\''))

theorem exAf_none {t : Str} {z : Z80.Z} {s : St} (h : ∀ p ∈ [c!"AF_,_AF'_?", c!"AF'_,_AF_?"], (filter t p).ok = false) :
    Toward (Z80.exAf z t s) ((error c!"Illegal EX instruction" : M Unit) s) := by
  unfold Z80.exAf
  exact Toward.bind (firstOf_none h) (.refl _)

theorem ex_stack {r t : Str} (hr : Spelled r) (ht : StackText r t) (s : St) : ∃ w,
    Toward (Z80.ex (some t) s) (oneOp finEx r { s with bufpos := s.bufpos + w }) := by
  have key : ∀ w, (filter t c!"DE_,_HL").ok = false → (filter t c!"HL_,_DE").ok = false →
      (∀ p ∈ [c!"AF_,_AF'_?", c!"AF'_,_AF_?"], (filter t p).ok = false) →
      Toward (Z80.firstOf t [c!"(_SP_)_,_?", c!"?_,_(_SP_)"] s) (.ok (some r) { s with bufpos := s.bufpos + w }) →
      Toward (Z80.ex (some t) s) (oneOp finEx r { s with bufpos := s.bufpos + w }) := by
    intro w d1 d2 d3 hf
    refine (ex_rest d1 d2 s).trans (Toward.bind hf ?_)
    dsimp only
    unfold oneOp
    refine toward_bind ?_ _
    rintro ⟨n, z⟩ s1
    dsimp only
    unfold finEx
    by_cases h : n = Z80.HLREGISTER
    · rw [if_pos h, if_pos h]
      exact .inl (congrArg (fun z => Z80.docode z _ s1) (noImm z).symm)
    · rw [if_neg h, if_neg h]
      exact exAf_none d3
  obtain ⟨p, x, b1, b2, hx, hb1, hb2, rfl, ht⟩ := ht
  rcases ht with ⟨b, b', hb, hb', rfl⟩ | ⟨⟨b, b', hb, hb', rfl⟩, hbare, hquote⟩
  · have hlead : Lead r := Operand.lead hr.operand
    obtain ⟨w, k, hf⟩ := filter_one_rest (pat := c!"(_SP_)_,_?") (seg0 := c!"(_SP_)_,_")
      (s := ('(' :: (b1 ++ (x ++ (b2 ++ [')'])))) ++ (b ++ ',' :: (b' ++ r))) (rest := r) rfl (by
        rw [show ('(' :: (b1 ++ (x ++ (b2 ++ [')'])))) ++ (b ++ ',' :: (b' ++ r)) = '(' :: (b1 ++ (x ++ (b2 ++ ')' :: (b ++ ',' :: (b' ++ r))))) by simp]
        have h1 := opened (e := false) (seg := c!"SP_)_,_") (Blank.of hb1) (twoSP.lead hx (s := b2 ++ ')' :: (b ++ ',' :: (b' ++ r))))
        have h2 := twoSP.hit hx (e := false) (seg := c!"_)_,_") (s := b2 ++ ')' :: (b ++ ',' :: (b' ++ r)))
        have h3 := match_sign (p := ')') (c := ')') (by decide) (by decide) (by decide) (e := false) (seg := c!"_,_") (s := b ++ ',' :: (b' ++ r)) (Blank.of hb2) (by decide)
        rw [if_pos rfl] at h3
        have h4 := comma (e := false) (seg := []) (Blank.of hb) (Blank.of hb') hlead
        exact h1.trans (h2.trans (h3.trans (h4.trans (matchSeg_nil _ _)))))
    refine ⟨w, key w ?_ ?_ ?_ (firstOf_hit hf (ps := []) (ps' := [c!"?_,_(_SP_)"]) (by simp))⟩
    · exact miss_DE (first_bad (by decide) (by decide) (by decide) (by decide))
    · exact miss_HL (first_bad (by decide) (by decide) (by decide) (by decide))
    · intro p hp
      simp only [List.mem_cons, List.not_mem_nil, or_false] at hp
      rcases hp with rfl | rfl
      · obtain ⟨b, h⟩ := first_bad (q := Quote.zero) (e := false) (p := 'A') (seg := c!"F_,_AF'_") (c := '(') (by decide) (by decide) (by decide) (by decide)
        exact filter_lead_bad (segs := [[]]) rfl h
      · obtain ⟨b, h⟩ := first_bad (q := Quote.zero) (e := false) (p := 'A') (seg := c!"F'_,_AF_") (c := '(') (by decide) (by decide) (by decide) (by decide)
        exact filter_lead_bad (segs := [[]]) rfl h
  · have hq : ∀ c ∈ r ++ (b ++ ',' :: (b' ++ '(' :: (b1 ++ (x ++ (b2 ++ [')']))))), c ≠ '\'' := by
      have h1 := twoSP.ne hx (p := '\'') (by decide)
      have h2 := blank_ne (Blank.of hb) (p := '\'') (by decide)
      have h3 := blank_ne (Blank.of hb') (p := '\'') (by decide)
      have h4 := blank_ne (Blank.of hb1) (p := '\'') (by decide)
      have h5 := blank_ne (Blank.of hb2) (p := '\'') (by decide)
      intro c hc
      simp only [List.mem_append, List.mem_cons, List.not_mem_nil, or_false] at hc
      rcases hc with hc | hc | rfl | hc | rfl | hc | hc | hc | rfl
      · exact hquote c hc
      · exact h2 c hc
      · decide
      · exact h3 c hc
      · decide
      · exact h4 c hc
      · exact h1 c hc
      · exact h5 c hc
      · decide
    have hend : r ++ (b ++ ',' :: (b' ++ '(' :: (b1 ++ (x ++ (b2 ++ [')']))))) = (r ++ (b ++ ',' :: (b' ++ '(' :: (b1 ++ (x ++ b2))))) ++ [')'] := by simp
    have hsp : (filter (r ++ (b ++ ',' :: (b' ++ '(' :: (b1 ++ (x ++ (b2 ++ [')'])))))) c!"(_SP_)_,_?").ok = false := by
      refine first_miss (p := '(') (seg0 := c!"_SP_)_,_") (segs := [[]]) rfl (by decide) (by decide) (by decide) ?_
      cases r with
      | nil => exact absurd rfl hr.operand.ne
      | cons d r =>
        intro y r' hy
        simp only [List.cons_append, List.cons.injEq] at hy
        rw [← hy.1]
        exact hbare d r rfl
    obtain ⟨w, k, hf⟩ := filter_one_hit (pat := c!"?_,_(_SP_)") (seg0 := []) (seg := c!"_,_(_SP_)")
      (s := r ++ (b ++ ',' :: (b' ++ '(' :: (b1 ++ (x ++ (b2 ++ [')'])))))) (t := r) rfl (by decide) (matchSeg_nil _ _) (by
        refine seek_sep (by decide) (by decide) (Blank.of hb) (by decide) ?_ (operand_noTop hr.operand) (Operand.zero hr.operand) (Operand.trail hr.operand)
        have h1 := match_sign (p := '(') (c := '(') (by decide) (by decide) (by decide) (e := true) (seg := c!"_SP_)") (s := b1 ++ (x ++ (b2 ++ [')']))) (Blank.of hb') (by decide)
        rw [if_pos rfl] at h1
        have h2 : matchSeg Quote.zero true c!"_SP_)" (b1 ++ (x ++ (b2 ++ [')']))) = matchSeg Quote.zero true c!"SP_)" (x ++ (b2 ++ [')'])) := by
          rw [show c!"_SP_)" = '_' :: c!"SP_)" from rfl, matchSeg_blank, skipBlanks_append (Blank.of hb1), (twoSP.lead hx).skip]
        have h3 := twoSP.hit hx (e := true) (seg := c!"_)") (s := b2 ++ [')'])
        have h4 := match_close (e := true) (Blank.of hb2) (s := [])
        exact h1.trans (h2.trans (h3.trans (h4.trans rfl))))
    refine ⟨w, key w ?_ ?_ ?_ (firstOf_hit hf (ps := [c!"(_SP_)_,_?"]) (ps' := []) ?_)⟩
    · refine miss_DE (seg_bad fun rest hm => ?_)
      obtain ⟨l, c, e, hc⟩ := match_last (p := 'L') (seg := c!"DE_,_H") (by decide) hm
      rw [hend] at e
      have := (List.append_inj' e rfl).2
      simp only [List.cons.injEq, and_true] at this
      rw [← this] at hc
      exact absurd hc (by decide)
    · refine miss_HL (seg_bad fun rest hm => ?_)
      obtain ⟨l, c, e, hc⟩ := match_last (p := 'E') (seg := c!"HL_,_D") (by decide) hm
      rw [hend] at e
      have := (List.append_inj' e rfl).2
      simp only [List.cons.injEq, and_true] at this
      rw [← this] at hc
      exact absurd hc (by decide)
    · intro p hp
      simp only [List.mem_cons, List.not_mem_nil, or_false] at hp
      rcases hp with rfl | rfl
      · obtain ⟨b, h⟩ := lacks (q := Quote.zero) (e := false) (seg := c!"AF_,_AF'_") (p := '\'') (by decide) (by decide) (by decide) (by decide) hq
        exact filter_lead_bad (segs := [[]]) rfl h
      · obtain ⟨b, h⟩ := lacks (q := Quote.zero) (e := false) (seg := c!"AF'_,_AF_") (p := '\'') (by decide) (by decide) (by decide) (by decide) hq
        exact filter_lead_bad (segs := [[]]) rfl h
    · intro p hp
      rw [List.mem_singleton] at hp
      subst hp
      exact hsp

end C24

/-- **C24**, EX (SP),HL and the like. -/
theorem C24_ex_stack {e : Entry} (he : e ∈ Z80.mz80) (hn : C22.upper e = c!"EX") {r t : Str}
    (hr : Spelled r) (ht : StackText r t) {self : Status → M RC} {fuel : Nat} {label : Option Str} {s : St}
    (ho : s.flags.orgGv = true) (hl : s.flags.lohi = true) :
    ∃ h, e.label.ptr = .handler h ∧
      Acts1 _root_.Spec.Z80.exSP (· = .unknown) r s (callHandler self fuel h e.label.modifier label (some t) s) := by
  have hk : kindOf e = some .ex := by clear ht hr; revert e; decide +kernel
  refine ⟨_, kindOf_some hk, ?_⟩
  change Acts1 _ _ r s ((do Z80.ex (some t); pure RC.cont : M RC) s)
  refine Acts1.cont ?_
  obtain ⟨w, h⟩ := ex_stack hr ht s
  refine Acts1.toward h (.before (gen_bufpos s (s.bufpos + w)) ?_)
  have hok : ∀ k ∈ kinds, good1 finEx k = true ∧ (k = .unknown ∨ plan1 finEx k = _root_.Spec.Z80.exSP k) := by decide +kernel
  exact oneOp_run (odd := (· = .unknown)) (fun k => (hok k (mem_kinds k)).1) rfl (fun k => (hok k (mem_kinds k)).2) hr ho hl


/-- **C24**, a missing operand: LD, ADD, ADC, SBC, BIT, SET and RES are refused with one operand only. -/
theorem C24_two_missing {e : Entry} {k : HZ80} (hk : kindOf e = some k) (hk2 : k = .ld ∨ k = .arith ∨ k = .bitop) {o : Str}
    (h : Spec.Operand o) {self : Status → M RC} {fuel : Nat} {label : Option Str} {s : St} :
    ∃ h, e.label.ptr = .handler h ∧ Refused (callHandler self fuel h e.label.modifier label (some o) s) := by
  refine ⟨_, kindOf_some hk, ?_⟩
  rcases hk2 with rfl | rfl | rfl
  · change Refused ((do Z80.ld (some o); pure RC.cont : M RC) s)
    refine Refused.bind ?_
    unfold Z80.ld
    exact Refused.toward (Toward.bind (toward_miss2 (sep_miss h) s) (.refl _)) Refused.error
  · change Refused ((do Z80.arith _ (some o); pure RC.cont : M RC) s)
    refine Refused.bind ?_
    unfold Z80.arith
    exact Refused.toward (Toward.bind (toward_miss2 (sep_miss h) s) (.refl _)) Refused.error
  · change Refused ((do Z80.bitop _ (some o); pure RC.cont : M RC) s)
    refine Refused.bind ?_
    unfold Z80.bitop
    exact Refused.toward (Toward.bind (toward_miss2 (sep_miss h) s) (.refl _)) Refused.error

/-! ### The vocabulary -/

namespace C24
/-- What each instruction of the published tables is to the assembler (for JR and DJNZ see C21). -/
def wanted : List (Str × HZ80) :=
  ((_root_.Spec.Z80.plain.map Prod.fst).filter (· ≠ c!"RET")).map (·, .simple) ++
  _root_.Spec.Z80.logic.map (·.1, .logical) ++ _root_.Spec.Z80.shifts.map (·.1, .onreg8) ++
  [ (c!"INC", .incr), (c!"DEC", .incr), (c!"PUSH", .stackop), (c!"POP", .stackop), (c!"LD", .ld), (c!"ADD", .arith), (c!"ADC", .arith),
    (c!"SBC", .arith), (c!"IN", .inout), (c!"OUT", .inout), (c!"BIT", .bitop), (c!"RES", .bitop), (c!"SET", .bitop), (c!"IM", .im),
    (c!"RST", .rst), (c!"DJNZ", .relbranch), (c!"JR", .jr), (c!"JP", .jp), (c!"CALL", .call), (c!"RET", .ret), (c!"EX", .ex) ]
/-- The value with which a register enters expressions. -/
def asReg (e : Entry) : Result := { value := e.label.value, modifier := e.label.modifier, type := e.label.type }
end C24

/-- **C24**, the vocabulary: every instruction is there, as what it is; every register is there, and stands for itself; no name is there
    twice, and no other name is. -/
theorem C24_vocabulary :
    (∀ p ∈ wanted, ∃ e ∈ Z80.mz80, C22.upper e = p.1 ∧ e.label.type = .mnemo ∧ kindOf e = some p.2) ∧
    (∀ p ∈ _root_.Spec.Z80.registers, ∃ e ∈ Z80.mz80, C22.upper e = p.1 ∧ e.label.type = .regs ∧ meaning (asReg e) = ⟨p.2, 0⟩) ∧
    (Z80.mz80.map C22.upper).Nodup ∧ Z80.mz80.length = wanted.length + _root_.Spec.Z80.registers.length := by
  refine ⟨?_, ?_, ?_, ?_⟩ <;> decide +kernel

/-! ### Instances -/

example : ∃ e ∈ Z80.mz80, C22.upper e = c!"LD" ∧ kindOf e = some .ld := by decide +kernel
namespace C24
theorem bl_nil : _root_.Spec.Z80.Bl [] := by intro c hc; cases hc
theorem bl_space : _root_.Spec.Z80.Bl c!" " := by intro c hc; rw [List.mem_singleton.1 hc]; exact .inl rfl
end C24
example : Both c!"a" c!"( ix + 5 )" c!"a ,( ix + 5 )" := ⟨c!" ", [], bl_space, bl_nil, rfl⟩
example : StackText c!"ix" c!"(SP) , ix" := ⟨_, c!"SP", [], [], rfl, bl_nil, bl_nil, rfl, .inl ⟨c!" ", c!" ", bl_space, bl_space, rfl⟩⟩
example : Spelled c!"( Hl )" := .inl ⟨.atHL, .mk (w := c!"HL") (x := c!"Hl") (b1 := c!" ") (b2 := c!" ") (by decide) rfl bl_space bl_space⟩

example : outcome c!" cpu z80\n *= $1000\n ld a , ( IX + 5 )\n ld (hl),n\n ld sp,iy\n ld ($1234),hl\n ld bc,($1234)\n add hl,de\n adc a,3\nn = 7\n" =
  some (0, [0xdd, 0x7e, 0x05, 0x36, 0x07, 0xfd, 0xf9, 0x22, 0x34, 0x12, 0xed, 0x4b, 0x34, 0x12, 0x19, 0xce, 0x03]) := by decide +kernel
example : outcome c!" cpu z80\n *= $1000\n inc (iy-2)\n push ix\n rlc (hl)\n and 5\n cp a,b\n sub (ix)\n dec bc\n" =
  some (0, [0xfd, 0x34, 0xfe, 0xdd, 0xe5, 0xcb, 0x06, 0xe6, 0x05, 0xb8, 0xdd, 0x96, 0x00, 0x0b]) := by decide +kernel
example : outcome c!" cpu z80\n *= $1000\n in a,($12)\n out (c),b\n bit 3,(ix+1)\n set 7,a\n res 0,(hl)\n" =
  some (0, [0xdb, 0x12, 0xed, 0x41, 0xdd, 0xcb, 0x01, 0x5e, 0xcb, 0xff, 0xcb, 0x86]) := by decide +kernel
example : outcome c!" cpu z80\n *= $1000\n ldir\n im 2\n rst $38\n rst 1\n ret\n ret nz\n jp $1234\n jp c,$1234\n call x\n call m,x\n jp (iy)\nx ei\n" =
  some (0, [0xed, 0xb0, 0xed, 0x5e, 0xff, 0xcf, 0xc9, 0xc0, 0xc3, 0x34, 0x12, 0xda, 0x34, 0x12, 0xcd, 0x16, 0x10, 0xfc, 0x16, 0x10, 0xfd, 0xe9, 0xfb]) := by decide +kernel
example : outcome c!" cpu z80\n *= $1000\n ex de,hl\n ex hl,de\n ex af,af'\n ex af',af\n ex (sp),ix\n ex hl,(sp)\n" =
  some (0, [0xeb, 0xeb, 0x08, 0x08, 0xdd, 0xe3, 0xe3]) := by decide +kernel
/-- Refused: no bytes, and an error. -/
example : outcome c!" cpu z80\n *= $1000\n ld (hl),(hl)\n" = some (1, []) := by decide +kernel

/-! ### Where the code does not follow the published tables -/

/-- CPDR is ED B9, not ED 89. -/
theorem C24_false_cpdr : outcome c!" cpu z80\n *= 0\n cpdr\n" = some (0, [0xed, 0x89]) ∧
    _root_.Spec.Z80.plain.lookup c!"CPDR" = some [0xed, 0xb9] := by decide +kernel
/-- `AND BC` does not exist; the assembler writes the code of `XOR B`. -/
theorem C24_false_logic : outcome c!" cpu z80\n *= 0\n and bc\n" = some (0, [0xa8]) ∧
    _root_.Spec.Z80.one c!"AND" (.r16 .bc) = none ∧ _root_.Spec.Z80.one c!"XOR" (.r8 .b) = some [.byte 0xa8] := by decide +kernel
/-- `ADD A,HL` does not exist either. -/
theorem C24_false_arith : outcome c!" cpu z80\n *= 0\n add a,hl\n" = some (0, [0x8a]) ∧
    _root_.Spec.Z80.two c!"ADD" (.r8 .a) (.r16 .hl) = none := by decide +kernel
/-- Three operands are accepted. -/
theorem C24_false_three : outcome c!" cpu z80\n *= 0\n add a,a,b\n" = some (0, [0x80]) := by decide +kernel
/-- The vector of RST is only looked at modulo 65536, the number of a bit only modulo 2^32. -/
theorem C24_false_rst : outcome c!" cpu z80\n *= 0\n rst 65536+8\n" = some (0, [0xcf]) ∧ _root_.Spec.Z80.rst (65536 + 8) = none := by decide +kernel
theorem C24_false_bit : outcome c!" cpu z80\n *= 0\n bit 3+(1<<32),a\n" = some (0, [0xcb, 0x5f]) := by decide +kernel
/-- The displacement `-5+3` is taken for -(5+3). -/
theorem C24_false_minus : outcome c!" cpu z80\n *= 0\n ld a,(ix-5+3)\n" = some (0, [0xdd, 0x7e, 0xf8]) := by decide +kernel

end Crasm

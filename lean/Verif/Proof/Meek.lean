import Verif.Proof.Calm
import Verif.Props.C26

/-!
Which undefined behaviour a function can run into: never a call through something that is no function, the use of a
label that is not there, or an index outside a static table.
-/

namespace Crasm

/-- The causes of undefined behaviour that never occur. -/
def wild : List UB := [.nullHandler, .nullLabel, .tableIndex]

/-- A way of stopping that is not one of these. -/
def Fine : Stop → Prop
  | .ub u => u ∉ wild
  | _ => True

/-- From every state, `m` stops only in a `Fine` way. -/
class Meek (m : M α) : Prop where
  run : ∀ s w s', m s = .stop w s' → Fine w

theorem Meek.bind {m : M α} {f : α → M β} (hm : Meek m) (hf : ∀ a, Meek (f a)) : Meek (m >>= f) := by
  constructor
  intro s w s'
  have h1 := hm.run s
  rw [bind_run]
  revert h1
  cases m s with
  | ok a s1 => intro _; exact (hf a).run s1 w s'
  | err s1 => intro _ h; cases h
  | stop w1 s1 => intro h1 h; cases h; exact h1 _ _ rfl
theorem Meek.pure (a : α) : Meek (Pure.pure a : M α) := ⟨fun _ _ _ h => by cases h⟩
theorem Meek.getS : Meek Crasm.getS := ⟨fun _ _ _ h => by cases h⟩
theorem Meek.modS (g : St → St) : Meek (Crasm.modS g) := ⟨fun _ _ _ h => by cases h⟩
theorem Meek.whenM {c : Prop} [Decidable c] {a : M Unit} (ha : Meek a) : Meek (whenM c a) := by
  unfold Crasm.whenM; split
  · exact ha
  · exact Meek.pure _
theorem Meek.catchErr {m h : M α} (hm : Meek m) (hh : Meek h) : Meek (catchErr m h) := by
  constructor
  intro s w s'
  have h1 := hm.run s
  unfold Crasm.catchErr
  revert h1
  cases m s with
  | ok a s1 => intro _ h; cases h
  | err s1 => intro _; exact hh.run s1 w s'
  | stop w1 s1 => intro h1 h; cases h; exact h1 _ _ rfl

macro "meek" : tactic => `(tactic| repeat' (first
  | infer_instance
  | exact Meek.pure _
  | exact Meek.getS
  | exact Meek.modS _
  | with_reducible refine Meek.bind ?_ (fun _ => ?_)
  | with_reducible refine Meek.whenM ?_
  | dsimp only
  | split))

theorem meek_ub {u : UB} (h : u ∉ wild) : Meek (ubM u : M α) := ⟨fun _ _ _ e => by cases e; exact h⟩
instance : Meek (ubM .filterBuffer : M α) := meek_ub (by decide)
instance : Meek (ubM .lineBuffer : M α) := meek_ub (by decide)
instance : Meek (ubM .errorBuffer : M α) := meek_ub (by decide)
instance : Meek (ubM .resultBuffer : M α) := meek_ub (by decide)
instance : Meek (ubM .signedOverflow : M α) := meek_ub (by decide)
instance : Meek (ubM .shiftCount : M α) := meek_ub (by decide)
instance : Meek (ubM .ascOverread : M α) := meek_ub (by decide)
instance : Meek (ubM .dsNegative : M α) := meek_ub (by decide)
instance : Meek (ubM .nullMacro : M α) := meek_ub (by decide)
instance (m : Str) : Meek (fatal m : M α) := ⟨fun _ _ _ e => by cases e; trivial⟩
instance : Meek (stopWith .fuel : M α) := ⟨fun _ _ _ e => by cases e; trivial⟩
instance : Meek (stopWith .hang : M α) := ⟨fun _ _ _ e => by cases e; trivial⟩
instance : Meek (throwErr : M α) := ⟨fun _ _ _ e => by cases e⟩
instance (f : Lst → Lst) : Meek (modLst f) := Meek.modS _
instance (f : Flags → Flags) : Meek (modFlags f) := Meek.modS _
instance (f : Code → Code) : Meek (modCode f) := Meek.modS _
instance : Meek zerobuffer := Meek.modS _

/-! ### filter.c, output.c, error() -/

instance (s pat : Str) : Meek (filterC s pat) := by unfold filterC; meek
instance (s pat : Str) : Meek (filter0 s pat) := by unfold filter0; meek
instance (s pat : Str) : Meek (filter1 s pat) := by unfold filter1; meek
instance (s pat : Str) : Meek (filter2 s pat) := by unfold filter2; meek
instance : Meek eject := by unfold eject; meek
instance (s : Str) : Meek (outputraw s) := by unfold outputraw; meek
instance : Meek outputEOL := by unfold outputEOL; meek
instance meek_eolLoop (n : Nat) : Meek (eolLoop n) := by
  induction n with
  | zero => exact Meek.pure _
  | succ n ih => unfold eolLoop; meek
instance : Meek outputEOP := by unfold outputEOP; meek
instance (c : Char) : Meek (putRaw c) := by unfold putRaw; meek
instance : Meek putSpace := by unfold putSpace; meek
instance meek_putSpaces (n : Nat) : Meek (putSpaces n) := by
  induction n with
  | zero => exact Meek.pure _
  | succ n ih => unfold putSpaces; meek
instance (n : Nat) : Meek (position n) := by unfold position; meek
instance meek_tryPats (t : Str) (ps : List Str) : Meek (tryPats t ps) := by
  induction ps with
  | nil => exact Meek.pure _
  | cons p ps ih => unfold tryPats; meek
instance (c : Char) : Meek (wrapLine c) := by unfold wrapLine; meek
instance (c : Char) : Meek (outputcar c) := by unfold outputcar; meek
instance meek_output (s : Str) : Meek (output s) := by
  induction s with
  | nil => exact Meek.pure _
  | cons p ps ih => unfold output; meek
instance : Meek outputline := by unfold outputline; meek
instance (a : Word) : Meek (outputaddr a) := by unfold outputaddr; meek
instance (b : Byte) : Meek (outputbyte b) := by unfold outputbyte; meek
instance (m : Str) : Meek (warning m) := by unfold warning; meek
instance (m : Str) : Meek (reportError m) := by
  unfold reportError
  refine Meek.bind Meek.getS fun s => ?_
  simp only
  split
  · infer_instance
  · exact Meek.bind inferInstance fun _ => inferInstance
instance : Meek bumpStar := by unfold bumpStar; meek
instance (m : Str) : Meek (error m : M α) := by unfold error; meek
instance (n : Note) : Meek (note n) := Meek.modS _
instance (m : Str) : Meek (refuse m : M α) := Meek.catchErr inferInstance (Meek.bind inferInstance fun _ => inferInstance)
instance (k : Str) (l : Label) : Meek (putLabel k l) := Meek.modS _
instance (n : Str) : Meek (findlabel n) := ⟨fun _ _ _ e => by cases e⟩
instance (n : Str) (f : LFlags) (t : LType) (v : Word) : Meek (deflabel n f t v) := by unfold deflabel; meek
instance (r : Result) (t : LType) : Meek (checktype r t) := by unfold checktype; meek

/-! ### parse.c, operator.c -/

instance (tgt : Bool) (r : Result) : Meek (setRes tgt r) := by unfold setRes; meek
instance (tgt : Bool) (v : Nat) : Meek (cst tgt v) := by unfold cst; meek
instance (tgt : Bool) (v : Except Str Nat) : Meek (cstE tgt v) := by unfold cstE; meek
instance (tgt : Bool) (n : Str) : Meek (cstlabel tgt n) := by unfold cstlabel; meek
instance meek_parseConst (tgt : Bool) (e : Str) (rows : List (Str × Base)) : Meek (parseConst tgt e rows) := by
  induction rows with
  | nil => unfold parseConst; meek
  | cons r rows ih => obtain ⟨p, b⟩ := r; unfold parseConst; meek
instance (tgt : Bool) (e : Str) : Meek (parseLeaf tgt e) := by unfold parseLeaf; meek

theorem applyOp2_fine {op : Op2} {p a : Result} {u : UB} (h : applyOp2 op p a = .ub u) : u ∉ wild := by
  have ha : ∀ {p a : Result} {k : Result → OpRes}, (∀ r, k r = .ub u → u ∉ wild) → absolute2 p a k = .ub u →
      u ∉ wild := by
    intro p a k hk
    unfold absolute2
    split
    · simp
    · split
      · simp
      · exact hk _
  have ho : ∀ {r v}, ofOpt r v = .ub u → u ∉ wild := by
    intro r v h
    cases v with
    | none => cases h; decide
    | some v => cases h
  have hs : ∀ {x : UB}, x ∉ wild → OpRes.ub x = .ub u → u ∉ wild := by rintro x hx h; cases h; exact hx
  revert h
  cases op with
  | add =>
    simp only [applyOp2]
    split
    · first | exact hs (by decide) | simp
    · split
      · first | exact ho | exact hs (by decide) | simp
      · split <;> first | exact ho | exact hs (by decide) | simp
  | sub =>
    simp only [applyOp2]
    split
    · exact ho
    · split
      · exact ho
      · split
        · unfold regRange
          split
          · split <;> first | exact hs (by decide) | simp
          · first | exact hs (by decide) | simp
        · simp
  | rlist =>
    simp only [applyOp2]
    split
    · simp
    · split <;> simp
  | mul => simp only [applyOp2]; exact ha fun r => ho
  | div =>
    simp only [applyOp2]
    refine ha fun r => ?_
    split
    · simp
    · split
      · exact hs (by decide)
      · simp
  | or => simp only [applyOp2]; exact ha fun r => by simp
  | and => simp only [applyOp2]; exact ha fun r => by simp
  | xor => simp only [applyOp2]; exact ha fun r => by simp
  | lsh => simp only [applyOp2]; refine ha fun r => ?_; split <;> first | exact hs (by decide) | simp
  | rsh => simp only [applyOp2]; refine ha fun r => ?_; split <;> first | exact hs (by decide) | simp
  | bit => simp only [applyOp2]; refine ha fun r => ?_; split <;> first | exact hs (by decide) | simp

theorem applyOp1_fine {op : Op1} {p : Result} {u : UB} (h : applyOp1 op p = .ub u) : u ∉ wild := by
  revert h
  cases op <;> (simp only [applyOp1]; split <;> try simp)
  split <;> first | (intro h; cases h; decide) | simp

theorem meek_finishOp (tgt : Bool) (o : OpRes) (h : ∀ u, o = .ub u → u ∉ wild) : Meek (finishOp tgt o) := by
  cases o with
  | ok r => exact (inferInstance : Meek (setRes tgt r))
  | err m r => unfold finishOp; meek
  | ub u => exact meek_ub (h u rfl)
  | hang => exact (inferInstance : Meek (stopWith .hang : M Result))

instance meek_firstMatch (e : Str) (alts : List (Str × Op2)) : Meek (firstMatch e alts) := by
  induction alts with
  | nil => exact Meek.pure _
  | cons x alts ih => obtain ⟨pat, op⟩ := x; unfold firstMatch; meek

theorem meek_parseRows (rec : Bool → Str → M Result) (hrec : ∀ tgt x, Meek (rec tgt x)) (tgt : Bool) (e : Str)
    (rows : List Ent) : Meek (parseRows rec tgt e rows) := by
  induction rows with
  | nil => exact (inferInstance : Meek (parseLeaf tgt (creverse e)))
  | cons r rows ih =>
    cases r with
    | dya alts =>
      unfold parseRows
      refine Meek.bind inferInstance fun m => ?_
      rcases m with _ | ⟨c1, c2, op⟩
      · exact ih
      · dsimp only
        split
        · exact ih
        · exact Meek.bind (hrec _ _) fun p => Meek.bind (hrec _ _) fun a => meek_finishOp _ _ fun u => applyOp2_fine
    | mon pat op =>
      unfold parseRows
      refine Meek.bind inferInstance fun r => ?_
      rcases r with _ | _ | ⟨c, ca⟩
      · exact ih
      · exact ih
      · exact Meek.bind (hrec _ _) fun p => meek_finishOp _ _ fun u => applyOp1_fine
    | paren pat =>
      unfold parseRows
      refine Meek.bind inferInstance fun r => ?_
      rcases r with _ | _ | ⟨c, ca⟩
      · exact ih
      · exact ih
      · exact hrec _ _

instance meek_parse2 (n : Nat) (tgt : Bool) (e : Str) : Meek (parse2 n tgt e) := by
  induction n generalizing tgt e with
  | zero => unfold parse2; meek
  | succ n ih => exact meek_parseRows (parse2 n) ih tgt e revTable
instance (o : Option Str) : Meek (parse o) := by unfold parse; meek
instance (o : Option Str) : Meek (parseAbs o) := by unfold parseAbs; meek

/-! ### Instructions -/

instance : Meek openScode := by unfold openScode; meek
instance (x : Byte) : Meek (insert8 x) := by unfold insert8; meek
instance (x : BitVec 16) : Meek (insert16 x) := by unfold insert16; meek
instance (x : BitVec 32) : Meek (insert32 x) := by unfold insert32; meek
instance (a : Word) : Meek (setpc a) := Meek.modS _
instance (c : BitVec 32) (o : Option Str) : Meek (relBranch c o) := by unfold relBranch; meek

namespace C6800
instance (c : BitVec 32) (o : Option Str) : Meek (single c o) := by unfold single; meek
instance (a : BitVec 32) (o : Str) : Meek (modeValue a o) := by unfold modeValue; meek
instance meek_findmode (o : Option Str) (ms : List (Str × BitVec 32)) : Meek (findmode o ms) := by
  induction ms with
  | nil => unfold findmode; meek
  | cons r rows ih => obtain ⟨p, b⟩ := r; unfold findmode; meek
instance (a b c : BitVec 32) : Meek (codemode a b c) := by unfold codemode; meek
instance (h : H6800) (m : Int) (o : Option Str) : Meek (call h m o) := by
  cases h with
  | branch => exact (inferInstance : Meek (relBranch _ o))
  | single => exact (inferInstance : Meek (single _ o))
  | standard => exact Meek.bind inferInstance fun r => (inferInstance : Meek (codemode _ _ _))
  | standard2 => show Meek (standard2 _ o); unfold standard2; meek
  | standard3 => show Meek (standard3 _ o); unfold standard3; meek
end C6800

namespace C6502
/-- Every addressing mode has its place in the row of the table. -/
def RowOk (c : BitVec 32) : Prop := ∀ k < 16, (m2offset c k).isSome = true

instance (c : BitVec 32) (o : Option Str) : Meek (single c o) := by unfold single; meek
instance meek_searchMode (o : Str) (ms : List (Str × Nat)) : Meek (searchMode o ms) := by
  induction ms with
  | nil => unfold searchMode; meek
  | cons r rows ih => obtain ⟨p, b⟩ := r; unfold searchMode; meek
instance (m : Nat) (o : Str) : Meek (operand m o) := by unfold operand; meek

theorem or_one_lt {m : Nat} (h : m < 16) : m ||| 1 < 16 := Nat.or_lt_two_pow (n := 4) h (by decide)

theorem meek_opcodeFor {c : BitVec 32} (hc : RowOk c) {m : Nat} (hm : m < 16) : Meek (opcodeFor c m) := by
  unfold opcodeFor
  have h1 := hc m hm
  cases e : m2offset c m with
  | none => rw [e] at h1; cases h1
  | some off =>
    dsimp only
    have h2 : (m2offset c (if off = 0 then m ||| 1 else m)).isSome = true := by
      refine hc _ ?_
      split
      · exact or_one_lt hm
      · exact hm
    cases e2 : m2offset c (if off = 0 then m ||| 1 else m) with
    | none => rw [e2] at h2; cases h2
    | some off2 =>
      cases off2 with
      | zero => exact (inferInstance : Meek (error _ : M (Nat × Nat)))
      | succ k => exact Meek.pure _

theorem searchMode_lt {o : Str} {ms : List (Str × Nat)} (hm : ∀ x ∈ ms, x.2 < 16) {s s' : St} {m : Nat} {t : Str}
    (h : searchMode o ms s = .ok (some (m, t)) s') : m < 16 := by
  induction ms generalizing s with
  | nil => cases h
  | cons r rows ih =>
    obtain ⟨p, b⟩ := r
    unfold searchMode at h
    obtain ⟨r, s1, -, h⟩ := bind_ok h
    revert h
    rcases r with _ | ⟨caps, k⟩
    · exact ih fun x hx => hm x (by simp [hx])
    · intro h; cases h; exact hm (p, m) (by simp)

theorem operand_lt {m : Nat} (hm : m < 16) {o : Str} {s s' : St} {k : Nat} {v : BitVec 32}
    (h : operand m o s = .ok (k, v) s') : k < 16 := by
  unfold operand at h
  obtain ⟨r, s1, -, h⟩ := bind_ok h
  dsimp only at h
  obtain ⟨_, s2, -, h⟩ := bind_ok h
  generalize hx : (if (_ : Bool) = true then 15 else m) = m' at h
  have hx : m' < 16 := by rw [← hx]; split <;> omega
  revert h
  split
  · split
    · intro h; cases h; exact or_one_lt hx
    · intro h
      obtain ⟨_, s3, -, h⟩ := bind_ok h
      cases h; exact hx
  · intro h; cases h; exact hx

theorem stop_bind {m : M α} {f : α → M β} {s s' : St} {w : Stop} (hm : Meek m)
    (hf : ∀ a s1, m s = .ok a s1 → f a s1 = .stop w s' → Fine w) (h : (m >>= f) s = .stop w s') : Fine w := by
  have h1 := hm.run s
  rw [bind_run] at h
  revert h1 h hf
  cases m s with
  | ok a s1 => intro hf h h1; exact hf a s1 rfl h
  | err s1 => intro _ h; cases h
  | stop w1 s1 => intro _ h h1; cases h; exact h1 _ _ rfl

theorem meek_standard {c : BitVec 32} (hc : RowOk c) (o : Option Str) : Meek (standard c o) := by
  constructor
  intro s w s' h
  unfold standard at h
  rw [getS_bind_run] at h
  refine stop_bind (by meek) (fun r s1 h1 h => ?_) h
  obtain ⟨mode, t⟩ := r
  have hm : mode < 16 := by
    revert h1
    cases o with
    | none => intro h1; cases h1; decide
    | some o =>
      intro h1
      obtain ⟨r, s2, h2, h1⟩ := bind_ok h1
      revert h1
      rcases r with _ | ⟨m, x⟩
      · intro h1; exact absurd h1 error_not_ok
      · intro h1; cases h1; exact searchMode_lt (by decide) h2
  clear h1
  revert h
  dsimp only
  split
  · exact fun h => (inferInstance : Meek (error _ : M Unit)).run _ _ _ h
  · intro h
    refine stop_bind (by meek) (fun r s2 h2 h => ?_) h
    obtain ⟨k, v⟩ := r
    have hk : k < 16 := by
      revert h2
      split
      · exact operand_lt hm
      · intro h2; cases h2; exact hm
    refine stop_bind (meek_opcodeFor hc hk) (fun r s3 _ h => ?_) h
    obtain ⟨k2, off⟩ := r
    revert h
    refine Meek.run (m := _) (self := ?_) _ _ _
    meek

theorem meek_call (h : H6502) (m : Int) (o : Option Str) (hr : h = .standard → RowOk (BitVec.ofInt 32 m)) : Meek (call h m o) := by
  cases h with
  | branch => exact (inferInstance : Meek (relBranch _ o))
  | single => exact (inferInstance : Meek (single _ o))
  | standard => exact meek_standard (hr rfl) o
end C6502

namespace Z80
instance meek_getIndexed (z : Z) (o : Str) (ps : List (Str × Idx × Option Bool)) : Meek (getIndexed z o ps) := by
  induction ps with
  | nil => exact Meek.pure _
  | cons r rows ih => obtain ⟨p, b, sg⟩ := r; unfold getIndexed; meek
instance (z : Z) (v : Word) : Meek (setArg z v) := by unfold setArg; meek
instance (r : Result) : Meek (singleReg r) := by unfold singleReg; meek
instance (z : Z) (n : Int) : Meek (regResult z n) := by unfold regResult; meek
instance (z : Z) (o : Str) : Meek (getreg z o) := by unfold getreg; meek
instance (z : Z) (c : BitVec 32) : Meek (docode z c) := by unfold docode; meek
instance (c : BitVec 32) (o : Option Str) : Meek (simple c o) := by unfold simple; meek
instance meek_findCond (o : Str) (ps : List Str) : ∀ i, Meek (findCond o i ps) := by
  induction ps with
  | nil => intro i; unfold findCond; meek
  | cons r rows ih => intro i; unfold findCond; meek
instance (n : Nat) (o : Option Str) : Meek (searchcond n o) := by unfold searchcond; meek
instance (a b : Byte) (o : Option Str) : Meek (condJump a b o) := by unfold condJump; meek
instance meek_firstOf (o : Str) (ps : List Str) : Meek (firstOf o ps) := by
  induction ps with
  | nil => exact Meek.pure _
  | cons r rows ih => unfold firstOf; meek
instance (z : Z) (o : Str) : Meek (exAf z o) := by unfold exAf; meek
instance (o : Option Str) : Meek (ex o) := by unfold ex; meek
instance (c : BitVec 32) (o : Str) : Meek (inoutOps c o) := by unfold inoutOps; meek
instance (c : BitVec 32) (o : Option Str) : Meek (inout c o) := by unfold inout; meek
instance (z : Z) (c : BitVec 32) (o : Str) : Meek (logicalTail z c o) := by unfold logicalTail; meek
instance (c : BitVec 32) (o : Option Str) : Meek (logical c o) := by unfold logical; meek
instance (c : BitVec 32) (o : Option Str) : Meek (arith c o) := by unfold arith; meek
instance (o : Option Str) : Meek (ld o) := by unfold ld; meek
instance (h : HZ80) (m : Int) (o : Option Str) : Meek (call h m o) := by
  cases h with
  | im => show Meek (im o); unfold im; meek
  | rst => show Meek (rst o); unfold rst; meek
  | jr => show Meek (jr o); unfold jr; meek
  | jp => show Meek (jp o); unfold jp; meek
  | call => show Meek (callOp o); unfold callOp; meek
  | ret => show Meek (ret o); unfold ret; meek
  | bitop => show Meek (bitop _ o); unfold bitop; meek
  | onreg8 => show Meek (onreg8 _ o); unfold onreg8; meek
  | stackop => show Meek (stackop _ o); unfold stackop; meek
  | incr => show Meek (incr _ o); unfold incr; meek
  | _ => unfold call; meek
end Z80

/-! ### Directives -/

instance (o : Option Str) (m : Int) : Meek (stocke o m) := by unfold stocke; meek
instance meek_dcLoop (m : Int) (n : Nat) (o : Option Str) : Meek (dcLoop m n o) := by
  induction n generalizing o with
  | zero => unfold dcLoop; meek
  | succ n ih => unfold dcLoop; meek
instance (m : Int) (o : Option Str) : Meek (xDc m o) := by unfold xDc; meek
instance meek_fillBytes (b : Byte) (n : Nat) : Meek (fillBytes b n) := by
  induction n with
  | zero => unfold fillBytes; meek
  | succ n ih => unfold fillBytes; meek
instance (o : Option Str) : Meek (xDs o) := by unfold xDs; meek
instance (s : Str) : Meek (settitle s) := by unfold settitle; meek
instance (o : Option Str) : Meek (xNam o) := by unfold xNam; meek
instance meek_ascLoop (d : Char) (s : Str) : ∀ e, Meek (ascLoop d e s) := by
  induction s with
  | nil => intro e; cases e <;> (unfold ascLoop; meek)
  | cons c s ih => intro e; cases e <;> (unfold ascLoop; meek)
instance (o : Option Str) : Meek (xAsc o) := by unfold xAsc; meek
instance (b : Bool) (o : Option Str) : Meek (xCode b o) := by unfold xCode; meek
instance (o : Option Str) (g : Bool → Flags → Flags) : Meek (onOff o g) := by unfold onOff; meek
instance (o : Option Str) : Meek (xClist o) := by unfold xClist; meek
instance (o : Option Str) : Meek (xIlist o) := by unfold xIlist; meek
instance (o : Option Str) : Meek (xMlist o) := by unfold xMlist; meek
instance (o : Option Str) : Meek (xList o) := by unfold xList; meek
instance (a b : Int) : Meek (setpage a b) := by unfold setpage; meek
instance (o : Option Str) : Meek (xPage o) := by unfold xPage; meek
instance meek_eols (n : Nat) : Meek (eols n) := by
  induction n with
  | zero => unfold eols; meek
  | succ n ih => unfold eols; meek
instance (o : Option Str) : Meek (xSkip o) := by unfold xSkip; meek
instance (o : Option Str) : Meek (xOutput o) := by unfold xOutput; meek
instance (o : Option Str) : Meek (xAlign o) := by unfold xAlign; meek
instance (i : TableId) (e : Entry) : Meek (bindOne i e) := by unfold bindOne; meek
instance meek_bindAll (i : TableId) (es : List Entry) (is : List Nat) : Meek (bindAll i es is) := by
  induction is with
  | nil => unfold bindAll; meek
  | cons i is ih => unfold bindAll; meek
instance (i : TableId) (es : List Entry) : Meek (initLabelList i es) := by unfold initLabelList; meek
instance (c : Int) : Meek (C6800.init c) := by unfold C6800.init; meek
instance (c : Int) : Meek (C6502.init c) := by unfold C6502.init; meek
instance : Meek Z80.init := by unfold Z80.init; meek
instance (c : Cpu) : Meek c.init := by unfold Cpu.init; meek
instance meek_findCpu (o : Str) (cs : List (Str × Cpu)) : Meek (findCpu o cs) := by
  induction cs with
  | nil => unfold findCpu; meek
  | cons c cs ih => obtain ⟨n, c⟩ := c; unfold findCpu; meek
instance (o : Option Str) : Meek (xCpu o) := by unfold xCpu; meek
instance (o : Option Str) : Meek (xFail o) := by unfold xFail; meek
instance (v : Word) : Meek (echoAddr v) := by unfold echoAddr; meek
instance (l : Str) (o : Option Str) : Meek (xEqu (some l) o) := by unfold xEqu; meek
instance (o : Option Str) : Meek (xInclude o) := by unfold xInclude checkDepth; meek

/-! ### Conditions, lines -/

instance meek_findCmp (o : Str) (cs : List (Str × Cmp)) : Meek (findCmp o cs) := by
  induction cs with
  | nil => exact Meek.pure _
  | cons c cs ih => obtain ⟨p, q⟩ := c; unfold findCmp; meek
instance (q : Cmp) (a b : Result) : Meek (compareRes q a b) := by unfold compareRes; meek
instance (o : Option Str) : Meek (testtrue o) := by unfold testtrue; meek
instance (o : Option Str) : Meek (xElse o) := by unfold xElse; meek
instance (o : Option Str) : Meek (xEndc o) := by unfold xEndc; meek
instance (m : Str) (r : RC) (st : Status) (o : Option Str) : Meek (macroEnd m r st o) := by unfold macroEnd; meek
instance (st : Status) (o : Option Str) : Meek (xEndm st o) := by unfold xEndm; meek
instance (st : Status) (o : Option Str) : Meek (xExitm st o) := by unfold xExitm; meek
instance (r : Str) : Meek (takeLine r) := by unfold takeLine; meek
instance : Meek linegets := by unfold linegets; meek
instance (st : Status) : Meek (ifList st) := by unfold ifList; meek
instance (st : Status) (b : Bool) : Meek (markSkipped st b) := by unfold markSkipped; meek
instance meek_macroLoop (st : Status) (n : Nat) : ∀ acc, Meek (macroLoop st n acc) := by
  induction n with
  | zero => intro acc; unfold macroLoop; meek
  | succ n ih => intro acc; unfold macroLoop; meek
instance (k : Str) (ls : List Str) : Meek (setLines k ls) := by unfold setLines; meek
instance (n : Nat) (st : Status) (l : Str) (o : Option Str) : Meek (xMacro n st (some l) o) := by unfold xMacro; meek
instance meek_macroArgs (n : Nat) : ∀ acc o, Meek (macroArgs n acc o) := by
  induction n with
  | zero => intro acc o; unfold macroArgs; meek
  | succ n ih => intro acc o; unfold macroArgs; meek
instance (l : Str) : Meek (herelabel l) := by unfold herelabel; meek
instance (m : Str) : Meek (findmnemo m) := by unfold findmnemo; meek
instance (l : Option Str) (s : Str) : Meek (splitMnemo l s) := by unfold splitMnemo; meek
instance (s : Str) : Meek (splitLine s) := by unfold splitLine; meek
instance : Meek startLine := by unfold startLine; meek
instance : Meek stripLine := by unfold stripLine; meek
instance : Meek checkDepth := by unfold checkDepth; meek
instance (k : Str) : Meek (markUsed k) := Meek.modS _
instance : Meek bumpErr := Meek.modS _

/-! ### Lines and passes -/

/-- From every state in which mnemonics come from the tables, `m` stops only in a `Fine` way. -/
def Okay (m : M α) : Prop := ∀ s, GoodTree s.tree → ∀ w s', m s = .stop w s' → Fine w

theorem Okay.meek {m : M α} (h : Meek m) : Okay m := fun s _ => h.run s

theorem good_star {a b : Cfg} (h : Star Step a b) (ha : GoodTree a.1.tree) : GoodTree b.1.tree := by
  induction h with
  | refl => exact ha
  | tail _ r ih => exact good_step r ih
theorem good_ok {m : M α} (h : Walk Step m) {s s' : St} {a : α} (hm : m s = .ok a s') (hs : GoodTree s.tree) :
    GoodTree s'.tree := by
  have := h s
  rw [hm] at this
  exact good_star (a := (s, .live)) this hs
theorem good_err {m : M α} (h : Walk Step m) {s s' : St} (hm : m s = .err s') (hs : GoodTree s.tree) :
    GoodTree s'.tree := by
  have := h s
  rw [hm] at this
  exact good_star (a := (s, .live)) this hs

theorem Okay.bind {m : M α} {f : α → M β} (hw : Walk Step m) (hm : Okay m) (hf : ∀ a, Okay (f a)) : Okay (m >>= f) := by
  intro s hs w s' h
  have h1 := hm s hs
  rw [bind_run] at h
  revert h h1
  cases e : m s with
  | ok a s1 => intro h _; exact hf a s1 (good_ok hw e hs) w s' h
  | err s1 => intro h; cases h
  | stop w1 s1 => intro h h1; cases h; exact h1 _ _ rfl
theorem Okay.whenM {c : Prop} [Decidable c] {a : M Unit} (ha : Okay a) : Okay (whenM c a) := by
  unfold Crasm.whenM; split
  · exact ha
  · exact .meek (Meek.pure _)
theorem Okay.catchErr {m k : M α} (hw : Walk Step m) (hm : Okay m) (hk : Okay k) : Okay (catchErr m k) := by
  intro s hs w s' h
  have h1 := hm s hs
  unfold Crasm.catchErr at h
  revert h h1
  cases e : m s with
  | ok a s1 => intro h; cases h
  | err s1 => intro h _; exact hk s1 (good_err hw e hs) w s' h
  | stop w1 s1 => intro h h1; cases h; exact h1 _ _ rfl

section
variable {self : Status → M RC} (hw : ∀ st, Walk Step (self st)) (hs : ∀ st, Okay (self st))
include hw hs

theorem okay_ifLoop (st : Status) (n : Nat) : Okay (ifLoop self st n) := by
  induction n with
  | zero => exact .meek (by unfold ifLoop; meek)
  | succ n ih =>
    unfold ifLoop
    refine .bind (walk_catch (walk_ifRound hw st) (Walk.pure _))
      (.catchErr (walk_ifRound hw st) ?_ (.meek (by meek))) fun r => ?_
    · unfold ifRound
      refine .bind W.walk (.meek inferInstance) fun _ => .bind Walk.getS (.meek Meek.getS) fun s => ?_
      split
      · exact .meek (Meek.pure _)
      · exact .bind (hw _) (hs _) fun r => .meek (Meek.pure _)
    · rcases r with r | _
      · cases r with
        | cont => exact ih
        | _ => exact .meek (Meek.pure _)
      · exact .meek (inferInstance : Meek (error _ : M RC))

theorem okay_ifElse (fuel : Nat) (st : Status) (b : Bool) (o : Option Char) : Okay (ifElse self fuel st b o) := by
  unfold ifElse
  refine .bind Walk.getS (.meek Meek.getS) fun s => .bind W.walk (.meek inferInstance) fun _ => ?_
  exact .bind (walk_ifLoop hw _ _) (okay_ifLoop hw hs _ _) fun r => .meek (by meek)

theorem okay_xIf (fuel : Nat) (st : Status) (o : Option Str) : Okay (xIf self fuel st o) := by
  unfold xIf
  refine .bind (by walk) (.meek (by meek)) fun t => .bind Walk.getS (.meek Meek.getS) fun s => ?_
  refine .bind W.walk (.meek inferInstance) fun _ => .bind Walk.getS (.meek Meek.getS) fun s => ?_
  refine .bind W.walk (.meek inferInstance) fun _ => .bind (walk_ifLoop hw _ _) (okay_ifLoop hw hs _ _) fun r => ?_
  refine .bind (walk_prefix _) (.meek (Meek.modS _)) fun _ => ?_
  split
  · exact .meek inferInstance
  · refine .bind W.walk (.meek inferInstance) fun _ => ?_
    split
    · exact .meek (Meek.pure _)
    · exact .meek (Meek.pure _)
    · exact okay_ifElse hw hs _ _ _ _

theorem okay_macroRun (st : Status) (n : Nat) : Okay (macroRun self st n) := by
  induction n with
  | zero => exact .meek (by unfold macroRun; meek)
  | succ n ih =>
    unfold macroRun
    have hw2 : Walk Step (do linegets; self st) := Walk.bind W.walk fun _ => hw st
    refine .bind (walk_catch hw2 (Walk.pure _))
      (.catchErr hw2 (.bind W.walk (.meek inferInstance) fun _ => hs st) (.meek (by meek))) fun r => ?_
    split
    · exact ih
    · exact .meek (Meek.pure _)

theorem okay_macrocall (fuel : Nat) (k : Str) (lab : Label) (st : Status) (o : Option Str) :
    Okay (macrocall self fuel k lab st o) := by
  unfold macrocall
  refine .bind W.walk (.meek inferInstance) fun _ => .bind W.walk (.meek inferInstance) fun _ => ?_
  refine .bind Walk.getS (.meek Meek.getS) fun s0 => ?_
  dsimp only
  refine .bind W.walk (.meek inferInstance) fun args => ?_
  split
  · refine .bind (by walk) (.meek (by meek)) fun _ => ?_
    intro s g w s' h
    rw [modS_bind_run] at h
    refine Okay.bind (walk_macroRun hw _ _) (okay_macroRun hw hs _ _) (fun r => .meek ?_) _ ?_ _ _ h
    · meek
    · exact g
  · exact .meek inferInstance

/-- What the tables say of a mnemonic: its function gets what it needs. -/
def Apt (h : Handler) (m : Int) (label : Bool) : Prop :=
  (h = .h6502 .standard → C6502.RowOk (BitVec.ofInt 32 m)) ∧
  (h = .pseudo .equ ∨ h = .pseudo .macro → label = true)

theorem okay_callHandler (fuel : Nat) (h : Handler) (arg : Int) (l o : Option Str) (ha : Apt h arg l.isSome) :
    Okay (callHandler self fuel h arg l o) := by
  cases h with
  | h6800 h => exact .meek (Meek.bind inferInstance fun _ => Meek.pure _)
  | h6502 h => exact .meek (Meek.bind (C6502.meek_call h arg o fun e => ha.1 (by rw [e])) fun _ => Meek.pure _)
  | hz80 h => exact .meek (Meek.bind inferInstance fun _ => Meek.pure _)
  | pseudo p =>
    cases p with
    | equ =>
      cases l with
      | none => cases ha.2 (.inl rfl)
      | some l => exact .meek (Meek.bind inferInstance fun _ => Meek.pure _)
    | «macro» =>
      cases l with
      | none => cases ha.2 (.inr rfl)
      | some l => exact .meek (inferInstance : Meek (xMacro fuel (.ofInt arg) (some l) o))
    | if_ => exact okay_xIf hw hs _ _ _
    | else_ => exact .meek (inferInstance : Meek (xElse o))
    | endc => exact .meek (inferInstance : Meek (xEndc o))
    | endm => exact .meek (inferInstance : Meek (xEndm (.ofInt arg) o))
    | exitm => exact .meek (inferInstance : Meek (xExitm (.ofInt arg) o))
    | _ => exact .meek (Meek.bind inferInstance fun _ => Meek.pure _)

omit hw hs in
/-- What is asked of an element of a table. -/
def aptB (e : Entry) : Bool :=
  match e.label.type, e.label.ptr with
  | .mnemo, .handler (.h6502 .standard) => (List.range 16).all fun k => (C6502.m2offset (BitVec.ofInt 32 e.label.modifier) k).isSome
  | .mnemo, .handler (.pseudo .equ) => e.label.flags.deflabel
  | .mnemo, .handler (.pseudo .macro) => e.label.flags.deflabel
  | .mnemo, .handler _ => true
  | .mnemo, _ => false
  | _, _ => true

omit hw hs in
theorem tables_apt (t : TableId) : ∀ e ∈ tableOf t, aptB e = true := by
  have : (tableOf t).all aptB = true := by cases t <;> decide +kernel
  exact List.all_eq_true.1 this

omit hw hs in
theorem listed_apt {f : LFlags} {p : Ptr} {m : Int} (h : Listed f p m) :
    ∃ x, p = .handler x ∧ Apt x m f.deflabel := by
  obtain ⟨t, e, he, h1, h2, h3, h4⟩ := h
  have := tables_apt t e he
  unfold aptB at this
  rw [h1, h2, h3, h4] at this
  revert this
  cases p with
  | handler x =>
    intro this
    refine ⟨x, rfl, ?_, ?_⟩
    · rintro rfl k hk
      exact List.all_eq_true.1 this k (List.mem_range.2 hk)
    · rintro (rfl | rfl) <;> exact this
  | _ => intro this; cases this

theorem okay_execLine (fuel : Nat) (st : Status) (l o : Option Str) (k : Str) (lab : Label)
    (hg : SpecialOk lab.flags lab.type lab.ptr lab.modifier) (hl : lab.flags.deflabel = true → l.isSome = true) :
    Okay (execLine self fuel st l o k lab) := by
  have key : lab.type = .mnemo → ∃ x, lab.ptr = .handler x ∧ Apt x lab.modifier l.isSome := by
    intro h
    obtain ⟨x, h1, h2⟩ := listed_apt (hg.2 h)
    exact ⟨x, h1, h2.1, fun h => hl (h2.2 h)⟩
  unfold execLine
  by_cases hc : (lab.flags.defcond || lab.flags.defmacro) = true
  · rw [if_pos hc]
    obtain ⟨ht, p, hp, hptr⟩ := hg.1 (by simpa using hc)
    obtain ⟨x, h1, h2⟩ := key ht
    rw [h1]
    rw [hptr] at h1
    cases h1
    exact okay_callHandler hw hs _ _ _ _ _ ⟨fun h => (by cases h), h2.2⟩
  · rw [if_neg hc]
    split
    · split
      · exact .meek inferInstance
      · refine .bind ?_ ?_ fun _ => .meek (Meek.pure _)
        · split
          · exact walk_macrocall hw _ _ _ _ _
          · walk
        · split
          · exact okay_macrocall hw hs _ _ _ _ _
          · exact .meek (by meek)
    · split
      · rename_i ht
        obtain ⟨x, h1, h2⟩ := key ht
        rw [h1]
        intro s g w s' h
        by_cases hst : st.act = true
        · unfold whenM at h
          rw [if_pos hst] at h
          dsimp only at h
          rw [bind_assoc, bind_run] at h
          have h3 := okay_callHandler hw hs fuel x lab.modifier l o h2 s g
          revert h h3
          cases callHandler self fuel x lab.modifier l o s with
          | stop w1 s1 => intro h h3; cases h; exact h3 _ _ rfl
          | err s1 => intro h; cases h
          | ok a s1 =>
            intro h _
            dsimp only at h
            revert h
            refine Meek.run (self := ?_) s1 _ _
            meek
        · revert h
          unfold whenM
          rw [if_neg hst]
          refine Meek.run (self := ?_) s _ _
          meek
      · exact .meek inferInstance

theorem okay_doFields (fuel : Nat) (st : Status) (b : Bool) (f : Fields)
    (hf : ∀ k lab, f.entry = some (k, lab) → SpecialOk lab.flags lab.type lab.ptr lab.modifier) :
    Okay (doFields self fuel st b f) := by
  haveI : ∀ l, W Step (herelabel l) := fun l => ⟨walk_a W.walk⟩
  unfold doFields
  cases he : f.entry with
  | none => exact .meek (by meek)
  | some e =>
    obtain ⟨k, lab⟩ := e
    dsimp only
    split
    · exact .meek inferInstance
    · cases hl : f.label with
      | some l =>
        refine .bind (by walk) (.meek (by meek)) fun _ => ?_
        exact okay_execLine hw hs _ _ _ _ _ _ (hf k lab he) fun _ => rfl
      | none =>
        dsimp only
        by_cases hd : lab.flags.deflabel = true
        · refine .meek (Meek.mk fun s w s' h => ?_)
          unfold whenM at h
          rw [if_pos hd, bind_run] at h
          have := (inferInstance : Meek (error c!"label required here" : M Unit)).run s
          have hn : ∀ a s1, (error c!"label required here" : M Unit) s ≠ .ok a s1 := fun a s1 => error_not_ok
          revert h this hn
          cases (error c!"label required here" : M Unit) s with
          | ok a s1 => intro _ _ hn; exact absurd rfl (hn a s1)
          | err s1 => intro h; cases h
          | stop w1 s1 => intro h h1 _; cases h; exact h1 _ _ rfl
        · refine .bind (by walk) (.meek (by meek)) fun _ => ?_
          exact okay_execLine hw hs _ _ _ _ _ _ (hf k lab he) fun h => absurd h hd

theorem okay_asmlineF (fuel : Nat) (st : Status) : Okay (asmlineF self fuel st) := by
  intro s g w s' h
  unfold asmlineF at h
  have w1 : Walk Step startLine := fun s => by
    obtain ⟨s1, h1, -, hw⟩ := startLine_run s
    rw [h1]; exact hw
  refine C6502.stop_bind inferInstance (fun _ s1 h1 h => ?_) h
  have g1 := good_ok w1 h1 g
  rw [getS_bind_run] at h
  refine C6502.stop_bind inferInstance (fun t s2 h2 h => ?_) h
  have g2 := good_ok (walk_a walk_stripLine) h2 g1
  revert h
  split
  · refine Meek.run (self := ?_) s2 _ _
    meek
  · intro h
    refine C6502.stop_bind inferInstance (fun f s3 h3 h => ?_) h
    refine okay_doFields hw hs _ _ _ f (fun k lab he => ?_) s3 (good_ok (walk_a W.walk) h3 g2) _ _ h
    obtain ⟨k', hk⟩ := splitLine_entry h3 k lab he
    exact g2 k' lab hk
end

theorem okay_asmline (n : Nat) : ∀ st, Okay (asmline n st) := by
  induction n with
  | zero => exact fun st => .meek (by unfold asmline; meek)
  | succ n ih => exact fun st => okay_asmlineF (walk_asmline n) ih n st

theorem okay_passLoop (fuel n : Nat) : ∀ b, Okay (passLoop fuel n b) := by
  induction n with
  | zero => exact fun b => .meek (by unfold passLoop; meek)
  | succ n ih =>
    intro b
    unfold passLoop
    refine .bind Walk.getS (.meek Meek.getS) fun s => ?_
    split
    · exact .meek (Meek.pure _)
    · refine .bind (walk_catch (by walk) (Walk.pure _)) (.catchErr (by walk) ?_ (.meek (by meek))) fun b => ih b
      refine .bind (by walk) ?_ fun _ => .meek (Meek.pure _)
      unfold passBody
      exact .bind W.walk (.meek inferInstance) fun _ => .bind W.walk (okay_asmline _ _) fun r => .meek (by meek)

instance (n : Nat) : Meek (passInit n) := by unfold passInit; meek
instance : Meek undeflabels := Meek.modS _

/-! ### xref.c -/

instance (k : Str) (l : Label) : Meek (printlabel k l) := by unfold printlabel; meek
instance meek_printlabels (ls : List (Str × Label)) : Meek (printlabels ls) := by
  induction ls with
  | nil => exact Meek.pure _
  | cons x ls ih => obtain ⟨k, l⟩ := x; unfold printlabels; meek
instance : Meek xref := by unfold xref; meek
instance (t : Str) : Meek (resultLine t) := by unfold resultLine; meek
instance : Meek result := by unfold result; meek

end Crasm

import Verif.Proof.RelN

/-! Two related runs, continued: error(), expressions, code generation, directives. -/

namespace Crasm

/-- The part of `error` that prints. -/
def errorText (msg : Str) (s : St) : M Unit := do
  whenM (!s.flags.noerror) (reportError msg)
  outputline

theorem quiet_errorText (msg : Str) (s : St) : Quiet (errorText msg s) := by unfold errorText; quiet

theorem errorText_inv (msg : Str) {s : St} (i : Inv s) : Inv (errorText msg s s).state := by
  unfold errorText
  cases hn : s.flags.noerror with
  | true =>
    have : Inv (outputline s).state := (inferInstance : KeepInv outputline).inv s i
    exact this
  | false =>
    simp only [whenM, Bool.not_false, if_true]
    have hp : ¬ s.passnumber ≤ 1 := fun hp => by
      have := (i.2 hp).1
      rw [hn] at this
      cases this
    have i' : Inv { s with flags := { s.flags with listOn := true } } := ⟨i.1, fun h => absurd h hp⟩
    rw [bind_run]
    have e : reportError msg s = (if 80 ≤ (diagText c!" ERROR: " s.linenumber msg).length then ubM .errorBuffer
      else do
        modFlags fun f => { f with listOn := true }
        outputraw (diagText c!" ERROR: " s.linenumber msg)) s := rfl
    have i2 : Inv (reportError msg s).state := by
      rw [e]
      split
      · exact i
      · simp only [modFlags, modS_bind_run]
        exact (inferInstance : KeepInv (outputraw _)).inv _ i'
    cases hr : reportError msg s with
    | ok a s1 => rw [hr] at i2; exact (inferInstance : KeepInv outputline).inv s1 i2
    | err s1 => rw [hr] at i2; exact i2
    | stop w s1 => rw [hr] at i2; exact i2

theorem error_eq (msg : Str) (s : St) : (error msg : M α) s = match errorText msg s s with
    | .ok _ s1 =>
      if s.advance = 0 then
        .err { s1 with flags := s.flags, log := .error s.passnumber (!s.flags.noerror) :: s.log }
      else match addS (starLabel s).value (BitVec.ofInt 64 s.advance) with
        | none => .stop (.ub .signedOverflow) s1
        | some v => .err { s1 with flags := s.flags, tree := s.tree.put starKey { starLabel s with value := v },
                                   log := .error s.passnumber (!s.flags.noerror) :: s.log }
    | .err s1 => .err s1
    | .stop w s1 => .stop w s1 := by
  have q := (quiet_errorText msg s).run s
  have e : (error msg : M α) s = (errorText msg s >>= fun _ => do
      whenM (s.advance ≠ 0) bumpStar
      modS fun s' => { s' with flags := { s'.flags with listOn := s.flags.listOn }, log := .error s'.passnumber (!s.flags.noerror) :: s'.log }
      (throwErr : M α)) s := by
    unfold error errorText
    rw [getS_bind_run]
    simp only [bind_run]
    cases whenM (!s.flags.noerror) (reportError msg) s <;> rfl
  rw [e, bind_run]
  cases h : errorText msg s s with
  | err s1 => rfl
  | stop w s1 => rfl
  | ok a s1 =>
    rw [h] at q
    obtain ⟨l, b, f, rfl⟩ := q
    by_cases h0 : s.advance = 0
    · simp [whenM, h0, bind_run]
    · simp only [whenM, h0, ne_eq, not_false_eq_true, if_true, if_false, bumpStar, bind_run, getS_run]
      have hs : starLabel { s with lst := l, bufpos := b, flags := { s.flags with listOn := f } } = starLabel s := rfl
      rw [hs]
      cases hv : addS (starLabel s).value (BitVec.ofInt 64 s.advance) <;> rfl

theorem inv_flagsBack {s s1 : St} (i : Inv s) (i1 : Inv s1) (h : SameBut s s1) (t : Tree) (ev : List Event) :
    Inv { s1 with flags := s.flags, tree := t, log := ev } := by
  obtain ⟨l, b, f, rfl⟩ := h
  exact ⟨i1.1, fun hp => ⟨(i.2 hp).1, (i.2 hp).2.1, (i.2 hp).2.2.1, (i.2 hp).2.2.2.1, (i1.2 hp).2.2.2.2⟩⟩

instance (msg : Str) : Rel (error msg : M α) := ⟨by
  rintro s₁ s₂ ⟨fr, i1, i2⟩
  unfold RelAt
  rw [error_eq, error_eq]
  have q1 := (quiet_errorText msg s₁).run s₁
  have q2 := (quiet_errorText msg s₂).run s₂
  have j1 := errorText_inv msg i1
  have j2 := errorText_inv msg i2
  obtain ⟨l, b, c, x, y, z, st, rfl, e⟩ := fr
  generalize hr1 : errorText msg s₁ s₁ = r1 at *
  generalize hr2 : errorText msg _ _ = r2 at *
  cases r1 with
  | err => exact q1.elim
  | stop w t1 =>
    cases r2 with
    | err => exact q2.elim
    | stop w t2 => exact ⟨j1, j2⟩
    | ok _ t2 =>
      refine ⟨j1, ?_⟩
      dsimp only at q2 j2 ⊢
      have k := fun t ev => inv_flagsBack i2 j2 q2 t ev
      split
      · exact k _ _
      · split
        · exact j2
        · exact k _ _
  | ok _ t1 =>
    have k := fun t ev => inv_flagsBack i1 j1 q1 t ev
    dsimp only
    cases r2 with
    | err => exact q2.elim
    | stop w t2 =>
      dsimp only
      split
      · exact ⟨k _ _, j2⟩
      · split
        · exact ⟨j1, j2⟩
        · exact ⟨k _ _, j2⟩
    | ok _ t2 =>
      have k' := fun t ev => inv_flagsBack i2 j2 q2 t ev
      dsimp only
      obtain ⟨l1, b1, f1, rfl⟩ := q1
      obtain ⟨l2, b2, f2, rfl⟩ := q2
      have hs : starLabel (var s₁ l b c x y z st) = starLabel s₁ := rfl
      rw [hs]
      split
      · exact ⟨⟨l2, b2, c, x, y, z, st, rfl, e⟩, k _ _, k' _ _⟩
      · split
        · exact ⟨j1, j2⟩
        · exact ⟨⟨l2, b2, c, x, y, z, st, rfl, e⟩, k _ _, k' _ _⟩⟩

/-- Changes outside the listing. -/
theorem Rel.modPlain {g : St → St}
    (h : ∀ s l b c x y z st, g (var s l b c x y z st) = var (g s) l b c x y z st)
    (hk : ∀ s, (g s).passnumber = s.passnumber ∧ (g s).flags.noerror = s.flags.noerror ∧
      (g s).flags.nolist = s.flags.nolist ∧ (g s).flags.listOn = s.flags.listOn ∧
      (g s).stack = s.stack ∧ (g s).lst = s.lst) : Rel (Crasm.modS g) := by
  have hi : ∀ s, Inv s → Inv (g s) := by
    intro s i
    obtain ⟨h1, h2, h3, h4, h5, h6⟩ := hk s
    unfold Inv Mute
    rw [h1, h2, h3, h4, h5, h6]
    exact i
  refine Rel.modS ?_
  rintro s _ ⟨⟨l, b, c, x, y, z, st, rfl, e⟩, i1, i2⟩
  refine ⟨⟨l, b, c, x, y, z, st, h s l b c x y z st, ?_⟩, hi _ i1, hi _ i2⟩
  rw [(hk s).2.2.2.2.1]; exact e

/-- The same, in a form that is usually `rfl`. -/
macro "relmod" : tactic => `(tactic|
  (refine Rel.modPlain (fun s l b c x y z st => rfl) (fun s => ⟨rfl, rfl, rfl, rfl, rfl, rfl⟩)))

/-! ### label.c, operator.c, parse.c -/

theorem Rel.catchErr {m h : M α} (hm : Rel m) (hh : Rel h) : Rel (catchErr m h) := by
  constructor
  intro s₁ s₂ r
  have a := hm.at_ s₁ s₂ r
  unfold RelAt at *
  unfold Crasm.catchErr
  cases e1 : m s₁ <;> cases e2 : m s₂ <;> rw [e1, e2] at a <;> simp only [Agree] at a ⊢
  · exact a
  · exact a
  · exact hh.at_ _ _ a
  · rename_i t1 w t2
    have h' : Inv t1 ∧ Inv t2 := a
    have r : RR t1 t1 := ⟨.rfl' _, h'.1, h'.1⟩
    have := (hh.at_ t1 t1 r).inv.1
    revert this
    generalize h t1 = x
    intro hx
    cases x <;> exact ⟨hx, h'.2⟩
  · exact a
  · rename_i w t1 t2
    have h' : Inv t1 ∧ Inv t2 := a
    have r : RR t2 t2 := ⟨.rfl' _, h'.2, h'.2⟩
    exact ⟨h'.1, (hh.at_ t2 t2 r).inv.2⟩
  · exact a

instance (n : Note) : Rel (note n) := by unfold note; relmod
instance (m : Str) : Rel (refuse m : M α) :=
  Rel.catchErr inferInstance (Rel.bind inferInstance fun _ => ⟨fun _ _ r => r⟩)

instance (k : Str) (l : Label) : Rel (putLabel k l) := by unfold putLabel; relmod
instance (name : Str) : Rel (findlabel name) := by unfold findlabel searchlabel addrType; rel
instance (name : Str) (f : LFlags) (t : LType) (v : Word) : Rel (deflabel name f t v) := by
  unfold deflabel; rel
instance (r : Result) (t : LType) : Rel (checktype r t) := by unfold checktype; rel
instance (r : Result) : Rel (modS fun s => { s with calcR := r }) := by relmod
instance (tgt : Bool) (r : Result) : Rel (setRes tgt r) := by unfold setRes; rel
instance (tgt : Bool) (v : Nat) : Rel (cst tgt v) := by unfold cst; rel
instance (tgt : Bool) (v : Except Str Nat) : Rel (cstE tgt v) := by unfold cstE; rel
instance (tgt : Bool) (n : Str) : Rel (cstlabel tgt n) := by unfold cstlabel; rel
instance (tgt : Bool) (o : OpRes) : Rel (finishOp tgt o) := by unfold finishOp; rel
instance rel_parseConst (tgt : Bool) (e : Str) (rows : List (Str × Base)) : Rel (parseConst tgt e rows) := by
  induction rows with
  | nil => unfold parseConst; rel
  | cons r rows ih => obtain ⟨p, b⟩ := r; unfold parseConst; rel
instance (tgt : Bool) (e : Str) : Rel (parseLeaf tgt e) := by unfold parseLeaf; rel
instance rel_firstMatch (e : Str) (alts : List (Str × Op2)) : Rel (firstMatch e alts) := by
  induction alts with
  | nil => unfold firstMatch; rel
  | cons r rows ih => obtain ⟨p, b⟩ := r; unfold firstMatch; rel
theorem rel_parseRows (rec : Bool → Str → M Result) (h : ∀ t e, Rel (rec t e)) (tgt : Bool) (e : Str)
    (rows : List Ent) : Rel (parseRows rec tgt e rows) := by
  induction rows with
  | nil => unfold parseRows; rel
  | cons r rows ih => cases r <;> (unfold parseRows; rel)
instance rel_parse2 (n : Nat) : ∀ tgt e, Rel (parse2 n tgt e) := by
  induction n with
  | zero => intro tgt e; unfold parse2; rel
  | succ n ih => intro tgt e; unfold parse2; exact rel_parseRows _ ih tgt e _
instance (e : Option Str) : Rel (parse e) := by unfold parse; rel
instance (e : Option Str) : Rel (parseAbs e) := by unfold parseAbs; rel

/-! ### scode.c, the processors, the data directives -/

instance : Rel openScode := by unfold openScode modCode; rel; relmod
instance (x : Byte) : Rel (insert8 x) := by unfold insert8; rel <;> relmod
instance (x : BitVec 16) : Rel (insert16 x) := by unfold insert16; rel
instance (x : BitVec 32) : Rel (insert32 x) := by unfold insert32; rel
instance (c : BitVec 32) (o : Option Str) : Rel (relBranch c o) := by unfold relBranch; rel

namespace C6800
instance (c : BitVec 32) (o : Option Str) : Rel (single c o) := by unfold single; rel
instance (a : BitVec 32) (o : Str) : Rel (modeValue a o) := by unfold modeValue; rel
instance rel_findmode (o : Option Str) (ms : List (Str × BitVec 32)) : Rel (findmode o ms) := by
  induction ms with
  | nil => unfold findmode; rel
  | cons r rows ih => obtain ⟨p, b⟩ := r; unfold findmode; rel
instance (a b c : BitVec 32) : Rel (codemode a b c) := by unfold codemode; rel
instance (c : BitVec 32) (o : Option Str) : Rel (standard c o) := by unfold standard; rel
instance (c : BitVec 32) (o : Option Str) : Rel (standard2 c o) := by unfold standard2; rel
instance (c : BitVec 32) (o : Option Str) : Rel (standard3 c o) := by unfold standard3; rel
instance (h : H6800) (m : Int) (o : Option Str) : Rel (call h m o) := by unfold call; rel
end C6800

namespace C6502
instance (c : BitVec 32) (o : Option Str) : Rel (single c o) := by unfold single; rel
instance rel_searchMode (o : Str) (ms : List (Str × Nat)) : Rel (searchMode o ms) := by
  induction ms with
  | nil => unfold searchMode; rel
  | cons r rows ih => obtain ⟨p, b⟩ := r; unfold searchMode; rel
instance (m : Nat) (o : Str) : Rel (operand m o) := by unfold operand; rel
instance (c : BitVec 32) (m : Nat) : Rel (opcodeFor c m) := by unfold opcodeFor; rel
instance (c : BitVec 32) (o : Option Str) : Rel (standard c o) := by unfold standard; rel
instance (h : H6502) (m : Int) (o : Option Str) : Rel (call h m o) := by unfold call; rel
end C6502

namespace Z80
instance rel_getIndexed (z : Z) (o : Str) (ps : List (Str × Idx × Option Bool)) : Rel (getIndexed z o ps) := by
  induction ps with
  | nil => unfold getIndexed; rel
  | cons r rows ih => obtain ⟨p, b, c⟩ := r; unfold getIndexed; rel
instance (z : Z) (v : Word) : Rel (setArg z v) := by unfold setArg; rel
instance (r : Result) : Rel (singleReg r) := by unfold singleReg; rel
instance (z : Z) (n : Int) : Rel (regResult z n) := by unfold regResult; rel
instance (z : Z) (o : Str) : Rel (getreg z o) := by unfold getreg; rel
instance (z : Z) (c : BitVec 32) : Rel (docode z c) := by unfold docode; rel
instance (c : BitVec 32) (o : Option Str) : Rel (simple c o) := by unfold simple; rel
instance (o : Option Str) : Rel (im o) := by unfold im; rel
instance (o : Option Str) : Rel (rst o) := by unfold rst; rel
instance rel_findCond (o : Str) (i : Nat) (ps : List Str) : Rel (findCond o i ps) := by
  induction ps generalizing i with
  | nil => unfold findCond; rel
  | cons r rows ih => unfold findCond; rel
instance (n : Nat) (o : Option Str) : Rel (searchcond n o) := by unfold searchcond; rel
instance (o : Option Str) : Rel (jr o) := by unfold jr; rel
instance (o : Option Str) : Rel (ret o) := by unfold ret; rel
instance (a b : Byte) (o : Option Str) : Rel (condJump a b o) := by unfold condJump; rel
instance (o : Option Str) : Rel (callOp o) := by unfold callOp; rel
instance (o : Option Str) : Rel (jp o) := by unfold jp; rel
instance rel_firstOf (o : Str) (ps : List Str) : Rel (firstOf o ps) := by
  induction ps with
  | nil => unfold firstOf; rel
  | cons r rows ih => unfold firstOf; rel
instance (z : Z) (o : Str) : Rel (exAf z o) := by unfold exAf; rel
instance (o : Option Str) : Rel (ex o) := by unfold ex; rel
instance (c : BitVec 32) (o : Str) : Rel (inoutOps c o) := by unfold inoutOps; rel
instance (c : BitVec 32) (o : Option Str) : Rel (inout c o) := by unfold inout; rel
instance (c : BitVec 32) (o : Option Str) : Rel (bitop c o) := by unfold bitop; rel
instance (c : BitVec 32) (o : Option Str) : Rel (onreg8 c o) := by unfold onreg8; rel
instance (z : Z) (c : BitVec 32) (o : Str) : Rel (logicalTail z c o) := by unfold logicalTail; rel
instance (c : BitVec 32) (o : Option Str) : Rel (logical c o) := by unfold logical; rel
instance (c : BitVec 32) (o : Option Str) : Rel (stackop c o) := by unfold stackop; rel
instance (c : BitVec 32) (o : Option Str) : Rel (arith c o) := by unfold arith; rel
instance (c : BitVec 32) (o : Option Str) : Rel (incr c o) := by unfold incr; rel
instance (o : Option Str) : Rel (ld o) := by unfold ld; rel
instance (h : HZ80) (m : Int) (o : Option Str) : Rel (call h m o) := by unfold call; rel
end Z80

instance : Rel (modFlags fun f => { f with lohi := !f.lohi }) := by unfold modFlags; relmod
instance (o : Option Str) (m : Int) : Rel (stocke o m) := by unfold stocke; rel
instance rel_dcLoop (m : Int) (n : Nat) (o : Option Str) : Rel (dcLoop m n o) := by
  induction n generalizing o with
  | zero => unfold dcLoop; rel
  | succ n ih => unfold dcLoop; rel
instance (m : Int) (o : Option Str) : Rel (xDc m o) := by unfold xDc; rel
instance rel_fillBytes (b : Byte) (n : Nat) : Rel (fillBytes b n) := by
  induction n with
  | zero => unfold fillBytes; rel
  | succ n ih => unfold fillBytes; rel
instance (o : Option Str) : Rel (xDs o) := by unfold xDs; rel <;> relmod
instance rel_ascLoop (d : Char) (e : Bool) (s : Str) : Rel (ascLoop d e s) := by
  induction s generalizing e with
  | nil => cases e <;> (unfold ascLoop; rel)
  | cons c s ih => cases e <;> (unfold ascLoop; rel)
instance (o : Option Str) : Rel (xAsc o) := by unfold xAsc; rel
instance (o : Option Str) : Rel (xAlign o) := by unfold xAlign; rel

end Crasm

import Verif.Proof.WalkN

/-! Functions that generate code: scode.c, the three processors, the data directives. -/

namespace Crasm

instance (b : Bool) : W HStep (modFlags fun f => { f with lohi := b }) :=
  ⟨Walk.modS fun s => .one (.lohi s b)⟩
instance : W HStep (modFlags fun f => { f with lohi := !f.lohi }) :=
  ⟨Walk.modS fun s => .one (.lohi s (!s.flags.lohi))⟩

/-- What `insert8` does once an origin is known and the file is (or can be) open. -/
theorem insert8_run (x : Byte) (s : St) (ho : s.flags.orgGv = true)
    (hc : s.flags.nocode = false → s.code.file = none → s.env.canCreate = true) :
    (∃ w s' c, insert8 x s = .stop w s' ∧ SameBut { s with code := c } s') ∨
    (∃ s', insert8 x s = .ok () s' ∧ SameBut (emitSt s x) s') := by
  have hopen : openScode s = .ok () { s with code := Code.opened s } := by
    unfold openScode Code.opened
    simp only [getS_bind_run]
    by_cases h : (!s.flags.nocode && s.code.file.isNone) = true
    · simp only [h, if_true]
      simp at h
      simp [hc h.1 (by simpa using h.2), modCode]
    · simp only [h]
      rfl
  have hpc : (Code.opened s).pc = s.code.pc := by unfold Code.opened; split <;> rfl
  have hpush : ∀ hex (c : Code), (c.push hex x).pc = c.pc := by
    intro hex c; unfold Code.push; split
    · simp only [Code.flush, Code.write]; split
      · split <;> rfl
      · rfl
    · rfl
  unfold insert8
  simp only [getS_bind_run, ho, Bool.not_true, Bool.false_eq_true, if_false]
  rw [bind_run, hopen]
  simp only
  cases hon : s.flags.codeOn with
  | false =>
    right
    refine ⟨emitSt s x, ?_, .rfl' _⟩
    simp [whenM, emitSt, Code.emitted, hon, hpc]
  | true =>
    simp only [whenM, if_true, bind_run, modS_run]
    have q := (inferInstance : Quiet (outputbyte x)).run
      { s with code := { (Code.opened s).push s.flags.codeHex x with codelen := (Code.opened s).codelen + 1 } }
    revert q
    cases outputbyte x { s with code := { (Code.opened s).push s.flags.codeHex x with
        codelen := (Code.opened s).codelen + 1 } } with
    | err s' => intro q; exact q.elim
    | stop w s' => intro q; exact .inl ⟨w, s', _, rfl, q⟩
    | ok a s' =>
      intro q
      obtain ⟨l, b, f, rfl⟩ := q
      right
      refine ⟨_, rfl, ⟨l, b, f, ?_⟩⟩
      simp [emitSt, Code.emitted, hon, hpush, hpc]

instance (x : Byte) : W HStep (insert8 x) := ⟨by
  intro s
  by_cases ho : s.flags.orgGv = true
  · by_cases hc : s.flags.nocode = false → s.code.file = none → s.env.canCreate = true
    · rcases insert8_run x s ho hc with ⟨w, s', c, h, l, b, f, rfl⟩ | ⟨s', h, hq⟩
      · rw [h]; exact .one (.n (.die s l b c f))
      · rw [h]; exact (Star.one (.emit s x ho hc)).trans (hq.star.mono fun _ _ h => .n h)
    · obtain ⟨h1, h2, h3⟩ : s.flags.nocode = false ∧ s.code.file = none ∧ s.env.canCreate = false := by
        simpa using hc
      have : insert8 x s = .stop (.fatal c!"can't open scode file") s := by
        simp [insert8, openScode, ho, h1, h2, h3, bind_run]
      rw [this]
      exact .one (.n (.die s s.lst s.bufpos s.code s.flags.listOn))
  · have : insert8 x s = (error c!"no org given" : M Unit) s := by
      simp [insert8, ho]
    rw [this]
    exact W.walk s⟩

instance (x : BitVec 16) : W HStep (insert16 x) := ⟨by unfold insert16; walk⟩
instance (x : BitVec 32) : W HStep (insert32 x) := ⟨by unfold insert32; walk⟩
instance (c : BitVec 32) (o : Option Str) : W HStep (relBranch c o) := ⟨by unfold relBranch; walk⟩

/-! ### cpu6800.c, cpu6502.c -/

namespace C6800
instance (c : BitVec 32) (o : Option Str) : W HStep (single c o) := ⟨by unfold single; walk⟩
instance (a : BitVec 32) (o : Str) : W NStep (modeValue a o) := ⟨by unfold modeValue; walk⟩
theorem walk_findmode (o : Option Str) (ms : List (Str × BitVec 32)) : Walk NStep (findmode o ms) := by
  induction ms with
  | nil => unfold findmode; walk
  | cons r rows ih => obtain ⟨p, b⟩ := r; unfold findmode; walk <;> exact ih
instance (o : Option Str) (ms : List (Str × BitVec 32)) : W NStep (findmode o ms) := ⟨walk_findmode o ms⟩
instance (a b c : BitVec 32) : W HStep (codemode a b c) := ⟨by unfold codemode; walk⟩
instance (c : BitVec 32) (o : Option Str) : W HStep (standard c o) := ⟨by unfold standard; walk⟩
instance (c : BitVec 32) (o : Option Str) : W HStep (standard2 c o) := ⟨by unfold standard2; walk⟩
instance (c : BitVec 32) (o : Option Str) : W HStep (standard3 c o) := ⟨by unfold standard3; walk⟩
instance (h : H6800) (m : Int) (o : Option Str) : W HStep (call h m o) := ⟨by unfold call; walk⟩
end C6800

namespace C6502
instance (c : BitVec 32) (o : Option Str) : W HStep (single c o) := ⟨by unfold single; walk⟩
theorem walk_searchMode (o : Str) (ms : List (Str × Nat)) : Walk NStep (searchMode o ms) := by
  induction ms with
  | nil => unfold searchMode; walk
  | cons r rows ih => obtain ⟨p, b⟩ := r; unfold searchMode; walk; exact ih
instance (o : Str) (ms : List (Str × Nat)) : W NStep (searchMode o ms) := ⟨walk_searchMode o ms⟩
instance (m : Nat) (o : Str) : W NStep (operand m o) := ⟨by unfold operand; walk⟩
instance (c : BitVec 32) (m : Nat) : W NStep (opcodeFor c m) := ⟨by unfold opcodeFor; walk⟩
instance (c : BitVec 32) (o : Option Str) : W HStep (standard c o) := ⟨by unfold standard; walk⟩
instance (h : H6502) (m : Int) (o : Option Str) : W HStep (call h m o) := ⟨by unfold call; walk⟩
end C6502

/-! ### cpuz80.c -/

namespace Z80
theorem walk_getIndexed (z : Z) (o : Str) (ps : List (Str × Idx × Option Bool)) :
    Walk NStep (getIndexed z o ps) := by
  induction ps with
  | nil => unfold getIndexed; walk
  | cons r rows ih => obtain ⟨p, b, c⟩ := r; unfold getIndexed; walk; exact ih
instance (z : Z) (o : Str) (ps : List (Str × Idx × Option Bool)) : W NStep (getIndexed z o ps) :=
  ⟨walk_getIndexed z o ps⟩
instance (z : Z) (v : Word) : W NStep (setArg z v) := ⟨by unfold setArg; walk⟩
instance (r : Result) : W NStep (singleReg r) := ⟨by unfold singleReg; walk⟩
instance (z : Z) (n : Int) : W NStep (regResult z n) := ⟨by unfold regResult; walk⟩
instance (z : Z) (o : Str) : W NStep (getreg z o) := ⟨by unfold getreg; walk⟩
instance (z : Z) (c : BitVec 32) : W HStep (docode z c) := ⟨by unfold docode; walk⟩
instance (c : BitVec 32) (o : Option Str) : W HStep (simple c o) := ⟨by unfold simple; walk⟩
instance (o : Option Str) : W HStep (im o) := ⟨by unfold im; walk⟩
instance (o : Option Str) : W HStep (rst o) := ⟨by unfold rst; walk⟩
theorem walk_findCond (o : Str) (ps : List Str) : ∀ i, Walk NStep (findCond o i ps) := by
  induction ps with
  | nil => intro i; unfold findCond; walk
  | cons r rows ih => intro i; unfold findCond; walk; exact ih _
instance (o : Str) (i : Nat) (ps : List Str) : W NStep (findCond o i ps) := ⟨walk_findCond o ps i⟩
instance (n : Nat) (o : Option Str) : W NStep (searchcond n o) := ⟨by unfold searchcond; walk⟩
instance (o : Option Str) : W HStep (jr o) := ⟨by unfold jr; walk⟩
instance (o : Option Str) : W HStep (ret o) := ⟨by unfold ret; walk⟩
instance (a b : Byte) (o : Option Str) : W HStep (condJump a b o) := ⟨by unfold condJump; walk⟩
instance (o : Option Str) : W HStep (callOp o) := ⟨by unfold callOp; walk⟩
instance (o : Option Str) : W HStep (jp o) := ⟨by unfold jp; walk⟩
theorem walk_firstOf (o : Str) (ps : List Str) : Walk NStep (firstOf o ps) := by
  induction ps with
  | nil => unfold firstOf; walk
  | cons r rows ih => unfold firstOf; walk; exact ih
instance (o : Str) (ps : List Str) : W NStep (firstOf o ps) := ⟨walk_firstOf o ps⟩
instance (z : Z) (o : Str) : W HStep (exAf z o) := ⟨by unfold exAf; walk⟩
instance (o : Option Str) : W HStep (ex o) := ⟨by unfold ex; walk⟩
instance (c : BitVec 32) (o : Str) : W NStep (inoutOps c o) := ⟨by unfold inoutOps; walk⟩
instance (c : BitVec 32) (o : Option Str) : W HStep (inout c o) := ⟨by unfold inout; walk⟩
instance (c : BitVec 32) (o : Option Str) : W HStep (bitop c o) := ⟨by unfold bitop; walk⟩
instance (c : BitVec 32) (o : Option Str) : W HStep (onreg8 c o) := ⟨by unfold onreg8; walk⟩
instance (z : Z) (c : BitVec 32) (o : Str) : W HStep (logicalTail z c o) := ⟨by unfold logicalTail; walk⟩
instance (c : BitVec 32) (o : Option Str) : W HStep (logical c o) := ⟨by unfold logical; walk⟩
instance (c : BitVec 32) (o : Option Str) : W HStep (stackop c o) := ⟨by unfold stackop; walk⟩
instance (c : BitVec 32) (o : Option Str) : W HStep (arith c o) := ⟨by unfold arith; walk⟩
instance (c : BitVec 32) (o : Option Str) : W HStep (incr c o) := ⟨by unfold incr; walk⟩
instance (o : Option Str) : W HStep (ld o) := ⟨by unfold ld; walk⟩
instance (h : HZ80) (m : Int) (o : Option Str) : W HStep (call h m o) := ⟨by unfold call; walk⟩
end Z80

/-! ### Data directives -/

instance (o : Option Str) (m : Int) : W HStep (stocke o m) := ⟨by unfold stocke; walk⟩
theorem walk_dcLoop (m : Int) (n : Nat) : ∀ o, Walk HStep (dcLoop m n o) := by
  induction n with
  | zero => intro o; unfold dcLoop; walk
  | succ n ih => intro o; unfold dcLoop; walk; exact ih _
instance (m : Int) (n : Nat) (o : Option Str) : W HStep (dcLoop m n o) := ⟨walk_dcLoop m n o⟩
instance (m : Int) (o : Option Str) : W HStep (xDc m o) := ⟨by unfold xDc; walk⟩
theorem walk_fillBytes (b : Byte) (n : Nat) : Walk HStep (fillBytes b n) := by
  induction n with
  | zero => unfold fillBytes; walk
  | succ n ih => unfold fillBytes; walk; exact ih
instance (b : Byte) (n : Nat) : W HStep (fillBytes b n) := ⟨walk_fillBytes b n⟩
theorem walk_ascLoop (d : Char) (s : Str) : ∀ e, Walk HStep (ascLoop d e s) := by
  induction s with
  | nil => intro e; cases e <;> (unfold ascLoop; walk)
  | cons c s ih => intro e; cases e <;> (unfold ascLoop; walk <;> exact ih _)
instance (d : Char) (e : Bool) (s : Str) : W HStep (ascLoop d e s) := ⟨walk_ascLoop d s e⟩
instance (o : Option Str) : W HStep (xAsc o) := ⟨by unfold xAsc; walk⟩
instance (o : Option Str) : W HStep (xAlign o) := ⟨by unfold xAlign; walk⟩

end Crasm

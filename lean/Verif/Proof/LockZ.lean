import Verif.Proof.LockH
import Verif.Proof.Lawful

/-! Two passes side by side: Z80 instructions. -/

namespace Crasm

variable {X : Ctx} {s1 s2 : St}

namespace Z80

structure ZRel (z1 z2 : Z) : Prop where
  off : z2.offsetflag = z1.offsetflag
  idx : z2.indexflag = z1.indexflag
  a8 : z2.arg8flag = z1.arg8flag
  a16 : z2.arg16flag = z1.arg16flag

theorem ZRel.rfl' (z : Z) : ZRel z z := ⟨rfl, rfl, rfl, rfl⟩

/-- The same operand. -/
def GRel (X : Ctx) (a b : Int × Z) (t1 t2 : St) : Prop := b.1 = a.1 ∧ ZRel a.2 b.2 ∧ P X t1 t2

theorem ls_getIndexed {z1 z2 : Z} (hz : ZRel z1 z2) (oper : Str) (ps : List (Str × Idx × Option Bool)) :
    ∀ {s1 s2}, P X s1 s2 → LsAt X s1 s2 (getIndexed z1 oper ps) (getIndexed z2 oper ps)
      (fun a b t1 t2 => ((a = none ∧ b = none) ∨ ∃ x y, a = some x ∧ b = some y ∧ ZRel x y) ∧ P X t1 t2) No := by
  induction ps with
  | nil => intro s1 s2 h; exact LsAt.pure ⟨.inl ⟨rfl, rfl⟩, h⟩
  | cons p ps ih =>
    intro s1 s2 h
    obtain ⟨pat, idx, sign⟩ := p
    unfold getIndexed
    refine LsAt.eq h (by intro; kwalk) (by intro; kwalk) fun r t1 t2 q => ?_
    cases r with
    | none => exact ih q
    | some r =>
      obtain ⟨caps, n⟩ := r
      dsimp only
      refine LsAt.bindNo (Q0 := Ends2 X) ?_ (by intro; kwalk) (by intro; kwalk) fun o1 o2 u1 u2 q => ?_
      · cases sign with
        | none => exact LsAt.pure q
        | some plus =>
          dsimp only
          refine (ls_parseAbs _ q).bindNo (by intro; kwalk) (by intro; kwalk) fun r1 r2 u1 u2 q => ?_
          obtain ⟨-, -, q⟩ := q
          cases plus with
          | true => exact LsAt.pure q
          | false =>
            simp only [Bool.false_eq_true, if_false]
            split
            · exact LsAt.ub1
            · split
              · exact LsAt.ub2
              · exact LsAt.pure q
      · rw [hz.idx, hz.off]
        split
        · exact LsAt.error
        · exact LsAt.pure ⟨.inr ⟨_, _, rfl, rfl, ⟨rfl, rfl, hz.a8, hz.a16⟩⟩, q⟩

theorem ls_setArg {z1 z2 : Z} (hz : ZRel z1 z2) (v1 v2 : Word) (h : P X s1 s2) :
    LsAt X s1 s2 (setArg z1 v1) (setArg z2 v2) (fun a b t1 t2 => ZRel a b ∧ P X t1 t2) No := by
  unfold setArg
  rw [hz.a8, hz.a16]
  split
  · exact LsAt.error
  · exact LsAt.pure ⟨⟨hz.off, hz.idx, rfl, rfl⟩, h⟩

instance ls_singleReg (r : Result) : Ls (singleReg r) := by unfold singleReg; ls

theorem ls_regResult {z1 z2 : Z} (hz : ZRel z1 z2) (n : Int) (h : P X s1 s2) :
    LsAt X s1 s2 (regResult z1 n) (regResult z2 n) (GRel X) No := by
  unfold regResult
  rw [hz.idx]
  split
  · dsimp only
    generalize (if n = 12 then Idx.ix else if n = 13 then Idx.iy else Idx.hl) = i
    split
    · exact LsAt.error
    · exact LsAt.pure ⟨rfl, ⟨hz.off, rfl, hz.a8, hz.a16⟩, h⟩
  · exact LsAt.pure ⟨rfl, hz, h⟩

theorem ls_getreg {z1 z2 : Z} (hz : ZRel z1 z2) (oper : Str) (h : P X s1 s2) :
    LsAt X s1 s2 (getreg z1 oper) (getreg z2 oper) (GRel X) No := by
  unfold getreg
  refine (ls_getIndexed hz oper indexed h).bindNo (by intro; kwalk) (by intro; kwalk) fun a b t1 t2 q => ?_
  obtain ⟨ho, q⟩ := q
  rcases ho with ⟨rfl, rfl⟩ | ⟨x, y, rfl, rfl, hxy⟩
  · dsimp only
    refine LsAt.eq q (by intro; kwalk) (by intro; kwalk) fun r t1 t2 q => ?_
    split
    · rw [hz.idx]
      split
      · exact LsAt.error
      · exact LsAt.pure ⟨rfl, ⟨hz.off, rfl, hz.a8, hz.a16⟩, q⟩
    · refine LsAt.eq q (by intro; kwalk) (by intro; kwalk) fun r t1 t2 q => ?_
      split
      · exact LsAt.pure ⟨rfl, hz, q⟩
      · refine LsAt.eq q (by intro; kwalk) (by intro; kwalk) fun r t1 t2 q => ?_
        split
        · exact LsAt.pure ⟨rfl, hz, q⟩
        · refine LsAt.eq q (by intro; kwalk) (by intro; kwalk) fun r t1 t2 q => ?_
          cases r with
          | some op2 =>
            dsimp only
            refine (ls_parseAbs _ q).bindNo (by intro; kwalk) (by intro; kwalk) fun r1 r2 t1 t2 q => ?_
            refine (ls_setArg hz _ _ q.2.2).bindNo (by intro; kwalk) (by intro; kwalk) fun z1 z2 t1 t2 q => ?_
            exact LsAt.pure ⟨rfl, q.1, q.2⟩
          | none =>
            dsimp only
            refine (ls_parse _ q).bindNo (by intro; kwalk) (by intro; kwalk) fun r1 r2 t1 t2 q => ?_
            obtain ⟨hc, q⟩ := q
            rw [hc.type]
            by_cases ht : r1.type = .absolute
            · rw [if_pos ht, if_pos ht]
              refine (ls_setArg hz _ _ q).bindNo (by intro; kwalk) (by intro; kwalk) fun z1 z2 t1 t2 q => ?_
              exact LsAt.pure ⟨rfl, q.1, q.2⟩
            · rw [if_neg ht, if_neg ht]
              refine (ls_checktype .regs hc q).bindNo (by intro; kwalk) (by intro; kwalk) fun _ _ t1 t2 q => ?_
              obtain ⟨hr, q⟩ := q
              have hv := hc.val (.inr (by rw [hr]; simp))
              have hm := hc.md (.inr (by rw [hr]; simp)) ht (by rw [hr]; simp)
              have e : singleReg r2 = singleReg r1 := by unfold singleReg; rw [hv, hm]
              rw [e, hm]
              refine LsAt.eq q (by intro; kwalk) (by intro; kwalk) fun _ t1 t2 q => ?_
              exact ls_regResult hz _ q
  · exact LsAt.pure ⟨rfl, hxy, q⟩

theorem l2_docode {z1 z2 : Z} (hz : ZRel z1 z2) {c1 c2 : BitVec 32} (hc : c1 &&& 0xff00 ≠ 0 ↔ c2 &&& 0xff00 ≠ 0) :
    L2 (docode z1 c1) (docode z2 c2) := ⟨fun X s1 s2 h => by
  unfold docode
  have q0 : ∀ (c : Prop) [Decidable c] (m : M Unit) [Quiet m], Quiet (Crasm.whenM c m) := fun c _ m _ => Quiet.whenM inferInstance
  rw [hz.off, hz.idx, hz.a8, hz.a16]
  haveI a1 : L2 (whenM (z1.indexflag = .ix ∨ z1.indexflag = .iy ∨ z1.offsetflag = true) (insert8 z1.indexflag.byte))
    (whenM (z1.indexflag = .ix ∨ z1.indexflag = .iy ∨ z1.offsetflag = true) (insert8 z1.indexflag.byte)) := L2.whenM Iff.rfl inferInstance
  refine LsAt.after h (by intro; kwalk) (by intro; kwalk) fun _ _ t1 t2 q => ?_
  refine LsAt.after q (by intro; kwalk) (by intro; kwalk) fun _ _ t1 t2 q => ?_
  refine LsAt.bindNo (Q0 := Ends2 X) (LsAt.whens Iff.rfl (fun _ => ?_) q) (by intro; kwalk) (by intro; kwalk) fun _ _ t1 t2 q => ?_
  · refine LsAt.after q (by intro; kwalk) (by intro; kwalk) fun _ _ t1 t2 q => ?_
    exact LsAt.list q
  · refine LsAt.bindNo (Q0 := Ends2 X) (LsAt.whens hc (fun _ => ?_) q) (by intro; kwalk) (by intro; kwalk) fun _ _ t1 t2 q => ?_
    · exact (ls_insert8 _ _).run X _ _ q
    · split
      · refine LsAt.after q (by intro; kwalk) (by intro; kwalk) fun _ _ t1 t2 q => ?_
        exact LsAt.list q
      · exact LsAt.whens Iff.rfl (fun _ => (ls_insert16 _ _).run X _ _ q) q⟩

theorem lt_simple (code : BitVec 32) (o : Option Str) : Lt (simple code o) (simple code o) := ⟨fun X s1 s2 h => by
  unfold simple
  haveI : L2 (whenM (code &&& 0xff00 ≠ 0) (insert8 (lowByte (code.sshiftRight 8))))
    (whenM (code &&& 0xff00 ≠ 0) (insert8 (lowByte (code.sshiftRight 8)))) := L2.whenM Iff.rfl inferInstance
  refine LsAt.after h (by intro; kwalk) (by intro; kwalk) fun _ _ t1 t2 q => ?_
  refine LsAt.after q (by intro; kwalk) (by intro; kwalk) fun _ _ t1 t2 q => ?_
  exact LsAt.lastly q⟩

/-- One of the opcodes of IM. -/
theorem lt_im (o : Option Str) : Lt (im o) (im o) := ⟨fun X s1 s2 h => by
  unfold im
  refine (ls_parseAbs _ h).bindNo (by intro; kwalk) (by intro; kwalk) fun r1 r2 t1 t2 q => ?_
  obtain ⟨-, -, q⟩ := q
  have good : ∀ (a b : BitVec 16), LsAt X t1 t2 (insert16 a) (insert16 b) (Ends2 X) (Late X) := fun a b =>
    ((ls_insert16 a b).run X t1 t2 q).no
  have bad2 : ∀ (m : M Unit), LsAt X t1 t2 m (do insert16 0; Crasm.error c!"Bad interruption mode") (Ends2 X) (Late X) := by
    intro m _ _
    cases e : (do insert16 0; Crasm.error c!"Bad interruption mode" : M Unit) t2 with
    | ok a t =>
      obtain ⟨_, _, _, h2⟩ := bind_ok e
      exact absurd h2 error_not_ok
    | err t => cases m t1 <;> trivial
    | stop w t => cases m t1 <;> trivial
  have bad1 : ∀ (b : BitVec 16), LsAt X t1 t2 (do insert16 0; Crasm.error c!"Bad interruption mode" : M Unit) (insert16 b) (Ends2 X) (Late X) := by
    intro b
    have e : insert16 b = (insert16 b >>= fun _ => (Pure.pure () : M Unit)) := (bind_pure (m := M) (insert16 b)).symm
    rw [e]
    haveI : Quiet (Pure.pure () : M Unit) := Quiet.pure ()
    exact LsAt.after q (by intro; kwalk) (by intro; kwalk) fun _ _ u1 u2 q => LsAt.late q
  split
  · split
    · exact good _ _
    · split
      · exact good _ _
      · split
        · exact good _ _
        · exact bad2 _
  · split
    · split
      · exact good _ _
      · split
        · exact good _ _
        · split
          · exact good _ _
          · exact bad2 _
    · split
      · split
        · exact good _ _
        · split
          · exact good _ _
          · split
            · exact good _ _
            · exact bad2 _
      · split
        · exact bad1 _
        · split
          · exact bad1 _
          · split
            · exact bad1 _
            · exact bad2 _⟩

theorem lt_rst (o : Option Str) : Lt (rst o) (rst o) := ⟨fun X s1 s2 h => by
  unfold rst
  refine (ls_parseAbs _ h).bindNo (by intro; kwalk) (by intro; kwalk) fun r1 r2 t1 t2 q => ?_
  dsimp only
  refine LsAt.after q.2.2 (by intro; kwalk) (by intro; kwalk) fun _ _ u1 u2 q => ?_
  exact LsAt.lastly q⟩

instance ls_findCond (cc : Str) (qs : List Str) : ∀ i, Ls (findCond cc i qs) := by
  induction qs with
  | nil => intro i; exact Ls.pure _
  | cons q qs ih => intro i; unfold findCond; have := ih (i + 1); ls

instance ls_searchcond (n : Nat) (o : Option Str) : Ls (searchcond n o) := by unfold searchcond; ls

theorem lt_jr (o : Option Str) : Lt (jr o) (jr o) := ⟨fun X s1 s2 h => by
  unfold jr
  refine LsAt.eq h (by intro; kwalk) (by intro; kwalk) fun r t1 t2 q => ?_
  exact (lt_relBranch _ _).run X _ _ q⟩

theorem l2_ret (o : Option Str) : L2 (ret o) (ret o) := ⟨fun X s1 s2 h => by
  unfold ret
  split
  · exact (ls_insert8 _ _).run X _ _ h
  · exact (ls_insert8 _ _).run X _ _ h
  · refine LsAt.eq h (by intro; kwalk) (by intro; kwalk) fun r t1 t2 q => ?_
    cases r with
    | some i => exact (ls_insert8 _ _).run X _ _ q
    | none => exact LsAt.error⟩

theorem l2_condJump (b p : Byte) (o : Option Str) : L2 (condJump b p o) (condJump b p o) := ⟨fun X s1 s2 h => by
  unfold condJump
  refine LsAt.eq h (by intro; kwalk) (by intro; kwalk) fun r t1 t2 q => ?_
  obtain ⟨c, op2⟩ := r
  dsimp only
  refine (ls_parseAbs _ q).bindNo (by intro; kwalk) (by intro; kwalk) fun r1 r2 t1 t2 q => ?_
  refine LsAt.after q.2.2 (by intro; kwalk) (by intro; kwalk) fun _ _ u1 u2 q => ?_
  exact (ls_insert16 _ _).run X _ _ q⟩

theorem l2_jp (o : Option Str) : L2 (jp o) (jp o) := ⟨fun X s1 s2 h => by
  unfold jp
  refine LsAt.eq h (by intro; kwalk) (by intro; kwalk) fun r t1 t2 q => ?_
  cases r with
  | none => exact (l2_condJump _ _ _).run X _ _ q
  | some op2 =>
    dsimp only
    refine (ls_getreg (ZRel.rfl' _) op2 q).bindNo (by intro; kwalk) (by intro; kwalk) fun a b t1 t2 q => ?_
    obtain ⟨r, z⟩ := a
    obtain ⟨r', z'⟩ := b
    obtain ⟨e, hz, q⟩ := q
    have e : r' = r := e
    subst e
    dsimp only
    split
    · exact (l2_docode hz Iff.rfl).run X _ _ q
    · exact LsAt.error⟩

instance ls_firstOf (s : Str) (ps : List Str) : Ls (firstOf s ps) := by
  induction ps with
  | nil => exact Ls.pure _
  | cons p ps ih => unfold firstOf; ls

theorem l2_exAf {z1 z2 : Z} (hz : ZRel z1 z2) (o : Str) : L2 (exAf z1 o) (exAf z2 o) := ⟨fun X s1 s2 h => by
  unfold exAf
  refine LsAt.eq h (by intro; kwalk) (by intro; kwalk) fun r t1 t2 q => ?_
  cases r with
  | none => exact LsAt.error
  | some op2 =>
    dsimp only
    split
    · exact (l2_docode hz Iff.rfl).run X _ _ q
    · exact LsAt.error⟩

theorem l2_ex (o : Option Str) : L2 (ex o) (ex o) := ⟨fun X s1 s2 h => by
  unfold ex
  dsimp only
  refine LsAt.eq h (by intro; kwalk) (by intro; kwalk) fun r t1 t2 q => ?_
  split
  · exact (l2_docode (ZRel.rfl' _) Iff.rfl).run X _ _ q
  · refine LsAt.eq q (by intro; kwalk) (by intro; kwalk) fun r t1 t2 q => ?_
    split
    · exact (l2_docode (ZRel.rfl' _) Iff.rfl).run X _ _ q
    · refine LsAt.eq q (by intro; kwalk) (by intro; kwalk) fun r t1 t2 q => ?_
      cases r with
      | none => exact (l2_exAf (ZRel.rfl' _) _).run X _ _ q
      | some op2 =>
        dsimp only
        refine (ls_getreg (ZRel.rfl' _) op2 q).bindNo (by intro; kwalk) (by intro; kwalk) fun a b t1 t2 q => ?_
        obtain ⟨r, z⟩ := a
        obtain ⟨r', z'⟩ := b
        obtain ⟨e, hz, q⟩ := q
        have e : r' = r := e
        subst e
        dsimp only
        split
        · exact (l2_docode hz Iff.rfl).run X _ _ q
        · exact (l2_exAf hz _).run X _ _ q⟩

instance ls_inoutOps (code : BitVec 32) (o : Str) : Ls (inoutOps code o) := by unfold inoutOps; ls

theorem l2_inout (code : BitVec 32) (o : Option Str) : L2 (inout code o) (inout code o) := ⟨fun X s1 s2 h => by
  unfold inout
  refine LsAt.eq h (by intro; kwalk) (by intro; kwalk) fun r t1 t2 q => ?_
  cases r with
  | none => exact LsAt.error
  | some ops =>
    obtain ⟨op1, op2⟩ := ops
    dsimp only
    refine (ls_getreg (ZRel.rfl' _) op1 q).bindNo (by intro; kwalk) (by intro; kwalk) fun a b t1 t2 q => ?_
    obtain ⟨r, z⟩ := a
    obtain ⟨r', z'⟩ := b
    obtain ⟨e, hz, q⟩ := q
    have e : r' = r := e
    subst e
    dsimp only
    split
    · refine (ls_getreg hz op2 q).bindNo (by intro; kwalk) (by intro; kwalk) fun a b t1 t2 q => ?_
      obtain ⟨r, z⟩ := a
      obtain ⟨r', z'⟩ := b
      obtain ⟨e, hz, q⟩ := q
      have e : r' = r := e
      subst e
      dsimp only
      split
      · exact LsAt.error
      · exact (l2_docode (z1 := { z with arg8flag := true }) (z2 := { z' with arg8flag := true }) ⟨hz.off, hz.idx, rfl, hz.a16⟩ Iff.rfl).run X _ _ q
    · split
      · refine (ls_getreg hz op2 q).bindNo (by intro; kwalk) (by intro; kwalk) fun a b t1 t2 q => ?_
        obtain ⟨r, z⟩ := a
        obtain ⟨r', z'⟩ := b
        obtain ⟨e, hz, q⟩ := q
        have e : r' = r := e
        subst e
        dsimp only
        split
        · exact LsAt.error
        · exact (l2_docode hz Iff.rfl).run X _ _ q
      · exact LsAt.error⟩

theorem bitcode_hi {m : Int} (hm : BitCode m) {reg bit : Int} (h1 : isreg8 reg = true) (h2 : ¬ (bit < 0 ∨ 7 < bit)) :
    (BitVec.ofInt 32 m + BitVec.ofInt 32 (reg + bit * 8)) &&& 0xff00 ≠ 0 := by
  have hr : reg = 0 ∨ reg = 1 ∨ reg = 2 ∨ reg = 3 ∨ reg = 4 ∨ reg = 5 ∨ reg = 6 ∨ reg = 7 := by
    unfold isreg8 at h1
    simp at h1
    omega
  have hb : bit = 0 ∨ bit = 1 ∨ bit = 2 ∨ bit = 3 ∨ bit = 4 ∨ bit = 5 ∨ bit = 6 ∨ bit = 7 := by omega
  rcases hm with rfl | rfl | rfl <;> rcases hr with rfl | rfl | rfl | rfl | rfl | rfl | rfl | rfl <;>
    rcases hb with rfl | rfl | rfl | rfl | rfl | rfl | rfl | rfl <;> decide

theorem l2_bitop {m : Int} (hm : BitCode m) (o : Option Str) : L2 (bitop (BitVec.ofInt 32 m) o) (bitop (BitVec.ofInt 32 m) o) :=
    ⟨fun X s1 s2 h => by
  unfold bitop
  refine LsAt.eq h (by intro; kwalk) (by intro; kwalk) fun r t1 t2 q => ?_
  cases r with
  | none => exact LsAt.error
  | some ops =>
    obtain ⟨op1, op2⟩ := ops
    dsimp only
    refine (ls_parseAbs _ q).bindNo (by intro; kwalk) (by intro; kwalk) fun r1 r2 t1 t2 q => ?_
    obtain ⟨-, -, q⟩ := q
    by_cases c2 : (BitVec.setWidth 32 r2.value).toInt < 0 ∨ 7 < (BitVec.setWidth 32 r2.value).toInt
    · rw [if_pos c2]; exact LsAt.refuse
    · rw [if_neg c2]
      by_cases c1 : (BitVec.setWidth 32 r1.value).toInt < 0 ∨ 7 < (BitVec.setWidth 32 r1.value).toInt
      · rw [if_pos c1]; exact LsAt.refuse1 q.p1
      · rw [if_neg c1]
        refine (ls_getreg (ZRel.rfl' _) op2 q).bindNo (by intro; kwalk) (by intro; kwalk) fun a b t1 t2 q => ?_
        obtain ⟨r, z⟩ := a
        obtain ⟨r', z'⟩ := b
        obtain ⟨e, hz, q⟩ := q
        have e : r' = r := e
        subst e
        dsimp only
        split
        · exact LsAt.error
        · rename_i hr
          have hr : isreg8 r' = true := by simpa using hr
          exact (l2_docode hz ⟨fun _ => bitcode_hi hm hr c2, fun _ => bitcode_hi hm hr c1⟩).run X _ _ q⟩

theorem l2_onreg8 (code : BitVec 32) (o : Option Str) : L2 (onreg8 code o) (onreg8 code o) := ⟨fun X s1 s2 h => by
  unfold onreg8
  refine (ls_getreg (ZRel.rfl' _) _ h).bindNo (by intro; kwalk) (by intro; kwalk) fun a b t1 t2 q => ?_
  obtain ⟨r, z⟩ := a
  obtain ⟨r', z'⟩ := b
  obtain ⟨e, hz, q⟩ := q
  have e : r' = r := e
  subst e
  dsimp only
  split
  · exact LsAt.error
  · exact (l2_docode hz Iff.rfl).run X _ _ q⟩

theorem l2_logicalTail {z1 z2 : Z} (hz : ZRel z1 z2) (code : BitVec 32) (o : Str) : L2 (logicalTail z1 code o) (logicalTail z2 code o) :=
    ⟨fun X s1 s2 h => by
  unfold logicalTail
  refine (ls_getreg hz _ h).bindNo (by intro; kwalk) (by intro; kwalk) fun a b t1 t2 q => ?_
  obtain ⟨r, z⟩ := a
  obtain ⟨r', z'⟩ := b
  obtain ⟨e, hz, q⟩ := q
  have e : r' = r := e
  subst e
  dsimp only
  split
  · exact (l2_docode (z1 := { z with arg8flag := true }) (z2 := { z' with arg8flag := true }) ⟨hz.off, hz.idx, rfl, hz.a16⟩ Iff.rfl).run X _ _ q
  · exact (l2_docode hz Iff.rfl).run X _ _ q⟩

theorem l2_logical (code : BitVec 32) (o : Option Str) : L2 (logical code o) (logical code o) := ⟨fun X s1 s2 h => by
  unfold logical
  dsimp only
  refine LsAt.eq h (by intro; kwalk) (by intro; kwalk) fun r t1 t2 q => ?_
  cases r with
  | none => exact (l2_logicalTail (ZRel.rfl' _) _ _).run X _ _ q
  | some ops =>
    obtain ⟨op1, op2⟩ := ops
    dsimp only
    refine (ls_getreg (ZRel.rfl' _) op1 q).bindNo (by intro; kwalk) (by intro; kwalk) fun a b t1 t2 q => ?_
    obtain ⟨r, z⟩ := a
    obtain ⟨r', z'⟩ := b
    obtain ⟨e, hz, q⟩ := q
    have e : r' = r := e
    subst e
    dsimp only
    split
    · exact LsAt.error
    · refine LsAt.after q (by intro; kwalk) (by intro; kwalk) fun _ _ t1 t2 q => ?_
      exact (l2_logicalTail hz _ _).run X _ _ q⟩

theorem l2_stackop (code : BitVec 32) (o : Option Str) : L2 (stackop code o) (stackop code o) := ⟨fun X s1 s2 h => by
  unfold stackop
  refine (ls_getreg (ZRel.rfl' _) _ h).bindNo (by intro; kwalk) (by intro; kwalk) fun a b t1 t2 q => ?_
  obtain ⟨r, z⟩ := a
  obtain ⟨r', z'⟩ := b
  obtain ⟨e, hz, q⟩ := q
  have e : r' = r := e
  subst e
  dsimp only
  generalize (if r' = 19 then (11 : Int) else if r' = 11 then 19 else r') = rr
  split
  · exact LsAt.error
  · exact (l2_docode hz Iff.rfl).run X _ _ q⟩

theorem l2_arith (code : BitVec 32) (o : Option Str) : L2 (arith code o) (arith code o) := ⟨fun X s1 s2 h => by
  unfold arith
  refine LsAt.eq h (by intro; kwalk) (by intro; kwalk) fun r t1 t2 q => ?_
  cases r with
  | none => exact LsAt.error
  | some ops =>
    obtain ⟨op1, op2⟩ := ops
    dsimp only
    refine (ls_getreg (ZRel.rfl' _) op1 q).bindNo (by intro; kwalk) (by intro; kwalk) fun a b t1 t2 q => ?_
    obtain ⟨r, z⟩ := a
    obtain ⟨r', z'⟩ := b
    obtain ⟨e, hz, q⟩ := q
    have e : r' = r := e
    subst e
    dsimp only
    rw [hz.idx]
    split
    · exact (l2_logical _ _).run X _ _ q
    · split
      · split
        · exact LsAt.error
        · refine (ls_getreg hz op2 q).bindNo (by intro; kwalk) (by intro; kwalk) fun a b t1 t2 q => ?_
          obtain ⟨r, z⟩ := a
          obtain ⟨r', z'⟩ := b
          obtain ⟨e, hz, q⟩ := q
          have e : r' = r := e
          subst e
          dsimp only
          split
          · exact LsAt.error
          · exact (l2_docode hz Iff.rfl).run X _ _ q
      · exact LsAt.error⟩

theorem l2_incr (code : BitVec 32) (o : Option Str) : L2 (incr code o) (incr code o) := ⟨fun X s1 s2 h => by
  unfold incr
  refine (ls_getreg (ZRel.rfl' _) _ h).bindNo (by intro; kwalk) (by intro; kwalk) fun a b t1 t2 q => ?_
  obtain ⟨r, z⟩ := a
  obtain ⟨r', z'⟩ := b
  obtain ⟨e, hz, q⟩ := q
  have e : r' = r := e
  subst e
  dsimp only
  split
  · exact (l2_docode hz Iff.rfl).run X _ _ q
  · split
    · exact (l2_docode hz Iff.rfl).run X _ _ q
    · exact LsAt.error⟩

theorem l2_ld (o : Option Str) : L2 (ld o) (ld o) := ⟨fun X s1 s2 h => by
  unfold ld
  refine LsAt.eq h (by intro; kwalk) (by intro; kwalk) fun r t1 t2 q => ?_
  cases r with
  | none => exact LsAt.error
  | some ops =>
    obtain ⟨op1, op2⟩ := ops
    dsimp only
    refine (ls_getreg (ZRel.rfl' _) op1 q).bindNo (by intro; kwalk) (by intro; kwalk) fun a b t1 t2 q => ?_
    obtain ⟨r, z⟩ := a
    obtain ⟨r', z'⟩ := b
    obtain ⟨e, hz, q⟩ := q
    have e : r' = r := e
    subst e
    dsimp only
    refine (ls_getreg hz op2 q).bindNo (by intro; kwalk) (by intro; kwalk) fun a b t1 t2 q => ?_
    obtain ⟨r, z⟩ := a
    obtain ⟨r'', z'⟩ := b
    obtain ⟨e, hz, q⟩ := q
    have e : r'' = r := e
    subst e
    dsimp only
    cases ldCode r' r'' with
    | none => exact LsAt.error
    | some ci =>
      obtain ⟨code, imm⟩ := ci
      dsimp only
      exact (l2_docode (z1 := { z with arg8flag := z.arg8flag || imm }) (z2 := { z' with arg8flag := z'.arg8flag || imm }) ⟨hz.off, hz.idx, (by show (_ || _) = (_ || _); rw [hz.a8]), hz.a16⟩ Iff.rfl).run X _ _ q⟩

theorem lt_call (hd : HZ80) (m : Int) (hm : hd = .bitop → BitCode m) (o : Option Str) : Lt (call hd m o) (call hd m o) := by
  unfold call
  cases hd
  · exact lt_simple _ o
  · exact lt_im o
  · exact lt_rst o
  · exact lt_relBranch _ o
  · exact lt_jr o
  · exact (l2_jp o).lt
  · exact (l2_condJump _ _ o).lt
  · exact (l2_ret o).lt
  · exact (l2_ex o).lt
  · exact (l2_inout _ o).lt
  · exact (l2_bitop (hm rfl) o).lt
  · exact (l2_onreg8 _ o).lt
  · exact (l2_logical _ o).lt
  · exact (l2_stackop _ o).lt
  · exact (l2_arith _ o).lt
  · exact (l2_incr _ o).lt
  · exact (l2_ld o).lt

end Z80

end Crasm

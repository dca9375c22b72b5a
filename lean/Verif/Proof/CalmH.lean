import Verif.Proof.Calm

/-! Instructions and directives come to an end. -/

namespace Crasm

theorem sub_none {t : Str} : Sub (orEmpty none) t := fun h => by cases h
theorem sub_nil {t : Str} : Sub [] t := fun h => by cases h
theorem sub_refl {t : Str} : Sub t t := id

theorem calm_error {t m : Str} {Q : α → Prop} : Calm t (error m : M α) Q := by
  intro s
  have h := (Tame.calm (m := (error m : M α)) (t := t)) s
  have h2 : ∀ a s', (error m : M α) s ≠ .ok a s' := fun a s' => error_not_ok
  revert h h2
  cases (error m : M α) s with
  | ok a s' => intro _ h2; exact absurd rfl (h2 a s')
  | err s' => intro _ _; trivial
  | stop w s' => intro h _; exact h

macro "subs" : tactic => `(tactic| first
  | assumption | exact sub_none | exact sub_nil
  | (refine List.forall_mem_cons.1 (by assumption) |>.1))

macro "calm" : tactic => `(tactic| repeat' (first
  | exact Tame.calm
  | exact Calm.pure trivial
  | exact Calm.getS
  | exact Calm.modS
  | ((with_reducible refine calm_parse _ ?_); (focus subs))
  | ((with_reducible refine calm_parseAbs _ ?_); (focus subs))
  | ((with_reducible refine Calm.filter2 ?_ ?_ (fun _ _ _ _ => ?_)); (focus subs))
  | ((with_reducible refine Calm.filter1 ?_ ?_ (fun _ _ => ?_)); (focus subs))
  | with_reducible refine Calm.bind (Q := Any) ?_ (fun _ _ => ?_)
  | with_reducible refine Calm.whenM ?_
  | dsimp only
  | split))

instance (c : Code) (h : Bool) (x : Byte) : Tame (Pure.pure (c.push h x) : M Code) := Tame.pure _
instance : Tame openScode := by unfold openScode; tame
instance (x : Byte) : Tame (insert8 x) := by unfold insert8; tame
instance (x : BitVec 16) : Tame (insert16 x) := by unfold insert16; tame
instance (x : BitVec 32) : Tame (insert32 x) := by unfold insert32; tame
instance (a : Word) : Tame (setpc a) := Tame.modS _

section
variable {t : Str}

theorem calm_relBranch (c : BitVec 32) (o : Option Str) (ho : Sub (orEmpty o) t) :
    Calm t (relBranch c o) Any := by unfold relBranch; calm

namespace C6800
instance (c : BitVec 32) (o : Option Str) : Tame (single c o) := by unfold single; tame
theorem calm_modeValue (a : BitVec 32) (o : Str) (ho : Sub o t) : Calm t (modeValue a o) Any := by
  unfold modeValue; calm
theorem calm_findmode (o : Option Str) (ho : Sub (orEmpty o) t) (ms : List (Str × BitVec 32)) :
    Calm t (findmode o ms) Any := by
  induction ms with
  | nil => unfold findmode; calm
  | cons r rows ih =>
    obtain ⟨p, b⟩ := r
    unfold findmode
    cases o with
    | none => exact ih
    | some o =>
      refine Calm.filterC ho ih fun c k hc => ?_
      rcases c with _ | ⟨a, _ | ⟨b', c⟩⟩
      · exact calm_modeValue _ _ fun h => absurd h (by decide)
      · exact calm_modeValue _ _ (hc a (by simp))
      · exact calm_modeValue _ _ fun h => absurd h (by decide)
instance (a b c : BitVec 32) : Tame (codemode a b c) := by unfold codemode; tame
theorem calm_call (h : H6800) (m : Int) (o : Option Str) (ho : Sub (orEmpty o) t) : Calm t (call h m o) Any := by
  cases h with
  | branch => exact calm_relBranch _ _ ho
  | single => exact (inferInstance : Tame (single _ o)).calm
  | standard =>
    exact Calm.bind (calm_findmode o ho _) fun r _ => (inferInstance : Tame (codemode _ _ _)).calm
  | standard2 =>
    refine Calm.bind (calm_findmode o ho _) fun r _ => ?_
    calm
  | standard3 =>
    refine Calm.bind (calm_findmode o ho _) fun r _ => ?_
    calm
end C6800

namespace C6502
instance (c : BitVec 32) (o : Option Str) : Tame (single c o) := by unfold single; tame
theorem calm_searchMode (o : Str) (ho : Sub o t) (ms : List (Str × Nat)) :
    Calm t (searchMode o ms) fun r => ∀ m x, r = some (m, x) → Sub x t := by
  induction ms with
  | nil => unfold searchMode; exact Calm.pure fun m x h => by cases h
  | cons r rows ih =>
    obtain ⟨p, b⟩ := r
    unfold searchMode
    refine Calm.filterC ho ih fun c k hc => Calm.pure fun m x h => ?_
    cases h
    cases c with
    | nil => exact sub_nil
    | cons a c => exact hc a (by simp)
theorem calm_operand (m : Nat) (o : Str) (ho : Sub o t) : Calm t (operand m o) Any := by
  unfold operand
  refine Calm.bind (calm_parse _ ho) fun r _ => ?_
  calm
instance (c : BitVec 32) (m : Nat) : Tame (opcodeFor c m) := by unfold opcodeFor; tame
theorem calm_standard (c : BitVec 32) (o : Option Str) (ho : Sub (orEmpty o) t) :
    Calm t (standard c o) Any := by
  unfold standard
  refine Calm.bind Calm.getS fun s _ => ?_
  refine Calm.bind (Q := fun r => Sub r.2 t) ?_ ?_
  · cases o with
    | none => exact Calm.pure sub_nil
    | some o =>
      refine Calm.bind (calm_searchMode o ho _) fun r hr => ?_
      rcases r with _ | ⟨m, x⟩
      · exact calm_error
      · exact Calm.pure (hr m x rfl)
  · rintro ⟨mode, x⟩ hx
    dsimp only
    split
    · exact Tame.calm
    · refine Calm.bind (Q := Any) ?_ fun mv _ => ?_
      · split
        · exact calm_operand _ _ hx
        · exact Calm.pure trivial
      · calm
theorem calm_call (h : H6502) (m : Int) (o : Option Str) (ho : Sub (orEmpty o) t) : Calm t (call h m o) Any := by
  cases h with
  | branch => exact calm_relBranch _ _ ho
  | single => exact (inferInstance : Tame (single _ o)).calm
  | standard => exact calm_standard _ _ ho
end C6502

namespace Z80
theorem calm_getIndexed (z : Z) (o : Str) (ho : Sub o t) (ps : List (Str × Idx × Option Bool)) :
    Calm t (getIndexed z o ps) Any := by
  induction ps with
  | nil => exact Calm.pure trivial
  | cons r rows ih =>
    obtain ⟨p, b, sg⟩ := r
    unfold getIndexed
    refine Calm.filterC ho ih fun c k hc => ?_
    dsimp only
    refine Calm.bind (Q := Any) ?_ fun off _ => ?_
    · cases sg with
      | none => exact Calm.pure trivial
      | some plus =>
        refine Calm.bind (Q := Any) (calm_parseAbs _ ?_) fun r _ => ?_
        · cases c with
          | nil => exact sub_nil
          | cons a c => exact hc a (by simp)
        · calm
    · calm
instance (z : Z) (v : Word) : Tame (setArg z v) := by unfold setArg; tame
instance (r : Result) : Tame (singleReg r) := by unfold singleReg; tame
instance (z : Z) (n : Int) : Tame (regResult z n) := by unfold regResult; tame
theorem calm_getreg (z : Z) (o : Str) (ho : Sub o t) : Calm t (getreg z o) Any := by
  unfold getreg
  refine Calm.bind (calm_getIndexed z o ho _) fun r _ => ?_
  calm
instance (z : Z) (c : BitVec 32) : Tame (docode z c) := by unfold docode; tame
instance (c : BitVec 32) (o : Option Str) : Tame (simple c o) := by unfold simple; tame
instance tame_findCond (o : Str) (ps : List Str) : ∀ i, Tame (findCond o i ps) := by
  induction ps with
  | nil => intro i; unfold findCond; tame
  | cons r rows ih => intro i; unfold findCond; tame
theorem calm_searchcond (n : Nat) (o : Option Str) (ho : Sub (orEmpty o) t) :
    Calm t (searchcond n o) fun r => Sub (orEmpty r.2) t := by
  unfold searchcond
  refine Calm.filter2 ho (Calm.pure ho) fun a b ha hb => ?_
  refine Calm.bind (Q := Any) Tame.calm fun r _ => ?_
  cases r with
  | none => exact calm_error
  | some i => exact Calm.pure hb
theorem calm_condJump (a b : Byte) (o : Option Str) (ho : Sub (orEmpty o) t) :
    Calm t (condJump a b o) Any := by
  unfold condJump
  refine Calm.bind (calm_searchcond _ o ho) ?_
  rintro ⟨c, o2⟩ h2
  dsimp only at h2 ⊢
  calm
theorem calm_firstOf (o : Str) (ho : Sub o t) (ps : List Str) :
    Calm t (firstOf o ps) fun r => ∀ a, r = some a → Sub a t := by
  induction ps with
  | nil => exact Calm.pure fun a h => by cases h
  | cons r rows ih =>
    unfold firstOf
    exact Calm.filter1 ho ih fun a ha => Calm.pure fun b hb => by cases hb; exact ha
theorem calm_exAf (z : Z) (o : Str) (ho : Sub o t) : Calm t (exAf z o) Any := by
  unfold exAf
  refine Calm.bind (calm_firstOf o ho _) fun r _ => ?_
  calm
theorem calm_ex (o : Option Str) (ho : Sub (orEmpty o) t) : Calm t (ex o) Any := by
  unfold ex
  refine Calm.bind Tame.calm fun r _ => ?_
  split
  · exact Tame.calm
  · refine Calm.bind Tame.calm fun r _ => ?_
    split
    · exact Tame.calm
    · refine Calm.bind (calm_firstOf _ ho _) fun r hr => ?_
      cases r with
      | none => exact calm_exAf _ _ ho
      | some a =>
        refine Calm.bind (calm_getreg _ _ (hr a rfl)) fun rz _ => ?_
        dsimp only
        split
        · exact Tame.calm
        · exact calm_exAf _ _ ho
theorem calm_inoutOps (c : BitVec 32) (o : Str) (ho : Sub o t) :
    Calm t (inoutOps c o) fun r => ∀ a b, r = some (a, b) → Sub a t ∧ Sub b t := by
  unfold inoutOps
  split
  · refine (calm_filter2 o _).weaken fun r hr a b h => ?_
    exact ⟨fun hm => ho ((hr a b h).1.1 _ hm), fun hm => ho ((hr a b h).1.2 _ hm)⟩
  · exact Calm.filter2 ho (Calm.pure fun a b h => by cases h)
      fun a b ha hb => Calm.pure fun x y h => by cases h; exact ⟨hb, ha⟩
theorem calm_inout (c : BitVec 32) (o : Option Str) (ho : Sub (orEmpty o) t) : Calm t (inout c o) Any := by
  unfold inout
  refine Calm.bind (calm_inoutOps c _ ho) fun r hr => ?_
  rcases r with _ | ⟨a, b⟩
  · exact Tame.calm
  · obtain ⟨ha, hb⟩ := hr a b rfl
    refine Calm.bind (calm_getreg _ _ ha) fun rz _ => ?_
    dsimp only
    split
    · refine Calm.bind (calm_getreg _ _ hb) fun rz _ => ?_
      calm
    · split
      · refine Calm.bind (calm_getreg _ _ hb) fun rz _ => ?_
        calm
      · exact Tame.calm
theorem calm_logicalTail (z : Z) (c : BitVec 32) (o : Str) (ho : Sub o t) : Calm t (logicalTail z c o) Any := by
  unfold logicalTail
  refine Calm.bind (calm_getreg _ _ ho) fun rz _ => ?_
  calm
theorem calm_logical (c : BitVec 32) (o : Option Str) (ho : Sub (orEmpty o) t) : Calm t (logical c o) Any := by
  unfold logical
  refine Calm.filter2 ho (calm_logicalTail _ _ _ ho) fun a b ha hb => ?_
  refine Calm.bind (calm_getreg _ _ ha) fun rz _ => ?_
  dsimp only
  split
  · exact Tame.calm
  · exact Calm.bind Tame.calm fun _ _ => calm_logicalTail _ _ _ hb
theorem calm_arith (c : BitVec 32) (o : Option Str) (ho : Sub (orEmpty o) t) : Calm t (arith c o) Any := by
  unfold arith
  refine Calm.filter2 ho Tame.calm fun a b ha hb => ?_
  refine Calm.bind (calm_getreg _ _ ha) fun rz _ => ?_
  dsimp only
  split
  · exact calm_logical _ _ hb
  · split
    · split
      · exact Tame.calm
      · refine Calm.bind (calm_getreg _ _ hb) fun rz _ => ?_
        calm
    · exact Tame.calm
theorem calm_ld (o : Option Str) (ho : Sub (orEmpty o) t) : Calm t (ld o) Any := by
  unfold ld
  refine Calm.filter2 ho Tame.calm fun a b ha hb => ?_
  refine Calm.bind (calm_getreg _ _ ha) fun rz _ => Calm.bind (calm_getreg _ _ hb) fun rz _ => ?_
  calm
theorem calm_call (h : HZ80) (m : Int) (o : Option Str) (ho : Sub (orEmpty o) t) : Calm t (call h m o) Any := by
  cases h with
  | simple => exact (inferInstance : Tame (simple _ o)).calm
  | im => show Calm t (im o) Any; unfold im; calm
  | rst => show Calm t (rst o) Any; unfold rst; calm
  | relbranch => exact calm_relBranch _ _ ho
  | jr =>
    refine Calm.bind (calm_searchcond _ o ho) ?_
    rintro ⟨c, o2⟩ h2
    exact calm_relBranch _ _ h2
  | jp =>
    refine Calm.filter1 ho (calm_condJump _ _ _ ho) fun a ha => ?_
    refine Calm.bind (calm_getreg _ _ ha) fun rz _ => ?_
    calm
  | call => exact calm_condJump _ _ _ ho
  | ret => show Calm t (ret o) Any; unfold ret; calm
  | ex => exact calm_ex o ho
  | inout => exact calm_inout _ o ho
  | bitop =>
    show Calm t (bitop _ o) Any
    unfold bitop
    refine Calm.filter2 ho Tame.calm fun a b ha hb => ?_
    refine Calm.bind (calm_parseAbs _ ha) fun r _ => ?_
    dsimp only
    split
    · exact Tame.calm
    · refine Calm.bind (calm_getreg _ _ hb) fun rz _ => ?_
      calm
  | onreg8 => refine Calm.bind (calm_getreg _ _ ho) fun rz _ => ?_; calm
  | logical => exact calm_logical _ o ho
  | stackop => refine Calm.bind (calm_getreg _ _ ho) fun rz _ => ?_; calm
  | arith => exact calm_arith _ o ho
  | incr => refine Calm.bind (calm_getreg _ _ ho) fun rz _ => ?_; calm
  | ld => exact calm_ld o ho
end Z80

/-! ### Directives -/

theorem calm_stocke (o : Option Str) (m : Int) (ho : Sub (orEmpty o) t) : Calm t (stocke o m) Any := by
  unfold stocke
  refine Calm.bind (calm_parseAbs _ ho) fun r _ => ?_
  calm
theorem calm_dcLoop (m : Int) (n : Nat) (o : Option Str) (hn : (orEmpty o).length < n)
    (ho : Sub (orEmpty o) t) : Calm t (dcLoop m n o) Any := by
  induction n generalizing o with
  | zero => omega
  | succ n ih =>
    unfold dcLoop
    refine Calm.bind (calm_filter2 _ _) fun r hr => ?_
    rcases r with _ | ⟨a, b⟩
    · exact calm_stocke _ _ ho
    · obtain ⟨h1, h2⟩ := hr a b rfl
      have h2 := h2 (by decide)
      refine Calm.bind (calm_stocke _ _ fun h => ho (h1.1 _ h)) fun _ _ => ?_
      refine ih _ ?_ fun h => ho (h1.2 _ h)
      show b.length < n
      omega
instance tame_fillBytes (b : Byte) (n : Nat) : Tame (fillBytes b n) := by
  induction n with
  | zero => unfold fillBytes; tame
  | succ n ih => unfold fillBytes; tame
theorem calm_xDs (o : Option Str) (ho : Sub (orEmpty o) t) : Calm t (xDs o) Any := by
  unfold xDs
  refine Calm.bind (Q := fun r => Sub (orEmpty r.1) t) ?_ ?_
  · refine Calm.filter2 ho (Calm.pure ho) fun a b ha hb => ?_
    refine Calm.bind (calm_parseAbs _ hb) fun r _ => Calm.bind (Calm.whenM Tame.calm) fun _ _ => ?_
    exact Calm.pure ha
  · rintro ⟨o2, b⟩ h2
    dsimp only
    refine Calm.bind (calm_parseAbs _ h2) fun r _ => ?_
    calm
instance (s : Str) : Tame (settitle s) := by unfold settitle; tame
instance (o : Option Str) : Tame (xNam o) := by unfold xNam; tame
instance tame_ascLoop (d : Char) (s : Str) : ∀ e, Tame (ascLoop d e s) := by
  induction s with
  | nil => intro e; cases e <;> (unfold ascLoop; tame)
  | cons c s ih => intro e; cases e <;> (unfold ascLoop; tame)
instance (o : Option Str) : Tame (xAsc o) := by unfold xAsc; tame
instance (b : Bool) (o : Option Str) : Tame (xCode b o) := by unfold xCode; tame
instance (o : Option Str) (g : Bool → Flags → Flags) : Tame (onOff o g) := by unfold onOff; tame
instance (a b : Int) : Tame (setpage a b) := by unfold setpage; tame
theorem calm_xPage (o : Option Str) (ho : Sub (orEmpty o) t) : Calm t (xPage o) Any := by
  unfold xPage
  cases o with
  | none => exact Tame.calm
  | some o => calm
instance tame_eols (n : Nat) : Tame (eols n) := by
  induction n with
  | zero => unfold eols; tame
  | succ n ih => unfold eols; tame
theorem calm_xSkip (o : Option Str) (ho : Sub (orEmpty o) t) : Calm t (xSkip o) Any := by
  unfold xSkip; calm
instance (o : Option Str) : Tame (xOutput o) := by unfold xOutput; tame
instance (o : Option Str) : Tame (xAlign o) := by unfold xAlign; tame
instance (i : TableId) (e : Entry) : Tame (bindOne i e) := by unfold bindOne; tame
instance tame_bindAll (i : TableId) (es : List Entry) (is : List Nat) : Tame (bindAll i es is) := by
  induction is with
  | nil => unfold bindAll; tame
  | cons i is ih => unfold bindAll; tame
instance (i : TableId) (es : List Entry) : Tame (initLabelList i es) := by unfold initLabelList; tame
instance (c : Int) : Tame (C6800.init c) := by unfold C6800.init; tame
instance (c : Int) : Tame (C6502.init c) := by unfold C6502.init; tame
instance : Tame Z80.init := by unfold Z80.init; tame
instance (c : Cpu) : Tame c.init := by unfold Cpu.init; tame
instance tame_findCpu (o : Str) (cs : List (Str × Cpu)) : Tame (findCpu o cs) := by
  induction cs with
  | nil => unfold findCpu; tame
  | cons c cs ih => obtain ⟨n, c⟩ := c; unfold findCpu; tame
instance (o : Option Str) : Tame (xCpu o) := by unfold xCpu; tame
instance (o : Option Str) : Tame (xFail o) := by unfold xFail; tame
instance (v : Word) : Tame (echoAddr v) := by unfold echoAddr; tame
theorem calm_xEqu (l o : Option Str) (ho : Sub (orEmpty o) t) : Calm t (xEqu l o) Any := by
  unfold xEqu
  refine Calm.bind (calm_parse _ ho) fun r _ => ?_
  calm

/-! ### Conditions -/

theorem calm_findCmp (o : Str) (ho : Sub o t) (cs : List (Str × Cmp)) :
    Calm t (findCmp o cs) fun r => ∀ a b q, r = some (a, b, q) → Sub a t ∧ Sub b t := by
  induction cs with
  | nil => exact Calm.pure fun a b q h => by cases h
  | cons c cs ih =>
    obtain ⟨p, q⟩ := c
    unfold findCmp
    exact Calm.filter2 ho ih fun a b ha hb => Calm.pure fun x y z h => by cases h; exact ⟨ha, hb⟩
instance (q : Cmp) (a b : Result) : Tame (compareRes q a b) := by unfold compareRes; tame
theorem calm_testtrue (o : Option Str) (ho : Sub (orEmpty o) t) : Calm t (testtrue o) Any := by
  unfold testtrue
  cases e : orEmpty o with
  | nil => exact Calm.pure trivial
  | cons c x =>
    rw [e] at ho
    refine Calm.bind (calm_findCmp _ ho _) fun r hr => ?_
    rcases r with _ | ⟨a, b, q⟩
    · refine Calm.bind (calm_parse _ ho) fun r _ => Tame.calm
    · obtain ⟨ha, hb⟩ := hr a b q rfl
      exact Calm.bind (calm_parse _ ha) fun r _ => Calm.bind (calm_parse _ hb) fun r _ => Tame.calm

end

end Crasm

import Verif.Proof.LockN

/-! Two passes side by side: statements, lines and passes. -/

namespace Crasm

variable {X : Ctx} {s1 s2 : St}

section
variable {self : Status → M RC}

/-! ### Statements -/

theorem walkK_xDs (o : Option Str) : Walk K (xDs o) := by unfold xDs; kwalk

theorem walkK_callHandler (hw : ∀ st, Walk Step (self st)) (n : Nat) (h : Handler) (arg : Int) (l o : Option Str) :
    Walk K (callHandler self n h arg l o) := by
  haveI : ∀ n st o, W Step (xIf self n st o) := fun n st o => ⟨walk_xIf hw n st o⟩
  haveI : W K (xDs o) := ⟨walkK_xDs o⟩
  unfold callHandler
  cases h with
  | h6800 h => kwalk
  | h6502 h => kwalk
  | hz80 h => kwalk
  | pseudo p => cases p <;> kwalk

theorem walkK_execLine (hw : ∀ st, Walk Step (self st)) (n : Nat) (st : Status) (l o : Option Str) (k : Str) (lab : Label) :
    Walk K (execLine self n st l o k lab) := by
  haveI : ∀ h arg, W K (callHandler self n h arg l o) := fun h arg => ⟨walkK_callHandler hw n h arg l o⟩
  haveI : ∀ n k lab st o, W Step (macrocall self n k lab st o) := fun n k lab st o => ⟨walk_macrocall hw n k lab st o⟩
  unfold execLine
  kwalk

theorem walkK_doFields (hw : ∀ st, Walk Step (self st)) (n : Nat) (st : Status) (b : Bool) (f : Fields) :
    Walk K (doFields self n st b f) := by
  haveI : ∀ l o k lab, W K (execLine self n st l o k lab) := fun l o k lab => ⟨walkK_execLine hw n st l o k lab⟩
  unfold doFields
  kwalk

theorem ls_macroEnd (msg : Str) (rc : RC) (st : Status) (o : Option Str) (h : PW X s1 s2) :
    LsAt X s1 s2 (macroEnd msg rc st o) (macroEnd msg rc st o) (EqW X) No := by
  haveI : ∀ (c : Prop) [Decidable c] (m : M Unit) [Quiet m], Quiet (whenM c m) := fun c _ m _ => quiet_when
  unfold macroEnd
  split
  · exact LsAt.error
  · refine LsAt.getS ?_
    rw [h.macrolevel]
    exact LsAt.afterW h (by intro; kwalk) (by intro; kwalk) fun _ _ t1 t2 q => LsAt.pure ⟨rfl, q⟩

/-- IF, ELSE, ENDC, MACRO, ENDM, EXITM. -/
theorem ls_special (hs : SelfLs X self) (hw : ∀ st, Walk Step (self st)) (n : Nat) (p : Pseudo) (hp : p ∈ condPseudos) (arg : Int)
    (l o : Option Str) (h : P X s1 s2) :
    LsAt X s1 s2 (callHandler self n (.pseudo p) arg l o) (callHandler self n (.pseudo p) arg l o) (EqW X) No := by
  unfold condPseudos at hp
  simp only [List.mem_cons, List.mem_nil_iff, or_false] at hp
  rcases hp with rfl | rfl | rfl | rfl | rfl | rfl
  · exact ls_xIf hs hw n _ o h
  · show LsAt X s1 s2 (xElse o) (xElse o) _ _
    unfold xElse
    split
    · exact LsAt.error
    · exact LsAt.pure ⟨rfl, h.toPW⟩
  · show LsAt X s1 s2 (xEndc o) (xEndc o) _ _
    unfold xEndc
    split
    · exact LsAt.error
    · exact LsAt.pure ⟨rfl, h.toPW⟩
  · exact ls_xMacro n _ l o h
  · exact ls_macroEnd _ _ _ o h.toPW
  · exact ls_macroEnd _ _ _ o h.toPW

theorem Lt.unit {m : M Unit} (hm : Lt m m) {c : RC} (h : P X s1 s2) :
    LsAt X s1 s2 (do m; pure c) (do m; pure c) (Ends2 X) (fun _ t1 t2 => Late X () t1 t2) :=
  (hm.run X s1 s2 h).bind (fun _ => Walk.pure _) (fun _ => Walk.pure _) (fun _ _ _ _ q => LsAt.pure q) fun _ t1 t2 c u2 hl e => by
    cases e; exact hl

/-- All other statements. -/
theorem ls_plain (n : Nat) (hd : Handler) (arg : Int) (l o : Option Str) (hp : ∀ p ∈ condPseudos, hd ≠ .pseudo p)
    (hb : hd = .hz80 .bitop → BitCode arg) (h : P X s1 s2) :
    LsAt X s1 s2 (callHandler self n hd arg l o) (callHandler self n hd arg l o) (Ends2 X) (fun _ t1 t2 => Late X () t1 t2) := by
  cases hd with
  | h6800 hd => exact (C6800.lt_call hd arg o).unit h
  | h6502 hd => exact (C6502.lt_call hd arg o).unit h
  | hz80 hd => exact (Z80.lt_call hd arg (fun e => hb (by rw [e])) o).unit h
  | pseudo p =>
    cases p with
    | equ => exact (l2_xEqu l o).lt.unit h
    | asc => exact (l2_xAsc o).lt.unit h
    | align => exact (lt_xAlign o).unit h
    | clist => exact (l2_xClist o).lt.unit h
    | code => exact (l2_xCode true o).lt.unit h
    | cpu => exact (l2_xCpu o).lt.unit h
    | dc => exact (L2.lt (l2_dcLoop arg _ _)).unit h
    | dummy => exact (l2_xCode false o).lt.unit h
    | ds => exact (l2_xDs o).lt.unit h
    | fail =>
      have : Lt (xFail o) (xFail o) := ⟨fun _ _ _ _ => by
        unfold xFail
        split
        · exact LsAt.error
        · exact LsAt.error
        · exact LsAt.error⟩
      exact this.unit h
    | ilist => exact (l2_xIlist o).lt.unit h
    | «include» => exact (l2_xInclude o).lt.unit h
    | list => exact (l2_xList o).lt.unit h
    | mlist => exact (l2_xMlist o).lt.unit h
    | nam => exact (l2_xNam o).lt.unit h
    | page => exact (lt_xPage o).unit h
    | output => exact (l2_xOutput o).lt.unit h
    | skip => exact (l2_xSkip o).lt.unit h
    | _ => exact absurd rfl (hp _ (by decide))

/-- Pass 1 has given up the line, pass 2 has got to its end. -/
def ErrW (X : Ctx) (b : RC) (t1 t2 : St) : Prop := b = .cont ∧ PW X t1 t2

theorem ls_execLine (hs : SelfLs X self) (hw : ∀ st, Walk Step (self st)) (n : Nat) (st : Status) (l o : Option Str) (k : Str)
    {l1 l2 : Label} (hl : LabRel l1 l2) (ht : l1.type = .mnemo ∨ l1.type = .macro) (h : P X s1 s2) :
    LsAt X s1 s2 (execLine self n st l o k l1) (execLine self n st l o k l2) (EqW X) (ErrW X) := by
  haveI : ∀ h arg, W K (callHandler self n h arg l o) := fun h arg => ⟨walkK_callHandler hw n h arg l o⟩
  haveI : ∀ (c : Prop) [Decidable c] (m : M Unit) [Quiet m], Quiet (whenM c m) := fun c _ m _ => quiet_when
  obtain ⟨a, b, c, d, e, f, g⟩ := hl.core.voc ht
  have c : l2.flags.defmacro = l1.flags.defmacro := c
  have d : l2.flags.defcond = l1.flags.defcond := d
  have e : l2.ptr = l1.ptr := e
  have f : (l1.flags.defcond = true ∨ l1.flags.defmacro = true) ↔ ∃ p ∈ condPseudos, l1.ptr = .handler (.pseudo p) := f
  have g : l1.ptr = .handler (.hz80 .bitop) → BitCode l1.modifier := g
  have ty : l2.type = l1.type := hl.core.type
  unfold execLine
  rw [c, d, e, ty]
  split
  · rename_i hc
    rw [Bool.or_eq_true] at hc
    obtain ⟨p, hp, hptr⟩ := f.mp hc
    rw [hptr]
    exact (ls_special hs hw n p hp _ l o h).no
  · rename_i hc
    split
    · split
      · exact LsAt.error
      · refine LsAt.no (LsAt.bindNo (Q0 := EndsW X) ?_ (by intro; kwalk) (by intro; kwalk) fun _ _ t1 t2 q => LsAt.pure ⟨rfl, q⟩)
        split
        · exact ls_macrocall hs hw n k l1 l2 st o e h.toPW
        · exact LsAt.listW h.toPW
    · rename_i hnm
      have hm : l1.type = .mnemo := ht.resolve_right hnm
      rw [if_pos hm, if_pos hm]
      have md : l2.modifier = l1.modifier :=
        hl.core.md (.inr ⟨by show l1.type ≠ _; rw [hm]; simp, by show l1.type ≠ _; rw [hm]; simp⟩)
          (by show l1.type ≠ _; rw [hm]; simp) (by show l1.type ≠ _; rw [hm]; simp)
      rw [md]
      refine LsAt.bind (Q0 := Ends2 X) (E0 := Late X) ?_ (by intro; kwalk) (by intro; kwalk) (fun _ _ t1 t2 q => ?_)
        fun _ t1 t2 r u2 hl e => ?_
      · unfold whenM
        split
        · cases hp : l1.ptr with
          | handler hd =>
            refine (ls_plain (self := self) n hd l1.modifier l o (fun p hpm he => hc ?_) (fun he => g (by rw [hp, he])) h).bind
              (by intro; kwalk) (by intro; kwalk) (fun _ _ _ _ q => LsAt.pure q) fun _ t1 t2 r u2 hl e => ?_
            · rw [Bool.or_eq_true]
              exact f.mpr ⟨p, hpm, by rw [hp, he]⟩
            · cases e; exact hl
          | _ => exact LsAt.ub2
        · exact LsAt.pure h
      · refine (ls_bumpStar q (E := No)).bindNo (by intro; kwalk) (by intro; kwalk) fun _ _ u1 u2 q => ?_
        have q : P X u1 u2 := q
        exact LsAt.afterW q.toPW (by intro; kwalk) (by intro; kwalk) fun _ _ v1 v2 q => LsAt.pure ⟨rfl, q⟩
      · obtain ⟨_, v2, e1, e⟩ := bind_ok e
        have q := hl v2 e1
        obtain ⟨_, w2, e2, e⟩ := bind_ok e
        cases e
        have hq := (inferInstance : Quiet (whenM (st.lst = true) outputline)).run v2
        rw [e2] at hq
        exact ⟨rfl, q.toPW.same (.rfl' _) hq⟩

theorem ls_doFields (hs : SelfLs X self) (hw : ∀ st, Walk Step (self st)) (n : Nat) (st : Status) (b : Bool) {f1 f2 : Fields}
    (hf : FRel f1 f2) (h : P X s1 s2) :
    LsAt X s1 s2 (doFields self n st b f1) (doFields self n st b f2) (EqW X) (ErrW X) := by
  haveI : ∀ l o k lab, W K (execLine self n st l o k lab) := fun l o k lab => ⟨walkK_execLine hw n st l o k lab⟩
  haveI : ∀ (c : Prop) [Decidable c] (m : M Unit) [Quiet m], Quiet (whenM c m) := fun c _ m _ => quiet_when
  haveI : ∀ (c : Prop) [Decidable c] n, L2 (whenM c (herelabel n)) (whenM c (herelabel n)) :=
    fun c _ n => L2.whenM Iff.rfl inferInstance
  obtain ⟨la, mn, op, en⟩ := f1
  obtain ⟨la2, mn2, op2, en2⟩ := f2
  obtain ⟨a, b', c, d⟩ := hf
  simp only at a b' c d
  subst a; subst b'; subst c
  unfold doFields
  dsimp only
  rcases d with ⟨rfl, rfl⟩ | ⟨k, l1, l2, rfl, rfl, hl, ht⟩
  · dsimp only
    split
    · refine LsAt.after h (by intro; kwalk) (by intro; kwalk) fun _ _ t1 t2 q => ?_
      exact LsAt.afterW q.toPW (by intro; kwalk) (by intro; kwalk) fun _ _ v1 v2 q => LsAt.pure ⟨rfl, q⟩
    · exact LsAt.error
  · dsimp only
    obtain ⟨a, b, -⟩ := hl.core.voc ht
    have a : l2.flags.nolabel = l1.flags.nolabel := a
    have b : l2.flags.deflabel = l1.flags.deflabel := b
    rw [a, b]
    split
    · exact LsAt.error
    · refine LsAt.bindNo (Q0 := Ends2 X) ?_ (by intro; kwalk) (by intro; kwalk) fun _ _ t1 t2 q =>
        ls_execLine hs hw n st _ _ k hl ht q
      cases la with
      | none =>
        dsimp only
        unfold whenM
        split
        · exact LsAt.error
        · exact LsAt.pure h
      | some l => exact L2.run X s1 s2 h

theorem ls_asmlineF (hs : SelfLs X self) (hw : ∀ st, Walk Step (self st)) (n : Nat) : SelfLs X (asmlineF self n) := by
  intro st s1 s2 h
  haveI : ∀ st b f, W K (doFields self n st b f) := fun st b f => ⟨walkK_doFields hw n st b f⟩
  haveI : ∀ (c : Prop) [Decidable c] (m : M Unit) [Quiet m], Quiet (whenM c m) := fun c _ m _ => quiet_when
  haveI : W K stripLine := ⟨walk_stripLine.mono fun _ _ h => K.s h.1⟩
  show LsAt X s1 s2 (startLine >>= _) (startLine >>= _) _ _
  refine (ls_startLine h (E := No)).bindNo (by intro; kwalk) (by intro; kwalk) fun _ _ t1 t2 q => ?_
  have q : P X t1 t2 := q
  refine LsAt.getS ?_
  rw [q.curline]
  dsimp only
  refine (ls_stripLine q).bindNo (by intro; kwalk) (by intro; kwalk) fun a b u1 u2 hh => ?_
  obtain ⟨rfl, q⟩ := hh
  split
  · exact LsAt.afterW q.toPW (by intro; kwalk) (by intro; kwalk) fun _ _ v1 v2 q => LsAt.pure ⟨rfl, q⟩
  · refine (ls_splitLine a q).bindNo (by intro; kwalk) (by intro; kwalk) fun f1 f2 v1 v2 hh => ?_
    exact ls_doFields hs hw n st _ hh.1 hh.2

end

theorem ls_asmline (X : Ctx) (n : Nat) : SelfLs X (asmline n) := by
  induction n with
  | zero => intro st s1 s2 _; exact LsAt.stop2
  | succ n ih => exact ls_asmlineF ih (walk_asmline n) n

/-! ### Passes -/

theorem ls_passBody (n : Nat) (h : PW X s1 s2) : LsAt X s1 s2 (passBody n) (passBody n) (EndsW X) (fun _ t1 t2 => PW X t1 t2) := by
  unfold passBody
  refine (ls_linegets h).bindNo (by intro; kwalk) (by intro; kwalk) fun _ _ t1 t2 q => ?_
  refine (ls_asmline X n _ t1 t2 q).bind (by intro; kwalk) (by intro; kwalk) (fun a b u1 u2 hh => ?_) fun b u1 u2 c v2 hh e => ?_
  · obtain ⟨rfl, q⟩ := hh
    unfold whenM
    split
    · exact LsAt.error
    · exact LsAt.pure q
  · obtain ⟨rfl, q⟩ := hh
    cases e
    exact q

/-- Whether the line is followed by the test for end of file: in pass 1 not if the line had an error. -/
theorem ls_again (n : Nat) (h : PW X s1 s2) :
    LsAt X s1 s2 (catchErr (do passBody n; pure true) (do bumpErr; pure false)) (catchErr (do passBody n; pure true) (do bumpErr; pure false))
      (fun _ b t1 t2 => b = true ∧ PW X t1 t2) No := by
  refine LsAt.catch (Q0 := fun _ b t1 t2 => b = true ∧ PW X t1 t2) (E0 := fun b t1 t2 => b = true ∧ PW X t1 t2) h.p2 (by kwalk) ?_ (fun _ _ _ _ h => h)
    (fun t2 h => ?_) (fun t1 h => ?_) fun b t1 t2 h => ?_
  · refine (ls_passBody n h).bind (by intro; kwalk) (by intro; kwalk) (fun _ _ t1 t2 q => LsAt.pure ⟨rfl, q⟩) fun _ t1 t2 c u2 q e => ?_
    cases e
    exact ⟨rfl, q⟩
  · have h : K ({ t2 with errnumber := t2.errnumber + 1 }, .live) (X.E2, .live) := h
    exact (K.s (.caught t2)).trans h
  · have h : K ({ t1 with errnumber := t1.errnumber + 1 }, .live) (X.E1, .live) := h
    exact (K.s (.caught t1)).trans h
  · exact ⟨false, _, rfl, h.1, { h.2 with }⟩

end Crasm

import Verif.Proof.LockL

/-! Two passes side by side: the fields of a line; conditionals. -/

namespace Crasm

variable {X : Ctx} {s1 s2 : St}

/-! ### Mnemonics -/

/-- The vocabulary entry found for a mnemonic. -/
def ERel (e1 e2 : Option (Str × Label)) : Prop := (e1 = none ∧ e2 = none) ∨
  ∃ k l1 l2, e1 = some (k, l1) ∧ e2 = some (k, l2) ∧ LabRel l1 l2 ∧ (l1.type = .mnemo ∨ l1.type = .macro)

theorem usable_some {k : Str} {l : Label} {e : Str × Label} (h : usable k l = some e) :
    e = (k, l) ∧ l.flags.undef = false ∧ (l.type = .mnemo ∨ l.type = .macro) := by
  unfold usable at h
  split at h
  · rename_i hc
    cases h
    rw [Bool.and_eq_true, Bool.or_eq_true] at hc
    refine ⟨rfl, by simpa using hc.1, ?_⟩
    rcases hc.2 with h | h
    · exact .inl (of_decide_eq_true h)
    · exact .inr (of_decide_eq_true h)
  · cases h

theorem usable_undef {k : Str} {l : Label} (h : l.flags.undef = true) : usable k l = none := by
  unfold usable; rw [h]; rfl

theorem findmnemo_not_err {n : Str} {s t : St} : findmnemo n s ≠ .err t := by
  unfold findmnemo
  rw [getS_bind_run]
  cases searchlabel s n with
  | some l => intro h; cases h
  | none =>
    dsimp only
    have q := (inferInstance : Quiet (filter2 n c!"?.?")).run s
    rw [bind_run]
    revert q
    cases filter2 n c!"?.?" s with
    | err t => intro q; exact q.elim
    | stop w t => intro _ h; cases h
    | ok r t =>
      intro _
      cases r with
      | none => intro h; cases h
      | some r =>
        obtain ⟨aux, b⟩ := r
        dsimp only
        cases searchlabel s aux with
        | none => intro h; cases h
        | some l =>
          dsimp only
          split
          · unfold whenM
            split
            · intro h; cases h
            · intro h; cases h
          · intro h; cases h

/-- A mnemonic that is no defined symbol. -/
theorem findmnemo_und {n : Str} {s t : St} {r : Option (Str × Label)} (hu : ∀ l, searchlabel s n = some l → l.flags.undef = true)
    (h : findmnemo n s = .ok r t) : (r = none ∧ SameBut s t) ∨ (s.passnumber, Note.odd) ∈ t.notes := by
  unfold findmnemo at h
  rw [getS_bind_run] at h
  revert h hu
  cases searchlabel s n with
  | some l =>
    intro hu h
    have h : Res.ok (usable (canon s.segment n) l) s = .ok r t := h
    rw [usable_undef (hu l rfl)] at h
    cases h
    exact .inl ⟨rfl, .rfl' _⟩
  | none =>
    intro _ h
    dsimp only at h
    have q := (inferInstance : Quiet (filter2 n c!"?.?")).run s
    rw [bind_run] at h
    revert q h
    cases filter2 n c!"?.?" s with
    | err t => intro h; cases h
    | stop w t => intro h; cases h
    | ok r0 t0 =>
      intro h q
      have q : SameBut s t0 := q
      cases r0 with
      | none => cases h; exact .inl ⟨rfl, q⟩
      | some r0 =>
        obtain ⟨aux, b⟩ := r0
        dsimp only at h
        revert h
        cases searchlabel s aux with
        | none => intro h; cases h; exact .inl ⟨rfl, q⟩
        | some l =>
          dsimp only
          split
          · cases hus : usable (canon s.segment aux) l with
            | none => intro h; cases h; exact .inl ⟨rfl, q⟩
            | some e =>
              intro h
              cases h
              right
              obtain ⟨_, _, _, rfl⟩ := q
              exact List.mem_cons_self ..
          · intro h; cases h; exact .inl ⟨rfl, q⟩

theorem ls_findmnemo (n : Str) (h : P X s1 s2) :
    LsAt X s1 s2 (findmnemo n) (findmnemo n) (fun e1 e2 t1 t2 => ERel e1 e2 ∧ P X t1 t2) No := by
  intro f1 f2
  cases e1 : findmnemo n s1 with
  | err t => exact absurd e1 findmnemo_not_err
  | stop w t => trivial
  | ok r1 t1 =>
    cases e2 : findmnemo n s2 with
    | err t => trivial
    | stop w t => trivial
    | ok r2 t2 =>
      rw [e1] at f1
      rw [e2] at f2
      have f1 : K (t1, .live) (X.E1, .live) := f1
      have f2 : K (t2, .live) (X.E2, .live) := f2
      show ERel r1 r2 ∧ P X t1 t2
      have hn := nodeRel_at h n
      have und : (∀ l, searchlabel s1 n = some l → l.flags.undef = true) →
          (∀ l, searchlabel s2 n = some l → l.flags.undef = true) → ERel r1 r2 ∧ P X t1 t2 := by
        intro u1 u2
        rcases findmnemo_und u1 e1 with ⟨a1, q1⟩ | ho
        · rcases findmnemo_und u2 e2 with ⟨a2, q2⟩ | ho
          · exact ⟨.inl ⟨a1, a2⟩, h.same q1 q2⟩
          · obtain ⟨ns, e, -⟩ := f2.notes
            have e : X.E2.notes = ns ++ t2.notes := e
            refine (X.odd2 ?_).elim
            rw [e, ← h.p2]; exact List.mem_append_right _ ho
        · obtain ⟨ns, e, -⟩ := f1.notes
          have e : X.E1.notes = ns ++ t1.notes := e
          refine (X.odd1 ?_).elim
          rw [e, ← h.p1]; exact List.mem_append_right _ ho
      have defd : ∀ l1 l2, s1.tree.find (canon s1.segment n) = some l1 → s2.tree.find (canon s2.segment n) = some l2 →
          LabRel l1 l2 → ERel r1 r2 ∧ P X t1 t2 := by
        intro l1 l2 g1 g2 hl
        unfold findmnemo searchlabel at e1 e2
        rw [getS_bind_run, g1] at e1
        rw [getS_bind_run, g2] at e2
        have e1 : Res.ok (usable (canon s1.segment n) l1) s1 = .ok r1 t1 := e1
        have e2 : Res.ok (usable (canon s2.segment n) l2) s2 = .ok r2 t2 := e2
        cases e1; cases e2
        refine ⟨?_, h⟩
        rw [h.segment]
        have t : l2.type = l1.type := hl.core.type
        have u : l2.flags.undef = l1.flags.undef := hl.core.undef
        unfold usable
        rw [t, u]
        split
        · rename_i hc
          rw [Bool.and_eq_true, Bool.or_eq_true] at hc
          exact .inr ⟨_, l1, l2, rfl, rfl, hl, hc.2.imp (of_decide_eq_true ·) (of_decide_eq_true ·)⟩
        · exact .inl ⟨rfl, rfl⟩
      by_cases hk : canon s1.segment n = starKey
      · have hs := hn
        unfold NodeRel at hs
        rw [if_pos hk] at hs
        obtain ⟨l1, l2, g1, g2, -, -, h3⟩ := hs
        rcases h3 with ⟨a, b, -⟩ | ⟨h3, -⟩
        · refine und (fun l hl => ?_) fun l hl => ?_
          · unfold searchlabel at hl; rw [g1] at hl; cases hl; exact a
          · unfold searchlabel at hl; rw [g2] at hl; cases hl; exact b
        · exact defd l1 l2 g1 g2 h3
      · rcases (NodeRel.ne hk).mp hn with hu | ⟨l1, l2, g1, g2, h3⟩
        · refine und (fun l hl => (hu.fst l hl).1) fun l hl => ?_
          cases hF : X.E1.tree.find (canon s1.segment n) with
          | none =>
            have := hu.non hF
            unfold searchlabel at hl
            rw [this] at hl; cases hl
          | some f =>
            obtain ⟨ho, l2, g2, hc⟩ := hu.snd f hF
            unfold searchlabel at hl
            rw [g2] at hl; cases hl
            exact (hc.spec ho).1
        · exact defd l1 l2 g1 g2 h3

/-- The fields of a line. -/
def FRel (f1 f2 : Fields) : Prop := f1.label = f2.label ∧ f1.mnemo = f2.mnemo ∧ f1.oper = f2.oper ∧ ERel f1.entry f2.entry

theorem ls_splitMnemo (l : Option Str) (s : Str) (h : P X s1 s2) :
    LsAt X s1 s2 (splitMnemo l s) (splitMnemo l s) (fun f1 f2 t1 t2 => FRel f1 f2 ∧ P X t1 t2) No := by
  unfold splitMnemo
  refine LsAt.eq h (by intro; kwalk) (by intro; kwalk) fun r t1 t2 q => ?_
  split
  · refine (ls_findmnemo _ q).bindNo (by intro; kwalk) (by intro; kwalk) fun e1 e2 u1 u2 hh => ?_
    exact LsAt.pure ⟨⟨rfl, rfl, rfl, hh.1⟩, hh.2⟩
  · refine (ls_findmnemo _ q).bindNo (by intro; kwalk) (by intro; kwalk) fun e1 e2 u1 u2 hh => ?_
    exact LsAt.pure ⟨⟨rfl, rfl, rfl, hh.1⟩, hh.2⟩

theorem ls_splitLine (s : Str) (h : P X s1 s2) :
    LsAt X s1 s2 (splitLine s) (splitLine s) (fun f1 f2 t1 t2 => FRel f1 f2 ∧ P X t1 t2) No := by
  unfold splitLine
  refine LsAt.eq h (by intro; kwalk) (by intro; kwalk) fun r t1 t2 q => ?_
  split
  · refine (ls_findmnemo _ q).bindNo (by intro; kwalk) (by intro; kwalk) fun e1 e2 u1 u2 hh => ?_
    split
    · exact LsAt.error
    · exact LsAt.pure ⟨⟨rfl, rfl, rfl, hh.1⟩, hh.2⟩
  · refine (ls_splitMnemo none s q).bindNo (by intro; kwalk) (by intro; kwalk) fun f1 f2 u1 u2 hh => ?_
    obtain ⟨hf, q⟩ := hh
    obtain ⟨a, b, c, d⟩ := hf
    obtain ⟨la, mn, op, en⟩ := f1
    obtain ⟨la2, mn2, op2, en2⟩ := f2
    simp only at a b c d
    subst a; subst b; subst c
    dsimp only
    rcases d with ⟨rfl, rfl⟩ | ⟨k, l1, l2, rfl, rfl, hl⟩
    · cases op with
      | none => exact LsAt.pure ⟨⟨rfl, rfl, rfl, .inl ⟨rfl, rfl⟩⟩, q⟩
      | some rest =>
        dsimp only
        split
        · exact LsAt.error
        · exact ls_splitMnemo _ _ q
    · have : FRel ⟨la, mn, op, some (k, l1)⟩ ⟨la, mn, op, some (k, l2)⟩ := ⟨rfl, rfl, rfl, .inr ⟨k, l1, l2, rfl, rfl, hl⟩⟩
      cases op with
      | none => exact LsAt.pure ⟨this, q⟩
      | some rest => exact LsAt.pure ⟨this, q⟩

/-! ### Conditions -/

instance ls_findCmp (o : Str) (cs : List (Str × Cmp)) : Ls (findCmp o cs) := by
  induction cs with
  | nil => exact Ls.pure _
  | cons c cs ih =>
    obtain ⟨p, c⟩ := c
    unfold findCmp
    ls

theorem ls_compareRes (q : Cmp) {a1 a2 b1 b2 : Result} (ha : Core a1 a2) (hb : Core b1 b2) (h : P X s1 s2) :
    LsAt X s1 s2 (compareRes q a1 b1) (compareRes q a2 b2) (Eqq X) No := by
  unfold compareRes
  rw [ha.undef, ha.forward, hb.undef, hb.forward, ha.type, hb.type]
  split
  · exact LsAt.error
  · split
    · exact LsAt.error
    · rename_i ht
      have ht : a1.type = b1.type := Decidable.of_not_not ht
      split
      · exact LsAt.error
      · dsimp only
        refine (LsAt.choice h (E := No)).bindNo (by intro; kwalk) (by intro; kwalk) fun _ _ t1 t2 hh => ?_
        refine LsAt.pure ⟨?_, hh.2⟩
        rcases hh.1 with hh | ⟨g1, g2⟩
        · exact Choice.test.inj hh
        · rw [Bool.or_eq_false_iff, Bool.or_eq_false_iff] at g1 g2
          obtain ⟨⟨fa, fb⟩, m1⟩ := g1
          obtain ⟨-, m2⟩ := g2
          have va := ha.val (.inl fa)
          have vb := hb.val (.inl fb)
          have hm : (a2.modifier = b2.modifier) ↔ (a1.modifier = b1.modifier) := by
            by_cases hc : a1.type = .absolute ∨ a1.type = .macro
            · have hc' : (decide (a1.type = .absolute) || decide (a1.type = .macro)) = true := by
                rcases hc with hc | hc <;> simp [hc]
              rw [hc', Bool.true_and] at m1 m2
              have m1 := of_decide_eq_false m1
              have m2 := of_decide_eq_false m2
              exact ⟨fun _ => Decidable.of_not_not m1, fun _ => Decidable.of_not_not m2⟩
            · have n1 : a1.type ≠ .absolute := fun e => hc (.inl e)
              have n2 : a1.type ≠ .macro := fun e => hc (.inr e)
              rw [ha.md (.inl fa) n1 n2, hb.md (.inl fb) (by rw [← ht]; exact n1) (by rw [← ht]; exact n2)]
          rw [va, vb]
          simp only [hm]

theorem ls_testtrue (o : Option Str) (h : P X s1 s2) : LsAt X s1 s2 (testtrue o) (testtrue o) (Eqq X) No := by
  unfold testtrue
  split
  · exact LsAt.pure ⟨rfl, h⟩
  · refine LsAt.eq h (by intro; kwalk) (by intro; kwalk) fun r t1 t2 q => ?_
    split
    · refine (ls_parse _ q).bindNo (by intro; kwalk) (by intro; kwalk) fun r1 r2 u1 u2 hh => ?_
      exact ls_compareRes _ hh.1 (core_abs rfl rfl rfl rfl) hh.2
    · refine (ls_parse _ q).bindNo (by intro; kwalk) (by intro; kwalk) fun r1 r2 u1 u2 hh => ?_
      refine (ls_parse _ hh.2).bindNo (by intro; kwalk) (by intro; kwalk) fun r3 r4 v1 v2 hh' => ?_
      exact ls_compareRes _ hh.1 hh'.1 hh'.2

/-! ### IF -/

theorem LsAt.rescue {m : M α} {c : α} {E : α → St → St → Prop} (hp : s2.passnumber = 2) (hw : Walk K m)
    (hm : LsAt X s1 s2 m m (EqW X) fun b t1 t2 => b = c ∧ PW X t1 t2) :
    LsAt X s1 s2 (catchErr m (do bumpErr; Pure.pure c)) (catchErr m (do bumpErr; Pure.pure c)) (EqW X) E := by
  refine LsAt.catch hp hw hm (fun _ _ _ _ h => h) (fun t2 h => ?_) (fun t1 h => ?_) fun b t1 t2 h => ?_
  · have h : K ({ t2 with errnumber := t2.errnumber + 1 }, .live) (X.E2, .live) := h
    exact (K.s (.caught t2)).trans h
  · have h : K ({ t1 with errnumber := t1.errnumber + 1 }, .live) (X.E1, .live) := h
    exact (K.s (.caught t1)).trans h
  · refine ⟨c, _, rfl, h.1.symm, ?_⟩
    exact { h.2 with }

/-- What asmline() does one level down. After an error in pass 1 alone, pass 2 has got to the end of the line. -/
def SelfLs (X : Ctx) (self : Status → M RC) : Prop := ∀ st s1 s2, PW X s1 s2 →
  LsAt X s1 s2 (self st) (self st) (EqW X) fun b t1 t2 => b = .cont ∧ PW X t1 t2

section
variable {self : Status → M RC}

theorem ls_ifRound (hs : SelfLs X self) (hw : ∀ st, Walk Step (self st)) (st : Status) (h : PW X s1 s2) :
    LsAt X s1 s2 (ifRound self st) (ifRound self st) (EqW X) fun b t1 t2 => b = .rc .cont ∧ PW X t1 t2 := by
  haveI : ∀ st, W Step (self st) := fun st => ⟨hw st⟩
  unfold ifRound
  refine (ls_linegets h).bindNo (by intro; kwalk) (by intro; kwalk) fun _ _ t1 t2 q => ?_
  refine LsAt.getS ?_
  have q : PW X t1 t2 := q
  rw [q.mainEof]
  split
  · exact LsAt.pure ⟨rfl, q⟩
  · refine (hs st t1 t2 q).bind (by intro; kwalk) (by intro; kwalk) (fun a b u1 u2 hh => ?_) fun b u1 u2 c v2 hh e => ?_
    · obtain ⟨rfl, hh⟩ := hh
      exact LsAt.pure ⟨rfl, hh⟩
    · obtain ⟨rfl, hh⟩ := hh
      cases e
      refine ⟨?_, hh⟩
      congr 1
      split <;> rfl

theorem ls_ifLoop (hs : SelfLs X self) (hw : ∀ st, Walk Step (self st)) (st : Status) (n : Nat) :
    ∀ s1 s2, PW X s1 s2 → LsAt X s1 s2 (ifLoop self st n) (ifLoop self st n) (EqW X) No := by
  induction n with
  | zero => intro s1 s2 _; exact LsAt.stop2
  | succ n ih =>
    intro s1 s2 h
    haveI : W Step (ifLoop self st n) := ⟨walk_ifLoop hw st n⟩
    unfold ifLoop
    refine (LsAt.rescue (E := No) h.p2 (walk_ifRound hw st).k (ls_ifRound hs hw st h)).bindNo (by intro; kwalk) (by intro; kwalk)
      fun a b t1 t2 hh => ?_
    obtain ⟨rfl, q⟩ := hh
    split
    · exact LsAt.error
    · exact ih t1 t2 q
    · exact LsAt.pure ⟨rfl, q⟩

theorem ls_markSkipped (st : Status) (b : Bool) (h : PW X s1 s2) {E : Unit → St → St → Prop} :
    LsAt X s1 s2 (markSkipped st b) (markSkipped st b) (EndsW X) E := by
  unfold markSkipped whenM
  split
  · exact fun _ _ => { h with }
  · exact LsAt.pure h

theorem quiet_ifList (st : Status) : Quiet (ifList st) := by
  unfold ifList
  exact Quiet.bind Quiet.getS fun _ => quiet_when

theorem ls_ifElse (hs : SelfLs X self) (hw : ∀ st, Walk Step (self st)) (n : Nat) (st : Status) (b : Bool) (o1 o2 : Option Char)
    (h : PW X s1 s2) : LsAt X s1 s2 (ifElse self n st b o1) (ifElse self n st b o2) (EqW X) No := by
  haveI : ∀ st n, W Step (ifLoop self st n) := fun st n => ⟨walk_ifLoop hw st n⟩
  haveI := fun st => quiet_ifList st
  unfold ifElse
  refine LsAt.getS ?_
  rw [h.clist]
  dsimp only
  refine (ls_markSkipped st _ h (E := No)).bindNo (by intro; kwalk) (by intro; kwalk) fun _ _ t1 t2 q => ?_
  refine (ls_ifLoop hs hw _ n t1 t2 q).bindNo (by intro; kwalk) (by intro; kwalk) fun a b u1 u2 hh => ?_
  obtain ⟨rfl, q⟩ := hh
  refine LsAt.modS ?_
  have q' : PW X { u1 with lineprefix := o1 } { u2 with lineprefix := o2 } := { q with }
  split
  · exact LsAt.error
  · exact LsAt.afterW q' (by intro; kwalk) (by intro; kwalk) fun _ _ v1 v2 q => LsAt.pure ⟨rfl, q⟩

theorem ls_xIf (hs : SelfLs X self) (hw : ∀ st, Walk Step (self st)) (n : Nat) (st : Status) (o : Option Str)
    (h : P X s1 s2) : LsAt X s1 s2 (xIf self n st o) (xIf self n st o) (EqW X) No := by
  haveI : ∀ st n, W Step (ifLoop self st n) := fun st n => ⟨walk_ifLoop hw st n⟩
  haveI : ∀ n st b o, W Step (ifElse self n st b o) := fun n st b o => ⟨walk_ifElse hw n st b o⟩
  haveI := fun st => quiet_ifList st
  unfold xIf
  refine LsAt.bindNo (Q0 := Eqq X) ?_ (by intro; kwalk) (by intro; kwalk) fun a b t1 t2 q => ?_
  · split
    · exact ls_testtrue o h
    · exact LsAt.pure ⟨rfl, h⟩
  · obtain ⟨rfl, q⟩ := q
    have q := q.toPW
    refine LsAt.getS ?_
    rw [q.clist]
    dsimp only
    refine LsAt.afterW q (by intro; kwalk) (by intro; kwalk) fun _ _ t1 t2 q => ?_
    refine LsAt.getS ?_
    refine (ls_markSkipped st _ q (E := No)).bindNo (by intro; kwalk) (by intro; kwalk) fun _ _ u1 u2 q => ?_
    refine (ls_ifLoop hs hw _ n u1 u2 q).bindNo (by intro; kwalk) (by intro; kwalk) fun c d v1 v2 hh => ?_
    obtain ⟨rfl, q⟩ := hh
    refine LsAt.modS ?_
    have q' : PW X { v1 with lineprefix := t1.lineprefix } { v2 with lineprefix := t2.lineprefix } := { q with }
    split
    · exact LsAt.error
    · refine LsAt.afterW q' (by intro; kwalk) (by intro; kwalk) fun _ _ w1 w2 q => ?_
      split
      · exact LsAt.pure ⟨rfl, q⟩
      · exact LsAt.pure ⟨rfl, q⟩
      · exact ls_ifElse hs hw n st _ _ _ q

end

end Crasm

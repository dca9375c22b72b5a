import Verif.Proof.LockS

/-! Two passes side by side: the other pseudo-instructions. -/

namespace Crasm

variable {X : Ctx} {s1 s2 : St}

/-- Pass 2 does not get through. -/
theorem LsAt.nok {m : M α} {m' : M β} {Q : α → β → St → St → Prop} {E : β → St → St → Prop} (h : ∀ a t, m' s2 ≠ .ok a t) :
    LsAt X s1 s2 m m' Q E := by
  intro _ _
  cases e : m' s2 with
  | ok a t => exact absurd e (h a t)
  | err t => cases m s1 <;> trivial
  | stop w t => cases m s1 <;> trivial

theorem l2_stocke (e : Option Str) (m : Int) : L2 (stocke e m) (stocke e m) := ⟨fun X s1 s2 h => by
  unfold stocke
  refine (ls_parseAbs _ h).bindNo (by intro; kwalk) (by intro; kwalk) fun r1 r2 t1 t2 q => ?_
  obtain ⟨-, -, q⟩ := q
  refine LsAt.bindNo (Q0 := Ends2 X) ?_ (by intro; kwalk) (by intro; kwalk) fun _ _ t1 t2 q => ?_
  · split
    · exact LsAt.after q (by intro; kwalk) (by intro; kwalk) fun _ _ u1 u2 q => LsAt.pure q
    · split
      · unfold modFlags
        refine LsAt.modS ?_
        have q' : P X { t1 with flags := { t1.flags with lohi := !t1.flags.lohi } }
          { t2 with flags := { t2.flags with lohi := !t2.flags.lohi } } := { q with }
        refine LsAt.after q' (by intro; kwalk) (by intro; kwalk) fun _ _ u1 u2 q => ?_
        exact LsAt.modS (LsAt.pure { q with })
      · split
        · exact LsAt.after q (by intro; kwalk) (by intro; kwalk) fun _ _ u1 u2 q => LsAt.pure q
        · split
          · exact LsAt.after q (by intro; kwalk) (by intro; kwalk) fun _ _ u1 u2 q => LsAt.pure q
          · exact LsAt.pure q
  · haveI : ∀ (c : Prop) [Decidable c] (m : M Unit) [Quiet m], Quiet (whenM c m) := fun c _ m _ => quiet_when
    exact LsAt.list q⟩

theorem l2_dcLoop (m : Int) (n : Nat) : ∀ o, L2 (dcLoop m n o) (dcLoop m n o) := by
  induction n with
  | zero => intro o; exact ⟨fun _ _ _ _ => LsAt.stop2⟩
  | succ n ih =>
    intro o
    refine ⟨fun X s1 s2 h => ?_⟩
    unfold dcLoop
    refine LsAt.eq h (by intro; kwalk) (by intro; kwalk) fun r t1 t2 q => ?_
    cases r with
    | none => exact (l2_stocke _ _).run X _ _ q
    | some ab =>
      obtain ⟨a, b⟩ := ab
      dsimp only
      haveI := l2_stocke (some a) m
      refine LsAt.after q (by intro; kwalk) (by intro; kwalk) fun _ _ t1 t2 q => ?_
      exact (ih (some b)).run X _ _ q

theorem l2_fillBytes (x y : Byte) (n : Nat) : L2 (fillBytes x n) (fillBytes y n) := by
  induction n with
  | zero => exact ⟨fun _ _ _ h => LsAt.pure h⟩
  | succ n ih => unfold fillBytes; exact L2.bind inferInstance (by intro; kwalk) (by intro; kwalk) fun _ _ => ih

theorem walkK_adv (i : Int) : Walk K (modS fun s => { s with advance := i }) :=
  walkK_modS (fun _ => rfl) (fun _ => rfl) (fun _ => rfl) (fun _ => rfl)

theorem l2_xDs (o : Option Str) : L2 (xDs o) (xDs o) := ⟨fun X s1 s2 h => by
  unfold xDs
  refine LsAt.bindNo (Q0 := fun a b t1 t2 => b.1 = a.1 ∧ P X t1 t2) ?_ (by intro; kwalk) (by intro; kwalk) fun a b t1 t2 q => ?_
  · refine LsAt.eq h (by intro; kwalk) (by intro; kwalk) fun r t1 t2 q => ?_
    cases r with
    | none => exact LsAt.pure ⟨rfl, q⟩
    | some ab =>
      obtain ⟨a, b⟩ := ab
      dsimp only
      refine (ls_parseAbs _ q).bindNo (by intro; kwalk) (by intro; kwalk) fun r1 r2 t1 t2 q => ?_
      haveI : ∀ (c : Prop) [Decidable c] (m : M Unit) [Quiet m], Quiet (whenM c m) := fun c _ m _ => quiet_when
      exact LsAt.after q.2.2 (by intro; kwalk) (by intro; kwalk) fun _ _ u1 u2 q => LsAt.pure ⟨rfl, q⟩
  · obtain ⟨a1, a2⟩ := a
    obtain ⟨b1, b2⟩ := b
    obtain ⟨e, q⟩ := q
    have e : b1 = a1 := e
    subst e
    dsimp only
    refine (ls_parseAbs _ q).bindNo (by intro; kwalk) (by intro; kwalk) fun r1 r2 t1 t2 q => ?_
    obtain ⟨-, hc, q⟩ := q
    refine (LsAt.choice q).bindNo (by intro; kwalk) (by intro; kwalk) fun _ _ t1 t2 q => ?_
    obtain ⟨hh, q⟩ := q
    have hi : toInt32 r2.value = toInt32 r1.value := by
      rcases hh with hh | hh
      · exact (Choice.count.inj hh).symm
      · rw [hc.val (.inl hh.1)]
    rw [hi]
    split
    · refine LsAt.nok fun a t e => ?_
      obtain ⟨_, _, _, h2⟩ := bind_ok e
      cases h2
    · haveI := l2_fillBytes a2 b2 (toInt32 r1.value).toNat
      refine LsAt.after q (by intro; kwalk) (by intro; kwalk) fun _ _ u1 u2 q => ?_
      exact fun _ _ => { q with advance := rfl }⟩

theorem quiet_lst (f : St → Lst) : Quiet (modS fun s => { s with lst := f s }) := ⟨fun s => ⟨_, _, _, rfl⟩⟩

theorem l2_xNam (o : Option Str) : L2 (xNam o) (xNam o) := ⟨fun X s1 s2 h => by
  unfold xNam
  split
  · exact LsAt.error
  · unfold settitle
    refine LsAt.getS ?_
    haveI : ∀ (c : Prop) [Decidable c] (m : M Unit) [Quiet m], Quiet (whenM c m) := fun c _ m _ => quiet_when
    refine LsAt.after h (by intro; kwalk) (by intro; kwalk) fun _ _ t1 t2 q => ?_
    split
    · exact LsAt.error
    · exact fun _ _ => { q with }⟩

theorem l2_ascLoop (d : Char) (s : Str) : ∀ e, L2 (ascLoop d e s) (ascLoop d e s) := by
  induction s with
  | nil =>
    intro e
    refine ⟨fun X s1 s2 h => ?_⟩
    cases e
    · exact LsAt.ub2
    · exact LsAt.error
  | cons c s ih =>
    intro e
    refine ⟨fun X s1 s2 h => ?_⟩
    cases e
    · unfold ascLoop
      split
      · split
        · exact LsAt.pure h
        · exact LsAt.error
      · split
        · exact (ih true).run X _ _ h
        · exact LsAt.after h (by intro; kwalk) (by intro; kwalk) fun _ _ t1 t2 q => (ih false).run X _ _ q
    · unfold ascLoop
      split
      · exact LsAt.error
      · exact LsAt.after h (by intro; kwalk) (by intro; kwalk) fun _ _ t1 t2 q => (ih false).run X _ _ q

theorem l2_xAsc (o : Option Str) : L2 (xAsc o) (xAsc o) := ⟨fun X s1 s2 h => by
  unfold xAsc
  split
  · exact LsAt.error
  · exact LsAt.error
  · split
    · exact (l2_ascLoop _ _ _).run X _ _ h
    · exact LsAt.error⟩

theorem l2_xCode (b : Bool) (o : Option Str) : L2 (xCode b o) (xCode b o) := ⟨fun X s1 s2 h => by
  unfold xCode
  split
  · exact LsAt.error
  · exact fun _ _ => { h with
      thiscall := by show s2.thiscall + 1 = s1.thiscall + 1; rw [h.thiscall]
      segment := by show s2.thiscall + 1 = s1.thiscall + 1; rw [h.thiscall] }⟩

theorem l2_onOff (o : Option Str) (set : Bool → Flags → Flags)
    (hs : ∀ X s1 s2 b, P X s1 s2 → P X { s1 with flags := set b s1.flags } { s2 with flags := set b s2.flags }) :
    L2 (onOff o set) (onOff o set) := ⟨fun X s1 s2 h => by
  have hw : ∀ b, Walk K (modFlags (set b)) := fun b => walkK_modS (fun _ => rfl) (fun _ => rfl) (fun _ => rfl) (fun _ => rfl)
  unfold onOff
  dsimp only
  refine LsAt.eq h (by intro; kwalk <;> exact hw _) (by intro; kwalk <;> exact hw _) fun r t1 t2 q => ?_
  split
  · exact fun _ _ => hs X _ _ _ q
  · refine LsAt.eq q (by intro; kwalk <;> exact hw _) (by intro; kwalk <;> exact hw _) fun r t1 t2 q => ?_
    split
    · exact fun _ _ => hs X _ _ _ q
    · exact LsAt.error⟩

theorem l2_xList (o : Option Str) : L2 (xList o) (xList o) := l2_onOff o _ fun X s1 s2 b h => by
  have e : ∀ (f : Flags), ∃ l, (if b && f.nolist then f else { f with listOn := b }) = { f with listOn := l } := by
    intro f; split
    · exact ⟨f.listOn, rfl⟩
    · exact ⟨b, rfl⟩
  obtain ⟨a1, e1⟩ := e s1.flags
  obtain ⟨a2, e2⟩ := e s2.flags
  rw [e1, e2]
  exact { h with }
theorem l2_xMlist (o : Option Str) : L2 (xMlist o) (xMlist o) := l2_onOff o _ fun X s1 s2 b h => { h with mlist := rfl }
theorem l2_xClist (o : Option Str) : L2 (xClist o) (xClist o) := l2_onOff o _ fun X s1 s2 b h => { h with clist := rfl }
theorem l2_xIlist (o : Option Str) : L2 (xIlist o) (xIlist o) := l2_onOff o _ fun X s1 s2 b h => { h with }

theorem lt_setpage (a1 b1 a2 b2 : Int) : Lt (setpage a1 b1) (setpage a2 b2) := ⟨fun X s1 s2 h => by
  unfold setpage
  refine LsAt.getS ?_
  haveI : ∀ (c : Prop) [Decidable c] (m : M Unit) [Quiet m], Quiet (whenM c m) := fun c _ m _ => quiet_when
  refine LsAt.after h (by intro; kwalk) (by intro; kwalk) fun _ _ t1 t2 q => ?_
  by_cases c2 : 200 < a2 ∨ (a2 ≠ 0 ∧ a2 < 10) ∨ b2 < 39 ∨ 1000 < b2
  · rw [if_pos c2]; exact LsAt.error
  · rw [if_neg c2]
    split
    · exact @LsAt.late _ _ _ _ _ (quiet_lst _) _ q
    · exact fun _ _ => { q with }⟩

theorem lt_xPage (o : Option Str) : Lt (xPage o) (xPage o) := ⟨fun X s1 s2 h => by
  unfold xPage
  split
  · exact LsAt.list h
  · refine LsAt.eq h (by intro; kwalk) (by intro; kwalk) fun r t1 t2 q => ?_
    cases r with
    | none => exact LsAt.error
    | some ab =>
      obtain ⟨a, b⟩ := ab
      dsimp only
      refine (ls_parseAbs _ q).bindNo (by intro; kwalk) (by intro; kwalk) fun r1 r2 t1 t2 q => ?_
      refine (ls_parseAbs _ q.2.2).bindNo (by intro; kwalk) (by intro; kwalk) fun r1 r2 t1 t2 q => ?_
      exact (lt_setpage _ _ _ _).run X _ _ q.2.2⟩

instance quiet_eols (n : Nat) : Quiet (eols n) := by
  induction n with
  | zero => exact Quiet.pure ()
  | succ n ih => unfold eols; quiet

theorem l2_xSkip (o : Option Str) : L2 (xSkip o) (xSkip o) := ⟨fun X s1 s2 h => by
  unfold xSkip
  refine (ls_parseAbs _ h).bindNo (by intro; kwalk) (by intro; kwalk) fun r1 r2 t1 t2 q => ?_
  dsimp only
  have : ∀ (c : Prop) [Decidable c] (n : Nat), Quiet (if c then warning c!"are you sure ?" else eols n) := by
    intro c _ n; split <;> infer_instance
  exact LsAt.list q.2.2⟩

theorem l2_xOutput (o : Option Str) : L2 (xOutput o) (xOutput o) := ⟨fun X s1 s2 h => by
  unfold xOutput modFlags
  refine LsAt.modS ?_
  dsimp only
  have q : P X { s1 with flags := { s1.flags with codeHex := false, codeScode := false } }
    { s2 with flags := { s2.flags with codeHex := false, codeScode := false } } := { h with }
  refine LsAt.eq q (by intro; kwalk) (by intro; kwalk) fun r t1 t2 q => ?_
  split
  · exact fun _ _ => { q with }
  · refine LsAt.eq q (by intro; kwalk) (by intro; kwalk) fun r t1 t2 q => ?_
    split
    · exact fun _ _ => { q with }
    · exact LsAt.error⟩

theorem insert8_noorg {x : Byte} {s : St} (h : s.flags.orgGv = false) : ∃ msg, insert8 x s = (error msg : M Unit) s := by
  unfold insert8
  rw [getS_bind_run, h]
  exact ⟨_, rfl⟩

/-- One byte, or none, depending on the location counter. -/
theorem lt_pad (c : Word → Prop) [∀ v, Decidable (c v)] (h : P X s1 s2) {u1 u2 : St} (e1 : u1.code.pc = s1.code.pc) (e2 : u2.code.pc = s2.code.pc) :
    LsAt X s1 s2 (whenM (c u1.code.pc) (insert8 0)) (whenM (c u2.code.pc) (insert8 0)) (Ends2 X) (Late X) := by
  rw [e1, e2]
  cases ho : s1.flags.orgGv with
  | true =>
    rw [h.pc ho]
    exact LsAt.whens Iff.rfl (fun _ => ((ls_insert8 _ _).run X _ _ h).no) h
  | false =>
    have ho2 : s2.flags.orgGv = false := by rw [h.org, ho]
    obtain ⟨m1, q1⟩ := insert8_noorg (x := 0) ho
    obtain ⟨m2, q2⟩ := insert8_noorg (x := 0) ho2
    have key := LsAt.lastly (X := X) (s1 := s1) (s2 := s2) (c := c s1.code.pc) (c' := c s2.code.pc) (msg := m1) (msg' := m2) h
    unfold LsAt at key ⊢
    have r1 : whenM (c s1.code.pc) (insert8 0) s1 = whenM (c s1.code.pc) (error m1) s1 := by
      unfold Crasm.whenM; split
      · exact q1
      · rfl
    have r2 : whenM (c s2.code.pc) (insert8 0) s2 = whenM (c s2.code.pc) (error m2) s2 := by
      unfold Crasm.whenM; split
      · exact q2
      · rfl
    rw [r1, r2]
    exact key

theorem filter0_code {a b : Str} {s t : St} {r : Bool} (h : filter0 a b s = .ok r t) : t.code.pc = s.code.pc := by
  have := (inferInstance : Quiet (filter0 a b)).run s
  rw [h] at this
  obtain ⟨_, _, _, rfl⟩ := this
  rfl

theorem ls_filter0 {a b : Str} (h : P X s1 s2) : LsAt X s1 s2 (filter0 a b) (filter0 a b)
    (fun r r' t1 t2 => (r = r' ∧ s1.code.pc = t1.code.pc ∧ s2.code.pc = t2.code.pc) ∧ P X t1 t2) No := by
  intro f1 f2
  have := (inferInstance : Ls (filter0 a b)).run X s1 s2 h f1 f2
  revert this
  cases e1 : filter0 a b s1 <;> cases e2 : filter0 a b s2 <;> intro h <;> try exact h
  exact ⟨⟨h.1, (filter0_code e1).symm, (filter0_code e2).symm⟩, h.2⟩

theorem lt_xAlign (o : Option Str) : Lt (xAlign o) (xAlign o) := ⟨fun X s1 s2 h => by
  unfold xAlign
  refine LsAt.getS ?_
  dsimp only
  refine (ls_filter0 h).bindNo (by intro; kwalk) (by intro; kwalk) fun r r' t1 t2 q => ?_
  obtain ⟨⟨rfl, e1, e2⟩, q⟩ := q
  split
  · exact lt_pad (fun v => (decide (v &&& 1 ≠ 0)) = true) q e1 e2
  · refine (ls_filter0 q).bindNo (by intro; kwalk) (by intro; kwalk) fun r r' t1 t2 q => ?_
    obtain ⟨⟨rfl, e1', e2'⟩, q⟩ := q
    split
    · exact lt_pad (fun v => (!decide (v &&& 1 ≠ 0)) = true) q (e1.trans e1') (e2.trans e2')
    · exact LsAt.error⟩

theorem checkDepth_eq (s : St) : checkDepth s = if maxSourceDeep ≤ s.stack.length + 1 then .stop (.fatal c!"too many nested INCLUDEs and MACROs") s
    else .ok () s := by
  unfold checkDepth Crasm.whenM
  rw [getS_bind_run]
  split <;> rfl

theorem ls_checkDepth {Q : Unit → Unit → St → St → Prop} {E : Unit → St → St → Prop} (hq : Q () () s1 s2) : LsAt X s1 s2 checkDepth checkDepth Q E := by
  intro f1 f2
  revert f1 f2
  rw [checkDepth_eq, checkDepth_eq]
  split
  · exact fun h => h.elim
  · split
    · exact fun _ h => h.elim
    · exact fun _ _ => hq

theorem walkK_push (f : St → St) (g : St → Event) (hp : ∀ s, (f s).passnumber = s.passnumber) (hl : ∀ s, (f s).log = g s :: s.log)
    (hn : ∀ s, (f s).notes = s.notes) (ht : ∀ s, (f s).tree = s.tree) : Walk K (modS f) :=
  fun s => .one (K.logged (hp s) (hl s) (hn s) (ht s))

theorem walkK_checkDepth : Walk K checkDepth := by
  intro s
  rw [checkDepth_eq]
  split
  · exact (inferInstance : W K (fatal c!"too many nested INCLUDEs and MACROs" : M Unit)).walk s
  · exact .refl _

instance : W K checkDepth := ⟨walkK_checkDepth⟩

theorem l2_xInclude (o : Option Str) : L2 (xInclude o) (xInclude o) := ⟨fun X s1 s2 h => by
  unfold xInclude
  split
  · exact LsAt.error
  · rename_i name
    refine LsAt.getS ?_
    rw [h.env]
    cases s1.env.fs name with
    | none => exact LsAt.error
    | some text =>
      dsimp only
      have hw : ∀ (s : St), Walk K (modS fun s' => { s' with
        stack := { oldlist := s.flags.listOn, oldprefix := s.lineprefix, oldlinnum := s.linenumber,
                   kind := .file text false } :: s'.stack,
        linenumber := 0,
        flags := { s'.flags with listOn := s'.flags.listOn && s'.flags.includelistOn },
        log := .opened s'.passnumber (s'.stack.length + 1) (.file text false) :: s'.log }) := fun s =>
        walkK_push _ (fun s' => .opened s'.passnumber (s'.stack.length + 1) (.file text false)) (fun _ => rfl) (fun _ => rfl) (fun _ => rfl) (fun _ => rfl)
      refine LsAt.bindNo (Q0 := Ends2 X) (ls_checkDepth h) (by intro; kwalk; exact hw _) (by intro; kwalk; exact hw _) fun _ _ t1 t2 q => ?_
      haveI : ∀ (c : Prop) [Decidable c] (m : M Unit) [Quiet m], Quiet (whenM c m) := fun c _ m _ => quiet_when
      refine LsAt.after q (by intro; exact hw _) (by intro; exact hw _) fun _ _ t1 t2 q => ?_
      intro _ _
      exact { q with kinds := congrArg (SrcKind.file text false :: ·) q.kinds }⟩

/-! ### Vocabularies -/

/-- What the tables of a processor have in common. -/
def EntryOk (e : Entry) : Bool :=
  decide (e.name ≠ starKey) && !e.label.flags.undef && e.label.flags.noredef && !e.label.flags.forward &&
  decide (e.label.type = .mnemo ∨ e.label.type = .regs) && !e.label.flags.defcond && !e.label.flags.defmacro &&
  (match e.label.ptr with
    | .handler (.pseudo _) => false
    | .handler (.hz80 .bitop) => decide (e.label.modifier = toShort 0xcb40 ∨ e.label.modifier = toShort 0xcbc0 ∨ e.label.modifier = toShort 0xcb80)
    | _ => true)

theorem entries_ok (t : TableId) (ht : t ≠ .pseudos) : (tableOf t).all EntryOk = true := by
  cases t
  · exact absurd rfl ht
  all_goals decide +kernel

theorem warning_ok (msg : Str) : Quiet (warning msg) := inferInstance

theorem ls_bindOne {t : TableId} {e : Entry} (ht : t ≠ .pseudos) (he : e ∈ tableOf t) (h : P X s1 s2) :
    LsAt X s1 s2 (bindOne t e) (bindOne t e) (Ends2 X) No := by
  have hok := List.all_eq_true.mp (entries_ok t ht) e he
  unfold EntryOk at hok
  simp only [Bool.and_eq_true, decide_eq_true_eq, Bool.not_eq_true'] at hok
  obtain ⟨⟨⟨⟨⟨⟨⟨hne, hu⟩, hnr⟩, hfw⟩, hty⟩, hdc⟩, hdm⟩, hptr⟩ := hok
  have hk : canon s1.segment e.name ≠ starKey := fun hk => hne (canon_star hk)
  have hn := nodeRel_at h e.name
  have warn : LsAt X s1 s2 (warning c!"user's symbol overrides new keyword") (warning c!"user's symbol overrides new keyword") (Ends2 X) No :=
    LsAt.list h
  unfold bindOne
  refine LsAt.getS ?_
  dsimp only
  generalize hkk : canon s1.segment e.name = k at hn hk ⊢
  have hkk2 : canon s2.segment e.name = k := by rw [h.segment]; exact hkk
  rw [hkk2] at hn ⊢
  rcases (NodeRel.ne hk).mp hn with hU | ⟨l1, l2, e1, e2, h3⟩
  · cases e1 : s1.tree.find k with
    | none =>
      dsimp only
      intro f1 f2
      have f1' : K (s1.putL k { e.label with origin := some t }, .live) (X.E1, .live) := f1
      obtain ⟨f, hf, le⟩ := finE f1' hk (Tree.find_put_self _ _ _)
      obtain ⟨ho, l2, e2, hc⟩ := hU.snd f hf
      obtain ⟨c1, c2, c3, c4, c5⟩ := hc.spec ho
      have htm : e.label.type ≠ .macro := by rcases hty with h | h <;> rw [h] <;> simp
      obtain ⟨a1, a2, a3⟩ := le.fixed hu hnr
      have a3 := a3 htm
      rw [e2] at f2 ⊢
      have c5 : l2.origin = some t := c5.trans le.origin
      dsimp only at f2 ⊢
      rw [if_pos ⟨c5, c1⟩]
      show P X _ _
      refine h.put ((NodeRel.ne hk).mpr (.inr ⟨_, _, rfl, rfl, ?_⟩)) fun _ hk' => absurd hk' hk
      have q1 : l2.type = e.label.type := c4.trans a1
      have q2 : l2.flags.forward = e.label.flags.forward := by
        rw [c2, (le.defd hu).1, a2]
        show (f.flags.noredef && true && e.label.flags.forward) = e.label.flags.forward
        rw [hfw]; simp
      have hcar : l2 = { undefOne f with flags := { (undefOne f).flags with used := l2.flags.used } } := hc
      have fields : l2.modifier = e.label.modifier ∧ l2.ptr = e.label.ptr ∧ l2.value = e.label.value ∧
          l2.flags.nolabel = e.label.flags.nolabel ∧ l2.flags.deflabel = e.label.flags.deflabel ∧
          l2.flags.defmacro = e.label.flags.defmacro ∧ l2.flags.defcond = e.label.flags.defcond := by
        rw [hcar, a3]
        exact ⟨rfl, rfl, rfl, rfl, rfl, rfl, rfl⟩
      obtain ⟨g1, g2, g3, g4, g5, g6, g7⟩ := fields
      refine ⟨⟨?_, q2, q1, ?_, fun _ => ⟨g4, g5, g6, g7, g2, ?_, ?_⟩, fun _ => g3, fun _ _ _ => g1⟩, hu, ?_⟩
      · show false = e.label.flags.undef; rw [hu]
      · show e.label.type ≠ .relative
        rcases hty with h | h <;> rw [h] <;> simp
      · show (e.label.flags.defcond = true ∨ e.label.flags.defmacro = true) ↔ ∃ p ∈ condPseudos, e.label.ptr = .handler (.pseudo p)
        rw [hdc, hdm]
        refine ⟨fun h => by simp at h, fun ⟨p, _, hp⟩ => ?_⟩
        rw [hp] at hptr; cases hptr
      · intro hp
        have hp : e.label.ptr = .handler (.hz80 .bitop) := hp
        rw [hp] at hptr
        exact of_decide_eq_true (p := e.label.modifier = toShort 0xcb40 ∨ e.label.modifier = toShort 0xcbc0 ∨
          e.label.modifier = toShort 0xcb80) hptr
      · show l2.flags.noredef = e.label.flags.noredef
        rw [c3, (le.defd hu).2]
    | some l1 =>
      obtain ⟨b1, b2, b3, b4, b5⟩ := hU.fst l1 e1
      dsimp only
      rw [if_neg (by rw [b5]; simp)]
      intro f1 f2
      have f1' : K (s1, .live) (X.E1, .live) := (K.star ((inferInstance : W K (warning c!"user's symbol overrides new keyword")).walk s1 |> fun hw => by
        revert hw f1
        cases warning c!"user's symbol overrides new keyword" s1 with
        | ok a t => exact fun f1 hw => hw.trans (.one f1)
        | err t => exact fun f1 hw => hw.trans (.one f1)
        | stop w t => exact fun f1 _ => f1.elim))
      obtain ⟨f, hf, le⟩ := finE f1' hk e1
      obtain ⟨ho, l2, e2, hc⟩ := hU.snd f hf
      obtain ⟨c1, c2, c3, c4, c5⟩ := hc.spec ho
      rw [e2] at f2 ⊢
      have c5 : l2.origin = none := c5.trans (le.origin.trans b5)
      dsimp only at f2 ⊢
      rw [if_neg (by rw [c5]; simp)] at f2 ⊢
      exact warn f1 f2
  · rw [e1, e2]
    dsimp only
    have u2 : l2.flags.undef = false := h3.core.undef.trans h3.defd
    rw [if_neg (by rw [h3.defd]; simp), if_neg (by rw [u2]; simp)]
    exact warn

theorem l2_bindAll {t : TableId} (ht : t ≠ .pseudos) (is : List Nat) : L2 (bindAll t (tableOf t) is) (bindAll t (tableOf t) is) := by
  induction is with
  | nil => exact ⟨fun _ _ _ h => LsAt.pure h⟩
  | cons i is ih =>
    refine ⟨fun X s1 s2 h => ?_⟩
    unfold bindAll
    have hw := (walk_bindAll t is).mono fun _ _ h => K.p h
    refine LsAt.bindNo (Q0 := Ends2 X) ?_ (fun _ => hw) (fun _ => hw) fun _ _ t1 t2 q => ih.run X _ _ q
    split
    · rename_i e he
      exact ls_bindOne ht (List.mem_of_getElem? he) h
    · exact LsAt.pure h

theorem l2_init {t : TableId} (ht : t ≠ .pseudos) : L2 (initLabelList t (tableOf t)) (initLabelList t (tableOf t)) := l2_bindAll ht _

theorem l2_cpu (c : Cpu) : L2 c.init c.init := by
  have h6800 : ∀ c, L2 (C6800.init c) (C6800.init c) := fun c => ⟨fun X s1 s2 h => by
    unfold C6800.init modFlags
    refine LsAt.modS ?_
    have q : P X { s1 with flags := { s1.flags with addr16 := true, lohi := false, relatif := false } }
      { s2 with flags := { s2.flags with addr16 := true, lohi := false, relatif := false } } := { h with rel1 := rfl, rel2 := rfl }
    haveI := l2_init (t := .m6800) (by simp)
    have a : L2 (initLabelList .m6800 C6800.m6800) (initLabelList .m6800 C6800.m6800) := this
    refine LsAt.after (hm := a) q (by intro; kwalk) (by intro; kwalk) fun _ _ t1 t2 q => ?_
    have b : L2 (initLabelList .m6801 C6800.m6801) (initLabelList .m6801 C6800.m6801) := l2_init (t := .m6801) (by simp)
    exact LsAt.whens Iff.rfl (fun _ => b.run X _ _ q) q⟩
  have h6502 : ∀ c, L2 (C6502.init c) (C6502.init c) := fun c => ⟨fun X s1 s2 h => by
    unfold C6502.init
    refine LsAt.modS ?_
    have q : P X { s1 with cpuflag := c, flags := { s1.flags with addr16 := true, lohi := true, relatif := false } }
      { s2 with cpuflag := c, flags := { s2.flags with addr16 := true, lohi := true, relatif := false } } := { h with rel1 := rfl, rel2 := rfl }
    have a : L2 (initLabelList .m6502 C6502.m6502) (initLabelList .m6502 C6502.m6502) := l2_init (t := .m6502) (by simp)
    refine LsAt.after (hm := a) q (by intro; kwalk) (by intro; kwalk) fun _ _ t1 t2 q => ?_
    have b : L2 (initLabelList .m65c02 C6502.m65c02) (initLabelList .m65c02 C6502.m65c02) := l2_init (t := .m65c02) (by simp)
    exact LsAt.whens Iff.rfl (fun _ => b.run X _ _ q) q⟩
  have hz80 : L2 Z80.init Z80.init := ⟨fun X s1 s2 h => by
    unfold Z80.init modFlags
    refine LsAt.modS ?_
    have q : P X { s1 with flags := { s1.flags with codeHex := true, addr16 := true, lohi := true, relatif := false } }
      { s2 with flags := { s2.flags with codeHex := true, addr16 := true, lohi := true, relatif := false } } := { h with rel1 := rfl, rel2 := rfl }
    have a : L2 (initLabelList .mz80 Z80.mz80) (initLabelList .mz80 Z80.mz80) := l2_init (t := .mz80) (by simp)
    exact a.run X _ _ q⟩
  cases c <;> unfold Cpu.init
  · exact h6800 _
  · exact h6800 _
  · exact h6800 _
  · exact h6502 _
  · exact h6502 _
  · exact h6502 _
  · exact hz80

instance ls_findCpu (o : Str) (cs : List (Str × Cpu)) : Ls (findCpu o cs) := by
  induction cs with
  | nil => exact Ls.pure _
  | cons c cs ih => obtain ⟨n, c⟩ := c; unfold findCpu; ls

theorem l2_xCpu (o : Option Str) : L2 (xCpu o) (xCpu o) := ⟨fun X s1 s2 h => by
  have hw : ∀ (s : St) (r : Option Cpu), Walk K (match r with
      | none => error c!"Unknown CPU name"
      | some c => do
        whenM (s.passnumber = 2) (modFlags fun f => { f with cpuGv := true })
        c.init) := by
    intro s r
    unfold modFlags
    kwalk
  unfold xCpu
  split
  · exact LsAt.error
  · refine LsAt.getS ?_
    rw [h.cpu]
    by_cases hc : s2.flags.cpuGv = true
    · rw [if_pos hc]; exact LsAt.error
    · rw [if_neg hc, if_neg (by simp)]
      refine LsAt.eq h (hw _) (hw _) fun r t1 t2 q => ?_
      cases r with
      | none => exact LsAt.error
      | some c =>
        dsimp only
        refine LsAt.bindNo (Q0 := Ends2 X) ?_ (fun _ => W.walk) (fun _ => W.walk) fun _ _ t1 t2 q => (l2_cpu c).run X _ _ q
        rw [h.p1, h.p2]
        exact fun _ _ => { q with }⟩

end Crasm

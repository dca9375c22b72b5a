import Verif.Proof.ProgCpu

/-! Programs: what one line does in either pass, as far as the marks on the symbols and the notes are concerned.  Nothing
here depends on values, and an error in an instruction does not matter. -/

namespace Crasm.C42
open Spec.Program (Isa key Free Body Line State Lines Proper All2 labels hasOrg)

/-! ### The invariant -/

/-- Within a line: `m` are the names that may be marked as used before their definition, `ah` the labels that are still
    to be defined. -/
structure Mid (isa : Isa) (voc : List Entry) (p : Lines isa) (m : Str → Bool) (ah : List Str) (s : St) : Prop where
  base : Base isa voc s
  forw : ∀ k l, ¬ Reserved isa k → s.tree.find k = some l → l.flags.forward = true → m k = true
  ahead : ∀ k ∈ ah, ∀ l, s.tree.find k = some l → l.flags.undef = true
  equs : ∀ k l, ¬ Reserved isa k → k ∉ labels p → s.tree.find k = some l → l.flags.noredef = false
  loc : ∀ l, s.tree.find starKey = some l → l.flags.noredef = false ∧ l.flags.forward = false
  mild : ∀ x ∈ s.notes, x.2 ≠ .odd ∧ ∀ c, x.2 ≠ .choice true c
  alive : s.passnumber = 1 → Alive (Reserved isa) s
  only : ∀ k, ¬ Reserved isa k → (s.tree.find k).isSome → k ∈ labels p ∨ k ∈ Spec.Program.equates p

/-- What is left alone, but for the names `own`. -/
structure Kin (own : List Str) (s s' : St) : Prop where
  find : ∀ k l, k ≠ starKey → k ∉ own → s.tree.find k = some l → ∃ l', s'.tree.find k = some l' ∧
    l'.flags.forward = l.flags.forward ∧ l'.flags.undef = l.flags.undef ∧ l'.value = l.value ∧ l'.flags.noredef = l.flags.noredef
  some : ∀ k, (s.tree.find k).isSome → (s'.tree.find k).isSome
  placed : Placed s → Placed s'
  main : s'.main = s.main
  eof : s'.mainEof = s.mainEof
  pass : s'.passnumber = s.passnumber
  cpu : s'.cpuflag = s.cpuflag
  errs : s'.errnumber = s.errnumber

theorem Kin.refl (own : List Str) (s : St) : Kin own s s :=
  ⟨fun _ l _ _ h => ⟨l, h, rfl, rfl, rfl, rfl⟩, fun _ h => h, id, rfl, rfl, rfl, rfl, rfl⟩
theorem Kin.trans {own : List Str} {a b c : St} (h : Kin own a b) (h' : Kin own b c) : Kin own a c := by
  refine ⟨fun k l h1 h2 h3 => ?_, fun k hk => h'.some k (h.some k hk), fun hp => h'.placed (h.placed hp), h'.main.trans h.main,
    h'.eof.trans h.eof, h'.pass.trans h.pass, h'.cpu.trans h.cpu, h'.errs.trans h.errs⟩
  obtain ⟨l1, g1, g2, g3, g4, g5⟩ := h.find k l h1 h2 h3
  obtain ⟨l2, i1, i2, i3, i4, i5⟩ := h'.find k l1 h1 h2 g1
  exact ⟨l2, i1, i2.trans g2, i3.trans g3, i4.trans g4, i5.trans g5⟩
theorem Kin.mono {own own' : List Str} (ho : own ⊆ own') {a b : St} (h : Kin own a b) : Kin own' a b :=
  ⟨fun k l h1 h2 h3 => h.find k l h1 (fun hk => h2 (ho hk)) h3, h.some, h.placed, h.main, h.eof, h.pass, h.cpu, h.errs⟩
theorem Kin.same {own : List Str} {s s' : St} (ht : s'.tree = s.tree) (h1 : s'.main = s.main) (h2 : s'.mainEof = s.mainEof)
    (h3 : s'.passnumber = s.passnumber) (h4 : s'.cpuflag = s.cpuflag)
    (h5 : s'.errnumber = s.errnumber) : Kin own s s' := by
  refine ⟨fun k l _ _ h => ⟨l, by rw [ht]; exact h, rfl, rfl, rfl, rfl⟩, fun k h => by rw [ht]; exact h, fun h => ?_, h1, h2, h3, h4, h5⟩
  unfold Placed starLabel at *
  rw [ht]; exact h

section
variable {isa : Isa} {voc : List Entry} {cf : Option Int} {p : Lines isa} {m : Str → Bool} {ah : List Str} {s s' : St} {N : Str → Prop}

theorem Mid.same (h : Mid isa voc p m ah s) (h1 : s'.stack = s.stack) (h2 : s'.segment = s.segment)
    (h3 : s'.flags.codeOn = s.flags.codeOn) (h4 : s'.flags.relatif = s.flags.relatif) (h5 : s'.tree = s.tree)
    (h6 : s'.notes = s.notes) (h7 : s'.passnumber = s.passnumber) : Mid isa voc p m ah s' := by
  refine ⟨h.base.same h1 h2 h3 h4 h5, ?_, ?_, ?_, ?_, ?_, ?_, by rw [h5]; exact h.only⟩
  · rw [h5]; exact h.forw
  · rw [h5]; exact h.ahead
  · rw [h5]; exact h.equs
  · rw [h5]; exact h.loc
  · rw [h6]; exact h.mild
  · rw [h7]
    unfold Alive
    rw [h5]; exact h.alive

theorem Base.use (h : Base isa voc s) (k : Str) : Base isa voc { s with tree := s.tree.put k (usedLabel s (s.tree.find k)) } := by
  have hf : ∀ k' l, s.tree.find k' = some l → ∃ l', (s.tree.put k (usedLabel s (s.tree.find k))).find k' = some l' ∧ SameL l l' := by
    intro k' l hl
    by_cases e : k' = k
    · subst e
      exact ⟨_, Tree.find_put_self _ _ _, by rw [hl]; rfl⟩
    · exact ⟨l, by rw [Tree.find_put_ne _ _ e]; exact hl, .refl _⟩
  refine ⟨h.stack, h.seg, h.on, h.rel, h.numeric.use k, fun e he => ?_, ?_⟩
  · obtain ⟨l, h1, h2⟩ := h.vocab e he
    obtain ⟨l', h3, h4⟩ := hf _ l h1
    exact ⟨l', h3, h2.same h4⟩
  · obtain ⟨l, h1, h2⟩ := h.star
    obtain ⟨l', h3, h4⟩ := hf _ l h1
    exact ⟨l', h3, fun hu => h4.value.2.1.trans (h2 (h4.undef.1.symm.trans hu))⟩

theorem star_some (h : Base isa voc s) : ∃ l, s.tree.find starKey = some l ∧ starLabel s = l := by
  obtain ⟨l, h1, -⟩ := h.star
  exact ⟨l, h1, by unfold starLabel; rw [h1]; rfl⟩

theorem Mid.noredef (h : Mid isa voc p m ah s) : (starLabel s).flags.noredef = false := by
  obtain ⟨l, h1, h2⟩ := star_some h.base
  rw [h2]
  exact (h.loc l h1).1

theorem Mid.calm (h : Mid isa voc p m ah s) : (starLabel s).flags.forward = false := by
  obtain ⟨l, h1, h2⟩ := star_some h.base
  rw [h2]
  exact (h.loc l h1).2

theorem unworded {k : Str} (h : ¬ Worded isa k) (hs : k ≠ starKey) : ¬ Reserved isa k := fun hr => hr.elim hs h

/-- The location counter is not marked. -/
theorem Mid.marked (h : Mid isa voc p m ah s) {k : Str} {l : Label} (hk : ¬ Worded isa k) (hl : s.tree.find k = some l) (hf : l.flags.forward = true) :
    m k = true := by
  by_cases e : k = starKey
  · subst e
    rw [(h.loc l hl).2] at hf
    cases hf
  · exact h.forw k l (unworded hk e) hl hf

/-- The location counter is changed. -/
theorem Mid.star (h : Mid isa voc p m ah s) {l : Label} (hb : Base isa voc { s with tree := s.tree.put starKey l })
    (hah : starKey ∉ ah) (hl : l.flags.noredef = false ∧ l.flags.forward = false) : Mid isa voc p m ah { s with tree := s.tree.put starKey l } := by
  have hf : ∀ k, ¬ Reserved isa k → (s.tree.put starKey l).find k = s.tree.find k := fun k hk => Tree.find_put_ne _ _ fun e => hk (.inl e)
  refine ⟨hb, fun k l' hk hl => ?_, fun k hk l' hl => ?_, fun k l' hk hp hl => ?_, fun l' hl' => ?_, h.mild, fun hp k l' hk hl => ?_,
    fun k hk hs => h.only k hk (by rw [← hf k hk]; exact hs)⟩
  · exact h.forw k l' hk (by rw [← hf k hk]; exact hl)
  · refine h.ahead k hk l' ?_
    rw [← hl]
    exact (Tree.find_put_ne _ _ fun e : k = starKey => hah (e ▸ hk)).symm
  · exact h.equs k l' hk hp (by rw [← hf k hk]; exact hl)
  · change (s.tree.put starKey l).find starKey = some l' at hl'
    rw [Tree.find_put_self] at hl'
    cases hl'
    exact hl
  · exact h.alive hp k l' hk (by rw [← hf k hk]; exact hl)

theorem Kin.star {own : List Str} {l : Label} (hp : (starLabel s).flags.undef = false → l.flags.undef = false) :
    Kin own s { s with tree := s.tree.put starKey l } := by
  refine ⟨fun k l' h1 _ h3 => ⟨l', ?_, rfl, rfl, rfl, rfl⟩, fun k hk => ?_, fun h => ?_, rfl, rfl, rfl, rfl, rfl⟩
  · show (s.tree.put starKey l).find k = _
    rw [Tree.find_put_ne _ _ h1]; exact h3
  · show ((s.tree.put starKey l).find k).isSome
    by_cases e : k = starKey
    · subst e; rw [Tree.find_put_self]; rfl
    · rw [Tree.find_put_ne _ _ e]; exact hk
  · unfold Placed
    rw [star_put]
    exact hp h

theorem Mid.tstep (M : Machine isa voc cf) {a b : Cfg} (h : TStep N a b) (hm : Mid isa voc p m ah a.1) (hah : starKey ∉ ah)
    (hN : ∀ k, N k → (a.1.tree.find k).isSome ∨ (m k = true ∧ k ∈ labels p)) : Mid isa voc p m ah b.1 ∧ Kin [] a.1 b.1 := by
  cases h with
  | use s k hk =>
    have hm : Mid isa voc p m ah s := hm
    have hN : ∀ k, N k → (s.tree.find k).isSome ∨ (m k = true ∧ k ∈ labels p) := hN
    -- what becomes of the label
    have hown : (∃ l, s.tree.find k = some l ∧ usedLabel s (s.tree.find k) = { l with flags := { l.flags with used := true } }) ∨
        (m k = true ∧ k ∈ labels p ∧ (usedLabel s (s.tree.find k)).flags.undef = true) := by
      cases hf : s.tree.find k with
      | some l => exact .inl ⟨l, rfl, rfl⟩
      | none =>
        right
        have : (s.tree.find k).isSome ∨ (m k = true ∧ k ∈ labels p) := hk.elim (hN k) .inl
        rw [hf] at this
        obtain ⟨h1, h2⟩ := this.resolve_left (by simp)
        exact ⟨h1, h2, rfl⟩
    refine ⟨⟨hm.base.use k, fun k' l hr hl hf => ?_, fun k' hk' l hl => ?_, fun k' l hr hp hl => ?_, fun l hl => ?_, hm.mild, fun hp => (hm.alive hp).use k, fun k' hr hs => ?_⟩,
      fun k' l h1 _ hl => ?_, fun k' hk' => ?_, fun hpl => ?_, rfl, rfl, rfl, rfl, rfl⟩
    · change (s.tree.put k _).find k' = some l at hl
      by_cases e : k' = k
      · subst e
        rw [Tree.find_put_self] at hl
        cases hl
        rcases hown with ⟨l, h1, h2⟩ | ⟨h1, -⟩
        · rw [h2] at hf
          exact hm.forw k' l hr h1 hf
        · exact h1
      · rw [Tree.find_put_ne _ _ e] at hl
        exact hm.forw k' l hr hl hf
    · change (s.tree.put k _).find k' = some l at hl
      by_cases e : k' = k
      · subst e
        rw [Tree.find_put_self] at hl
        cases hl
        rcases hown with ⟨l, h1, h2⟩ | ⟨-, -, h1⟩
        · rw [h2]
          exact hm.ahead k' hk' l h1
        · exact h1
      · rw [Tree.find_put_ne _ _ e] at hl
        exact hm.ahead k' hk' l hl
    · change (s.tree.put k _).find k' = some l at hl
      by_cases e : k' = k
      · subst e
        rw [Tree.find_put_self] at hl
        cases hl
        rcases hown with ⟨l, h1, h2⟩ | ⟨-, h1, -⟩
        · rw [h2]
          exact hm.equs k' l hr hp h1
        · exact absurd h1 hp
      · rw [Tree.find_put_ne _ _ e] at hl
        exact hm.equs k' l hr hp hl
    · change (s.tree.put k _).find starKey = some l at hl
      obtain ⟨ls, g1, -⟩ := hm.base.star
      by_cases e : starKey = k
      · subst e
        rw [Tree.find_put_self, g1] at hl
        cases hl
        exact hm.loc ls g1
      · rw [Tree.find_put_ne _ _ e] at hl
        exact hm.loc l hl
    · change ((s.tree.put k _).find k').isSome = true at hs
      by_cases e : k' = k
      · subst e
        rcases hown with ⟨l, h1, -⟩ | ⟨-, h1, -⟩
        · exact hm.only k' hr (by rw [h1]; rfl)
        · exact .inl h1
      · rw [Tree.find_put_ne _ _ e] at hs
        exact hm.only k' hr hs
    · show ∃ l', (s.tree.put k _).find k' = some l' ∧ _
      by_cases e : k' = k
      · subst e
        have hl : s.tree.find k' = some l := hl
        exact ⟨_, Tree.find_put_self _ _ _, by rw [hl]; rfl, by rw [hl]; rfl, by rw [hl]; rfl, by rw [hl]; rfl⟩
      · exact ⟨l, by rw [Tree.find_put_ne _ _ e]; exact hl, rfl, rfl, rfl, rfl⟩
    · show ((s.tree.put k _).find k').isSome
      by_cases e : k' = k
      · subst e; rw [Tree.find_put_self]; rfl
      · rw [Tree.find_put_ne _ _ e]; exact hk'
    · have hpl : Placed s := hpl
      obtain ⟨ls, h1, h2⟩ := star_some hm.base
      unfold Placed at hpl ⊢
      rw [h2] at hpl
      unfold starLabel
      show (((s.tree.put k _).find starKey).getD _).flags.undef = false
      by_cases e : starKey = k
      · subst e
        rw [Tree.find_put_self, h1]
        exact hpl
      · rw [Tree.find_put_ne _ _ e, h1]
        exact hpl
  | error1 s t ha hb =>
    obtain ⟨v, -, rfl⟩ := hb
    have hm : Mid isa voc p m ah s := hm
    have k1 : Mid isa voc p m ah { s with tree := s.tree.put starKey { starLabel s with value := v } } := hm.star (hm.base.bumped (not_star M)) hah ⟨hm.noredef, hm.calm⟩
    have k2 : Kin [] s { s with tree := s.tree.put starKey { starLabel s with value := v } } := Kin.star id
    exact ⟨k1.same rfl rfl rfl rfl rfl rfl rfl, k2.trans (Kin.same rfl rfl rfl rfl rfl rfl)⟩
  | choice s c =>
    have hm : Mid isa voc p m ah s := hm
    have k0 : Base isa voc { s with notes := (s.passnumber, .choice false c) :: s.notes } := hm.base.same rfl rfl rfl rfl rfl
    refine ⟨⟨k0, hm.forw, hm.ahead, hm.equs, hm.loc, fun x hx => ?_, hm.alive, hm.only⟩, Kin.same rfl rfl rfl rfl rfl rfl⟩
    rcases List.mem_cons.mp hx with rfl | hx
    · exact ⟨by simp, by simp⟩
    · exact hm.mild x hx
  | _ => exact ⟨Mid.same hm rfl rfl rfl rfl rfl rfl rfl, Kin.same rfl rfl rfl rfl rfl rfl⟩

theorem Mid.tstar (M : Machine isa voc cf) {a b : Cfg} (h : Star (TStep N) a b) (hm : Mid isa voc p m ah a.1) (hah : starKey ∉ ah)
    (hN : ∀ k, N k → (a.1.tree.find k).isSome ∨ (m k = true ∧ k ∈ labels p)) : Mid isa voc p m ah b.1 ∧ Kin [] a.1 b.1 := by
  induction h with
  | refl => exact ⟨hm, .refl _ _⟩
  | tail _ r ih =>
    obtain ⟨h1, h2⟩ := ih
    obtain ⟨h3, h4⟩ := h1.tstep M r hah fun k hk => (hN k hk).imp_left (h2.some k)
    exact ⟨h3, h2.trans h4⟩

/-! ### Definitions -/

theorem deflabel_ok {name : Str} {fl : LFlags} {ty : LType} {v : Word} (h : defOk (s.tree.find (canon s.segment name)) fl.noredef) :
    deflabel name fl ty v s = .ok (canon s.segment name)
        (s.putL (canon s.segment name) (defdLabel (s.tree.find (canon s.segment name)) fl ty v)) := by
  unfold deflabel
  simp only [getS_bind_run]
  cases hf : s.tree.find (canon s.segment name) with
  | none => rfl
  | some q =>
    have : ¬ ((!q.flags.undef && (q.flags.noredef || fl.noredef)) = true) := by
      rcases h q hf with h | ⟨h1, h2⟩
      · rw [h]; simp
      · rw [h1, h2]; simp
    simp only
    rw [if_neg this]
    rfl

/-- A label that can be defined here. -/
theorem here_runs (hb : Base isa voc s) {y : Str} (hy : Free isa y) (ho : s.flags.orgGv = true)
    (hu : ∀ l, s.tree.find (key y) = some l → l.flags.undef = true) :
    herelabel y s = .ok () { s with
      tree := s.tree.put (key y) (defdLabel (s.tree.find (key y)) { noredef := true } .absolute (starLabel s).value)
      notes := (s.passnumber, .label (key y) (starLabel s).value) :: s.notes } := by
  obtain ⟨hc, hr⟩ := free_key (n := y) hy rfl
  have hcs : canon s.segment y = key y := by rw [hb.seg, hc]
  have hne : y ≠ starKey := by
    rintro rfl
    exact hr (.inl (by decide))
  have hd := deflabel_ok (s := s) (name := y) (fl := { noredef := true }) (ty := addrType s.flags) (v := (starLabel s).value)
    (by rw [hcs]; exact fun q hq => .inl (hu q hq))
  have ha : addrType s.flags = .absolute := by unfold addrType; rw [hb.rel]; rfl
  unfold herelabel
  rw [if_neg hne, getS_bind_run, ho, if_pos rfl, run_ok hd, hcs, ha, hb.on]
  rfl

theorem Mid.label (M : Machine isa voc cf) (h : Mid isa voc p m ah s) {y : Str} (hy : Free isa y) (hk : key y ∉ ah) (hp : key y ∈ labels p) {v : Word} :
    Mid isa voc p m ah { s with
      tree := s.tree.put (key y) (defdLabel (s.tree.find (key y)) { noredef := true } .absolute v)
      notes := (s.passnumber, .label (key y) v) :: s.notes } ∧
    Kin [key y] s { s with
      tree := s.tree.put (key y) (defdLabel (s.tree.find (key y)) { noredef := true } .absolute v)
      notes := (s.passnumber, .label (key y) v) :: s.notes } := by
  obtain ⟨-, hr⟩ := free_key (n := y) hy rfl
  have hne : starKey ≠ key y := fun h => hr (.inl h.symm)
  have hb : Base isa voc { s with
      tree := s.tree.put (key y) (defdLabel (s.tree.find (key y)) { noredef := true } .absolute v)
      notes := (s.passnumber, .label (key y) v) :: s.notes } :=
    h.base.label hy (fl := { noredef := true }) (v := v) (p := .null)
      (m := (defdLabel (s.tree.find (key y)) { noredef := true } .absolute v).modifier) M
  refine ⟨⟨hb, fun k l hr hl hf => ?_, fun k hk' l hl => ?_, fun k l hr hp' hl => ?_, fun l hl => h.loc l ((Tree.find_put_ne _ _ hne).symm.trans hl), fun x hx => ?_, fun h1 k l hr hl => ?_, fun k hr hs => ?_⟩,
    fun k l h1 h2 h3 => ?_, fun k hk => ?_, fun hpl => ?_, rfl, rfl, rfl, rfl, rfl⟩
  · change (s.tree.put (key y) _).find k = some l at hl
    by_cases e : k = key y
    · subst e
      rw [Tree.find_put_self] at hl
      cases hl
      cases hf' : s.tree.find (key y) with
      | none => rw [hf'] at hf; cases hf
      | some q =>
        rw [hf'] at hf
        have hf : (q.flags.forward || false) = true := hf
        rw [Bool.or_false] at hf
        exact h.forw _ q hr hf' hf
    · rw [Tree.find_put_ne _ _ e] at hl
      exact h.forw k l hr hl hf
  · change (s.tree.put (key y) _).find k = some l at hl
    rw [Tree.find_put_ne _ _ (by rintro rfl; exact hk hk')] at hl
    exact h.ahead k hk' l hl
  · change (s.tree.put (key y) _).find k = some l at hl
    rw [Tree.find_put_ne _ _ (by rintro rfl; exact hp' hp)] at hl
    exact h.equs k l hr hp' hl
  · rcases List.mem_cons.1 hx with rfl | hx
    · exact ⟨by simp, by simp⟩
    · exact h.mild x hx
  · change (s.tree.put (key y) _).find k = some l at hl
    by_cases e : k = key y
    · subst e
      rw [Tree.find_put_self] at hl
      cases hl
      exact .inl rfl
    · rw [Tree.find_put_ne _ _ e] at hl
      exact h.alive h1 k l hr hl
  · change ((s.tree.put (key y) _).find k).isSome = true at hs
    by_cases e : k = key y
    · subst e; exact .inl hp
    · rw [Tree.find_put_ne _ _ e] at hs
      exact h.only k hr hs
  · exact ⟨l, (Tree.find_put_ne _ _ fun e => h2 (by simp [e])).trans h3, rfl, rfl, rfl, rfl⟩
  · show ((s.tree.put (key y) _).find k).isSome
    by_cases e : k = key y
    · subst e; rw [Tree.find_put_self]; rfl
    · rw [Tree.find_put_ne _ _ e]; exact hk
  · unfold Placed starLabel at hpl ⊢
    show (((s.tree.put (key y) _).find starKey).getD _).flags.undef = false
    rw [Tree.find_put_ne _ _ hne]
    exact hpl

/-- An equate. -/
theorem Mid.equate (M : Machine isa voc cf) (h : Mid isa voc p m ah s) {x : Str} (hx : Free isa x) (hk : key x ∉ ah) (hp : key x ∉ labels p) (hq : key x ∈ Spec.Program.equates p)
    {r : Result} (ht : r.type = .absolute) {m' : Str → Bool} (hm : ∀ k, m k = true → m' k = true) (hr : r.flags.forward = true → m' (key x) = true) :
    Mid isa voc p m' ah { s with tree := s.tree.put (key x) (equLabel (s.tree.find (key x)) r) } ∧
    Kin [key x] s { s with tree := s.tree.put (key x) (equLabel (s.tree.find (key x)) r) } := by
  obtain ⟨-, hrx⟩ := free_key (n := x) hx rfl
  have hne : starKey ≠ key x := fun h => hrx (.inl h.symm)
  have hb : Base isa voc { s with tree := s.tree.put (key x) (equLabel (s.tree.find (key x)) r) } := by
    have := h.base.label hx (v := r.value) (fl := { r.flags with undef := false, used := false, noredef := false }) (m := r.modifier) (p := r.ptr) (ns := s.notes) M
    unfold equLabel
    rw [ht]
    exact this
  refine ⟨⟨hb, fun k l hr' hl hf => ?_, fun k hk' l hl => ?_, fun k l hr' hp' hl => ?_, fun l hl => h.loc l ((Tree.find_put_ne _ _ hne).symm.trans hl), h.mild, fun h1 k l hr' hl => ?_, fun k hr' hs => ?_⟩,
    fun k l h1 h2 h3 => ?_, fun k hk => ?_, fun hpl => ?_, rfl, rfl, rfl, rfl, rfl⟩
  · change (s.tree.put (key x) _).find k = some l at hl
    by_cases e : k = key x
    · subst e
      rw [Tree.find_put_self] at hl
      cases hl
      cases hf' : s.tree.find (key x) with
      | none =>
        rw [hf'] at hf
        exact hr hf
      | some q =>
        rw [hf'] at hf
        have hf : (q.flags.forward || r.flags.forward) = true := hf
        rw [Bool.or_eq_true] at hf
        exact hf.elim (fun hf => hm _ (h.forw _ q hrx hf' hf)) hr
    · rw [Tree.find_put_ne _ _ e] at hl
      exact hm _ (h.forw k l hr' hl hf)
  · change (s.tree.put (key x) _).find k = some l at hl
    rw [Tree.find_put_ne _ _ (by rintro rfl; exact hk hk')] at hl
    exact h.ahead k hk' l hl
  · change (s.tree.put (key x) _).find k = some l at hl
    by_cases e : k = key x
    · subst e
      rw [Tree.find_put_self] at hl
      cases hl
      cases hf' : s.tree.find (key x) with
      | none => rfl
      | some q =>
        show (q.flags.noredef || false) = false
        rw [Bool.or_false]
        exact h.equs _ q hrx hp hf'
    · rw [Tree.find_put_ne _ _ e] at hl
      exact h.equs k l hr' hp' hl
  · change (s.tree.put (key x) _).find k = some l at hl
    by_cases e : k = key x
    · subst e
      rw [Tree.find_put_self] at hl
      cases hl
      exact .inl rfl
    · rw [Tree.find_put_ne _ _ e] at hl
      exact h.alive h1 k l hr' hl
  · change ((s.tree.put (key x) _).find k).isSome = true at hs
    by_cases e : k = key x
    · subst e; exact .inr hq
    · rw [Tree.find_put_ne _ _ e] at hs
      exact h.only k hr' hs
  · exact ⟨l, (Tree.find_put_ne _ _ fun e => h2 (by simp [e])).trans h3, rfl, rfl, rfl, rfl⟩
  · show ((s.tree.put (key x) _).find k).isSome
    by_cases e : k = key x
    · subst e; rw [Tree.find_put_self]; rfl
    · rw [Tree.find_put_ne _ _ e]; exact hk
  · unfold Placed starLabel at hpl ⊢
    show (((s.tree.put (key x) _).find starKey).getD _).flags.undef = false
    rw [Tree.find_put_ne _ _ hne]
    exact hpl

/-! ### Statements -/

/-- What is done with the label field. -/
def labelPart (defl : Bool) (label : Option Str) : M Unit :=
  match label with
  | none => pure ()
  | some x => if defl then pure () else herelabel x

theorem fields_eq {self : Status → M RC} {n : Nat} {flush : Bool} {label oper : Option Str} {mn k : Str} {l : Label} {hd : Handler}
    (ht : l.type = .mnemo) (hc : l.flags.defcond = false) (hdm : l.flags.defmacro = false) (hp : l.ptr = .handler hd)
    (hn : l.flags.nolabel = false) (hl : l.flags.deflabel = true → label.isSome) :
    doFields self n ⟨true, true⟩ flush ⟨label, mn, oper, some (k, l)⟩ =
      (labelPart l.flags.deflabel label >>= fun _ => callHandler self n hd l.modifier label oper >>= fun _ => afterwards) := by
  have hx : execLine self n ⟨true, true⟩ label oper k l =
      (callHandler self n hd l.modifier label oper >>= fun _ => afterwards) := by
    unfold execLine
    rw [hc, hdm, ht, hp, if_neg (by decide), if_neg (by decide), if_pos rfl]
    show ((callHandler self n hd l.modifier label oper >>= fun _ => pure ()) >>= fun _ => afterwards) = _
    rw [bind_assoc]
    rfl
  rw [← hx]
  clear hx
  unfold doFields
  dsimp only
  rw [if_neg (by rw [hn]; simp)]
  cases label with
  | none =>
    have : l.flags.deflabel = false := by
      cases hx : l.flags.deflabel with
      | true => exact absurd (hl hx) (by simp)
      | false => rfl
    rw [this]
    rfl
  | some x =>
    unfold labelPart
    dsimp only
    generalize l.flags.deflabel = b
    cases b <;> rfl

/-- How a line ends: normally, or by an error, with the property. -/
def Fares (Q : St → Prop) : Res RC → Prop
  | .ok rc s' => rc = .cont ∧ Q s'
  | .err s' => Q s'
  | .stop _ _ => True

theorem Fares.mono {Q Q' : St → Prop} (h : ∀ s, Q s → Q' s) {r : Res RC} (hr : Fares Q r) : Fares Q' r := by
  cases r with
  | ok rc s => exact ⟨hr.1, h s hr.2⟩
  | err s => exact h s hr
  | stop w s => trivial

theorem outputline_kin (h : Mid isa voc p m ah s) : ∀ {u s'}, outputline s = .ok u s' → Mid isa voc p m ah s' ∧ Kin [] s s' := by
  intro u s' e
  have q := (inferInstance : Quiet outputline).run s
  rw [e] at q
  obtain ⟨l, b, f, rfl⟩ := q
  exact ⟨h.same rfl rfl rfl rfl rfl rfl rfl, Kin.same rfl rfl rfl rfl rfl rfl⟩

theorem outputline_fares (h : Mid isa voc p m ah s) :
    Fares (fun s' => Mid isa voc p m ah s' ∧ Kin [] s s') ((outputline >>= fun _ => pure .cont : M RC) s) := by
  have q := (inferInstance : Quiet outputline).run s
  rw [bind_run]
  cases e : outputline s with
  | ok u s' => exact ⟨rfl, outputline_kin h e⟩
  | err s' => rw [e] at q; exact q.elim
  | stop w s' => trivial

theorem afterwards_fares (M : Machine isa voc cf) (h : Mid isa voc p m ah s) (hah : starKey ∉ ah) :
    Fares (fun s' => Mid isa voc p m ah s' ∧ Kin [] s s') (afterwards s) := by
  unfold afterwards
  rw [bind_run]
  cases e : bumpStar s with
  | err s' =>
    unfold bumpStar at e
    rw [getS_bind_run] at e
    revert e
    cases addS (starLabel s).value (BitVec.ofInt 64 s.advance) <;> intro e <;> cases e
  | stop w s' => trivial
  | ok u s1 =>
    obtain ⟨v, -, rfl⟩ := bump_ok e
    have k1 := h.star (hb := h.base.bumped (v := v) (not_star M)) hah ⟨h.noredef, h.calm⟩
    have k2 : Kin [] s { s with tree := s.tree.put starKey { starLabel s with value := v } } := Kin.star id
    exact (outputline_fares k1).mono fun s' hs => ⟨hs.1, k2.trans hs.2⟩

theorem Fares.and {Q Q' : St → Prop} {r : Res RC} (h : Fares Q r) (h' : Fares Q' r) : Fares (fun s => Q s ∧ Q' s) r := by
  cases r with
  | ok rc s => exact ⟨h.1, h.2, h'.2⟩
  | err s => exact ⟨h, h'⟩
  | stop w s => trivial

theorem still_after (hz : s.advance = 0) : Fares (fun s' => (∀ k, k ≠ starKey → s'.tree.find k = s.tree.find k) ∧
    (starLabel s').value = (starLabel s).value ∧ s'.flags.lohi = s.flags.lohi ∧ s'.log = s.log) (afterwards s) := by
  unfold afterwards
  rw [bind_run]
  cases e2 : bumpStar s with
  | err s' =>
    unfold bumpStar at e2
    rw [getS_bind_run] at e2
    revert e2
    cases addS (starLabel s).value (BitVec.ofInt 64 s.advance) <;> intro e2 <;> cases e2
  | stop w s' => trivial
  | ok u s2 =>
    obtain ⟨v, hv, rfl⟩ := bump_ok e2
    rw [hz, addS_zero] at hv
    cases hv
    have q := (inferInstance : Quiet outputline).run { s with tree := s.tree.put starKey { starLabel s with value := (starLabel s).value } }
    show Fares _ ((outputline >>= fun _ => pure .cont : M RC) _)
    rw [bind_run]
    cases e3 : outputline { s with tree := s.tree.put starKey { starLabel s with value := (starLabel s).value } } with
    | err s' => rw [e3] at q; exact q.elim
    | stop w s' => trivial
    | ok u' s3 =>
      rw [e3] at q
      obtain ⟨l3, b3, f3, rfl⟩ := q
      refine ⟨rfl, fun k hk => Tree.find_put_ne _ _ hk, ?_, rfl, rfl⟩
      have : ∀ (t : St), t.tree = s.tree.put starKey { starLabel s with value := (starLabel s).value } → (starLabel t).value = (starLabel s).value := by
        intro t ht
        unfold starLabel
        rw [ht, Tree.find_put_self]; rfl
      exact this _ rfl

/-- A statement, after the label. -/
theorem handler_fares (M : Machine isa voc cf) (h : Mid isa voc p m ah s) (hah : starKey ∉ ah) {act : Crasm.M RC}
    (hg : Goes (fun k => (s.tree.find k).isSome ∨ (m k = true ∧ k ∈ labels p)) s (act s)) :
    Fares (fun s' => Mid isa voc p m ah s' ∧ Kin [] s s') ((act >>= fun _ => afterwards) s) := by
  rw [bind_run]
  cases e : act s with
  | stop w s' => trivial
  | err s' =>
    rw [e] at hg
    exact h.tstar M hg hah fun k hk => hk
  | ok r s1 =>
    rw [e] at hg
    obtain ⟨h1, h2⟩ := h.tstar M hg hah fun k hk => hk
    exact (afterwards_fares M h1 hah).mono fun s' hs => ⟨hs.1, h2.trans hs.2⟩
end

end Crasm.C42

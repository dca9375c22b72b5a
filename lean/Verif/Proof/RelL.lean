import Verif.Proof.RelA

/-! Two related runs, continued: directives, source lines, conditionals, macros, passes. -/

namespace Crasm

theorem Rel.go {m : M α} (h : Rel m) {s₁ s₂ : St} (r : RR s₁ s₂) : RelAt s₁ s₂ m m := h.at_ _ _ r

/-! ### Directives -/

instance (v : Word) : KeepInv (echoAddr v) := by unfold echoAddr; keep
instance (l o : Option Str) : Rel (xEqu l o) := by
  unfold xEqu
  refine Rel.bind inferInstance fun r => ?_
  dsimp only
  refine Rel.bind inferInstance fun _ => Rel.bind (Rel.whenM inferInstance) fun _ => ?_
  split
  · rel
  · rel
instance (t : TableId) (e : Entry) : Rel (bindOne t e) := by unfold bindOne; rel
instance rel_bindAll (t : TableId) (es : List Entry) (is : List Nat) : Rel (bindAll t es is) := by
  induction is with
  | nil => unfold bindAll; rel
  | cons i is ih => unfold bindAll; rel
instance (t : TableId) (es : List Entry) : Rel (initLabelList t es) := by unfold initLabelList; infer_instance
instance (c : Int) : Rel (C6800.init c) := by unfold C6800.init modFlags; rel <;> relmod
instance (c : Int) : Rel (C6502.init c) := by unfold C6502.init; rel <;> relmod
instance : Rel Z80.init := by unfold Z80.init modFlags; rel <;> relmod

theorem rr_lst {s₁ s₂ : St} (r : RR s₁ s₂) {l₁ l₂ : Lst} (h1 : 39 ≤ l₁.llen) (h2 : 39 ≤ l₂.llen)
    (o1 : l₁.out = s₁.lst.out) (o2 : l₂.out = s₂.lst.out) :
    RR { s₁ with lst := l₁ } { s₂ with lst := l₂ } := by
  obtain ⟨⟨l, b, c, x, y, z, st, rfl, e⟩, i1, i2⟩ := r
  refine ⟨⟨l₂, b, c, x, y, z, st, rfl, e⟩, ⟨h1, fun hp => ?_⟩, h2, fun hp => ?_⟩
  · obtain ⟨a1, a2, a3, a4, a5⟩ := i1.2 hp
    exact ⟨a1, a2, a3, a4, o1.trans a5⟩
  · obtain ⟨a1, a2, a3, a4, a5⟩ := i2.2 hp
    exact ⟨a1, a2, a3, a4, o2.trans a5⟩

theorem rr_var {s : St} {l b c x y z st} (e : s.stack.map Src.strip = st.map Src.strip) (i1 : Inv s)
    (i2 : Inv (var s l b c x y z st)) : RR s (var s l b c x y z st) :=
  ⟨⟨l, b, c, x, y, z, st, rfl, e⟩, i1, i2⟩

instance (t : Str) : Rel (settitle t) := by
  unfold settitle
  refine Rel.getS fun s l b c x y z st e i1 i2 => ?_
  refine RelAt.bind (RelAt.quiet (by quiet) (by quiet) (by keep) (by keep) (rr_var e i1 i2)) fun _ t1 t2 r => ?_
  refine Rel.go ?_ r
  split
  · infer_instance
  · exact Rel.modS fun s₁ s₂ r => rr_lst r r.2.1.1 r.2.2.1 rfl rfl
instance (o : Option Str) : Rel (xNam o) := by unfold xNam; rel
instance (b : Bool) (o : Option Str) : Rel (xCode b o) := by unfold xCode; rel <;> relmod
theorem rel_onOff (o : Option Str) (set : Bool → Flags → Flags) (h : ∀ b, Rel (modFlags (set b))) :
    Rel (onOff o set) := by unfold onOff; rel
instance (o : Option Str) : Rel (xList o) := by
  refine rel_onOff o _ fun b => Rel.modS ?_
  have hi : ∀ s, Inv s → Inv { s with flags := if (b && s.flags.nolist) = true then s.flags
      else { s.flags with listOn := b } } := by
    rintro s ⟨i1, i2⟩
    split
    · exact ⟨i1, i2⟩
    · rename_i hb
      refine ⟨i1, fun hp => ?_⟩
      obtain ⟨a1, a2, a3, a4, a5⟩ := i2 hp
      refine ⟨a1, a2, ?_, a4, a5⟩
      revert hb; rw [a2]; cases b <;> simp
  rintro s _ ⟨⟨l, bp, c, x, y, z, st, rfl, e⟩, i1, i2⟩
  refine ⟨?_, hi _ i1, hi _ i2⟩
  dsimp only
  split
  · split
    · exact ⟨l, bp, c, x, y, z, st, rfl, e⟩
    · exact ⟨l, bp, c, b, y, z, st, rfl, e⟩
  · split
    · exact ⟨l, bp, c, x, y, z, st, rfl, e⟩
    · exact ⟨l, bp, c, b, y, z, st, rfl, e⟩
instance (o : Option Str) : Rel (xMlist o) := rel_onOff o _ fun b => by unfold modFlags; relmod
instance (o : Option Str) : Rel (xClist o) := rel_onOff o _ fun b => by unfold modFlags; relmod
instance (o : Option Str) : Rel (xIlist o) := rel_onOff o _ fun b => by unfold modFlags; relmod
instance (p q : Int) : Rel (setpage p q) := by
  unfold setpage
  refine Rel.getS fun s l b c x y z st e i1 i2 => ?_
  refine RelAt.bind (RelAt.quiet (by quiet) (by quiet) (by keep) (by keep) (rr_var e i1 i2)) fun _ t1 t2 r => ?_
  refine Rel.go ?_ r
  split
  · infer_instance
  · rename_i h
    have : 39 ≤ q.toNat := by omega
    exact Rel.modS fun s₁ s₂ r => rr_lst r this this rfl rfl
instance (o : Option Str) : Rel (xPage o) := by unfold xPage; rel
instance rel_eols (n : Nat) : Rel (eols n) := by
  induction n with
  | zero => exact Rel.pure _
  | succ n ih => unfold eols; rel
instance (o : Option Str) : Rel (xSkip o) := by unfold xSkip; rel
instance (o : Option Str) : Rel (xOutput o) := by unfold xOutput modFlags; rel <;> relmod
instance rel_findCpu (o : Str) (cs : List (Str × Cpu)) : Rel (findCpu o cs) := by
  induction cs with
  | nil => exact Rel.pure _
  | cons c cs ih => obtain ⟨p, b⟩ := c; unfold findCpu; rel
instance (c : Cpu) : Rel c.init := by cases c <;> (unfold Cpu.init; infer_instance)
instance (o : Option Str) : Rel (xCpu o) := by unfold xCpu modFlags; rel <;> relmod
instance (o : Option Str) : Rel (xFail o) := by unfold xFail; rel

/-! ### Binds with more information -/

/-- `RelAt.bind`, knowing `Q` of the states in between and `P` of the pair. -/
theorem RelAt.bindP {s₁ s₂ : St} {m m' : M α} {f g : α → M β} (h : RelAt s₁ s₂ m m')
    (Q : St → Prop) (P : St → St → Prop) (hq : ∀ a t, m s₁ = .ok a t → Q t) (hq' : ∀ a t, m' s₂ = .ok a t → Q t)
    (hp : ∀ a b t t', m s₁ = .ok a t → m' s₂ = .ok b t' → P t t') (hr : ∀ t, P t t)
    (hf : ∀ a t₁ t₂, RR t₁ t₂ → Q t₁ → Q t₂ → P t₁ t₂ → RelAt t₁ t₂ (f a) (g a)) :
    RelAt s₁ s₂ (m >>= f) (m' >>= g) := by
  unfold RelAt at *
  rw [bind_run, bind_run]
  cases e1 : m s₁ <;> cases e2 : m' s₂ <;> rw [e1, e2] at h <;> simp only [Agree] at h ⊢
  · obtain ⟨rfl, h⟩ := h; exact hf _ _ _ h (hq _ _ e1) (hq' _ _ e2) (hp _ _ _ _ e1 e2)
  · rename_i a t1 w t2
    have h' : Inv t1 ∧ Inv t2 := h
    have r : RR t1 t1 := ⟨.rfl' _, h'.1, h'.1⟩
    have := (hf a t1 t1 r (hq _ _ e1) (hq _ _ e1) (hr _)).inv.1
    revert this
    generalize f a t1 = x
    intro hx
    cases x <;> exact ⟨hx, h'.2⟩
  · exact h
  · exact h
  · rename_i w t1 a t2
    have h' : Inv t1 ∧ Inv t2 := h
    have r : RR t2 t2 := ⟨.rfl' _, h'.2, h'.2⟩
    exact ⟨h'.1, (hf a t2 t2 r (hq' _ _ e2) (hq' _ _ e2) (hr _)).inv.2⟩
  · exact h
  · exact h

theorem nstep_pass {a b : Cfg} (h : NStep a b) : b.1.passnumber = a.1.passnumber := by cases h <;> rfl
theorem pstep_pass {a b : Cfg} (h : PStep a b) : b.1.passnumber = a.1.passnumber := by
  cases h with
  | h h => cases h with
    | n h => exact nstep_pass h
    | emit => rfl
    | lohi => rfl
    | note => rfl
  | _ => rfl
theorem step_pass {a b : Cfg} (h : Step a b) : b.1.passnumber = a.1.passnumber := by
  cases h with
  | p h => exact pstep_pass h
  | _ => rfl
theorem star_pass {a b : Cfg} (h : Star Step a b) : b.1.passnumber = a.1.passnumber := by
  induction h with
  | refl => rfl
  | tail _ r ih => rw [step_pass r, ih]
theorem walk_pass_eq {m : M α} (hw : Walk Step m) {s s' : St} {a : α} (h : m s = .ok a s') :
    s'.passnumber = s.passnumber := by
  have := hw s
  rw [h] at this
  exact star_pass this

/-! ### Source lines -/

theorem inv_curline {s : St} {k : Str} (i : Inv s) : Inv { s with curline := k } := i
theorem rr_curline {s₁ s₂ : St} (r : RR s₁ s₂) (k k' : Str) :
    RR { s₁ with curline := k } { s₂ with curline := k' } := by
  obtain ⟨⟨l, b, c, x, y, z, st, rfl, e⟩, i1, i2⟩ := r
  exact ⟨⟨l, b, k', x, y, z, st, rfl, e⟩, i1, i2⟩
theorem rr_line {s₁ s₂ : St} (r : RR s₁ s₂) (n : Nat) (k : Str) :
    RR { s₁ with curline := k, log := .line s₁.passnumber n k :: s₁.log }
       { s₂ with curline := k, log := .line s₂.passnumber n k :: s₂.log } := by
  obtain ⟨⟨l, b, c, x, y, z, st, rfl, e⟩, i1, i2⟩ := r
  exact ⟨⟨l, b, k, x, y, z, st, rfl, e⟩, i1, i2⟩
instance (k : Str) : Rel (modS fun s => { s with curline := k }) :=
  Rel.modS fun _ _ r => rr_curline r k k

theorem len_strip {a b : List Src} (h : a.map Src.strip = b.map Src.strip) : a.length = b.length := by
  have := congrArg List.length h
  simpa using this

theorem RR.stackLen {s t : St} (r : RR s t) : t.stack.length = s.stack.length := by
  obtain ⟨⟨l, b, c, x, y, z, st, rfl, e⟩, i1, i2⟩ := r
  exact (len_strip e).symm
theorem RR.passEq {s t : St} (r : RR s t) : t.passnumber = s.passnumber := by
  obtain ⟨⟨l, b, c, x, y, z, st, rfl, e⟩, i1, i2⟩ := r
  rfl

instance (raw : Str) : Rel (takeLine raw) := by
  unfold takeLine
  dsimp only
  refine Rel.bind inferInstance fun _ => Rel.bind (Rel.whenM inferInstance) fun _ => Rel.modS ?_
  rintro s _ ⟨⟨l, b, c, x, y, z, st, rfl, e⟩, i1, i2⟩
  refine ⟨⟨l, b, c, x, y, z, st, ?_, e⟩, i1, i2⟩
  simp only [len_strip e]

theorem src_strip {a b : Src} (h : a.strip = b.strip) :
    a.kind = b.kind ∧ a.oldprefix = b.oldprefix ∧ a.oldlinnum = b.oldlinnum := by
  obtain ⟨a1, a2, a3, a4⟩ := a
  obtain ⟨b1, b2, b3, b4⟩ := b
  simp only [Src.strip, Src.mk.injEq] at h
  exact ⟨h.2.2.2, h.2.1, h.2.2.1⟩

theorem rr_popEnds (st : List Src) : ∀ st' (s₁ s₂ : St), s₁.stack = st → s₂.stack = st' → RR s₁ s₂ →
    RR (popEnds st s₁) (popEnds st' s₂) := by
  induction st with
  | nil =>
    intro st' s₁ s₂ h1 h2 r
    have : st' = [] := by
      have := r.stackLen
      rw [h1, h2] at this
      exact List.eq_nil_of_length_eq_zero this
    subst this
    exact r
  | cons src rest ih =>
    intro st' s₁ s₂ h1 h2 r
    obtain ⟨⟨l, b, c, x, y, z, st2, rfl, e⟩, i1, i2⟩ := r
    simp only at h2
    subst h2
    rw [h1] at e
    cases st2 with
    | nil => simp at e
    | cons src' rest' =>
      simp only [List.map_cons, List.cons.injEq] at e
      obtain ⟨ek, ep, el⟩ := src_strip e.1
      obtain ⟨o1, o2, o3, o4⟩ := src
      obtain ⟨p1, p2, p3, p4⟩ := src'
      simp only at ek ep el
      subst ek; subst ep; subst el
      have r0 : RR s₁ (var s₁ l b c x y z ({ oldlist := p1, oldprefix := o2, oldlinnum := o3, kind := o4 } :: rest')) :=
        ⟨⟨l, b, c, x, y, z, _, rfl, by rw [h1]; simp [e.1, e.2]⟩, i1, i2⟩
      cases o4 with
      | «macro» a b c => exact r0
      | file t eo =>
        cases eo with
        | false => exact r0
        | true =>
          unfold popEnds
          refine ih _ _ _ rfl rfl ⟨⟨l, b, c, p1, y, z, rest', rfl, e.2⟩, ⟨i1.1, fun hp => ?_⟩, i2.1, fun hp => ?_⟩
          · obtain ⟨a1, a2, a3, a4, a5⟩ := i1.2 hp
            rw [h1] at a4
            exact ⟨a1, a2, a4 _ List.mem_cons_self, fun s hs => a4 s (List.mem_cons_of_mem _ hs), a5⟩
          · obtain ⟨a1, a2, a3, a4, a5⟩ := i2.2 hp
            exact ⟨a1, a2, a4 _ List.mem_cons_self, fun s hs => a4 s (List.mem_cons_of_mem _ hs), a5⟩

/-- Replacing the top of the stack by one that reads on. -/
theorem rr_top {s₁ s₂ t₁ t₂ : St} (r : RR s₁ s₂) (rt : RR t₁ t₂) (hp : t₁.passnumber = s₁.passnumber)
    {a b : Src} {as bs : List Src} (ha : s₁.stack = a :: as) (hb : s₂.stack = b :: bs) (k : SrcKind) :
    RR { t₁ with stack := { a with kind := k } :: as } { t₂ with stack := { b with kind := k } :: bs } := by
  have hp2 : t₂.passnumber = s₂.passnumber := by rw [rt.passEq, r.passEq, hp]
  obtain ⟨⟨l, b', c, x, y, z, st, rfl, e⟩, i1, i2⟩ := r
  obtain ⟨⟨l', b'', c', x', y', z', st', rfl, e'⟩, j1, j2⟩ := rt
  simp only at hb
  subst hb
  rw [ha] at e
  simp only [List.map_cons, List.cons.injEq] at e
  refine ⟨⟨l', b'', c', x', y', z', { b with kind := k } :: bs, rfl, ?_⟩, ⟨j1.1, fun h => ?_⟩, j2.1, fun h => ?_⟩
  · simp only [List.map_cons, List.cons.injEq, e.2, and_true]
    obtain ⟨-, e1, e2⟩ := src_strip e.1
    simp [Src.strip, e1, e2]
  · obtain ⟨a1, a2, a3, a4, a5⟩ := j1.2 h
    have q := (i1.2 (hp ▸ h)).2.2.2.1
    rw [ha] at q
    refine ⟨a1, a2, a3, ?_, a5⟩
    intro src hs
    rcases List.mem_cons.1 hs with rfl | hs
    · exact q a List.mem_cons_self
    · exact q src (List.mem_cons_of_mem _ hs)
  · obtain ⟨a1, a2, a3, a4, a5⟩ := j2.2 h
    have q := (i2.2 (hp2 ▸ h)).2.2.2.1
    refine ⟨a1, a2, a3, ?_, a5⟩
    intro src hs
    rcases List.mem_cons.1 hs with rfl | hs
    · exact q b List.mem_cons_self
    · exact q src (List.mem_cons_of_mem _ hs)

theorem takeLine_pass {raw : Str} {u : Unit} {s s' : St} (h : takeLine raw s = .ok u s') :
    s'.passnumber = s.passnumber ∧ s'.curline = (lineText raw).filter keepChar := by
  rcases takeLine_run raw s with ⟨w, s1, k, h1, -⟩ | ⟨s1, h1, hq⟩
  · rw [h1] at h; cases h
  · rw [h1] at h; cases h; obtain ⟨_, _, _, rfl⟩ := hq; exact ⟨rfl, rfl⟩

/-- The body of `linegets` after `popEnds`. -/
def linegetsRest : M Unit := do
  let s ← getS
  match s.stack with
  | [] => do
    let (l, r, e) := fgets (lineMax - 1) s.main
    takeLine l
    modS fun s => { s with main := r, mainEof := s.mainEof || e }
  | src :: rest =>
    match src.kind with
    | .file t _ => do
      let (l, r, e) := fgets (lineMax - 1) t
      takeLine l
      modS fun s => { s with stack := { src with kind := .file r e } :: rest }
    | .macro args all lines =>
      match lines with
      | [] => ubM .nullMacro
      | l :: ls => do
        modS fun s => { s with stack := { src with kind := .macro args all ls } :: rest }
        let (out, cut) := expandLine args all false [] l
        modS fun s => { s with curline := out.reverse,
                               log := .line s.passnumber (rest.length + 1) out.reverse :: s.log }
        whenM (cut) (warning c!"Too long line")

theorem linegets_eq (s : St) : linegets s = linegetsRest (popEnds s.stack s) := rfl

instance : Rel linegetsRest := ⟨by
  intro s₁ s₂ r
  unfold linegetsRest
  show RelAt s₁ s₂ _ _
  have g1 : ∀ (f g : St → M Unit), RelAt s₁ s₂ (f s₁) (g s₂) → RelAt s₁ s₂ (getS >>= f) (getS >>= g) :=
    fun f g h => h
  apply g1
  have hl := r.stackLen
  have hm : s₂.main = s₁.main := by
    obtain ⟨⟨_, _, _, _, _, _, _, rfl, _⟩, _, _⟩ := r; rfl
  cases h1 : s₁.stack with
  | nil =>
    have h2 : s₂.stack = [] := by
      rw [h1] at hl
      exact List.eq_nil_of_length_eq_zero hl
    simp only [h2, hm]
    refine RelAt.bind (Rel.go inferInstance r) fun _ t1 t2 rt => ?_
    refine Rel.go ?_ rt
    relmod
  | cons a as =>
    cases h2 : s₂.stack with
    | nil => rw [h1, h2] at hl; cases hl
    | cons b bs =>
      have hk : b.kind = a.kind := by
        obtain ⟨⟨_, _, _, _, _, _, st, rfl, e⟩, _, _⟩ := r
        simp only at h2
        rw [h1, h2] at e
        simp only [List.map_cons, List.cons.injEq] at e
        exact (src_strip e.1).1.symm
      simp only
      rw [hk]
      cases a.kind with
      | file t eo =>
        simp only
        refine RelAt.bindP (Rel.go inferInstance r) (fun t => t.passnumber = s₁.passnumber) (fun _ _ => True)
          (fun _ t h => (takeLine_pass h).1) (fun _ t h => (takeLine_pass h).1.trans r.passEq) (fun _ _ _ _ _ _ => trivial)
          (fun _ => trivial) fun _ t1 t2 rt q1 q2 _ => ?_
        exact ⟨rfl, rr_top r rt q1 h1 h2 _⟩
      | «macro» args all lines =>
        cases lines with
        | nil => exact ⟨r.2.1, r.2.2⟩
        | cons l ls =>
          simp only
          have r1 := rr_top r r rfl h1 h2 (.macro args all ls)
          have hn : bs.length = as.length := by
            rw [h1, h2] at hl
            simpa using hl
          rw [hn]
          have r2 := rr_line r1 (as.length + 1) (expandLine args all false [] l).1.reverse
          exact (Rel.go (by rel : Rel (whenM ((expandLine args all false [] l).2 = true)
            (warning c!"Too long line"))) r2)⟩

theorem quiet_curline {m : M Unit} [q : Quiet m] {s t : St} {u : Unit} (h : m s = .ok u t) : t.curline = s.curline := by
  have := q.run s
  rw [h] at this
  obtain ⟨_, _, _, rfl⟩ := this
  rfl

theorem linegetsRest_curline {s₁ s₂ t₁ t₂ : St} {u u' : Unit} (r : RR s₁ s₂) (h1 : linegetsRest s₁ = .ok u t₁)
    (h2 : linegetsRest s₂ = .ok u' t₂) : t₁.curline = t₂.curline := by
  have hl := r.stackLen
  have hm : s₂.main = s₁.main := by
    obtain ⟨⟨_, _, _, _, _, _, _, rfl, _⟩, _, _⟩ := r; rfl
  unfold linegetsRest at h1 h2
  rw [getS_bind_run] at h1 h2
  cases e1 : s₁.stack with
  | nil =>
    have e2 : s₂.stack = [] := by
      rw [e1] at hl
      exact List.eq_nil_of_length_eq_zero hl
    simp only [e1] at h1
    simp only [e2, hm] at h2
    obtain ⟨_, a1, b1, c1⟩ := bind_ok h1
    obtain ⟨_, a2, b2, c2⟩ := bind_ok h2
    cases c1; cases c2
    exact (takeLine_pass b1).2.trans (takeLine_pass b2).2.symm
  | cons a as =>
    cases e2 : s₂.stack with
    | nil => rw [e1, e2] at hl; cases hl
    | cons b bs =>
      have hk : b.kind = a.kind := by
        obtain ⟨⟨_, _, _, _, _, _, st, rfl, e⟩, _, _⟩ := r
        simp only at e2
        rw [e1, e2] at e
        simp only [List.map_cons, List.cons.injEq] at e
        exact (src_strip e.1).1.symm
      simp only [e1] at h1
      simp only [e2, hk] at h2
      cases hk1 : a.kind with
      | file t eo =>
        simp only [hk1] at h1 h2
        obtain ⟨_, a1, b1, c1⟩ := bind_ok h1
        obtain ⟨_, a2, b2, c2⟩ := bind_ok h2
        cases c1; cases c2
        exact (takeLine_pass b1).2.trans (takeLine_pass b2).2.symm
      | «macro» args all lines =>
        simp only [hk1] at h1 h2
        cases lines with
        | nil => cases h1
        | cons l ls =>
          simp only [modS_bind_run] at h1 h2
          haveI : Quiet (whenM ((expandLine args all false [] l).2 = true) (warning c!"Too long line")) := by quiet
          rw [quiet_curline h1, quiet_curline h2]

instance : Rel linegets := ⟨fun s₁ s₂ r => by
  unfold RelAt
  rw [linegets_eq, linegets_eq]
  exact Rel.go (m := linegetsRest) inferInstance (rr_popEnds _ _ _ _ rfl rfl r)⟩

theorem linegets_curline {s₁ s₂ t₁ t₂ : St} {u u' : Unit} (r : RR s₁ s₂) (h1 : linegets s₁ = .ok u t₁)
    (h2 : linegets s₂ = .ok u' t₂) : t₁.curline = t₂.curline := by
  rw [linegets_eq] at h1 h2
  exact linegetsRest_curline (rr_popEnds _ _ _ _ rfl rfl r) h1 h2

/-- A read line, then something that looks at it. -/
theorem Rel.linegets {k : Unit → M α}
    (hk : ∀ t₁ t₂, RR t₁ t₂ → t₁.curline = t₂.curline → RelAt t₁ t₂ (k ()) (k ())) :
    Rel (linegets >>= k) := ⟨fun s₁ s₂ r =>
  RelAt.bindP (Rel.go inferInstance r) (fun _ => True) (fun t t' => t.curline = t'.curline)
    (fun _ _ _ => trivial) (fun _ _ _ => trivial) (fun _ _ _ _ h1 h2 => linegets_curline r h1 h2) (fun _ => rfl)
    fun _ t₁ t₂ rt _ _ p => hk t₁ t₂ rt p⟩

/-! ### Conditionals -/

instance rel_findCmp (o : Str) (cs : List (Str × Cmp)) : Rel (findCmp o cs) := by
  induction cs with
  | nil => exact Rel.pure _
  | cons c cs ih => obtain ⟨p, b⟩ := c; unfold findCmp; rel
instance (q : Cmp) (a b : Result) : Rel (compareRes q a b) := by unfold compareRes; rel
instance (o : Option Str) : Rel (testtrue o) := by unfold testtrue; rel
instance : Rel bumpErr := by unfold bumpErr; relmod
instance (o : Option Char) : Rel (modS fun s => { s with lineprefix := o }) := by relmod
instance (st : Status) : Rel (ifList st) := by unfold ifList; rel
instance (st : Status) (b : Bool) : Rel (markSkipped st b) := by unfold markSkipped; rel

/-- What is known of a recursive call of asmline. -/
def SelfRel (self : Status → M RC) : Prop :=
  ∀ st t₁ t₂, RR t₁ t₂ → t₁.curline = t₂.curline → RelAt t₁ t₂ (self st) (self st)

section
variable {self : Status → M RC}

theorem RelAt.getS {s₁ s₂ : St} {f g : St → M β} (h : RelAt s₁ s₂ (f s₁) (g s₂)) :
    RelAt s₁ s₂ (getS >>= f) (getS >>= g) := h

theorem RR.eof {s t : St} (r : RR s t) : t.mainEof = s.mainEof := by
  obtain ⟨⟨l, b, c, x, y, z, st, rfl, e⟩, i1, i2⟩ := r
  rfl

theorem rel_ifRound (hs : SelfRel self) (st : Status) : Rel (ifRound self st) := by
  unfold ifRound
  refine Rel.linegets fun t₁ t₂ r hc => RelAt.getS ?_
  rw [r.eof]
  split
  · exact ⟨rfl, r⟩
  · exact RelAt.bind (hs st t₁ t₂ r hc) fun a u₁ u₂ ru => ⟨rfl, ru⟩

theorem rel_ifLoop (hs : SelfRel self) (st : Status) (n : Nat) : Rel (ifLoop self st n) := by
  induction n with
  | zero => unfold ifLoop; rel
  | succ n ih =>
    unfold ifLoop
    refine Rel.bind (Rel.catchErr (rel_ifRound hs st) (by rel)) fun r => ?_
    split
    · rel
    · exact ih
    · rel

theorem rel_ifElse (hs : SelfRel self) (fuel : Nat) (st : Status) (b : Bool) (o : Option Char) :
    Rel (ifElse self fuel st b o) := by
  haveI : ∀ st n, Rel (ifLoop self st n) := rel_ifLoop hs
  unfold ifElse; rel

theorem rel_xIf (hs : SelfRel self) (fuel : Nat) (st : Status) (o : Option Str) : Rel (xIf self fuel st o) := by
  haveI : ∀ st n, Rel (ifLoop self st n) := rel_ifLoop hs
  haveI : ∀ n st b o, Rel (ifElse self n st b o) := rel_ifElse hs
  unfold xIf; rel
end

instance (o : Option Str) : Rel (xElse o) := by unfold xElse; rel
instance (o : Option Str) : Rel (xEndc o) := by unfold xEndc; rel
instance (m : Str) (r : RC) (st : Status) (o : Option Str) : Rel (macroEnd m r st o) := by unfold macroEnd; rel
instance (st : Status) (o : Option Str) : Rel (xExitm st o) := by unfold xExitm; rel
instance (st : Status) (o : Option Str) : Rel (xEndm st o) := by unfold xEndm; rel

/-! ### Macros -/

instance rel_macroLoop (st : Status) (n : Nat) (acc : List Str) : Rel (macroLoop st n acc) := by
  induction n generalizing acc with
  | zero => unfold macroLoop; rel
  | succ n ih =>
    unfold macroLoop
    refine Rel.bind inferInstance fun _ => ?_
    refine Rel.linegets fun t₁ t₂ r hc => RelAt.getS ?_
    rw [r.eof, hc]
    refine Rel.go ?_ r
    rel
instance (k : Str) (ls : List Str) : Rel (setLines k ls) := by unfold setLines; rel
instance (n : Nat) (st : Status) (l o : Option Str) : Rel (xMacro n st l o) := by
  unfold xMacro
  split
  · infer_instance
  · rel
instance : Rel checkDepth := ⟨fun s₁ s₂ r => by
  unfold checkDepth
  refine RelAt.getS ?_
  rw [r.stackLen]
  exact Rel.go (by rel) r⟩
instance rel_macroArgs (n : Nat) (acc : List Str) (o : Str) : Rel (macroArgs n acc o) := by
  induction n generalizing acc o with
  | zero => unfold macroArgs; rel
  | succ n ih => unfold macroArgs; rel
instance (k : Str) : Rel (markUsed k) := by
  unfold markUsed
  refine Rel.modPlain (fun s l b c x y z st => ?_) (fun s => ?_)
  · dsimp only [var]; split <;> rfl
  · split <;> exact ⟨rfl, rfl, rfl, rfl, rfl, rfl⟩

/-- Opening a source. -/
theorem rr_push {s₁ s₂ : St} (r : RR s₁ s₂) (o₁ o₂ : Bool) (h1 : s₁.passnumber ≤ 1 → o₁ = false)
    (h2 : s₂.passnumber ≤ 1 → o₂ = false) (p : Option Char) (n : Nat) (k : SrcKind) :
    RR { s₁ with stack := ⟨o₁, p, n, k⟩ :: s₁.stack, log := .opened s₁.passnumber (s₁.stack.length + 1) k :: s₁.log }
       { s₂ with stack := ⟨o₂, p, n, k⟩ :: s₂.stack, log := .opened s₂.passnumber (s₂.stack.length + 1) k :: s₂.log } := by
  have hl := r.stackLen
  obtain ⟨⟨l, b, c, x, y, z, st, rfl, e⟩, i1, i2⟩ := r
  refine ⟨⟨l, b, c, x, y, z, ⟨o₂, p, n, k⟩ :: st, ?_, ?_⟩, ⟨i1.1, fun hp => ?_⟩, i2.1, fun hp => ?_⟩
  · simp only at hl ⊢
    rw [hl]
  · simp [Src.strip, e]
  · obtain ⟨a1, a2, a3, a4, a5⟩ := i1.2 hp
    refine ⟨a1, a2, a3, fun src hs => ?_, a5⟩
    rcases List.mem_cons.1 hs with rfl | hs
    · exact h1 hp
    · exact a4 src hs
  · obtain ⟨a1, a2, a3, a4, a5⟩ := i2.2 hp
    refine ⟨a1, a2, a3, fun src hs => ?_, a5⟩
    rcases List.mem_cons.1 hs with rfl | hs
    · exact h2 hp
    · exact a4 src hs

/-- Setting the list flag. -/
theorem rr_listOn {s₁ s₂ : St} (r : RR s₁ s₂) (o₁ o₂ : Bool) (h1 : s₁.passnumber ≤ 1 → o₁ = false)
    (h2 : s₂.passnumber ≤ 1 → o₂ = false) :
    RR { s₁ with flags := { s₁.flags with listOn := o₁ } } { s₂ with flags := { s₂.flags with listOn := o₂ } } := by
  obtain ⟨⟨l, b, c, x, y, z, st, rfl, e⟩, i1, i2⟩ := r
  refine ⟨⟨l, b, c, o₂, y, z, st, rfl, e⟩, ⟨i1.1, fun hp => ?_⟩, i2.1, fun hp => ?_⟩
  · obtain ⟨a1, a2, a3, a4, a5⟩ := i1.2 hp
    exact ⟨a1, a2, h1 hp, a4, a5⟩
  · obtain ⟨a1, a2, a3, a4, a5⟩ := i2.2 hp
    exact ⟨a1, a2, h2 hp, a4, a5⟩

/-- Closing the sources above some depth. -/
theorem rr_drop {s₁ s₂ : St} (r : RR s₁ s₂) (o₁ o₂ : Bool) (h1 : s₁.passnumber ≤ 1 → o₁ = false)
    (h2 : s₂.passnumber ≤ 1 → o₂ = false) (n : Nat) :
    RR { s₁ with flags := { s₁.flags with listOn := o₁ }, stack := s₁.stack.drop (s₁.stack.length - n) }
       { s₂ with flags := { s₂.flags with listOn := o₂ }, stack := s₂.stack.drop (s₂.stack.length - n) } := by
  have hl := r.stackLen
  rw [hl]
  have r' := rr_listOn r o₁ o₂ h1 h2
  generalize s₁.stack.length - n = k
  clear hl r h1 h2
  obtain ⟨⟨l, b, c, x, y, z, st, e1, e⟩, i1, i2⟩ := r'
  have es : s₂.stack = st := congrArg St.stack e1
  subst es
  have : ({ s₂ with flags := { s₂.flags with listOn := o₂ }, stack := s₂.stack.drop k } : St) =
      { ({ s₂ with flags := { s₂.flags with listOn := o₂ } } : St) with stack := s₂.stack.drop k } := rfl
  refine ⟨⟨l, b, c, x, y, z, s₂.stack.drop k, ?_, ?_⟩, ⟨i1.1, fun hp => ?_⟩, i2.1, fun hp => ?_⟩
  · rw [this, e1]
  · simp only [List.map_drop]
    exact congrArg _ e
  · obtain ⟨a1, a2, a3, a4, a5⟩ := i1.2 hp
    exact ⟨a1, a2, a3, fun src hs => a4 src (List.mem_of_mem_drop hs), a5⟩
  · obtain ⟨a1, a2, a3, a4, a5⟩ := i2.2 hp
    exact ⟨a1, a2, a3, fun src hs => a4 src (List.mem_of_mem_drop hs), a5⟩

section
variable {self : Status → M RC}

theorem rel_macroRun (hs : SelfRel self) (st : Status) (n : Nat) : Rel (macroRun self st n) := by
  induction n with
  | zero => unfold macroRun; rel
  | succ n ih =>
    unfold macroRun
    refine Rel.bind (Rel.catchErr (Rel.linegets fun t₁ t₂ r hc => hs st t₁ t₂ r hc) (by rel)) fun r => ?_
    split
    · exact ih
    · rel

theorem rel_enter : Rel (modS fun s => { s with
    lineprefix := some 'M', macrolevel := s.macrolevel + 1, thiscall := s.thiscall + 1,
    segment := s.thiscall + 1 }) := by relmod
theorem rel_leave (n : Nat) (p : Option Char) (k : Nat) : Rel (modS fun s => { s with
    macrolevel := s.macrolevel - 1, linenumber := n, lineprefix := p, segment := k }) := by relmod

theorem rel_macrocall (hs : SelfRel self) (hw : ∀ st, Walk Step (self st)) (fuel : Nat) (k : Str) (lab : Label)
    (st : Status) (o : Option Str) : Rel (macrocall self fuel k lab st o) := by
  unfold macrocall
  refine Rel.bind inferInstance fun _ => Rel.bind inferInstance fun _ => ⟨fun s₁ s₂ r => RelAt.getS ?_⟩
  have hl := r.stackLen
  have hp := r.passEq
  have e1 : s₂.flags.macrolistOn = s₁.flags.macrolistOn ∧ s₂.lineprefix = s₁.lineprefix ∧
      s₂.linenumber = s₁.linenumber ∧ s₂.segment = s₁.segment := by
    obtain ⟨⟨l, b, c, x, y, z, st, rfl, e⟩, i1, i2⟩ := r
    exact ⟨rfl, rfl, rfl, rfl⟩
  rw [e1.1, e1.2.1, e1.2.2.1, e1.2.2.2, hl]
  refine RelAt.bindP (Rel.go inferInstance r) (fun t => t.passnumber = s₁.passnumber) (fun _ _ => True)
    (fun _ t h => walk_pass_eq W.walk h) (fun _ t h => (walk_pass_eq W.walk h).trans hp)
    (fun _ _ _ _ _ _ => trivial) (fun _ => trivial) fun args t₁ t₂ rt q1 q2 _ => ?_
  cases lab.ptr with
  | null => exact ⟨rt.2.1, rt.2.2⟩
  | handler h => exact ⟨rt.2.1, rt.2.2⟩
  | lines ls =>
    dsimp only
    refine RelAt.bindP (Rel.go (by rel) rt) (fun t => t.passnumber = s₁.passnumber) (fun _ _ => True)
      (fun _ t h => (walk_pass_eq (by walk) h).trans q1) (fun _ t h => (walk_pass_eq (by walk) h).trans q2)
      (fun _ _ _ _ _ _ => trivial) (fun _ => trivial) fun _ u₁ u₂ ru q1 q2 _ => ?_
    have rp := rr_push ru s₁.flags.listOn s₂.flags.listOn (fun h => (r.2.1.2 (q1 ▸ h)).2.2.1)
      (fun h => (r.2.2.2 (hp ▸ q2 ▸ h)).2.2.1) s₁.lineprefix s₁.linenumber (.macro args ((orEmpty o).take 59) ls)
    have rq := (rel_enter.go rp).2
    refine RelAt.bindP (m := modS _) (m' := modS _) ⟨rfl, rq⟩ (fun t => t.passnumber = s₁.passnumber) (fun _ _ => True)
      (fun _ t h => by cases h; exact q1) (fun _ t h => by cases h; exact q2)
      (fun _ _ _ _ _ _ => trivial) (fun _ => trivial) fun _ v₁ v₂ rv q1 q2 _ => ?_
    refine RelAt.bindP ((rel_macroRun hs _ _).go rv) (fun t => t.passnumber = s₁.passnumber) (fun _ _ => True)
      (fun _ t h => (walk_pass_eq (walk_macroRun hw _ _) h).trans q1)
      (fun _ t h => (walk_pass_eq (walk_macroRun hw _ _) h).trans q2)
      (fun _ _ _ _ _ _ => trivial) (fun _ => trivial) fun rc w₁ w₂ rw' q1 q2 _ => ?_
    refine RelAt.bind (m := modS _) (m' := modS _) ⟨rfl, ?_⟩ fun _ x₁ x₂ rx => ?_
    · have rz := ((rel_leave s₁.linenumber s₁.lineprefix s₁.segment).go rw').2
      exact rr_drop rz s₁.flags.listOn s₂.flags.listOn (fun h => (r.2.1.2 (q1 ▸ h)).2.2.1)
        (fun h => (r.2.2.2 (hp ▸ q2 ▸ h)).2.2.1) s₁.stack.length
    split
    · exact Rel.go inferInstance rx
    · refine RelAt.getS ?_
      have ef : x₂.flags.macrolistOn = x₁.flags.macrolistOn := by
        obtain ⟨⟨_, _, _, _, _, _, _, rfl, _⟩, _, _⟩ := rx; rfl
      rw [ef]
      split
      · refine RelAt.bind (m := modS _) (m' := modS _) ⟨rfl, rr_curline rx _ _⟩ fun _ y₁ y₂ ry => ?_
        exact Rel.go (by rel) ry
      · exact Rel.go (Rel.pure ()) rx
end

instance (o : Option Str) : Rel (xInclude o) := by
  cases o with
  | none => unfold xInclude; infer_instance
  | some name =>
    unfold xInclude
    refine ⟨fun s₁ s₂ r => RelAt.getS ?_⟩
    have hp := r.passEq
    have e1 : s₂.env = s₁.env ∧ s₂.lineprefix = s₁.lineprefix ∧ s₂.linenumber = s₁.linenumber := by
      obtain ⟨⟨l, b, c, x, y, z, st, rfl, e⟩, i1, i2⟩ := r
      exact ⟨rfl, rfl, rfl⟩
    rw [e1.1, e1.2.1, e1.2.2]
    cases s₁.env.fs name with
    | none => exact Rel.go inferInstance r
    | some text =>
      dsimp only
      refine RelAt.bindP (Rel.go inferInstance r) (fun t => t.passnumber = s₁.passnumber) (fun _ _ => True)
        (fun _ t h => walk_pass_eq W.walk h) (fun _ t h => (walk_pass_eq W.walk h).trans hp)
        (fun _ _ _ _ _ _ => trivial) (fun _ => trivial) fun args t₁ t₂ rt q1 q2 _ => ?_
      refine RelAt.bindP (RelAt.quiet (by quiet) (by quiet) (by keep) (by keep) rt)
        (fun t => t.passnumber = s₁.passnumber) (fun _ _ => True)
        (fun _ t h => (walk_pass_eq (by walk) h).trans q1) (fun _ t h => (walk_pass_eq (by walk) h).trans q2)
        (fun _ _ _ _ _ _ => trivial) (fun _ => trivial) fun _ u₁ u₂ ru q1 q2 _ => ?_
      refine ⟨rfl, ?_⟩
      have rp := rr_push ru s₁.flags.listOn s₂.flags.listOn (fun h => (r.2.1.2 (q1 ▸ h)).2.2.1)
        (fun h => (r.2.2.2 (hp ▸ q2 ▸ h)).2.2.1) s₁.lineprefix s₁.linenumber (.file text false)
      have rq := ((by relmod : Rel (modS fun s => { s with linenumber := 0 })).go rp).2
      refine rr_listOn rq _ _ (fun h => ?_) (fun h => ?_)
      · have := (ru.2.1.2 h).2.2.1
        rw [this]; rfl
      · have := (ru.2.2.2 h).2.2.1
        rw [this]; rfl

/-! ### Lines -/

instance (l : Str) : Rel (herelabel l) := by unfold herelabel starLabel addrType; rel
instance (m : Str) : Rel (findmnemo m) := by unfold findmnemo searchlabel; rel
instance (l : Option Str) (m : Str) : Rel (splitMnemo l m) := by unfold splitMnemo; rel
instance (m : Str) : Rel (splitLine m) := by unfold splitLine; rel
instance : Rel bumpStar := by unfold bumpStar starLabel; rel <;> relmod
instance (v : Word) : Rel (setpc v) := by
  unfold setpc
  refine Rel.modPlain (fun s l b c x y z st => ?_) (fun s => ?_)
  · dsimp only [var]; split <;> rfl
  · split <;> exact ⟨rfl, rfl, rfl, rfl, rfl, rfl⟩
instance : Rel startLine := by
  unfold startLine starLabel modFlags
  rel <;> relmod

section
variable {self : Status → M RC}

theorem rel_callHandler (hs : SelfRel self) (fuel : Nat) (h : Handler) (arg : Int)
    (l o : Option Str) : Rel (callHandler self fuel h arg l o) := by
  haveI : ∀ n st o, Rel (xIf self n st o) := rel_xIf hs
  unfold callHandler; rel

theorem rel_execLine (hs : SelfRel self) (hw : ∀ st, Walk Step (self st)) (fuel : Nat) (st : Status)
    (l o : Option Str) (k : Str) (lab : Label) : Rel (execLine self fuel st l o k lab) := by
  haveI : ∀ n h a l o, Rel (callHandler self n h a l o) := rel_callHandler hs
  haveI : ∀ n k lab st o, Rel (macrocall self n k lab st o) := rel_macrocall hs hw
  unfold execLine; rel

theorem rel_doFields (hs : SelfRel self) (hw : ∀ st, Walk Step (self st)) (fuel : Nat) (st : Status)
    (b : Bool) (f : Fields) : Rel (doFields self fuel st b f) := by
  haveI : ∀ n st l o k lab, Rel (execLine self n st l o k lab) := rel_execLine hs hw
  unfold doFields; rel

/-- `startLine` in closed form. -/
def startedSt (s : St) : St :=
  let l := starLabel s
  { s with
    advance := 0, bufpos := 0, flags := { s.flags with orgGv := !l.flags.undef },
    code := if l.flags.undef then s.code
      else if l.value = s.code.pc then s.code
      else { s.code.flush s.flags.codeHex with rawstart := l.value, pc := l.value, raw := [] } }

theorem startLine_eq (s : St) : startLine s = .ok () (startedSt s) := by
  have e2 : (starLabel { s with advance := 0 }) = starLabel s := rfl
  cases hu : (starLabel s).flags.undef with
  | true =>
    have e : (starLabel { s with advance := 0 }).flags.undef = true := hu
    simp only [startLine, e, whenM, modFlags, zerobuffer, modS_bind_run, getS_bind_run, Bool.not_true,
      Bool.false_eq_true, if_false, pure_bind_run, modS_run, startedSt, hu, if_true]
  | false =>
    have e : (starLabel { s with advance := 0 }).flags.undef = false := hu
    simp only [startLine, e, whenM, modFlags, zerobuffer, setpc, modS_bind_run, getS_bind_run,
      Bool.not_false, if_true, modS_run, startedSt, hu, e2, Bool.false_eq_true, if_false]
    by_cases hv : (starLabel s).value = s.code.pc
    · simp [hv]
    · simp [hv]

theorem startLine_curline {s t : St} {u : Unit} (h : startLine s = .ok u t) : t.curline = s.curline := by
  rw [startLine_eq] at h; cases h; rfl

/-- What follows `startLine` in `asmlineF`. -/
def asmBody (self : Status → M RC) (fuel : Nat) (st : Status) (flush : Bool) (t : Str) : M RC :=
  if t = [] then do
    whenM (st.lst) (outputline)
    pure .cont
  else do
    let f ← splitLine t
    doFields self fuel st flush f

theorem rel_asmBody (hs : SelfRel self) (hw : ∀ st, Walk Step (self st)) (fuel : Nat) (st : Status) (b : Bool)
    (t : Str) : Rel (asmBody self fuel st b t) := by
  haveI : ∀ n st b f, Rel (doFields self n st b f) := rel_doFields hs hw
  unfold asmBody; rel

theorem relAt_stripLine {s₁ s₂ : St} (r : RR s₁ s₂) (hc : s₁.curline = s₂.curline) : RelAt s₁ s₂ stripLine stripLine := by
  unfold stripLine
  refine RelAt.getS ?_
  rw [hc]
  exact Rel.go (by rel) r

theorem rel_asmlineF (hs : SelfRel self) (hw : ∀ st, Walk Step (self st)) (fuel : Nat) :
    SelfRel (asmlineF self fuel) := by
  intro st s₁ s₂ r hc
  show RelAt s₁ s₂ (startLine >>= _) (startLine >>= _)
  refine RelAt.bindP (Rel.go inferInstance r) (fun _ => True) (fun t t' => t.curline = t'.curline)
    (fun _ _ _ => trivial) (fun _ _ _ => trivial)
    (fun _ _ _ _ h1 h2 => by rw [startLine_curline h1, startLine_curline h2, hc]) (fun _ => rfl)
    fun _ t₁ t₂ rt _ _ p => RelAt.getS ?_
  dsimp only
  rw [p]
  exact RelAt.bind (relAt_stripLine rt p) fun t u₁ u₂ ru => (rel_asmBody hs hw fuel st _ t).go ru
end

theorem rel_asmline (n : Nat) : SelfRel (asmline n) := by
  induction n with
  | zero => intro st s₁ s₂ r _; exact Rel.go (by unfold asmline; infer_instance) r
  | succ n ih => intro st s₁ s₂ r hc; exact rel_asmlineF ih (walk_asmline n) n st s₁ s₂ r hc

/-! ### Passes -/

instance (n : Nat) : Rel (passBody n) := by
  unfold passBody
  refine Rel.linegets fun t₁ t₂ r hc => ?_
  exact RelAt.bind (rel_asmline n _ _ _ r hc) fun a u₁ u₂ ru => Rel.go (by rel) ru

instance rel_passLoop (fuel n : Nat) (b : Bool) : Rel (passLoop fuel n b) := by
  induction n generalizing b with
  | zero => unfold passLoop; rel
  | succ n ih =>
    haveI : Rel (catchErr (do passBody fuel; pure true) (do bumpErr; pure false)) :=
      Rel.catchErr (by rel) (by rel)
    unfold passLoop; rel

end Crasm

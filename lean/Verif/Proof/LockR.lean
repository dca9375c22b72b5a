import Verif.Proof.LockQ
import Verif.Proof.Whole

/-! Two passes side by side: how the passes start, and the whole run. -/

namespace Crasm

/-! ### The vocabulary at the start -/

/-- `bindAll` on a tree that has none of the names yet. -/
def bindFresh (t : TableId) (es : List Entry) : List Nat → Tree → Option Tree
  | [], T => some T
  | i :: is, T =>
    match es[i - 1]? with
    | none => bindFresh t es is T
    | some e =>
      match T.find (canon 0 e.name) with
      | none => bindFresh t es is (T.put (canon 0 e.name) { e.label with origin := some t })
      | some _ => none

theorem bindAll_fresh (t : TableId) (es : List Entry) (is : List Nat) : ∀ (s : St) (T : Tree), s.segment = 0 →
    bindFresh t es is s.tree = some T → bindAll t es is s = .ok () { s with tree := T } := by
  induction is with
  | nil =>
    intro s T _ h
    cases h
    rfl
  | cons i is ih =>
    intro s T hs h
    unfold bindFresh at h
    unfold bindAll
    cases he : es[i - 1]? with
    | none =>
      rw [he] at h
      exact ih s T hs h
    | some e =>
      rw [he] at h
      dsimp only at h ⊢
      rw [bind_run]
      unfold bindOne
      rw [getS_bind_run, show canon s.segment e.name = canon 0 e.name by rw [hs]]
      cases hf : s.tree.find (canon 0 e.name) with
      | some q => rw [hf] at h; cases h
      | none =>
        rw [hf] at h
        dsimp only at h ⊢
        have := ih (s.putL (canon 0 e.name) { e.label with origin := some t }) T hs h
        rw [show (putLabel (canon 0 e.name) { e.label with origin := some t }) s = .ok () (s.putL (canon 0 e.name) { e.label with origin := some t }) from rfl]
        show bindAll t es is _ = _
        rw [this]
        rfl

/-- The tree of the pseudo-instructions. -/
def pseudoTree : Tree := (bindFresh .pseudos pseudos (visitOrder pseudos.length) .leaf).getD .leaf

theorem pseudoTree_eq : bindFresh .pseudos pseudos (visitOrder pseudos.length) .leaf = some pseudoTree := by
  have h : (bindFresh .pseudos pseudos (visitOrder pseudos.length) .leaf).isSome = true := by decide +kernel
  unfold pseudoTree
  revert h
  cases bindFresh .pseudos pseudos (visitOrder pseudos.length) .leaf with
  | none => intro h; cases h
  | some T => exact fun _ => rfl

theorem init_run (env : Env) (src : Str) :
    initLabelList .pseudos pseudos (initSt env src) = .ok () { initSt env src with tree := pseudoTree } :=
  bindAll_fresh .pseudos pseudos _ (initSt env src) pseudoTree rfl pseudoTree_eq

theorem Tree.mem_of_find {k : Str} {x : Label} {t : Tree} (h : t.find k = some x) : (k, x) ∈ t.toList := by
  induction t with
  | leaf => cases h
  | node l k' v r ihl ihr =>
    unfold Tree.find at h
    unfold Tree.toList
    revert h
    cases e : scmp k k' with
    | eq => intro h; cases h; rw [scmp_eq.1 e]; simp
    | gt => intro h; exact List.mem_append_right _ (List.mem_cons_of_mem _ (ihr h))
    | lt => intro h; exact List.mem_append_left _ (ihl h)

theorem pseudoTree_has : ∀ k ∈ pseudoKeys, (pseudoTree.find k).isSome = true := by decide +kernel

theorem pseudoTree_all : ∀ e ∈ pseudoTree.toList, e.2.flags.undef = false ∧ e.2.flags.noredef = true ∧
    e.2.origin = some .pseudos ∧ e.2.type = .mnemo ∧
    ((e.2.flags.defcond = true ∨ e.2.flags.defmacro = true) ↔ ∃ p ∈ condPseudos, e.2.ptr = .handler (.pseudo p)) ∧
    e.2.ptr ≠ .handler (.hz80 .bitop) := by decide +kernel

/-! ### CPU is recorded in pass 2 only -/

theorem gv_step {a b : Cfg} (h : Step a b) (h2 : a.1.passnumber ≠ 2) : b.1.flags.cpuGv = a.1.flags.cpuGv := by
  cases h with
  | p h =>
    cases h with
    | h h => cases h with
      | n h => cases h <;> rfl
      | _ => rfl
    | flags s f c hf => exact hf.2.2.2.2.2.2.2.1 h2
    | _ => rfl
  | _ => rfl
theorem gv_star {a b : Cfg} (h : Star Step a b) (h2 : a.1.passnumber ≠ 2) : b.1.flags.cpuGv = a.1.flags.cpuGv := by
  induction h with
  | refl => rfl
  | tail h1 h3 ih => exact (gv_step h3 (by rw [star_pass h1]; exact h2)).trans ih

theorem narrow_step {a b : Cfg} (h : Step a b) : b.1.flags.addr24 = a.1.flags.addr24 := by
  cases h with
  | p h =>
    cases h with
    | h h => cases h with
      | n h => cases h <;> rfl
      | _ => rfl
    | flags s f c hf => exact hf.2.2.2.2.2.2.2.2
    | _ => rfl
  | _ => rfl
/-- No processor has addresses of 24 bits. -/
theorem narrow_star {a b : Cfg} (h : Star Step a b) : b.1.flags.addr24 = a.1.flags.addr24 := by
  induction h with
  | refl => rfl
  | tail _ h3 ih => exact (narrow_step h3).trans ih

/-! ### What a pass leaves alone -/

/-- Environment and source text; RELATIVE stays off. -/
structure Lasting (a b : Cfg) : Prop where
  env : b.1.env = a.1.env
  source : b.1.source = a.1.source
  rel : a.1.flags.relatif = false → b.1.flags.relatif = false

theorem lasting_n {a b : Cfg} (h : NStep a b) : Lasting a b := by cases h <;> exact ⟨rfl, rfl, id⟩
theorem lasting_h {a b : Cfg} (h : HStep a b) : Lasting a b := by
  cases h with
  | n h => exact lasting_n h
  | _ => exact ⟨rfl, rfl, id⟩
theorem lasting_p {a b : Cfg} (h : PStep a b) : Lasting a b := by
  cases h with
  | h h => exact lasting_h h
  | flags s f c hf => exact ⟨rfl, rfl, hf.2.2.2.2.2.2.1⟩
  | _ => exact ⟨rfl, rfl, id⟩
theorem lasting_s {a b : Cfg} (h : Step a b) : Lasting a b := by
  cases h with
  | p h => exact lasting_p h
  | _ => exact ⟨rfl, rfl, id⟩
theorem lasting_star {a b : Cfg} (h : Star Step a b) : Lasting a b := by
  induction h with
  | refl => exact ⟨rfl, rfl, id⟩
  | tail _ r ih =>
    have := lasting_s r
    exact ⟨this.env.trans ih.env, this.source.trans ih.source, fun x => this.rel (ih.rel x)⟩

/-- What the line buffer holds at the start of a pass does not matter. -/
theorem passLoop_curline (fuel n : Nat) (s : St) (k : Str) (hs : s.stack = []) (he : s.mainEof = false) :
    passLoop fuel n true { s with curline := k } = passLoop fuel n true s ∨
      ∃ w t t', passLoop fuel n true s = .stop w t ∧ passLoop fuel n true { s with curline := k } = .stop w t' := by
  cases s
  dsimp only at hs he
  subst hs he
  cases n with
  | zero => exact .inr ⟨_, _, _, rfl, rfl⟩
  | succ n => exact .inl rfl

/-- The two passes start alike. -/
theorem pw_start {X : Ctx} {o : Opts} {env : Env} {src : Str} {fuel : Nat} {sA : St}
    (hA : initLabelList .pseudos pseudos (initSt env src) = .ok () sA)
    (hp : pass fuel 1 sA = .ok () X.E1) (hst : X.E1.stack = []) :
    PW X { passStart 1 sA with curline := X.E1.curline } (passStart 2 (betweenPasses o X.E1)) := by
  rw [init_run] at hA
  cases hA
  have hw := walk_pass hp
  have hl := lasting_star hw
  have hk := K.star (hw.mono fun _ _ h => K.s h)
  obtain ⟨ns, en, hn⟩ := hk.notes
  have en : X.E1.notes = ns := by rw [en]; exact List.append_nil ns
  have hn : ∀ n ∈ ns, n.1 = 1 := hn
  have c2 : ∀ ns : List (Nat × Note), (∀ n ∈ ns, n.1 = 1) → choicesOf 2 ns = [] ∧ labelsOf 2 ns = [] := by
    intro ns
    induction ns with
    | nil => exact fun _ => ⟨rfl, rfl⟩
    | cons n ns ih =>
      intro hn
      obtain ⟨q, n⟩ := n
      have h1 : q = 1 := hn (q, n) (List.mem_cons_self ..)
      obtain ⟨i1, i2⟩ := ih fun n h => hn n (List.mem_cons_of_mem _ h)
      subst h1
      cases n with
      | choice f c => exact ⟨i1, i2⟩
      | odd => exact ⟨i1, i2⟩
      | label k v => exact ⟨i1, i2⟩
  have c2 := c2 ns hn
  refine ⟨rfl, rfl, hl.env, ?_, rfl, fun h => (by cases h), ?_, rfl, rfl, rfl, rfl, rfl, rfl, rfl, hl.rel rfl, rfl, ?_, ?_, fun k => ?_⟩
  · exact hl.source
  · show X.E1.stack.map (·.kind) = _
    rw [hst]; rfl
  · show (choicesOf 2 X.E1.notes).length = 0
    rw [en, c2.1]; rfl
  · show labelsOf 2 X.E1.notes = []
    rw [en, c2.2]
  · unfold NodeRel
    by_cases hks : k = starKey
    · rw [if_pos hks]
      subst hks
      exact ⟨_, _, Tree.find_put_self _ _ _, Tree.find_put_self _ _ _, rfl, rfl, .inl ⟨rfl, rfl, rfl, rfl⟩⟩
    · rw [if_neg hks]
      have f1 : ∀ (x : Label), ((pseudoTree.put starKey x).find k) = pseudoTree.find k := fun x => Tree.find_put_ne _ _ hks
      have f2 : (passStart 2 (betweenPasses o X.E1)).tree.find k = (X.E1.tree.find k).map undefOne := by
        show ((X.E1.tree.map undefOne).put starKey _).find k = _
        rw [Tree.find_put_ne _ _ hks, Tree.find_map]
      rw [f2]
      have ho := hk.tree.old k
      have hnw := hk.tree.new k
      have f1' : (passStart 1 { initSt env src with tree := pseudoTree }).tree.find k = pseudoTree.find k := f1 _
      show Und _ ((passStart 1 { initSt env src with tree := pseudoTree }).tree.find k) _ ∨ _
      rw [f1'] at ho hnw ⊢
      cases e : pseudoTree.find k with
      | none =>
        refine .inl ⟨fun l h => (by cases h), fun f hf => ⟨fun hor => ?_, undefOne f, by rw [hf]; rfl, rfl⟩, fun h => by rw [h]; rfl⟩
        have := pseudoTree_has k (hnw f hks e hf hor)
        rw [e] at this; cases this
      | some l =>
        refine .inr ?_
        obtain ⟨g1, g2, g3, g4, g5, g6⟩ := pseudoTree_all _ (Tree.mem_of_find e)
        obtain ⟨f, hf, hle⟩ := ho l hks e
        have ef := (hle.fixed g1 g2).2.2 (by rw [g4]; simp)
        refine ⟨l, undefOne f, rfl, by rw [hf]; rfl, ?_⟩
        have eu : undefOne f = { l with flags := { l.flags with used := f.flags.used } } := by
          rw [ef]
          obtain ⟨fl, or, ty, md, pt, vl⟩ := l
          obtain ⟨_, _, _, _, _, _, _, _⟩ := fl
          simp only at g1 g2 g3
          subst g1 g2 g3
          rfl
        rw [eu]
        exact ⟨⟨rfl, rfl, rfl, by show l.type ≠ _; rw [g4]; simp, fun _ => ⟨rfl, rfl, rfl, rfl, rfl, g5, fun h => absurd h g6⟩,
          fun _ => rfl, fun _ _ _ => rfl⟩, g1, rfl⟩

/-- A whole run: at the ends of the two passes the same labels have been defined with the same values. -/
theorem passes_agree {X : Ctx} {o : Opts} {env : Env} {src : Str} {fuel : Nat} {sA : St}
    (hA : initLabelList .pseudos pseudos (initSt env src) = .ok () sA) (h1 : pass fuel 1 sA = .ok () X.E1)
    (h2 : passLoop fuel fuel true (passStart 2 (betweenPasses o X.E1)) = .ok () X.E2)
    (hs1 : X.E1.stack = []) (hs2 : X.E2.stack = []) : Finals X X.E1 X.E2 := by
  have hw := pw_start (o := o) hA h1 hs1
  have e1 : passLoop fuel fuel true (passStart 1 sA) = .ok () X.E1 := by
    unfold pass at h1
    rw [bind_run, passInit_run] at h1
    exact h1
  have hss : (passStart 1 sA).stack = [] := by
    rw [init_run] at hA
    cases hA; rfl
  have e1' : passLoop fuel fuel true { passStart 1 sA with curline := X.E1.curline } = .ok () X.E1 := by
    rcases passLoop_curline fuel fuel (passStart 1 sA) X.E1.curline hss rfl with e | ⟨w, t, t', e, -⟩
    · rw [e]; exact e1
    · rw [e1] at e; cases e
  have := ls_passLoop fuel fuel true _ _ hw fun t e => by rw [h2] at e; cases e; exact hs2
  have := this (by rw [e1']; exact K.refl _) (by rw [h2]; exact K.refl _)
  rw [e1', h2] at this
  exact this

end Crasm

import Verif.Props.C23

/-! # C25: forward references and the size of instructions -/

namespace Crasm
namespace C25

/-! ### Which expressions are forward references -/

/-- `name` has not been defined so far, or it had not been defined when it was first referred to. -/
def later (s : St) (name : Str) : Bool :=
  match searchlabel s name with
  | some l => l.flags.forward
  | none => true
/-- `name` does not stand for a register. -/
def NotReg (s : St) (name : Str) : Prop := ∀ l, searchlabel s name = some l → l.type ≠ .regs
/-- The symbol is in the table, with the mark of a forward reference that lasts. -/
def Marked (t : Tree) (k : Str) : Prop := ∃ l, t.find k = some l ∧ l.flags.forward = true ∧ l.flags.noredef = true

/-- What references do to a symbol table: names not in it may be entered, as forward references. -/
def Met (t t' : Tree) : Prop := ∀ k,
  match t.find k, t'.find k with
  | some l, some l' => SameL l l'
  | none, some l' => l'.flags.forward = true ∧ l'.flags.noredef = true ∧ l'.type ≠ .regs
  | none, none => True
  | some _, none => False

theorem SameL.noredef {a b : Label} (h : SameL a b) : b.flags.noredef = a.flags.noredef := by
  unfold SameL at h
  exact (congrArg (fun l : Label => l.flags.noredef) h).symm

theorem Met.refl (t : Tree) : Met t t := by
  intro k
  cases h : t.find k <;> simp [SameL]
theorem Met.trans {a b c : Tree} (h : Met a b) (h' : Met b c) : Met a c := by
  intro k
  have h1 := h k
  have h2 := h' k
  revert h1 h2
  cases a.find k <;> cases b.find k <;> cases c.find k <;> simp
  · intro a b c h
    rw [h.undef.2, SameL.noredef h, h.value.2.1]
    exact ⟨a, b, c⟩
  · intro h h'; exact h.trans h'

theorem nstep_met {a b : Cfg} (h : NStep a b) (hb : b.2 = .live) : Met a.1.tree b.1.tree := by
  cases h with
  | scratch => exact .refl _
  | error0 => cases hb
  | error1 => cases hb
  | odd => cases hb
  | die => cases hb
  | use s k =>
    intro k'
    by_cases e : k' = k
    · subst e
      simp only [Tree.find_put_self]
      cases s.tree.find k' with
      | none =>
        simp only [usedLabel, true_and]
        unfold addrType
        split <;> simp
      | some l => simp [usedLabel, SameL]
    · simp only [Tree.find_put_ne _ _ e]
      exact Met.refl _ k'

theorem nstar_met {a b : Cfg} (h : Star NStep a b) (hb : b.2 = .live) : Met a.1.tree b.1.tree := by
  induction h with
  | refl => exact .refl _
  | tail _ r ih => exact (ih (by cases r <;> first | rfl | cases hb)).trans (nstep_met r hb)

/-- Nothing but references. -/
structure Looks (s s' : St) : Prop where
  segment : s'.segment = s.segment
  tree : Met s.tree s'.tree

theorem looks_of {m : M α} (h : Walk NStep m) {s s' : St} {a : α} (hr : m s = .ok a s') : Looks s s' :=
  ⟨(nwalk_gen h hr).segment, nstar_met (walk_nstar h hr) rfl⟩

theorem Looks.later {s s' : St} (g : Looks s s') (n : Str) : later s' n = later s n := by
  have := g.tree (canon s.segment n)
  unfold C25.later searchlabel
  rw [g.segment]
  revert this
  cases s.tree.find (canon s.segment n) <;> cases s'.tree.find (canon s.segment n) <;> simp only
  · simp
  · exact fun h => h.1
  · exact fun h => h.elim
  · exact fun h => h.undef.2
theorem Looks.notReg {s s' : St} (g : Looks s s') {n : Str} (h : NotReg s n) : NotReg s' n := by
  intro l hl
  have := g.tree (canon s.segment n)
  unfold searchlabel at hl
  rw [g.segment] at hl
  rw [hl] at this
  cases ho : s.tree.find (canon s.segment n) with
  | none => rw [ho] at this; exact this.2.2
  | some l' =>
    rw [ho] at this
    have e := SameL.value this
    rw [e.2.1]
    exact h l' ho
theorem Looks.marked {s s' : St} (g : Looks s s') {k : Str} (h : Marked s.tree k) : Marked s'.tree k := by
  obtain ⟨l, h1, h2, h3⟩ := h
  have := g.tree k
  rw [h1] at this
  cases ho : s'.tree.find k with
  | none => rw [ho] at this; exact this.elim
  | some l' =>
    rw [ho] at this
    exact ⟨l', ho, by rw [SameL.undef this |>.2]; exact h2, by rw [SameL.noredef this]; exact h3⟩
theorem Looks.missing {s s' : St} (g : Looks s s') {n : Str} (h : searchlabel s n = none) :
    searchlabel s' n = none ∨ Marked s'.tree (canon s.segment n) := by
  have := g.tree (canon s.segment n)
  unfold searchlabel at h ⊢
  rw [g.segment]
  rw [h] at this
  cases ho : s'.tree.find (canon s.segment n) with
  | none => exact .inl rfl
  | some l' => rw [ho] at this; exact .inr ⟨l', ho, this.1, this.2.1⟩

/-! ### Expressions -/

theorem op2_flags {op : Op2} {p a r : Result} (h : applyOp2 op p a = .ok r) :
    r.flags = p.flags.or a.flags ∧ (op ≠ .rlist → r.type ≠ .regs) := by
  have abs2 : ∀ {k : Result → OpRes}, absolute2 p a k = .ok r →
      (∀ r', k { p with flags := p.flags.or a.flags } = .ok r' → p.type = .absolute → r'.flags = p.flags.or a.flags ∧ r'.type ≠ .regs) →
      r.flags = p.flags.or a.flags ∧ r.type ≠ .regs := by
    intro k h hk
    unfold absolute2 at h
    split at h
    · cases h
    · split at h
      · cases h
      · next h1 _ => exact hk r h (by simpa using h1)
  have opt : ∀ {q r' : Result} {o : Option Word}, ofOpt q o = .ok r' → r'.flags = q.flags ∧ r'.type = q.type := by
    intro q r' o h
    cases o with
    | none => cases h
    | some v => cases h; exact ⟨rfl, rfl⟩
  cases op with
  | add =>
    simp only [applyOp2] at h
    split at h
    · cases h
    · split at h
      · cases h; simp
      · split at h
        · cases h; simp
        · cases h
  | sub =>
    simp only [applyOp2] at h
    split at h
    · obtain ⟨h1, h2⟩ := opt h; exact ⟨h1, fun _ => by rw [h2]; simp⟩
    · split at h
      · obtain ⟨h1, h2⟩ := opt h; exact ⟨h1, fun _ => by rw [h2]; simp⟩
      · split at h
        · unfold regRange at h
          split at h
          · split at h <;> cases h
          · cases h
        · cases h
  | mul =>
    simp only [applyOp2] at h
    obtain ⟨h1, h2⟩ := abs2 h fun r' h ht => by
      obtain ⟨h1, h2⟩ := opt h
      exact ⟨h1, by rw [h2]; simp [ht]⟩
    exact ⟨h1, fun _ => h2⟩
  | div =>
    simp only [applyOp2] at h
    obtain ⟨h1, h2⟩ := abs2 h fun r' h ht => by
      split at h
      · cases h; exact ⟨rfl, by simp [ht]⟩
      · split at h
        · cases h
        · cases h; exact ⟨rfl, by simp [ht]⟩
    exact ⟨h1, fun _ => h2⟩
  | rlist =>
    simp only [applyOp2] at h
    split at h
    · cases h
    · split at h
      · cases h
      · cases h; exact ⟨rfl, fun h => absurd rfl h⟩
  | or =>
    simp only [applyOp2] at h
    obtain ⟨h1, h2⟩ := abs2 h fun r' h ht => by cases h; exact ⟨rfl, by simp [ht]⟩
    exact ⟨h1, fun _ => h2⟩
  | and =>
    simp only [applyOp2] at h
    obtain ⟨h1, h2⟩ := abs2 h fun r' h ht => by cases h; exact ⟨rfl, by simp [ht]⟩
    exact ⟨h1, fun _ => h2⟩
  | xor =>
    simp only [applyOp2] at h
    obtain ⟨h1, h2⟩ := abs2 h fun r' h ht => by cases h; exact ⟨rfl, by simp [ht]⟩
    exact ⟨h1, fun _ => h2⟩
  | lsh =>
    simp only [applyOp2] at h
    obtain ⟨h1, h2⟩ := abs2 h fun r' h ht => by
      split at h
      · cases h; exact ⟨rfl, by simp [ht]⟩
      · cases h
    exact ⟨h1, fun _ => h2⟩
  | rsh =>
    simp only [applyOp2] at h
    obtain ⟨h1, h2⟩ := abs2 h fun r' h ht => by
      split at h
      · cases h; exact ⟨rfl, by simp [ht]⟩
      · cases h
    exact ⟨h1, fun _ => h2⟩
  | bit =>
    simp only [applyOp2] at h
    obtain ⟨h1, h2⟩ := abs2 h fun r' h ht => by
      simp only at h
      split at h
      · cases h
      · cases h; exact ⟨rfl, by simp⟩
    exact ⟨h1, fun _ => h2⟩

theorem op1_flags {op : Op1} {p r : Result} (h : applyOp1 op p = .ok r) : r.flags = p.flags ∧ r.type ≠ .regs := by
  cases op <;> simp only [applyOp1] at h <;> split at h
  case minus.isFalse ht =>
    split at h
    · cases h
    · cases h
      exact ⟨rfl, by simp only [Classical.not_not] at ht; simp [ht]⟩
  all_goals first | cases h; done | skip
  all_goals cases h; refine ⟨rfl, ?_⟩; try simp
  all_goals
    next ht => simp only [Classical.not_not] at ht; simp [ht]

/-- What evaluating a text with these names tells about forward references. -/
def Tells (names : List Str) (s : St) (m : Res Result) : Prop := ∀ r s', m = .ok r s' →
  r.flags.forward = names.any (later s) ∧ ((∀ n ∈ names, NotReg s n) → r.type ≠ .regs) ∧
  ∀ n ∈ names, searchlabel s n = none → Marked s'.tree (canon s.segment n)

theorem Tells.toward {names : List Str} {s : St} {m m' : Res Result} (h : Toward m m') (h' : Tells names s m') : Tells names s m := by
  rcases h with rfl | ⟨t, h⟩
  · exact h'
  · intro r s' hr; rw [h] at hr; cases hr

theorem setRes_ok {tgt : Bool} {r r' : Result} {s s' : St} (h : setRes tgt r s = .ok r' s') : r' = r ∧ s'.tree = s.tree := by
  cases tgt <;> cases h <;> exact ⟨rfl, rfl⟩
theorem finishOp_ok {tgt : Bool} {o : OpRes} {r : Result} {s s' : St} (h : finishOp tgt o s = .ok r s') : o = .ok r ∧ s'.tree = s.tree := by
  cases o with
  | ok q =>
    obtain ⟨h1, h2⟩ := setRes_ok h
    exact ⟨by rw [h1], h2⟩
  | err m q =>
    obtain ⟨_, _, _, h⟩ := bind_ok h
    exact absurd h refuse_not_ok
  | ub u => cases h
  | hang => cases h

theorem label_tells {t : Str} (h : Leaf t) {tgt : Bool} {s : St} : Tells [t] s (parseLeaf tgt t s) := by
  intro r s' hr
  unfold parseLeaf at hr
  rw [if_pos h.check] at hr
  unfold cstlabel at hr
  obtain ⟨l, s1, h1, hr⟩ := bind_ok hr
  obtain ⟨r1, s2, h2, hr⟩ := bind_ok hr
  have hl : r1.flags = l.flags ∧ r1.type = l.type ∧ s2.tree = s1.tree := by
    obtain ⟨rfl, h⟩ := setRes_ok h2
    exact ⟨rfl, rfl, h⟩
  have hrr : r1 = r ∧ s2 = s' := by
    split at hr
    · exact absurd hr error_not_ok
    · cases hr; exact ⟨rfl, rfl⟩
  obtain ⟨rfl, rfl⟩ := hrr
  unfold findlabel at h1
  rw [getS_bind_run] at h1
  simp only [List.any_cons, List.any_nil, Bool.or_false, List.mem_singleton, forall_eq]
  rw [hl.1, hl.2.1, hl.2.2]
  unfold later NotReg
  cases hs : searchlabel s t with
  | some q =>
    rw [hs] at h1
    cases h1
    exact ⟨rfl, fun h => h q rfl, fun h => by cases h⟩
  | none =>
    rw [hs] at h1
    cases h1
    refine ⟨rfl, fun _ => ?_, fun _ => ⟨_, Tree.find_put_self _ _ _, rfl, rfl⟩⟩
    show addrType s.flags ≠ _
    unfold addrType
    cases s.flags.relatif <;> simp

theorem one_tells {n : Nat} {tgt : Bool} {op : Op1} {R : Str} {names : List Str} {s : St}
    (h : Tells names s (parse2 n tgt R s)) : Tells names s (one (parse2 n) tgt op R s) := by
  intro r s' hr
  unfold one at hr
  obtain ⟨p, s1, h1, hr⟩ := bind_ok hr
  obtain ⟨h2, h3⟩ := finishOp_ok hr
  obtain ⟨h4, h5⟩ := op1_flags h2
  obtain ⟨h6, -, h8⟩ := h p s1 h1
  rw [h4, h3]
  exact ⟨h6, fun _ => h5, h8⟩

theorem both_tells {n : Nat} {tgt : Bool} {op : Spec.BinOp} {Ra Rb : Str} {na nb : List Str} {s : St}
    (ha : Tells na s (parse2 n tgt Ra s)) (hb : ∀ s', Tells nb s' (parse2 n false Rb s')) :
    Tells (na ++ nb) s (both (parse2 n) tgt (Spec.BinOp.op op) Rb Ra s) := by
  intro r s' hr
  unfold both at hr
  obtain ⟨p, s1, h1, hr⟩ := bind_ok hr
  obtain ⟨q, s2, h2, hr⟩ := bind_ok hr
  obtain ⟨h3, h4⟩ := finishOp_ok hr
  obtain ⟨h5, h6⟩ := op2_flags h3
  obtain ⟨a1, -, a3⟩ := ha p s1 h1
  obtain ⟨b1, -, b3⟩ := hb s1 q s2 h2
  have g1 := looks_of (walk_parse2 n tgt _) h1
  have g2 := looks_of (walk_parse2 n false _) h2
  rw [h4, h5]
  refine ⟨?_, fun _ => h6 (by cases op <;> simp [Spec.BinOp.op]), ?_⟩
  · have e : (later s1) = later s := funext g1.later
    rw [e] at b1
    simp only [LFlags.or, a1, b1, List.any_append]
  · intro x hx hm
    rcases List.mem_append.1 hx with hx | hx
    · exact g2.marked (a3 x hx hm)
    · rcases g1.missing hm with h | h
      · have := b3 x hx h
        rw [g1.segment] at this
        exact this
      · exact g2.marked h

theorem Tells.scratch {names : List Str} {s s' : St} {m : Res Result} (h : Tells names s' m) (ht : s'.tree = s.tree)
    (hs : s'.segment = s.segment) : Tells names s m := by
  have e : ∀ n, searchlabel s' n = searchlabel s n := fun n => by unfold searchlabel; rw [ht, hs]
  intro r s1 hr
  obtain ⟨h1, h2, h3⟩ := h r s1 hr
  have e1 : later s' = later s := funext fun n => by unfold later; rw [e]
  refine ⟨by rw [h1, e1], fun h => h2 fun n hn l hl => h n hn l (by rw [← e]; exact hl), fun n hn hm => ?_⟩
  have := h3 n hn (by rw [e]; exact hm)
  rw [hs] at this
  exact this

theorem text_tells {k : Spec.Level} {e : Spec.Expr} {t : Str} (h : Spec.Text k e t) :
    ∀ n tgt s, t.length < n → Tells e.names s (parse2 n tgt t.reverse s) := by
  have succ : ∀ {m n : Nat}, m < n → ∃ n', n = n' + 1 := fun {m n} h => ⟨n - 1, by omega⟩
  induction h with
  | num hw hne hn hlt =>
    intro n tgt s hl
    obtain ⟨n, rfl⟩ := succ hl
    have hp := (writes_plain hw hne fun c hc => plain_x (number_digits hn c hc).1).2
    have hr : ∀ c ∈ _, plainChar c = true := fun c hc => hp c (List.mem_reverse.1 hc)
    have := parse2_leaf (n := n) (tgt := tgt) hr s
    rw [creverse_plain (plain_quote hr), List.reverse_reverse] at this
    refine .toward this ?_
    obtain ⟨k, h3⟩ := const_leaf hw hne hn tgt s
    rename_i b _ _ v
    have hl : v < Spec.limit b := by unfold Spec.limit; split <;> omega
    rw [if_pos hl] at h3
    refine .toward h3 ?_
    obtain ⟨r, e, h4, h5, h6, h7⟩ := cst_run tgt v { s with bufpos := k }
    intro r' s' hr
    have hr := e.symm.trans (show cst tgt v { s with bufpos := k } = _ from hr)
    cases hr
    refine ⟨by rw [h6]; rfl, fun _ => by rw [h4]; simp, fun n hn => by simp [Spec.Expr.names] at hn⟩
  | @label k t h =>
    intro n tgt s hl
    obtain ⟨n, rfl⟩ := succ hl
    obtain ⟨b, this⟩ := leaf_start (n := n) (tgt := tgt) (.inl h) s
    exact .toward this (Tells.scratch (s' := { s with bufpos := b }) (label_tells (.inl h)) rfl rfl)
  | @here k _ =>
    intro n tgt s hl
    obtain ⟨n, rfl⟩ := succ hl
    obtain ⟨b, this⟩ := leaf_start (n := n) (tgt := tgt) (.inr rfl) s
    exact .toward this (Tells.scratch (s' := { s with bufpos := b }) (label_tells (.inr rfl)) rfl rfl)
  | @bin k op a b ta tb b1 b2 _ _ ha hb h1 h2 iha ihb =>
    intro n tgt s hl
    obtain ⟨n, rfl⟩ := succ hl
    have la : 0 < ta.length := List.length_pos_iff.2 (by simpa using (text_shape ha).1.ne)
    have lb : 0 < tb.length := List.length_pos_iff.2 (by simpa using (text_shape hb).1.ne)
    simp only [List.length_append] at hl
    obtain ⟨w, hw⟩ := text_split (n := n) (tgt := tgt) (op := op) ha hb h1 h2 s
    have e : (ta ++ (b1 ++ (op.sym ++ (b2 ++ tb)))).reverse =
        tb.reverse ++ (b2.reverse ++ (op.sym.reverse ++ (b1.reverse ++ ta.reverse))) := by simp
    rw [e]
    refine .toward hw (Tells.scratch (s' := { s with bufpos := w }) ?_ rfl rfl)
    exact both_tells (iha n tgt _ (by omega)) fun s' => ihb n false s' (by omega)
  | @neg k a ta b1 _ _ ha h1 ih =>
    intro n tgt s hl
    obtain ⟨n, rfl⟩ := succ hl
    simp only [List.length_append, List.length_cons] at hl
    obtain ⟨w, hw⟩ := text_minus (n := n) (tgt := tgt) ha h1 s
    have e : ('-' :: (b1 ++ ta)).reverse = ta.reverse ++ (b1.reverse ++ ['-']) := by simp
    rw [e]
    exact .toward hw (Tells.scratch (s' := { s with bufpos := w }) (one_tells (ih n tgt _ (by omega))) rfl rfl)
  | @not k a ta b1 _ ha h1 ih =>
    intro n tgt s hl
    obtain ⟨n, rfl⟩ := succ hl
    simp only [List.length_append, List.length_cons] at hl
    obtain ⟨w, hw⟩ := text_not (n := n) (tgt := tgt) ha h1 s
    have e : ('~' :: (b1 ++ ta)).reverse = ta.reverse ++ (b1.reverse ++ ['~']) := by simp
    rw [e]
    exact .toward hw (Tells.scratch (s' := { s with bufpos := w }) (one_tells (ih n tgt _ (by omega))) rfl rfl)
  | @lo k k' a t b0 b1 b2 l o hl ho ha h0 h1 h2 ih =>
    intro n tgt s hln
    obtain ⟨n, rfl⟩ := succ hln
    simp only [List.length_append, List.length_cons, List.length_nil] at hln
    obtain ⟨w, hw⟩ := parse2_lo (n := n) (tgt := tgt) hl ho (text_shape ha).1 (blank_of h0) (blank_of h2) (blank_of h1) s
    have e : (l :: o :: (b0 ++ '(' :: (b1 ++ (t ++ (b2 ++ [')']))))).reverse =
        ')' :: (b2.reverse ++ (t.reverse ++ (b1.reverse ++ '(' :: (b0.reverse ++ [o, l])))) := by simp
    rw [e]
    exact .toward hw (Tells.scratch (s' := { s with bufpos := w }) (one_tells (ih n tgt _ (by omega))) rfl rfl)
  | @hi k k' a t b0 b1 b2 l o hl ho ha h0 h1 h2 ih =>
    intro n tgt s hln
    obtain ⟨n, rfl⟩ := succ hln
    simp only [List.length_append, List.length_cons, List.length_nil] at hln
    obtain ⟨w, hw⟩ := parse2_hi (n := n) (tgt := tgt) hl ho (text_shape ha).1 (blank_of h0) (blank_of h2) (blank_of h1) s
    have e : (l :: o :: (b0 ++ '(' :: (b1 ++ (t ++ (b2 ++ [')']))))).reverse =
        ')' :: (b2.reverse ++ (t.reverse ++ (b1.reverse ++ '(' :: (b0.reverse ++ [o, l])))) := by simp
    rw [e]
    exact .toward hw (Tells.scratch (s' := { s with bufpos := w }) (one_tells (ih n tgt _ (by omega))) rfl rfl)
  | @paren k k' a t b1 b2 ha h1 h2 ih =>
    intro n tgt s hln
    obtain ⟨n, rfl⟩ := succ hln
    simp only [List.length_append, List.length_cons, List.length_nil] at hln
    obtain ⟨w, hw⟩ := parse2_paren (n := n) (tgt := tgt) (text_shape ha).1 (blank_of h2) (blank_of h1) s
    have e : ('(' :: (b1 ++ (t ++ (b2 ++ [')'])))).reverse = ')' :: (b2.reverse ++ (t.reverse ++ (b1.reverse ++ ['(']))) := by simp
    rw [e]
    exact .toward hw (Tells.scratch (s' := { s with bufpos := w }) (ih n tgt _ (by omega)) rfl rfl)

theorem parse_tells {k : Spec.Level} {e : Spec.Expr} {t : Str} (h : Spec.Text k e t) (s : St) : Tells e.names s (parse (some t) s) := by
  have hs := (text_shape h).1
  obtain ⟨l, k, hl⟩ := parse_start (t := t) (by simpa using hs.ne) (fun c hc => hs.quotes c (List.mem_reverse.2 hc)) s
  exact .toward hl (Tells.scratch (s' := { s with lst := l, bufpos := k }) (text_tells h _ _ _ (by omega)) rfl rfl)

/-- The symbols not known before have the mark afterwards. -/
def Marks (names : List Str) (s s' : St) : Prop :=
  ∀ n ∈ names, searchlabel s n = none → Marked s'.tree (canon s.segment n)

theorem marked_gen {bs : List Byte} {s s' : St} (g : Gen bs s s') {k : Str} (h : Marked s.tree k) : Marked s'.tree k := by
  obtain ⟨l, h1, h2, h3⟩ := h
  obtain ⟨l', h4, h5⟩ := g.tree.some h1
  exact ⟨l', h4, by rw [h5.undef.2]; exact h2, by rw [SameL.noredef h5]; exact h3⟩

theorem parse_marks {k : Spec.Level} {e : Spec.Expr} {t : Str} (h : Spec.Text k e t) {f : Result → M α} (hf : ∀ r, Walk NStep (f r))
    {b : Nat} {s s' : St} {a : α} (hr : (parse (some t) >>= f) { s with bufpos := b } = .ok a s') : Marks e.names s s' := by
  obtain ⟨r, s1, h1, h2⟩ := bind_ok hr
  intro n hn hm
  exact marked_gen (nwalk_gen (hf r) h2) ((Tells.scratch (s := s) (parse_tells h { s with bufpos := b }) rfl rfl r s1 h1).2.2 n hn hm)

end C25
open C25

/-- **C25**, forward references. The result of an expression has the mark of a forward reference if and only if it
    contains a symbol that is not yet defined, or that was not when first referred to. A symbol met for the first time is
    entered as such a symbol. -/
theorem C25_reference {k : Spec.Level} {e : Spec.Expr} {t : Str} (h : Spec.Text k e t) {s s' : St} {r : Result}
    (hr : parse (some t) s = .ok r s') :
    (r.flags.forward = true ↔ ∃ n ∈ e.names, ∀ l, searchlabel s n = some l → l.flags.forward = true) ∧
    ∀ n ∈ e.names, searchlabel s n = none →
      ∃ l, searchlabel s' n = some l ∧ l.flags.undef = true ∧ l.flags.forward = true := by
  obtain ⟨h1, -, h3⟩ := parse_tells h s r s' hr
  constructor
  · rw [h1, List.any_eq_true]
    refine exists_congr fun n => and_congr_right fun _ => ?_
    unfold later
    cases searchlabel s n <;> simp
  · intro n hn hm
    obtain ⟨l, hl, h4, -⟩ := h3 n hn hm
    have g := nwalk_gen (m := parse (some t)) W.walk hr
    have e : searchlabel s' n = some l := by unfold searchlabel; rw [g.segment]; exact hl
    refine ⟨l, e, ?_, h4⟩
    have := g.tree (canon s.segment n)
    unfold searchlabel at hm
    rw [hm, hl] at this
    exact this.1

/-! ### The size of instructions of the 6500 family -/

namespace C25
open _root_.Spec.M6502 (Chip Form Written)

theorem when_error {c : Prop} [Decidable c] {msg : Str} {s s' : St} (h : (whenM c (error msg) : M Unit) s = .ok () s') : s' = s := by
  unfold whenM at h
  split at h
  · exact absurd h error_not_ok
  · cases h; rfl

theorem imm_short : (C22.cpus.all fun c => (C22.table c).all fun e => !C22.isStandard e ||
    C22.early (BitVec.ofInt 32 e.label.modifier) 12 ||
    match C22.pickOp (BitVec.ofInt 32 e.label.modifier) 12 with
    | some (m, _) => m = 12
    | none => true) = true := by decide +kernel

theorem opcodeFor_ok {code : BitVec 32} {m m' off : Nat} {s s' : St} (h : C6502.opcodeFor code m s = .ok (m', off) s') :
    C22.pickOp code m = some (m', off) ∧ s' = s := by
  revert h
  unfold C6502.opcodeFor C22.pickOp
  cases C6502.m2offset code m with
  | none => intro h; cases h
  | some off =>
    simp only
    cases C6502.m2offset code (if off = 0 then m ||| 1 else m) with
    | none => intro h; cases h
    | some off' =>
      cases off' with
      | zero => intro h; exact absurd h error_not_ok
      | succ n => intro h; cases h; exact ⟨rfl, rfl⟩

theorem pickOp_odd {code : BitVec 32} {m m' off : Nat} (h : C22.pickOp code m = some (m', off)) (hm : m ||| 1 = m) : m' = m := by
  unfold C22.pickOp at h
  cases h1 : C6502.m2offset code m with
  | none => rw [h1] at h; cases h
  | some o =>
    rw [h1] at h
    simp only [hm, ite_self] at h
    rw [h1] at h
    cases o with
    | zero => cases h
    | succ n => cases h; rfl

/-- The bytes of an instruction of which the mode is known. -/
theorem finish_size {cf : Int} {code : BitVec 32} {m m' off : Nat} {v : BitVec 32} {s s' : St}
    (hp : C22.pickOp code m = some (m', off)) (hm : m' < 14)
    (h : (do
      let (mode, off) ← C6502.opcodeFor code m
      let opcode : BitVec 32 := ((code &&& 0xff) + BitVec.ofNat 32 off) &&& 0xff
      insert8 (lowByte opcode)
      whenM (mode < 14)
        (if mode % 2 = 1 then insert16 (v.setWidth 16) else insert8 (lowByte v))
      whenM (cf < 1 ∧ code = BitVec.ofNat 32 (0x60 ||| 0x100 ||| C6502.F_noimm ||| C6502.F_noindy))
        (error c!"no ROR instruction on 6500")
      whenM (cf < 2 ∧ (mode = 4 ∨ opcode = 0x7c ∨ opcode = 0x89 ∨ opcode = 0x1a ∨ opcode = 0x3a))
        (error c!"illegal use of 65C02 addressing mode") : M Unit) s = .ok () s') :
    ∃ bs, Gen bs s s' ∧ bs.length = if m' % 2 = 1 then 3 else 2 := by
  obtain ⟨⟨m1, off1⟩, s1, h1, h⟩ := bind_ok h
  obtain ⟨h2, rfl⟩ := opcodeFor_ok h1
  rw [hp] at h2
  cases h2
  obtain ⟨_, s2, h2, h⟩ := bind_ok h
  obtain ⟨_, s3, h3, h⟩ := bind_ok h
  obtain ⟨_, s4, h4, h⟩ := bind_ok h
  cases when_error h4
  cases when_error h
  have g := insert8_gen h2
  unfold whenM at h3
  rw [if_pos hm] at h3
  by_cases ho : m' % 2 = 1
  · rw [if_pos ho] at h3
    rw [if_pos ho]
    have g2 := insert16_gen h3
    refine ⟨_, g.trans g2, ?_⟩
    split <;> rfl
  · rw [if_neg ho] at h3
    rw [if_neg ho]
    exact ⟨_, g.trans (insert8_gen h3), rfl⟩

/-- Two bytes after `#`, three otherwise. -/
def size : Form → Nat
  | .imm => 2
  | _ => 3

end C25

section
open _root_.Spec.M6502 (Chip Form Written)

theorem C25.size_6502 {c : Chip} {e : Entry} (he : e ∈ C22.table c) (hs : C22.isStandard e = true) {f : Form} {t o : Str}
    (hw : Written f t o) {k : Spec.Level} {x : Spec.Expr} (hx : Spec.Text k x t) {s : St}
    (hf : ∃ n ∈ x.names, ∀ l, searchlabel s n = some l → l.flags.forward = true)
    (hn : ∀ n ∈ x.names, ∀ l, searchlabel s n = some l → l.type ≠ .regs)
    {self : Status → M RC} {fuel : Nat} {label : Option Str} :
    ∃ h, e.label.ptr = .handler h ∧ ∀ rc s', callHandler self fuel h e.label.modifier label (some o) s = .ok rc s' →
      C25.Marks x.names s s' ∧ ∃ bs, Gen bs s s' ∧ bs.length = C25.size f := by
  refine ⟨_, of_decide_eq_true hs, fun rc s' h => ?_⟩
  change (do C6502.standard (BitVec.ofInt 32 e.label.modifier) (some o); pure RC.cont : M RC) s = .ok rc s' at h
  obtain ⟨_, s1, h, h'⟩ := bind_ok h
  cases h'
  obtain ⟨b, hb | ⟨s2, hb⟩⟩ := mode_text hw s
  rotate_left
  · exfalso
    unfold C6502.standard at h
    rw [getS_bind_run] at h
    change ((C6502.searchMode o C6502.addmodes >>= _) >>= _) s = _ at h
    rw [bind_assoc, run_stop hb] at h
    cases h
  rw [C22.standard_some hb] at h
  unfold C22.rest at h
  by_cases hE : C22.early (BitVec.ofInt 32 e.label.modifier) (modeNum f) = true
  · rw [if_pos hE] at h; exact absurd h error_not_ok
  rw [if_neg hE, if_pos (show modeNum f < 14 by cases f <;> decide)] at h
  obtain ⟨⟨m, v⟩, s2, h1, h⟩ := bind_ok h
  have g := nwalk_gen (m := C6502.operand (modeNum f) t) W.walk h1
  rcases res_cases (parse (some t) { s with bufpos := b }) with ⟨r, s3, hp⟩ | ⟨s3, hp⟩ | ⟨w, s3, hp⟩
  · obtain ⟨t1, t2, -⟩ := C25.Tells.scratch (s := s) (C25.parse_tells hx { s with bufpos := b }) rfl rfl r s3 hp
    have t1 : r.flags.forward = true := by
      rw [t1, List.any_eq_true]
      obtain ⟨n, hn, hl⟩ := hf
      refine ⟨n, hn, ?_⟩
      unfold C25.later
      cases hq : searchlabel s n with
      | none => rfl
      | some l => exact hl l hq
    have t2 := t2 hn
    have hm : m = C22.wide (modeNum f) (C22.bigV r) true := by
      rcases C22.operand_run (mode := modeNum f) hp with ⟨w, s4, h⟩ | ⟨-, s4, h⟩ | ⟨m', s4, hn, h⟩
      · rw [h1] at h; cases h
      · rw [h1] at h; cases h
      · rw [h1] at h
        cases h
        unfold C22.opMode at hn
        rw [if_neg (fun h => t2 h.2.1), t1] at hn
        split at hn
        · cases hn; rfl
        · cases hn
    have hpick : ∃ m' off, C22.pickOp (BitVec.ofInt 32 e.label.modifier) m = some (m', off) := by
      obtain ⟨⟨m', off⟩, s4, h4, -⟩ := bind_ok h
      exact ⟨m', off, (C25.opcodeFor_ok h4).1⟩
    obtain ⟨m', off, hpick⟩ := hpick
    have hwide : (∀ b, C22.wide (modeNum f) b true ||| 1 = C22.wide (modeNum f) b true ∧ C22.wide (modeNum f) b true < 14 ∧
        C22.wide (modeNum f) b true % 2 = 1 ∧ C25.size f = 3) ∨ (f = .imm) := by
      by_cases hi : f = .imm
      · exact .inr hi
      · left
        intro b
        cases f <;> first | exact absurd rfl hi | (cases b <;> decide)
    have hm' : m' < 14 ∧ (if m' % 2 = 1 then 3 else 2) = C25.size f := by
      rcases hwide with hw | rfl
      · have hw := hw (C22.bigV r)
        rw [← hm] at hw
        rw [C25.pickOp_odd hpick hw.1]
        exact ⟨hw.2.1, by rw [if_pos hw.2.2.1, hw.2.2.2]⟩
      · have hm12 : m = 12 := by rw [hm]; cases C22.bigV r <;> rfl
        rw [hm12] at hpick
        have := List.all_eq_true.mp (List.all_eq_true.mp C25.imm_short c (C22.mem_cpus c)) e he
        rw [hs, hpick, show C22.early (BitVec.ofInt 32 e.label.modifier) 12 = false by simpa [modeNum] using hE] at this
        simp only [Bool.not_true, Bool.false_or, decide_eq_true_eq] at this
        subst this
        exact ⟨by decide, rfl⟩
    obtain ⟨bs, g2, hl⟩ := C25.finish_size hpick hm'.1 h
    refine ⟨?_, bs, ?_, hl.trans hm'.2⟩
    · have h1 := h1
      unfold C6502.operand at h1
      have := C25.parse_marks hx (fun r => by walk) h1
      exact fun n hn hm => C25.marked_gen g2 (this n hn hm)
    have := ((gen_bufpos s b).trans g).trans g2
    simpa using this
  · exfalso
    unfold C6502.operand at h1
    rw [run_err hp] at h1
    cases h1
  · exfalso
    unfold C6502.operand at h1
    rw [run_stop hp] at h1
    cases h1

/-- **C25** on the 6500, 6502 and 65C02. An instruction with a forward reference in its operand has three bytes, that
    is, uses the mode with a 16-bit address, whatever the value of the symbol is (two bytes after `#`). The operand is
    not to contain the name of a register. -/
theorem C25_6502_partial {c : Chip} {e : Entry} (he : e ∈ C22.table c) (hs : C22.isStandard e = true) {f : Form} {t o : Str}
    (hw : Written f t o) {k : Spec.Level} {x : Spec.Expr} (hx : Spec.Text k x t) {s : St}
    (hf : ∃ n ∈ x.names, ∀ l, searchlabel s n = some l → l.flags.forward = true)
    (hn : ∀ n ∈ x.names, ∀ l, searchlabel s n = some l → l.type ≠ .regs)
    {self : Status → M RC} {fuel : Nat} {label : Option Str} :
    ∃ h, e.label.ptr = .handler h ∧ ∀ rc s', callHandler self fuel h e.label.modifier label (some o) s = .ok rc s' →
      ∃ bs, Gen bs s s' ∧ bs.length = C25.size f := by
  obtain ⟨h, h1, h2⟩ := C25.size_6502 he hs hw hx hf hn (self := self) (fuel := fuel) (label := label)
  exact ⟨h, h1, fun rc s' h => (h2 rc s' h).2⟩
end

/-! ### The size of instructions of the 6800 family -/

namespace C25
open _root_.Spec.M6800 (Chip Form Written)

theorem codemode_size {code add v : BitVec 32} {s s' : St} (h : C6800.codemode code add v s = .ok () s') :
    ∃ bs, Gen bs s s' ∧ bs.length = 1 + C23.widthOf code add := by
  unfold C6800.codemode at h
  obtain ⟨_, s1, h1, h⟩ := bind_ok h
  have g := insert8_gen h1
  unfold C23.widthOf
  by_cases c1 : add = 0 ∧ C6800.imm16 code = true
  · rw [if_pos c1] at h
    rw [if_pos (.inl c1)]
    refine ⟨_, g.trans (insert16_gen h), ?_⟩
    split <;> rfl
  · rw [if_neg c1] at h
    by_cases c2 : add = 0x30
    · rw [if_pos c2] at h
      rw [if_pos (.inr c2)]
      refine ⟨_, g.trans (insert16_gen h), ?_⟩
      split <;> rfl
    · rw [if_neg c2] at h
      rw [if_neg (fun h => h.elim c1 c2)]
      obtain ⟨_, s2, h2, h⟩ := bind_ok h
      refine ⟨[lowByte (code + add), lowByte v], ?_, rfl⟩
      have g2 := g.trans (insert8_gen h2)
      by_cases hb : v &&& 0xff00 ≠ 0
      · rw [if_pos hb] at h
        by_cases c3 : add = 0x20
        · rw [if_pos c3] at h; exact absurd h error_not_ok
        · rw [if_neg c3] at h
          have := g2.trans (nwalk_gen W.walk h)
          simpa using this
      · rw [if_neg hb] at h
        cases h
        exact g2

/-- The size by the published table: three bytes with an address, two with an index or a byte after `#`, three with two
    bytes after `#`. -/
def size8 (c : Chip) (name : Str) : Form → Nat
  | .addr => 3
  | .index => 2
  | .imm => if (_root_.Spec.M6800.opcode c name .imm16).isSome then 3 else 2

theorem widths : (C23.cpus.all fun c => (C23.table c).all fun e => match C23.kindOfOp e with
    | none => true
    | some k => C23.forms.all fun f =>
        ((k = .standard2 || k = .standard3) && f = .imm) ||
        1 + C23.widthOf (BitVec.ofInt 32 e.label.modifier) (C23.shiftOf f) = size8 c (C22.upper e) f) = true := by
  decide +kernel

end C25

section
open _root_.Spec.M6800 (Chip Form Written)

theorem C25.size_6800 {c : Chip} {e : Entry} (he : e ∈ C23.table c) {kd : H6800} (hs : C23.kindOfOp e = some kd) {f : Form} {t o : Str}
    (hw : Written f t o) {k : Spec.Level} {x : Spec.Expr} (hx : Spec.Text k x t) {s : St}
    (hf : ∃ n ∈ x.names, ∀ l, searchlabel s n = some l → l.flags.forward = true)
    {self : Status → M RC} {fuel : Nat} {label : Option Str} :
    ∃ h, e.label.ptr = .handler h ∧ ∀ rc s', callHandler self fuel h e.label.modifier label (some o) s = .ok rc s' →
      C25.Marks x.names s s' ∧ ∃ bs, Gen bs s s' ∧ bs.length = C25.size8 c (C22.upper e) f := by
  have hk : e.label.ptr = .handler (.h6800 kd) ∧ kd ∈ C23.operandKinds := by
    unfold C23.kindOfOp at hs
    split at hs
    · next k' h1 =>
      split at hs
      · next h2 => cases hs; exact ⟨h1, h2⟩
      · cases hs
    · cases hs
  refine ⟨_, hk.1, fun rc s' h => ?_⟩
  change (do C6800.call kd e.label.modifier (some o); pure RC.cont : M RC) s = .ok rc s' at h
  obtain ⟨_, s1, h, h'⟩ := bind_ok h
  cases h'
  have wd := List.all_eq_true.mp (List.all_eq_true.mp C25.widths c (C23.mem_cpus c)) e he
  rw [hs] at wd
  have wd := List.all_eq_true.mp wd f (C23.mem_forms f)
  have mv : ∀ a v s1, C6800.findmode (some o) C6800.addmodes s = .ok (a, v) s1 → Gen [] s s1 ∧ C25.Marks x.names s s1 ∧ a = C23.shiftOf f := by
    intro a v s1 h1
    obtain ⟨b, hb | ⟨s2, hb⟩⟩ := C23.form_text hw s
    rotate_left
    · rw [h1] at hb; cases hb
    rw [h1] at hb
    have hb := hb.symm
    have g := nwalk_gen (m := C6800.modeValue (C23.shiftOf f) t) W.walk hb
    refine ⟨by simpa using (gen_bufpos s b).trans g, ?_, ?_⟩
    · unfold C6800.modeValue parseAbs at hb
      rw [bind_assoc] at hb
      exact C25.parse_marks hx (fun r => by walk) hb
    unfold C6800.modeValue parseAbs at hb
    obtain ⟨r, s3, h3, hb⟩ := bind_ok hb
    obtain ⟨r', s4, h4, h5⟩ := bind_ok h3
    obtain ⟨_, s5, h5, h6⟩ := bind_ok h5
    cases h6
    obtain ⟨t1, -, -⟩ := C25.Tells.scratch (s := s) (C25.parse_tells hx { s with bufpos := b }) rfl rfl r s4 h4
    have t1 : r.flags.forward = true := by
      rw [t1, List.any_eq_true]
      obtain ⟨n, hn, hl⟩ := hf
      refine ⟨n, hn, ?_⟩
      unfold C25.later
      cases hq : searchlabel s n with
      | none => rfl
      | some l => exact hl l hq
    rw [t1, if_neg (by simp)] at hb
    cases hb
    rfl
  have h2 := hk.2
  simp only [C23.operandKinds, List.mem_cons, List.not_mem_nil, or_false] at h2
  rcases h2 with rfl | rfl | rfl
  · simp only [C6800.call, C6800.standard] at h
    obtain ⟨⟨a, v⟩, s2, h1, h⟩ := bind_ok h
    obtain ⟨g, mk, rfl⟩ := mv a v s2 h1
    obtain ⟨bs, g2, hl⟩ := C25.codemode_size h
    refine ⟨fun n hn hm => C25.marked_gen g2 (mk n hn hm), bs, by simpa using g.trans g2, ?_⟩
    rw [hl]
    simpa using wd
  · simp only [C6800.call, C6800.standard2] at h
    obtain ⟨⟨a, v⟩, s2, h1, h⟩ := bind_ok h
    obtain ⟨g, mk, rfl⟩ := mv a v s2 h1
    obtain ⟨_, s3, h3, h⟩ := bind_ok h
    have hi : f ≠ .imm := by
      rintro rfl
      exact absurd (show (error c!"Bad addressing mode" : M Unit) s3 = _ from h) error_not_ok
    cases C25.when_error h
    obtain ⟨bs, g2, hl⟩ := C25.codemode_size h3
    refine ⟨fun n hn hm => C25.marked_gen g2 (mk n hn hm), bs, by simpa using g.trans g2, ?_⟩
    rw [hl]
    simpa [hi] using wd
  · simp only [C6800.call, C6800.standard3] at h
    obtain ⟨⟨a, v⟩, s2, h1, h⟩ := bind_ok h
    obtain ⟨g, mk, rfl⟩ := mv a v s2 h1
    have ha : (if C23.shiftOf f = 0x10 then 0x30 else C23.shiftOf f) = C23.shiftOf f := by cases f <;> rfl
    simp only [ha] at h
    obtain ⟨_, s3, h3, h⟩ := bind_ok h
    have hi : f ≠ .imm := by
      rintro rfl
      exact absurd (show (error c!"Bad addressing mode" : M Unit) s3 = _ from h) error_not_ok
    cases C25.when_error h
    obtain ⟨bs, g2, hl⟩ := C25.codemode_size h3
    refine ⟨fun n hn hm => C25.marked_gen g2 (mk n hn hm), bs, by simpa using g.trans g2, ?_⟩
    rw [hl]
    simpa [hi] using wd

/-- **C25** on the 6800 and 6801. An instruction with a forward reference in its operand uses the mode with a 16-bit
    address, if it has no `#` and no index; in any case its size does not depend on the value of the symbol. -/
theorem C25_6800 {c : Chip} {e : Entry} (he : e ∈ C23.table c) {kd : H6800} (hs : C23.kindOfOp e = some kd) {f : Form} {t o : Str}
    (hw : Written f t o) {k : Spec.Level} {x : Spec.Expr} (hx : Spec.Text k x t) {s : St}
    (hf : ∃ n ∈ x.names, ∀ l, searchlabel s n = some l → l.flags.forward = true)
    {self : Status → M RC} {fuel : Nat} {label : Option Str} :
    ∃ h, e.label.ptr = .handler h ∧ ∀ rc s', callHandler self fuel h e.label.modifier label (some o) s = .ok rc s' →
      ∃ bs, Gen bs s s' ∧ bs.length = C25.size8 c (C22.upper e) f := by
  obtain ⟨h, h1, h2⟩ := C25.size_6800 he hs hw hx hf (self := self) (fuel := fuel) (label := label)
  exact ⟨h, h1, fun rc s' h => (h2 rc s' h).2⟩
end

/-! ### The mark lasts -/

namespace C25

theorem marked_put {t : Tree} {k k' : Str} {l : Label} (h : Marked t k)
    (hl : ∀ q, k = k' → t.find k = some q → q.flags.forward = true → q.flags.noredef = true →
      l.flags.forward = true ∧ l.flags.noredef = true) : Marked (t.put k' l) k := by
  obtain ⟨q, h1, h2, h3⟩ := h
  by_cases e : k = k'
  · subst e
    exact ⟨l, Tree.find_put_self _ _ _, hl q rfl h1 h2 h3⟩
  · exact ⟨q, by rw [Tree.find_put_ne _ _ e]; exact h1, h2, h3⟩

theorem marked_def {t : Tree} {k k' : Str} {flags : LFlags} {type : LType} {v : Word} {m : Int} {p : Ptr} (h : Marked t k) :
    Marked (t.put k' { defdLabel (t.find k') flags type v with modifier := m, ptr := p }) k := by
  refine marked_put h fun q e h1 h2 h3 => ?_
  subst e
  rw [h1]
  simp [defdLabel, LFlags.or, h2, h3]

theorem marked_star {t : Tree} {k : Str} {l : Label} (hk : k ≠ starKey) (h : Marked t k) : Marked (t.put starKey l) k :=
  marked_put h fun _ e => absurd e hk

theorem marked_step {k : Str} (hk : k ≠ starKey) {a b : Cfg} (h : Step a b) (hm : Marked a.1.tree k) : Marked b.1.tree k := by
  cases h with
  | p h =>
    cases h with
    | h h =>
      cases h with
      | n h =>
        cases h with
        | scratch => exact hm
        | use s k' =>
          refine marked_put hm fun q e h1 h2 h3 => ?_
          subst e
          rw [h1]
          exact ⟨h2, h3⟩
        | error0 => exact hm
        | error1 s t _ hb => obtain ⟨v, -, rfl⟩ := hb; exact marked_star hk hm
        | odd => exact hm
        | die => exact hm
      | note => exact hm
      | emit => exact hm
      | lohi => exact hm
    | flags => exact hm
    | sect => exact hm
    | bindNew s t e he hn =>
      refine marked_put hm fun q e h1 h2 h3 => ?_
      subst e
      rw [hn] at h1
      cases h1
    | bindOld s t e he l hl ho hu =>
      refine marked_put hm fun q e h1 h2 h3 => ?_
      subst e
      rw [hl] at h1
      cases h1
      exact ⟨h2, h3⟩
    | misc => exact hm
    | push => exact hm
  | here s name => exact marked_def hm
  | equ s name => exact marked_def hm
  | macroName s name => exact marked_def hm
  | macroText s k' l hl ht ls =>
    refine marked_put hm fun q e h1 h2 h3 => ?_
    subst e
    rw [hl] at h1
    cases h1
    exact ⟨h2, h3⟩
  | markUsed s k' l hl =>
    refine marked_put hm fun q e h1 h2 h3 => ?_
    subst e
    rw [hl] at h1
    cases h1
    exact ⟨h2, h3⟩
  | bump s t hb => obtain ⟨v, -, rfl⟩ := hb; exact marked_star hk hm
  | start0 => exact hm
  | start1 => exact hm
  | enter => exact hm
  | leave => exact hm
  | readMain => exact hm
  | readFile => exact hm
  | readMacro => exact hm
  | call => exact hm
  | drop => exact hm
  | caught => exact hm

theorem marked_star_steps {k : Str} (hk : k ≠ starKey) {a b : Cfg} (h : Star Step a b) (hm : Marked a.1.tree k) : Marked b.1.tree k :=
  h.inv (P := fun c => Marked c.1.tree k) (fun _ _ h => marked_step hk h) hm

theorem marked_passes {k : Str} (hk : k ≠ starKey) {o : Opts} {n : Nat} {s : St} {l : Label} (hl : s.tree.find k = some l)
    (hd : l.flags.undef = false) (hm : Marked s.tree k) : Marked (passStart n (betweenPasses o s)).tree k := by
  refine marked_star hk ?_
  obtain ⟨l', h1, h2, h3⟩ := hm
  rw [hl] at h1
  cases h1
  refine ⟨undefOne l, ?_, ?_, ?_⟩
  · show (s.tree.map undefOne).find k = _
    rw [Tree.find_map, hl]
    rfl
  · simp [undefOne, h2, h3, hd]
  · exact h3

end C25

/-- **C25**, the mark of a forward reference lasts. A symbol that was referred to in the first pass before it was defined
    (so that it has the mark in a state `a` of that pass) and that is defined when the pass ends has the mark at every
    moment of the second pass, defined or not. -/
theorem C25_kept {o : Opts} {a b c : St} {pa pb : Mode} {name : Str} {seg : Nat} (hn : name ≠ c!"*")
    (h0 : ∃ l, a.tree.find (canon seg name) = some l ∧ l.flags.forward = true ∧ l.flags.noredef = true)
    (h1 : Star Step (a, pa) (b, .live))
    (hd : ∃ l, b.tree.find (canon seg name) = some l ∧ l.flags.undef = false)
    (h2 : Star Step (passStart 2 (betweenPasses o b), .live) (c, pb)) :
    ∃ l, c.tree.find (canon seg name) = some l ∧ l.flags.forward = true ∧ l.flags.noredef = true := by
  have hk : canon seg name ≠ starKey := fun e => hn (canon_star e)
  obtain ⟨l, hl, hd⟩ := hd
  exact marked_star_steps hk h2 (marked_passes hk hl hd (marked_star_steps hk h1 h0))

namespace C25

theorem marked_later {s : St} {n : Str} {names : List Str} (hn : n ∈ names) (h : Marked s.tree (canon s.segment n)) :
    ∃ n ∈ names, ∀ l, searchlabel s n = some l → l.flags.forward = true := by
  obtain ⟨l, h1, h2, -⟩ := h
  refine ⟨n, hn, fun l' hl => ?_⟩
  unfold searchlabel at hl
  rw [h1] at hl
  cases hl
  exact h2
theorem missing_later {s : St} {n : Str} {names : List Str} (hn : n ∈ names) (h : searchlabel s n = none) :
    ∃ n ∈ names, ∀ l, searchlabel s n = some l → l.flags.forward = true :=
  ⟨n, hn, fun l hl => by rw [h] at hl; cases hl⟩

end C25

/-- **C25**, both passes. In the first pass an instruction of the 6500 family refers to a symbol not known before, and the
    symbol gets defined later in the pass. Then the same instruction makes the same number of bytes in the second pass,
    whatever happens in between and whatever the value of the symbol is. The symbol is not to be `*`, the location counter. (`a` to `a'`: the instruction in the first pass;
    `b`: the end of the first pass; `c` to `c'`: the instruction in the second pass.) The operand is not to contain the
    name of a register. -/
theorem C25_passes_6502_partial {ch : _root_.Spec.M6502.Chip} {e : Entry} (he : e ∈ C22.table ch) (hs : C22.isStandard e = true)
    {f : _root_.Spec.M6502.Form} {t op : Str} (hw : _root_.Spec.M6502.Written f t op) {k : Spec.Level} {x : Spec.Expr} (hx : Spec.Text k x t)
    {n : Str} (hn : n ∈ x.names) (hne : n ≠ c!"*") {o : Opts} {a a' b c c' : St} {m : Mode} {self self' : Status → M RC} {fuel fuel' : Nat}
    {label label' : Option Str} {h : Handler} {rc rc' : RC} (hh : e.label.ptr = .handler h)
    (hra : ∀ n ∈ x.names, ∀ l, searchlabel a n = some l → l.type ≠ .regs)
    (hrc : ∀ n ∈ x.names, ∀ l, searchlabel c n = some l → l.type ≠ .regs)
    (hm : searchlabel a n = none) (h1 : callHandler self fuel h e.label.modifier label (some op) a = .ok rc a')
    (hb : Star Step (a', .live) (b, .live)) (hd : ∃ l, b.tree.find (canon a.segment n) = some l ∧ l.flags.undef = false)
    (hc : Star Step (passStart 2 (betweenPasses o b), .live) (c, m)) (hseg : canon c.segment n = canon a.segment n)
    (h2 : callHandler self' fuel' h e.label.modifier label' (some op) c = .ok rc' c') :
    ∃ bs cs, Gen bs a a' ∧ Gen cs c c' ∧ bs.length = cs.length ∧ bs.length = C25.size f := by
  obtain ⟨h', e1, r1⟩ := C25.size_6502 he hs hw hx (C25.missing_later hn hm) hra (self := self) (fuel := fuel) (label := label)
  rw [hh] at e1
  cases e1
  obtain ⟨m1, bs, g1, l1⟩ := r1 rc a' h1
  have mk := m1 n hn hm
  obtain ⟨mc, -⟩ : Marked c.tree (canon c.segment n) ∧ True := by
    rw [hseg]
    refine ⟨C25_kept ?_ mk hb hd hc, trivial⟩
    exact hne
  obtain ⟨h', e2, r2⟩ := C25.size_6502 he hs hw hx (C25.marked_later hn mc) hrc (self := self') (fuel := fuel') (label := label')
  rw [hh] at e2
  cases e2
  obtain ⟨-, cs, g2, l2⟩ := r2 rc' c' h2
  exact ⟨bs, cs, g1, g2, l1.trans l2.symm, l1⟩

/-- **C25**, both passes, on the 6800 and 6801. -/
theorem C25_passes_6800 {ch : _root_.Spec.M6800.Chip} {e : Entry} (he : e ∈ C23.table ch) {kd : H6800} (hs : C23.kindOfOp e = some kd)
    {f : _root_.Spec.M6800.Form} {t op : Str} (hw : _root_.Spec.M6800.Written f t op) {k : Spec.Level} {x : Spec.Expr} (hx : Spec.Text k x t)
    {n : Str} (hn : n ∈ x.names) (hne : n ≠ c!"*") {o : Opts} {a a' b c c' : St} {m : Mode} {self self' : Status → M RC} {fuel fuel' : Nat}
    {label label' : Option Str} {h : Handler} {rc rc' : RC} (hh : e.label.ptr = .handler h)
    (hm : searchlabel a n = none) (h1 : callHandler self fuel h e.label.modifier label (some op) a = .ok rc a')
    (hb : Star Step (a', .live) (b, .live)) (hd : ∃ l, b.tree.find (canon a.segment n) = some l ∧ l.flags.undef = false)
    (hc : Star Step (passStart 2 (betweenPasses o b), .live) (c, m)) (hseg : canon c.segment n = canon a.segment n)
    (h2 : callHandler self' fuel' h e.label.modifier label' (some op) c = .ok rc' c') :
    ∃ bs cs, Gen bs a a' ∧ Gen cs c c' ∧ bs.length = cs.length ∧ bs.length = C25.size8 ch (C22.upper e) f := by
  obtain ⟨h', e1, r1⟩ := C25.size_6800 he hs hw hx (C25.missing_later hn hm) (self := self) (fuel := fuel) (label := label)
  rw [hh] at e1
  cases e1
  obtain ⟨m1, bs, g1, l1⟩ := r1 rc a' h1
  have mk := m1 n hn hm
  have mc : Marked c.tree (canon c.segment n) := by
    rw [hseg]
    exact C25_kept (hne) mk hb hd hc
  obtain ⟨h', e2, r2⟩ := C25.size_6800 he hs hw hx (C25.marked_later hn mc) (self := self') (fuel := fuel') (label := label')
  rw [hh] at e2
  cases e2
  obtain ⟨-, cs, g2, l2⟩ := r2 rc' c' h2
  exact ⟨bs, cs, g1, g2, l1.trans l2.symm, l1⟩

/-! ### Examples and exceptions -/

/-- The number of bytes generated in each pass. -/
def C25.sizes (src : Str) : Option (Nat × Nat) :=
  match assemble 60 { scode := some c!"o", list := false } (initSt { fs := fun _ => none } src) with
  | .ok _ s => some (((bytesOf s.log).filter fun b => b.1 = 1).length, ((bytesOf s.log).filter fun b => b.1 = 2).length)
  | _ => none

/-- A forward reference to a symbol that turns out to be in page zero. -/
example : outcome c!" cpu 6502\n *= 0\n lda foo+1\n lda #foo\nfoo = 5\n lda foo\nbar = 6\n lda bar\n" =
      some (0, [0xad, 6, 0, 0xa9, 5, 0xad, 5, 0, 0xa5, 6]) ∧
    C25.sizes c!" cpu 6502\n *= 0\n lda foo+1\n lda #foo\nfoo = 5\n lda foo\nbar = 6\n lda bar\n" = some (10, 10) := by decide +kernel
example : outcome c!" cpu 6800\n *= 0\n ldaa foo+1\n ldx #foo\n ldaa foo,x\nfoo = 5\n ldaa foo\nbar = 6\n ldaa bar\n" =
      some (0, [0xb6, 0, 6, 0xce, 0, 5, 0xa6, 5, 0xb6, 0, 5, 0x96, 6]) ∧
    C25.sizes c!" cpu 6800\n *= 0\n ldaa foo+1\n ldx #foo\n ldaa foo,x\nfoo = 5\n ldaa foo\nbar = 6\n ldaa bar\n" = some (13, 13) := by
  decide +kernel
/-- The hypotheses of the theorems are met in the state at the start: nothing is defined. -/
example : ∃ n ∈ (Spec.Expr.bin .add (.label c!"foo") (.num 1)).names,
    ∀ l, searchlabel (initSt { fs := fun _ => none } []) n = some l → l.flags.forward = true :=
  ⟨c!"foo", by simp [Spec.Expr.names], fun l h => by
    have : searchlabel (initSt { fs := fun _ => none } []) c!"foo" = none := by decide +kernel
    rw [this] at h; cases h⟩

/-- The condition on registers is needed. A symbol that is defined as the accumulator after its use makes the
    instruction shorter in the second pass than in the first; the jump goes astray, without any message. -/
theorem C25_false_register :
    C25.sizes c!" cpu 6502\n *= 0\n jmp end\n asl foo\nfoo equ a\nend nop\n" = some (7, 5) ∧
    outcome c!" cpu 6502\n *= 0\n jmp end\n asl foo\nfoo equ a\nend nop\n" = some (0, [0x4c, 6, 0, 0x0a, 0xea]) := by
  decide +kernel

end Crasm

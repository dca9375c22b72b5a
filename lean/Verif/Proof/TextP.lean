import Verif.Props.C11

/-! What an expression is worth whenever it has a value at all: no assumption is made that its labels are defined. -/

namespace Crasm

/-- Outside of `keys`, whatever is defined or has been referred to stands for a number, and so does whatever will be. -/
structure Numeric (keys : Str → Prop) (s : St) : Prop where
  star : keys starKey ∨ (s.tree.find starKey).isSome
  rel : s.flags.relatif = false ∨ ∀ k, ¬ keys k → (s.tree.find k).isSome
  abs : ∀ k l, ¬ keys k → s.tree.find k = some l → l.flags.undef = false ∨ l.flags.forward = true → l.type = .absolute

theorem Numeric.use {keys : Str → Prop} {s : St} (h : Numeric keys s) (k : Str) :
    Numeric keys { s with tree := s.tree.put k (usedLabel s (s.tree.find k)) } := by
  have hs : ∀ k', (s.tree.find k').isSome → ((s.tree.put k (usedLabel s (s.tree.find k))).find k').isSome := fun k' h => by
    by_cases e : k' = k
    · subst e; rw [Tree.find_put_self]; rfl
    · rw [Tree.find_put_ne _ _ e]; exact h
  refine ⟨h.star.imp_right (hs _), ?_, fun k' l hk hl hd => ?_⟩
  · exact h.rel.imp_right fun h k' hk => hs k' (h k' hk)
  change (s.tree.put k _).find k' = some l at hl
  by_cases e : k' = k
  · subst e
    rw [Tree.find_put_self] at hl
    cases hl
    cases hf : s.tree.find k' with
    | none =>
      rcases h.rel with h | h
      · show addrType s.flags = _
        unfold addrType
        rw [h]
        rfl
      · have := h k' hk
        rw [hf] at this
        cases this
    | some l =>
      rw [hf] at hd
      exact h.abs k' l hk hf hd
  · rw [Tree.find_put_ne _ _ e] at hl
    exact h.abs k' l hk hl hd

theorem Numeric.bumped {keys : Str → Prop} {s : St} {t : Tree} (h : Numeric keys s) (hb : bumped s t) :
    Numeric keys { s with tree := t } := by
  obtain ⟨v, -, rfl⟩ := hb
  refine ⟨.inr (by show ((s.tree.put starKey _).find starKey).isSome; rw [Tree.find_put_self]; rfl), ?_, fun k' l hk hl hd => ?_⟩
  · refine h.rel.imp_right fun h k' hk => ?_
    show ((s.tree.put starKey _).find k').isSome
    by_cases e : k' = starKey
    · subst e; rw [Tree.find_put_self]; rfl
    · rw [Tree.find_put_ne _ _ e]
      exact h k' hk
  change (s.tree.put starKey _).find k' = some l at hl
  by_cases e : k' = starKey
  · subst e
    rw [Tree.find_put_self] at hl
    cases hl
    obtain ⟨l0, hl0⟩ := Option.isSome_iff_exists.1 (h.star.resolve_left hk)
    have e0 : starLabel s = l0 := by unfold starLabel; rw [hl0]; rfl
    rw [e0] at hd ⊢
    exact h.abs _ l0 hk hl0 hd
  · rw [Tree.find_put_ne _ _ e] at hl
    exact h.abs k' l hk hl hd

/-- Generating code and evaluating operands keep this up. -/
theorem Numeric.hstep {keys : Str → Prop} {a b : Cfg} (hp : Numeric keys a.1) (h : HStep a b) : Numeric keys b.1 := by
  cases h with
  | n h =>
    cases h with
    | use s k => exact hp.use k
    | error1 s t h hb =>
      have := hp.bumped hb
      exact ⟨this.star, this.rel, this.abs⟩
    | _ => exact ⟨hp.star, hp.rel, hp.abs⟩
  | _ => exact ⟨hp.star, hp.rel, hp.abs⟩

theorem Numeric.hstar {keys : Str → Prop} {a b : Cfg} (h : Star HStep a b) (hp : Numeric keys a.1) : Numeric keys b.1 := by
  induction h with
  | refl => exact hp
  | tail _ r ih => exact ih.hstep r

theorem Numeric.walkN {keys : Str → Prop} {m : M α} (hw : Walk NStep m) {s s' : St} {a : α} (h : m s = .ok a s') (hp : Numeric keys s) :
    Numeric keys s' :=
  Numeric.hstar ((walk_nstar hw h).mono fun _ _ h => .n h) hp

theorem Numeric.gen {keys : Str → Prop} {bs : List Byte} {s s' : St} (g : Gen bs s s') (hp : Numeric keys s) : Numeric keys s' := by
  obtain ⟨b, hb⟩ := g.flags
  have hs : ∀ k, (s.tree.find k).isSome → (s'.tree.find k).isSome := fun k h => by
    obtain ⟨l, hl⟩ := Option.isSome_iff_exists.1 h
    obtain ⟨l', h', -⟩ := g.tree.some hl
    rw [h']; rfl
  refine ⟨hp.star.imp_right (hs _), ?_, fun k l hk hl hd => ?_⟩
  · rcases hp.rel with h | h
    · exact .inl (by rw [hb]; exact h)
    · exact .inr fun k hk => hs k (h k hk)
  · cases hf : s.tree.find k with
    | none =>
      rw [g.entered k l hf hl]
      rcases hp.rel with h | h
      · unfold addrType; rw [h]; rfl
      · have := h k hk; rw [hf] at this; cases this
    | some l0 =>
      obtain ⟨l', h', hs⟩ := g.tree.some hf
      rw [hl] at h'
      cases h'
      rw [hs.value.2.1]
      refine hp.abs k l0 hk hf ?_
      rw [hs.undef.1, hs.undef.2] at hd
      exact hd

/-- The names are global ones outside of `keys`. -/
def Outside (keys : Str → Prop) (s : St) (names : List Str) : Prop := ∀ x ∈ names, ¬ keys (canon s.segment x)

/-- An entry has this value and this mark for being defined later.  A name that has not been entered counts as zero, to be
    defined later. -/
def Shows (o : Option Label) (x : Int) (f : Bool) : Prop :=
  match o with
  | some l => l.value.toInt = x ∧ l.flags.forward = f
  | none => x = 0 ∧ f = true

/-- Under `P` the names have these values and marks for being defined later. -/
def Values (P : Prop) (s : St) (ρ : Str → Int) (φ : Str → Bool) (names : List Str) : Prop :=
  P → ∀ x ∈ names, Shows (searchlabel s x) (ρ x) (φ x)

theorem Values.gen {P : Prop} {s s' : St} {ρ : Str → Int} {φ : Str → Bool} {names : List Str} (h : Values P s ρ φ names) (g : Gen [] s s') :
    Values P s' ρ φ names := by
  intro hP x hx
  have h1 := h hP x hx
  have h2 := g.tree (canon s.segment x)
  unfold searchlabel at h1 ⊢
  rw [g.segment]
  revert h1 h2
  cases s.tree.find (canon s.segment x) with
  | none =>
    cases s'.tree.find (canon s.segment x) with
    | none => exact fun h _ => h
    | some l' =>
      rintro ⟨h1, h2⟩ ⟨-, h3, h4⟩
      exact ⟨by rw [h4, h1]; rfl, h3.trans h2.symm⟩
  | some l =>
    cases s'.tree.find (canon s.segment x) with
    | none => exact fun _ h => h.elim
    | some l' =>
      rintro ⟨h1, h2⟩ h6
      exact ⟨by rw [h6.value.1]; exact h1, by rw [h6.undef.2]; exact h2⟩

/-- What a successful evaluation says. -/
def Tells (P : Prop) (m : Res Result) (v : Except Spec.Why Int) (f : Bool) : Prop :=
  ∀ r s', m = .ok r s' → r.type = .absolute ∧ (P → v = .ok r.value.toInt ∧ r.flags.forward = f)

theorem Tells.toward {P : Prop} {m m' : Res Result} {v : Except Spec.Why Int} {f : Bool} (h : Toward m m') (h' : Tells P m' v f) : Tells P m v f := by
  intro r s' e
  rcases h with rfl | ⟨t, h⟩
  · exact h' r s' e
  · rw [h] at e; cases e

theorem finishOp_ok {tgt : Bool} {o : OpRes} {r : Result} {s s' : St} (h : finishOp tgt o s = .ok r s') : o = .ok r := by
  cases o with
  | ok r' => rw [(setRes_ok h).1]
  | err msg r' =>
    unfold finishOp at h
    obtain ⟨_, _, _, h⟩ := bind_ok h
    exact absurd h refuse_not_ok
  | ub u => cases h
  | hang => cases h

theorem op2_flags {op : Op2} {p a r : Result} (h : applyOp2 op p a = .ok r) : r.flags = p.flags.or a.flags := by
  have ab : ∀ {k : Result → OpRes}, (∀ x r, k x = .ok r → r.flags = x.flags) → absolute2 p a k = .ok r → r.flags = p.flags.or a.flags := by
    intro k hk h
    unfold absolute2 at h
    split at h
    · cases h
    · split at h
      · cases h
      · exact hk _ _ h
  have op : ∀ {x r : Result} {o : Option Word}, ofOpt x o = .ok r → r.flags = x.flags := by
    intro x r o h
    cases o <;> cases h
    rfl
  unfold applyOp2 at h
  split at h
  · split at h
    · cases h
    · dsimp only at h
      repeat' split at h
      all_goals cases h
      all_goals rfl
  · dsimp only at h
    repeat' split at h
    · exact op h
    · exact op h
    · unfold regRange at h
      repeat' split at h
      all_goals cases h
    · cases h
  · exact ab (fun _ _ => op) h
  · refine ab (fun x r h => ?_) h
    repeat' split at h
    all_goals cases h
    all_goals rfl
  · dsimp only at h
    repeat' split at h
    all_goals cases h
    rfl
  · exact ab (fun x r h => by cases h; rfl) h
  · exact ab (fun x r h => by cases h; rfl) h
  · exact ab (fun x r h => by cases h; rfl) h
  · refine ab (fun x r h => ?_) h
    split at h <;> cases h
    rfl
  · refine ab (fun x r h => ?_) h
    split at h <;> cases h
    rfl
  · refine ab (fun x r h => ?_) h
    dsimp only at h
    split at h <;> cases h
    rfl

theorem op1_flags {op : Op1} {p r : Result} (h : applyOp1 op p = .ok r) : r.flags = p.flags := by
  unfold applyOp1 at h
  repeat' split at h
  all_goals cases h
  all_goals rfl

theorem does_ok {o : OpRes} {v : Except Spec.Why Int} {m : Int} {u : Bool} {r : Result} (h : OpDoes o v m u) (ho : o = .ok r) :
    r.type = .absolute ∧ v = .ok r.value.toInt := by
  subst ho
  cases v with
  | ok x =>
    obtain ⟨r', h1, h2, h3, -⟩ := h
    cases h1
    exact ⟨h2, by rw [h3]⟩
  | error w => cases w <;> cases h

theorem one_tells {P : Prop} {n : Nat} {tgt : Bool} {op : Spec.UnOp} {R : Str} {s : St} {v : Except Spec.Why Int} {f : Bool}
    (h : Tells P (parse2 n tgt R s) v f) : Tells P (one (parse2 n) tgt (Spec.UnOp.op op) R s) (v >>= op.eval) f := by
  intro r s' e
  unfold one at e
  obtain ⟨p, s1, h1, h2⟩ := bind_ok e
  obtain ⟨t1, t2⟩ := h p s1 h1
  have h2 := finishOp_ok h2
  obtain ⟨d1, d2⟩ := does_ok (op1_does op t1) h2
  refine ⟨d1, fun hP => ?_⟩
  obtain ⟨e1, e2⟩ := t2 hP
  rw [e1, op1_flags h2]
  exact ⟨d2, e2⟩

theorem both_tells {P : Prop} {n : Nat} {tgt : Bool} {op : Spec.BinOp} {Ra Rb : Str} {s : St} {v w : Except Spec.Why Int} {f g : Bool}
    (ha : Tells P (parse2 n tgt Ra s) v f) (hb : ∀ r s', parse2 n tgt Ra s = .ok r s' → Tells P (parse2 n false Rb s') w g) :
    Tells P (both (parse2 n) tgt (Spec.BinOp.op op) Rb Ra s) (do let x ← v; let y ← w; op.eval x y) (f || g) := by
  intro r s' e
  unfold both at e
  obtain ⟨p, s1, h1, h2⟩ := bind_ok e
  obtain ⟨a, s2, h2, h3⟩ := bind_ok h2
  obtain ⟨t1, t2⟩ := ha p s1 h1
  obtain ⟨u1, u2⟩ := hb p s1 h1 a s2 h2
  have h3 := finishOp_ok h3
  obtain ⟨d1, d2⟩ := does_ok (op2_does op t1 u1) h3
  refine ⟨d1, fun hP => ?_⟩
  obtain ⟨e1, e2⟩ := t2 hP
  obtain ⟨f1, f2⟩ := u2 hP
  rw [e1, f1, op2_flags h3]
  refine ⟨d2, ?_⟩
  show (p.flags.forward || a.flags.forward) = _
  rw [e2, f2]

theorem label_tells {P : Prop} {keys : Str → Prop} {t : Str} (h : Leaf t) {n : Nat} {tgt : Bool} {s : St} (hp : Numeric keys s)
    (hk : ¬ keys (canon s.segment t)) {x : Int} {f : Bool}
    (hv : P → Shows (searchlabel s t) x f) :
    Tells P (parse2 (n + 1) tgt t.reverse s) (.ok x) f := by
  obtain ⟨b, this⟩ := leaf_start (n := n) (tgt := tgt) h s
  refine .toward this ?_
  intro r s' e
  unfold parseLeaf at e
  rw [if_pos h.check] at e
  unfold cstlabel at e
  obtain ⟨l, s1, h1, h2⟩ := bind_ok e
  obtain ⟨r', s2, h2, h3⟩ := bind_ok h2
  have hq := (setRes_ok h2).1
  have hp1 := (show Numeric keys { s with bufpos := b } from ⟨hp.star, hp.rel, hp.abs⟩).walkN (m := findlabel t) W.walk h1
  have hl : s1.tree.find (canon s.segment t) = some l ∧ (P → l.value.toInt = x ∧ l.flags.forward = f) := by
    unfold findlabel at h1
    rw [getS_bind_run] at h1
    unfold searchlabel at h1 hv
    dsimp only at h1
    cases hs : s.tree.find (canon s.segment t) with
    | none =>
      rw [hs] at h1 hv
      cases h1
      refine ⟨Tree.find_put_self _ _ _, fun hP => ?_⟩
      obtain ⟨rfl, rfl⟩ := hv hP
      exact ⟨rfl, rfl⟩
    | some q =>
      rw [hs] at h1 hv
      cases h1
      refine ⟨Tree.find_put_self _ _ _, fun hP => ?_⟩
      exact hv hP
  by_cases hu : (l.flags.undef && !l.flags.forward) = true
  · rw [if_pos hu] at h3
    exact absurd h3 error_not_ok
  · rw [if_neg hu] at h3
    cases h3
    have hd : l.flags.undef = false ∨ l.flags.forward = true := by
      revert hu
      cases l.flags.undef <;> cases l.flags.forward <;> simp
    rw [hq]
    refine ⟨hp1.abs _ l hk hl.1 hd, fun hP => ?_⟩
    obtain ⟨h1, h2⟩ := hl.2 hP
    exact ⟨by rw [h1], h2⟩

theorem num_tells {P : Prop} {b : Nat} {ds t : Str} {v : Nat} (hw : Spec.Writes b ds t) (hne : ds ≠ []) (hn : Spec.number b ds = some v) (hlt : v < 2 ^ 32)
    {n : Nat} {tgt : Bool} {s : St} : Tells P (parse2 (n + 1) tgt t.reverse s) (.ok v) false := by
  have hp := (writes_plain hw hne fun c hc => plain_x (number_digits hn c hc).1).2
  have hr : ∀ c ∈ t.reverse, plainChar c = true := fun c hc => hp c (List.mem_reverse.1 hc)
  have := parse2_leaf (n := n) (tgt := tgt) hr s
  rw [creverse_plain (plain_quote hr), List.reverse_reverse] at this
  refine .toward this ?_
  obtain ⟨k, h3⟩ := const_leaf hw hne hn tgt s
  have hl : v < Spec.limit b := by unfold Spec.limit; split <;> omega
  rw [if_pos hl] at h3
  refine .toward h3 ?_
  intro r s' e
  obtain ⟨r', e', h4, h5, h6, h7⟩ := cst_run tgt v { s with bufpos := k }
  have e := e'.symm.trans e
  cases e
  refine ⟨h4, fun _ => ⟨?_, by rw [h6]⟩⟩
  rw [h5, BitVec.toInt_eq_toNat_cond, BitVec.toNat_ofNat, Nat.mod_eq_of_lt (by omega), if_pos (by omega)]

theorem text_tells {P : Prop} {keys : Str → Prop} {k : Spec.Level} {e : Spec.Expr} {t : Str} (h : Spec.Text k e t) (ρ : Str → Int) (φ : Str → Bool) :
    ∀ n tgt s, t.length < n → Numeric keys s → Outside keys s e.names → Values P s ρ φ e.names →
      Tells P (parse2 n tgt t.reverse s) (e.eval ρ) (e.names.any φ) := by
  have succ : ∀ {m n : Nat}, m < n → ∃ n', n = n' + 1 := fun {m n} h => ⟨n - 1, by omega⟩
  induction h with
  | num hw hne hn hlt =>
    intro n tgt s hl _ _ _
    obtain ⟨n, rfl⟩ := succ hl
    exact num_tells hw hne hn hlt
  | @label k t h =>
    intro n tgt s hl hp hk hv
    obtain ⟨n, rfl⟩ := succ hl
    have := label_tells (P := P) (x := ρ t) (f := φ t) (.inl h) (n := n) (tgt := tgt) hp (hk t (by simp [Spec.Expr.names]))
      fun hP => hv hP t (by simp [Spec.Expr.names])
    simpa [Spec.Expr.names, Spec.Expr.eval] using this
  | @here k _ =>
    intro n tgt s hl hp hk hv
    obtain ⟨n, rfl⟩ := succ hl
    have := label_tells (P := P) (x := ρ ['*']) (f := φ ['*']) (.inr rfl) (n := n) (tgt := tgt) hp (hk ['*'] (by simp [Spec.Expr.names]))
      fun hP => hv hP ['*'] (by simp [Spec.Expr.names])
    simpa [Spec.Expr.names, Spec.Expr.eval] using this
  | @bin k op a b ta tb b1 b2 _ _ ha hb h1 h2 iha ihb =>
    intro n tgt s hl hp hk hv
    obtain ⟨n, rfl⟩ := succ hl
    have la : 0 < ta.length := List.length_pos_iff.2 (by simpa using (text_shape ha).1.ne)
    have lb : 0 < tb.length := List.length_pos_iff.2 (by simpa using (text_shape hb).1.ne)
    simp only [List.length_append] at hl
    obtain ⟨w, hw⟩ := text_split (n := n) (tgt := tgt) (op := op) ha hb h1 h2 s
    have e : (ta ++ (b1 ++ (op.sym ++ (b2 ++ tb)))).reverse =
        tb.reverse ++ (b2.reverse ++ (op.sym.reverse ++ (b1.reverse ++ ta.reverse))) := by simp
    rw [e]
    refine .toward hw ?_
    have ea : (Spec.Expr.bin op a b).names.any φ = (a.names.any φ || b.names.any φ) := by simp [Spec.Expr.names]
    rw [ea]
    refine both_tells (iha n tgt _ (by omega) ⟨hp.star, hp.rel, hp.abs⟩ (fun x hx => hk x (by simp [Spec.Expr.names, hx]))
      (fun hP x hx => hv hP x (by simp [Spec.Expr.names, hx]))) fun r s' hr => ?_
    have g := nwalk_gen (walk_parse2 n tgt _) hr
    refine ihb n false s' (by omega) (Numeric.walkN (walk_parse2 n tgt _) hr ⟨hp.star, hp.rel, hp.abs⟩) ?_ (Values.gen ?_ g)
    · intro x hx
      rw [g.segment]
      exact hk x (by simp [Spec.Expr.names, hx])
    · exact fun hP x hx => hv hP x (by simp [Spec.Expr.names, hx])
  | @neg k a ta b1 _ _ ha h1 ih =>
    intro n tgt s hl hp hk hv
    obtain ⟨n, rfl⟩ := succ hl
    simp only [List.length_append, List.length_cons] at hl
    obtain ⟨w, hw⟩ := text_minus (n := n) (tgt := tgt) ha h1 s
    have e : ('-' :: (b1 ++ ta)).reverse = ta.reverse ++ (b1.reverse ++ ['-']) := by simp
    rw [e]
    exact .toward hw (one_tells (op := .neg) (ih n tgt _ (by omega) ⟨hp.star, hp.rel, hp.abs⟩ hk hv))
  | @not k a ta b1 _ ha h1 ih =>
    intro n tgt s hl hp hk hv
    obtain ⟨n, rfl⟩ := succ hl
    simp only [List.length_append, List.length_cons] at hl
    obtain ⟨w, hw⟩ := text_not (n := n) (tgt := tgt) ha h1 s
    have e : ('~' :: (b1 ++ ta)).reverse = ta.reverse ++ (b1.reverse ++ ['~']) := by simp
    rw [e]
    exact .toward hw (one_tells (op := .not) (ih n tgt _ (by omega) ⟨hp.star, hp.rel, hp.abs⟩ hk hv))
  | @lo k k' a t b0 b1 b2 l o hl ho ha h0 h1 h2 ih =>
    intro n tgt s hln hp hk hv
    obtain ⟨n, rfl⟩ := succ hln
    simp only [List.length_append, List.length_cons, List.length_nil] at hln
    obtain ⟨w, hw⟩ := parse2_lo (n := n) (tgt := tgt) hl ho (text_shape ha).1 (blank_of h0) (blank_of h2) (blank_of h1) s
    have e : (l :: o :: (b0 ++ '(' :: (b1 ++ (t ++ (b2 ++ [')']))))).reverse =
        ')' :: (b2.reverse ++ (t.reverse ++ (b1.reverse ++ '(' :: (b0.reverse ++ [o, l])))) := by simp
    rw [e]
    exact .toward hw (one_tells (op := .lo) (ih n tgt _ (by omega) ⟨hp.star, hp.rel, hp.abs⟩ hk hv))
  | @hi k k' a t b0 b1 b2 l o hl ho ha h0 h1 h2 ih =>
    intro n tgt s hln hp hk hv
    obtain ⟨n, rfl⟩ := succ hln
    simp only [List.length_append, List.length_cons, List.length_nil] at hln
    obtain ⟨w, hw⟩ := parse2_hi (n := n) (tgt := tgt) hl ho (text_shape ha).1 (blank_of h0) (blank_of h2) (blank_of h1) s
    have e : (l :: o :: (b0 ++ '(' :: (b1 ++ (t ++ (b2 ++ [')']))))).reverse =
        ')' :: (b2.reverse ++ (t.reverse ++ (b1.reverse ++ '(' :: (b0.reverse ++ [o, l])))) := by simp
    rw [e]
    exact .toward hw (one_tells (op := .hi) (ih n tgt _ (by omega) ⟨hp.star, hp.rel, hp.abs⟩ hk hv))
  | @paren k k' a t b1 b2 ha h1 h2 ih =>
    intro n tgt s hln hp hk hv
    obtain ⟨n, rfl⟩ := succ hln
    simp only [List.length_append, List.length_cons, List.length_nil] at hln
    obtain ⟨w, hw⟩ := parse2_paren (n := n) (tgt := tgt) (text_shape ha).1 (blank_of h2) (blank_of h1) s
    have e : ('(' :: (b1 ++ (t ++ (b2 ++ [')'])))).reverse = ')' :: (b2.reverse ++ (t.reverse ++ (b1.reverse ++ ['(']))) := by simp
    rw [e]
    exact .toward hw (ih n tgt _ (by omega) ⟨hp.star, hp.rel, hp.abs⟩ hk hv)

/-- An operand that is an expression in names outside of `keys`, when it has a value, is a number: the value of the
    expression if the names have the values `ρ`, and marked as depending on later definitions if one of the names is. -/
theorem parse_tells {P : Prop} {keys : Str → Prop} {k : Spec.Level} {e : Spec.Expr} {t : Str} (h : Spec.Text k e t) {ρ : Str → Int} {φ : Str → Bool}
    {s s' : St} {r : Result} (hp : Numeric keys s) (hk : Outside keys s e.names) (hv : Values P s ρ φ e.names)
    (hr : parse (some t) s = .ok r s') : r.type = .absolute ∧ (P → e.eval ρ = .ok r.value.toInt ∧ r.flags.forward = e.names.any φ) := by
  have hs := (text_shape h).1
  obtain ⟨l, k, hl⟩ := parse_start (t := t) (by simpa using hs.ne) (fun c hc => hs.quotes c (List.mem_reverse.2 hc)) s
  exact Tells.toward hl (text_tells (s := { s with lst := l, bufpos := k }) h ρ φ _ true (by omega) ⟨hp.star, hp.rel, hp.abs⟩ hk hv) r s' hr

/-! ### What a successful evaluation says about the names -/

/-- The name, if it is known, is defined or marked as defined later. -/
def Met (s : St) (k : Str) : Prop := ∀ l, s.tree.find k = some l → l.flags.undef = false ∨ l.flags.forward = true

theorem Met.back {s s' : St} {k : Str} (h : Met s' k) (ha : Alike s.tree s'.tree) : Met s k := by
  intro l hl
  obtain ⟨l', h1, h2⟩ := ha.some hl
  rw [← h2.undef.1, ← h2.undef.2]
  exact h l' h1

theorem label_met {t : Str} (h : Leaf t) {n : Nat} {tgt : Bool} {s s' : St} {r : Result}
    (e : parse2 (n + 1) tgt t.reverse s = .ok r s') : Met s (canon s.segment t) := by
  obtain ⟨b, this⟩ := leaf_start (n := n) (tgt := tgt) h s
  rcases this with this | ⟨_, this⟩
  rotate_left
  · rw [this] at e; cases e
  rw [this] at e
  unfold parseLeaf at e
  rw [if_pos h.check] at e
  unfold cstlabel at e
  obtain ⟨l, s1, h1, h2⟩ := bind_ok e
  obtain ⟨r', s2, h2, h3⟩ := bind_ok h2
  intro q hq
  have hl : l.flags.undef = q.flags.undef ∧ l.flags.forward = q.flags.forward := by
    unfold findlabel searchlabel at h1
    rw [getS_bind_run] at h1
    dsimp only at h1
    rw [hq] at h1
    cases h1
    exact ⟨rfl, rfl⟩
  by_cases hu : (l.flags.undef && !l.flags.forward) = true
  · rw [if_pos hu] at h3
    exact absurd h3 error_not_ok
  · rw [← hl.1, ← hl.2]
    revert hu
    cases l.flags.undef <;> cases l.flags.forward <;> simp

theorem one_met {n : Nat} {tgt : Bool} {op : Op1} {R : Str} {s s' : St} {r : Result} (e : one (parse2 n) tgt op R s = .ok r s') :
    ∃ r' s', parse2 n tgt R s = .ok r' s' := by
  unfold one at e
  obtain ⟨p, s1, h1, h2⟩ := bind_ok e
  exact ⟨p, s1, h1⟩

theorem text_met {k : Spec.Level} {e : Spec.Expr} {t : Str} (h : Spec.Text k e t) :
    ∀ n tgt s r s', t.length < n → parse2 n tgt t.reverse s = .ok r s' → ∀ x ∈ e.names, Met s (canon s.segment x) := by
  have succ : ∀ {m n : Nat}, m < n → ∃ n', n = n' + 1 := fun {m n} h => ⟨n - 1, by omega⟩
  have tow : ∀ {m m' : Res Result} {r s'}, Toward m m' → m = .ok r s' → m' = .ok r s' := by
    intro m m' r s' h e
    rcases h with rfl | ⟨t, h⟩
    · exact e
    · rw [h] at e; cases e
  induction h with
  | num hw hne hn hlt => intro n tgt s r s' _ _ x hx; cases hx
  | @label k t h =>
    intro n tgt s r s' hl he x hx
    obtain ⟨n, rfl⟩ := succ hl
    rw [List.mem_singleton.1 hx]
    exact label_met (.inl h) he
  | @here k _ =>
    intro n tgt s r s' hl he x hx
    obtain ⟨n, rfl⟩ := succ hl
    rw [List.mem_singleton.1 hx]
    exact label_met (.inr rfl) he
  | @bin k op a b ta tb b1 b2 _ _ ha hb h1 h2 iha ihb =>
    intro n tgt s r s' hl he x hx
    obtain ⟨n, rfl⟩ := succ hl
    have la : 0 < ta.length := List.length_pos_iff.2 (by simpa using (text_shape ha).1.ne)
    have lb : 0 < tb.length := List.length_pos_iff.2 (by simpa using (text_shape hb).1.ne)
    simp only [List.length_append] at hl
    obtain ⟨w, hw⟩ := text_split (n := n) (tgt := tgt) (op := op) ha hb h1 h2 s
    have e : (ta ++ (b1 ++ (op.sym ++ (b2 ++ tb)))).reverse =
        tb.reverse ++ (b2.reverse ++ (op.sym.reverse ++ (b1.reverse ++ ta.reverse))) := by simp
    rw [e] at he
    have he := tow hw he
    unfold both at he
    obtain ⟨p, s1, h3, he⟩ := bind_ok he
    obtain ⟨a', s2, h4, he⟩ := bind_ok he
    rcases List.mem_append.1 (show x ∈ a.names ++ b.names from hx) with hx | hx
    · exact iha n tgt _ p s1 (by omega) h3 x hx
    · have g := nwalk_gen (walk_parse2 n tgt _) h3
      have := ihb n false s1 a' s2 (by omega) h4 x hx
      rw [g.segment] at this
      exact this.back (s := { s with bufpos := w }) g.tree
  | @neg k a ta b1 _ _ ha h1 ih =>
    intro n tgt s r s' hl he x hx
    obtain ⟨n, rfl⟩ := succ hl
    simp only [List.length_append, List.length_cons] at hl
    obtain ⟨w, hw⟩ := text_minus (n := n) (tgt := tgt) ha h1 s
    have e : ('-' :: (b1 ++ ta)).reverse = ta.reverse ++ (b1.reverse ++ ['-']) := by simp
    rw [e] at he
    obtain ⟨_, _, he⟩ := one_met (tow hw he)
    exact ih n tgt _ _ _ (by omega) he x hx
  | @not k a ta b1 _ ha h1 ih =>
    intro n tgt s r s' hl he x hx
    obtain ⟨n, rfl⟩ := succ hl
    simp only [List.length_append, List.length_cons] at hl
    obtain ⟨w, hw⟩ := text_not (n := n) (tgt := tgt) ha h1 s
    have e : ('~' :: (b1 ++ ta)).reverse = ta.reverse ++ (b1.reverse ++ ['~']) := by simp
    rw [e] at he
    obtain ⟨_, _, he⟩ := one_met (tow hw he)
    exact ih n tgt _ _ _ (by omega) he x hx
  | @lo k k' a t b0 b1 b2 l o hl ho ha h0 h1 h2 ih =>
    intro n tgt s r s' hln he x hx
    obtain ⟨n, rfl⟩ := succ hln
    simp only [List.length_append, List.length_cons, List.length_nil] at hln
    obtain ⟨w, hw⟩ := parse2_lo (n := n) (tgt := tgt) hl ho (text_shape ha).1 (blank_of h0) (blank_of h2) (blank_of h1) s
    have e : (l :: o :: (b0 ++ '(' :: (b1 ++ (t ++ (b2 ++ [')']))))).reverse =
        ')' :: (b2.reverse ++ (t.reverse ++ (b1.reverse ++ '(' :: (b0.reverse ++ [o, l])))) := by simp
    rw [e] at he
    obtain ⟨_, _, he⟩ := one_met (tow hw he)
    exact ih n tgt _ _ _ (by omega) he x hx
  | @hi k k' a t b0 b1 b2 l o hl ho ha h0 h1 h2 ih =>
    intro n tgt s r s' hln he x hx
    obtain ⟨n, rfl⟩ := succ hln
    simp only [List.length_append, List.length_cons, List.length_nil] at hln
    obtain ⟨w, hw⟩ := parse2_hi (n := n) (tgt := tgt) hl ho (text_shape ha).1 (blank_of h0) (blank_of h2) (blank_of h1) s
    have e : (l :: o :: (b0 ++ '(' :: (b1 ++ (t ++ (b2 ++ [')']))))).reverse =
        ')' :: (b2.reverse ++ (t.reverse ++ (b1.reverse ++ '(' :: (b0.reverse ++ [o, l])))) := by simp
    rw [e] at he
    obtain ⟨_, _, he⟩ := one_met (tow hw he)
    exact ih n tgt _ _ _ (by omega) he x hx
  | @paren k k' a t b1 b2 ha h1 h2 ih =>
    intro n tgt s r s' hln he x hx
    obtain ⟨n, rfl⟩ := succ hln
    simp only [List.length_append, List.length_cons, List.length_nil] at hln
    obtain ⟨w, hw⟩ := parse2_paren (n := n) (tgt := tgt) (text_shape ha).1 (blank_of h2) (blank_of h1) s
    have e : ('(' :: (b1 ++ (t ++ (b2 ++ [')'])))).reverse = ')' :: (b2.reverse ++ (t.reverse ++ (b1.reverse ++ ['(']))) := by simp
    rw [e] at he
    exact ih n tgt _ _ _ (by omega) (tow hw he) x hx

/-- No name in an expression that has a value is unknown for good. -/
theorem parse_met {k : Spec.Level} {e : Spec.Expr} {t : Str} (h : Spec.Text k e t) {s s' : St} {r : Result} (hr : parse (some t) s = .ok r s') :
    ∀ x ∈ e.names, Met s (canon s.segment x) := by
  have hs := (text_shape h).1
  obtain ⟨l, k, hl⟩ := parse_start (t := t) (by simpa using hs.ne) (fun c hc => hs.quotes c (List.mem_reverse.2 hc)) s
  rcases hl with hl | ⟨_, hl⟩
  · rw [hl] at hr
    exact text_met h _ true { s with lst := l, bufpos := k } r s' (by omega) hr
  · rw [hl] at hr; cases hr

end Crasm

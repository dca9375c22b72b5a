import Verif.Props.C11

/-!
  **C12** Sums and differences associate to the left.
-/

namespace Crasm

theorem ltr_append (v : Int) (l l' : List (Bool × Int)) :
    Spec.leftToRight v (l ++ l') = Spec.leftToRight (Spec.leftToRight v l) l' := by
  induction l generalizing v with
  | nil => rfl
  | cons p l ih => obtain ⟨m, w⟩ := p; exact ih _

theorem ltr_shift (v w : Int) (l : List (Bool × Int)) : Spec.leftToRight (v + w) l = v + Spec.leftToRight w l := by
  induction l generalizing w with
  | nil => rfl
  | cons p l ih =>
    obtain ⟨m, x⟩ := p
    simp only [Spec.leftToRight]
    rw [← ih]
    congr 1
    cases m <;> simp <;> omega

theorem ltr_bound (v : Int) (l : List (Bool × Int)) : (Spec.leftToRight v l).natAbs ≤ Spec.magnitude v l := by
  induction l generalizing v with
  | nil => exact Nat.le_refl _
  | cons p l ih =>
    obtain ⟨m, w⟩ := p
    simp only [Spec.leftToRight, Spec.magnitude]
    have h : ∀ (u v : Int) (l : List (Bool × Int)), Spec.magnitude (u + v) l ≤ u.natAbs + Spec.magnitude v l := by
      intro u v l
      induction l with
      | nil => simp only [Spec.magnitude]; omega
      | cons p l ih => obtain ⟨m, w⟩ := p; simp only [Spec.magnitude]; omega
    refine Nat.le_trans (ih _) ?_
    cases m
    · have := h w v l
      rw [Int.add_comm] at this
      simpa using this
    · have := h (-w) v l
      rw [Int.natAbs_neg, show -w + v = v - w by omega] at this
      simpa using this

theorem mag_append (v w : Int) (m : Bool) (l l' : List (Bool × Int)) :
    Spec.magnitude v (l ++ (m, w) :: l') = Spec.magnitude v l + Spec.magnitude w l' := by
  have h : ∀ (l : List (Bool × Int)) (v : Int), Spec.magnitude v l = v.natAbs + Spec.magnitude 0 l := by
    intro l
    induction l with
    | nil => intro v; simp [Spec.magnitude]
    | cons p l ih => intro v; obtain ⟨m, w⟩ := p; simp only [Spec.magnitude]; rw [ih v]; omega
  induction l with
  | nil => simp only [List.nil_append, Spec.magnitude]; rw [h l' v, h l' w]; omega
  | cons p l ih => obtain ⟨m, w⟩ := p; simp only [List.cons_append, Spec.magnitude]; rw [ih]; omega

/-! ## Shape -/

theorem sum_rev {t b1 b2 te : Str} {c : Char} : (t ++ (b1 ++ c :: (b2 ++ te))).reverse =
    te.reverse ++ (b2.reverse ++ ([c] ++ (b1.reverse ++ t.reverse))) := by simp

/-- A top-level character of two texts and an operator. -/
theorem join_noTop {c x : Char} {Ra Rb b1 b2 : Str} (hc : c ∈ opChars) (hx : x = '+' ∨ x = '-') (hcx : c ≠ x)
    (ha : NoTop c Quote.zero Ra) (hb : NoTop c Quote.zero Rb) (hr : RPart Rb) (h1 : Blank b1) (h2 : Blank b2) :
    NoTop c Quote.zero (Rb ++ (b2 ++ ([x] ++ (b1 ++ Ra)))) := by
  have hcb : isblank c = false := by clear hcx ha hb; revert hc; revert c; decide
  have hs : RPart [x] := .plain (by rcases hx with rfl | rfl <;> decide)
  refine hb.append ?_
  rw [hr.zero]
  refine (NoTop.blank hcb h2).append ?_
  rw [run_blank h2]
  refine (noTop_plain (by simpa using hcx) hc).append ?_
  rw [hs.zero]
  refine (NoTop.blank hcb h1).append ?_
  rw [run_blank h1]
  exact ha

theorem sum_shape {ρ : Str → Int} {names : List Str} {v : Int} {l : List (Bool × Int)} {t : Str} (h : Spec.Sum ρ names v l t) :
    RText t.reverse ∧ (∀ c ∈ opChars, c ≠ '+' → c ≠ '-' → NoTop c Quote.zero t.reverse) ∧
      ((∀ p ∈ l, p.1 = true) → NoTop '+' Quote.zero t.reverse) := by
  induction h with
  | one h _ _ =>
    have := (text_shape h).2 rfl
    exact ⟨this.toRText, fun c hc _ _ => this.ops c hc, fun _ => this.ops _ (by decide)⟩
  | @more v rest t e te w b1 b2 minus _ h _ _ h1 h2 ih =>
    have hb := (text_shape h).2 rfl
    obtain ⟨i1, i2, i3⟩ := ih
    rw [sum_rev]
    have hm : (if minus = true then '-' else '+') = '+' ∨ (if minus = true then '-' else '+') = '-' := by
      cases minus <;> decide
    refine ⟨RText.join hb.toRText i1 (blank_of h1) (blank_of h2) (by cases minus <;> decide), fun c hc n1 n2 => ?_, fun hl => ?_⟩
    · refine join_noTop hc hm ?_ (i2 c hc n1 n2) (hb.ops c hc) hb.part (blank_of h1) (blank_of h2)
      cases minus <;> assumption
    · have : minus = true := hl (minus, w) (by simp)
      subst this
      exact join_noTop (by decide) hm (by decide) (i3 fun p hp => hl p (by simp [hp])) (hb.ops _ (by decide)) hb.part (blank_of h1) (blank_of h2)

/-- Either there is no `+` at all, or the text is split by its last `+`. -/
theorem sum_split {ρ : Str → Int} {names : List Str} {v : Int} {l : List (Bool × Int)} {t : Str} (h : Spec.Sum ρ names v l t) :
    (∀ p ∈ l, p.1 = true) ∨ ∃ l1 w l2 t1 t2 b1 b2, l = l1 ++ (false, w) :: l2 ∧ (∀ p ∈ l2, p.1 = true) ∧
      Spec.Sum ρ names v l1 t1 ∧ Spec.Sum ρ names w l2 t2 ∧ (∀ c ∈ b1, Spec.IsBlank c) ∧ (∀ c ∈ b2, Spec.IsBlank c) ∧
      t = t1 ++ (b1 ++ '+' :: (b2 ++ t2)) := by
  induction h with
  | one => exact .inl (by simp)
  | @more v rest t e te w b1 b2 minus hs h he hn h1 h2 ih =>
    cases minus with
    | false => exact .inr ⟨rest, w, [], t, te, b1, b2, rfl, by simp, hs, .one h he hn, h1, h2, rfl⟩
    | true =>
      rcases ih with ih | ⟨l1, w', l2, t1, t2, c1, c2, rfl, i1, i2, i3, i4, i5, rfl⟩
      · refine .inl fun p hp => ?_
        rcases List.mem_append.1 hp with hp | hp
        · exact ih p hp
        · rw [List.mem_singleton] at hp; subst hp; rfl
      · refine .inr ⟨l1, w', l2 ++ [(true, w)], t1, _, c1, c2, by simp, ?_, i2, .more true i3 h he hn h1 h2, i4, i5, by simp⟩
        intro p hp
        rcases List.mem_append.1 hp with hp | hp
        · exact i1 p hp
        · rw [List.mem_singleton] at hp; subst hp; rfl

/-! ## The parser -/

/-- The last `+` is where the text is split, whatever stands before it. -/
theorem parse2_plus {n : Nat} {tgt : Bool} {Ra Rb b1 b2 : Str} (ha : RText Ra) (hb : RText Rb) (h1 : Blank b1) (h2 : Blank b2)
    (hp : NoTop '+' Quote.zero Rb) (hr : NoTop '\\' Quote.zero (Rb ++ (b2 ++ ('+' :: (b1 ++ Ra))))) (s : St) :
    ∃ b, Toward (parse2 (n + 1) tgt (Rb ++ (b2 ++ ('+' :: (b1 ++ Ra)))) s) (both (parse2 n) tgt .add Rb Ra { s with bufpos := b }) := by
  obtain ⟨w, k, hf, -⟩ := filter_sep (c := '+') (x := '+') (a := Rb) (bl := b2) (r := b1 ++ Ra) (by decide) (by decide) (by decide)
    hp hb.part.zero hb.trail h2 (by decide)
  rw [skipBlanks_append h1, ha.lead.skip] at hf
  obtain ⟨r, b, hm⟩ := toward_any2 (Rb ++ (b2 ++ ('+' :: (b1 ++ Ra)))) c!"?_-_?" { s with bufpos := s.bufpos + w }
  refine ⟨b, ?_⟩
  rw [parse2]
  refine (rows_dya (fun p hp => ?_) s).trans ?_
  · rw [List.mem_singleton] at hp; subst hp
    exact filter_wild (c := '\\') rfl (by decide) hr
  rw [parseRows]
  refine Toward.bind (a := some (Rb, Ra, .add)) (s' := { s with bufpos := b }) ?_ ?_
  · rw [firstMatch]
    refine Toward.bind (toward_filter2 hf s) ?_
    refine Toward.bind (a := match r with | some (ca, cb) => some (ca, cb, .sub) | none => none) (s' := { s with bufpos := b }) ?_ (.refl _)
    rw [firstMatch]
    refine Toward.bind hm ?_
    cases r with
    | none => exact .refl _
    | some r => obtain ⟨x, y⟩ := r; exact .refl _
  · simp only [ha.ne, hb.ne, or_self, if_false]
    exact .refl _

/-- Without `+`, the last `-` is. -/
theorem parse2_minus {n : Nat} {tgt : Bool} {Ra Rb b1 b2 : Str} (ha : RText Ra) (hb : RTok Rb) (h1 : Blank b1) (h2 : Blank b2)
    (hp : NoTop '+' Quote.zero (Rb ++ (b2 ++ ('-' :: (b1 ++ Ra))))) (hr : NoTop '\\' Quote.zero (Rb ++ (b2 ++ ('-' :: (b1 ++ Ra))))) (s : St) :
    ∃ b, Toward (parse2 (n + 1) tgt (Rb ++ (b2 ++ ('-' :: (b1 ++ Ra)))) s) (both (parse2 n) tgt .sub Rb Ra { s with bufpos := b }) := by
  obtain ⟨w, k, hf⟩ := op_hit (op := .sub) ha hb h1 h2
  refine ⟨s.bufpos + w, ?_⟩
  rw [parse2]
  refine (rows_dya (fun p hp => ?_) s).trans ?_
  · rw [List.mem_singleton] at hp; subst hp
    exact filter_wild (c := '\\') rfl (by decide) hr
  refine rows_hit (pre := [(c!"?_+_?", Op2.add)]) (post := []) rfl ?_ (by simp) hf hb.ne ha.ne s
  intro p hp'
  rw [List.mem_singleton] at hp'; subst hp'
  exact filter_wild (c := '+') rfl (by decide) hp

theorem fit_of {x : Int} {m : Nat} (h : x.natAbs ≤ m) (hm : m < 2 ^ 63) : Spec.fit x = .ok x := fit_ok (by omega)

theorem sum_gives {z : Prop} {ρ : Str → Int} {names : List Str} : ∀ (N : Nat) {v : Int} {l : List (Bool × Int)} {t : Str}, l.length < N →
    Spec.Sum ρ names v l t → Spec.magnitude v l < 2 ^ 63 →
    ∀ n tgt s, t.length < n → Knows z s ρ names → (z → s.calcR.modifier = 0) → Gives z (parse2 n tgt t.reverse s) (.ok (Spec.leftToRight v l)) := by
  intro N
  induction N with
  | zero => intro v l t h; omega
  | succ N ih =>
    intro v l t hN h hm n tgt s hn hk hz
    obtain ⟨n, rfl⟩ : ∃ n', n = n' + 1 := ⟨n - 1, by omega⟩
    have shape := sum_shape h
    rcases sum_split h with hl | ⟨l1, w, l2, t1, t2, b1, b2, rfl, i1, i2, i3, h1, h2, rfl⟩
    · cases h with
      | one h he hx =>
        have := text_gives h ρ (n + 1) tgt s hn (fun x hx' => hk x (hx x hx')) hz
        rw [he] at this
        exact this
      | @more v rest t e te w b1 b2 minus hs h he hx h1 h2 =>
        have : minus = true := hl (minus, w) (by simp)
        subst this
        have hb := (text_shape h).2 rfl
        rw [sum_rev] at shape ⊢
        simp only [if_true, List.length_append, List.length_cons] at hn shape ⊢
        simp only [List.length_append, List.length_cons, List.length_nil] at hN
        obtain ⟨k, hw⟩ := parse2_minus (n := n) (tgt := tgt) (sum_shape hs).1 hb (blank_of h1) (blank_of h2)
          (shape.2.2 hl) (shape.2.1 '\\' (by decide) (by decide) (by decide)) s
        refine .toward hw ?_
        rw [mag_append] at hm
        have := both_gives (op := .sub) (n := n) (tgt := tgt) (s := { s with bufpos := k }) (Rb := te.reverse) (w := .ok w)
          (ih (by omega) hs (by omega) n tgt { s with bufpos := k } (by omega) hk hz) fun r s' hr hz' => by
            have hk' := Knows.gen (s := { s with bufpos := k }) (names := names) (ρ := ρ) hk (nwalk_gen (walk_parse2 n tgt _) hr)
            have := text_gives h ρ n false s' (by omega) (fun x hx' => hk' x (hx x hx')) hz'
            rw [he] at this
            exact this
        rw [ltr_append]
        have e : (Except.ok (Spec.leftToRight v rest) >>= fun x => Except.ok w >>= fun y => Spec.BinOp.sub.eval x y) =
            .ok (Spec.leftToRight (Spec.leftToRight v rest) [(true, w)]) := by
          have := ltr_bound v rest
          change Spec.fit (Spec.leftToRight v rest - w) = .ok (Spec.leftToRight v rest - w)
          simp only [Spec.magnitude] at hm
          exact fit_ok (by omega)
        exact e ▸ this
    · rw [sum_rev] at shape ⊢
      simp only [List.length_append, List.length_cons] at hn hN
      have s1 := sum_shape i2
      have s2 := sum_shape i3
      obtain ⟨k, hw⟩ := parse2_plus (n := n) (tgt := tgt) s1.1 s2.1 (blank_of h1) (blank_of h2)
        (s2.2.2 i1) (shape.2.1 '\\' (by decide) (by decide) (by decide)) s
      refine .toward hw ?_
      rw [mag_append] at hm
      have := both_gives (op := .add) (n := n) (tgt := tgt) (s := { s with bufpos := k }) (Rb := t2.reverse) (w := .ok (Spec.leftToRight w l2))
        (ih (by omega) i2 (by omega) n tgt { s with bufpos := k } (by omega) hk hz) fun r s' hr hz' => by
          have hk' := Knows.gen (s := { s with bufpos := k }) (names := names) (ρ := ρ) hk (nwalk_gen (walk_parse2 n tgt _) hr)
          exact ih (by omega) i3 (by omega) n false s' (by omega) hk' hz'
      rw [ltr_append]
      have e : (Except.ok (Spec.leftToRight v l1) >>= fun x => Except.ok (Spec.leftToRight w l2) >>= fun y => Spec.BinOp.add.eval x y) =
          .ok (Spec.leftToRight (Spec.leftToRight v l1) ((false, w) :: l2)) := by
        have b1 := ltr_bound v l1
        have b2 := ltr_bound w l2
        change Spec.fit (Spec.leftToRight v l1 + Spec.leftToRight w l2) = .ok (Spec.leftToRight (Spec.leftToRight v l1 + w) l2)
        rw [ltr_shift]
        exact fit_ok (by omega)
      exact e ▸ this

/-- **C12**. A chain of terms joined by `+` and `-` has the value obtained by adding and subtracting from left to
    right.  (The terms may be anything that C11 allows as an operand.  The condition on the magnitudes excludes
    overflow; the pattern matcher may run out of its work buffer.) -/
theorem C12_value {ρ : Str → Int} {names : List Str} {v : Int} {l : List (Bool × Int)} {t : Str} (h : Spec.Sum ρ names v l t)
    (hm : Spec.magnitude v l < 2 ^ 63) (s : St)
    (hk : ∀ x ∈ names, ∃ l, searchlabel s x = some l ∧ l.flags.undef = false ∧ l.type = .absolute ∧ l.value.toInt = ρ x) :
    (∃ r s', parse (some t) s = .ok r s' ∧ r.type = .absolute ∧ r.value.toInt = Spec.leftToRight v l) ∨
      ∃ t', parse (some t) s = .stop (.ub .filterBuffer) t' := by
  have hs := (sum_shape h).1
  obtain ⟨b, k, hl⟩ := parse_start (t := t) (by simpa using hs.ne) (fun c hc => hs.quotes c (List.mem_reverse.2 hc)) s
  have g : Gives False (parse (some t) s) (.ok (Spec.leftToRight v l)) :=
    .toward hl (sum_gives _ (Nat.lt_succ_self _) h hm _ true { s with lst := b, bufpos := k } (by omega) (fun x hx => by
      obtain ⟨l, h1, h2, h3, h4⟩ := hk x hx
      exact ⟨l, h1, h2, h3, h4, False.elim⟩) False.elim)
  exact g.symm.imp_left fun ⟨r, s', h1, h2, h3, _⟩ => ⟨r, s', h1, h2, h3⟩

/-- For numeric constants, which are below 2^32, the condition on magnitudes holds up to 2^31 terms. -/
theorem C12_constants {v : Int} {l : List (Bool × Int)} (hv : 0 ≤ v ∧ v < 2 ^ 32) (hl : ∀ p ∈ l, 0 ≤ p.2 ∧ p.2 < 2 ^ 32) (hn : l.length < 2 ^ 31 - 1) :
    Spec.magnitude v l < 2 ^ 63 := by
  have : ∀ l : List (Bool × Int), (∀ p ∈ l, 0 ≤ p.2 ∧ p.2 < 2 ^ 32) → Spec.magnitude v l < 2 ^ 32 * (l.length + 1) := by
    intro l
    induction l with
    | nil => intro _; simp only [Spec.magnitude, List.length_nil]; omega
    | cons p l ih =>
      intro h
      obtain ⟨m, w⟩ := p
      have := ih fun q hq => h q (by simp [hq])
      have h1 := h (m, w) (by simp)
      simp only [Spec.magnitude, List.length_cons]
      simp only at h1
      omega
  have := this l hl
  omega

/-- The hypotheses are met: `9-3+4 - 5` is such a chain ... -/
example : Spec.Sum (fun _ => 0) [] 9 [(true, 3), (false, 4), (true, 5)] c!"9-3+4 - 5" ∧
    Spec.leftToRight 9 [(true, 3), (false, 4), (true, 5)] = 5 := by
  refine ⟨?_, rfl⟩
  have num : ∀ (c : Char) (n : Nat), Spec.number 10 [c] = some n → n < 2 ^ 32 → Spec.Text .tight (.num n) [c] := by
    intro c n h1 h2
    exact .num (b := 10) (ds := [c]) (.decimal _) (by simp) h1 h2
  have h1 : Spec.Sum (fun _ => 0) [] 9 [] c!"9" := .one (num '9' 9 rfl (by decide)) rfl (by simp [Spec.Expr.names])
  have h2 := Spec.Sum.more (b1 := []) (b2 := []) true h1 (num '3' 3 rfl (by decide)) rfl (by simp [Spec.Expr.names]) (by simp) (by simp)
  have h3 := Spec.Sum.more (b1 := []) (b2 := []) false h2 (num '4' 4 rfl (by decide)) rfl (by simp [Spec.Expr.names]) (by simp) (by simp)
  exact Spec.Sum.more (b1 := [' ']) (b2 := [' ']) true h3 (num '5' 5 rfl (by decide)) rfl (by simp [Spec.Expr.names])
    (by simp [Spec.IsBlank]) (by simp [Spec.IsBlank])

/-- ... and this is what the assembler makes of it. -/
example : (parse (some c!"9-3+4 - 5") (initSt { fs := fun _ => none } [])).value = some 5 := by decide +kernel

end Crasm

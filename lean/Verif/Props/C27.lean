import Verif.Spec.Compare
import Verif.Props.C12
import Verif.Proof.CodeInv

/-!
  **C27** IF evaluates its comparison correctly.
-/

namespace Crasm

/-! ## Texts of expressions are balanced -/

theorem _root_.Spec.Bal.append {allow : Char → Bool} {a b : Str} (ha : Spec.Bal allow a) (hb : Spec.Bal allow b) : Spec.Bal allow (a ++ b) := by
  induction ha with
  | nil => exact hb
  | plain allow c s h1 h2 h3 h4 h5 _ ih => exact .plain allow c _ h1 h2 h3 h4 h5 (ih hb)
  | paren allow t s h1 _ _ ih => rw [List.cons_append, List.append_assoc]; exact .paren allow t _ h1 (ih hb)
  | quoted allow q t s h1 h2 _ ih => rw [List.cons_append, List.append_assoc]; exact .quoted allow q t _ h1 h2 (ih hb)

theorem _root_.Spec.Bal.any {allow : Char → Bool} {a : Str} (ha : Spec.Bal allow a) : Spec.Bal (fun _ => true) a := by
  induction ha with
  | nil => exact .nil _
  | plain allow c s h1 h2 h3 h4 h5 _ ih => exact .plain _ c _ h1 h2 h3 h4 rfl ih
  | paren allow t s h1 _ _ ih => exact .paren _ t _ h1 ih
  | quoted allow q t s h1 h2 _ ih => exact .quoted _ q t _ h1 h2 ih

/-- The characters that no comparison contains. -/
def noCmp (c : Char) : Bool := !(c = '<' || c = '>' || c = '=' || c = '!')

/-- The characters of numbers, names, blanks and the other operators. -/
def calm (c : Char) : Bool := noCmp c && !(c = '\'' || c = '"' || c = '(' || c = ')')

theorem Bal.calm {a : Str} (h : ∀ c ∈ a, calm c = true) : Spec.Bal noCmp a := by
  induction a with
  | nil => exact .nil _
  | cons c a ih =>
    have hc := h c (by simp)
    unfold Crasm.calm at hc
    simp only [Bool.and_eq_true, Bool.not_eq_true', Bool.or_eq_false_iff, decide_eq_false_iff_not] at hc
    exact .plain _ c a hc.2.1.1.1 hc.2.1.1.2 hc.2.1.2 hc.2.2 hc.1 (ih fun x hx => h x (by simp [hx]))

theorem Bal.blank {a : Str} (h : ∀ c ∈ a, Spec.IsBlank c) : Spec.Bal noCmp a :=
  Bal.calm fun c hc => by rcases h c hc with rfl | rfl <;> rfl

theorem Bal.wrap {allow : Char → Bool} {a : Str} (ha : Spec.Bal (fun _ => true) a) : Spec.Bal allow ('(' :: (a ++ [')'])) :=
  .paren allow a [] ha (.nil _)

theorem calm_x {c : Char} (h : isxdigit c = true) : calm c = true := by
  have hk : ∀ k < 123, isxdigit (Char.ofNat k) = true → calm (Char.ofNat k) = true := by decide +kernel
  have hc : c.toNat < 123 := by
    simp only [isxdigit, isdigit, Bool.or_eq_true, Bool.and_eq_true, decide_eq_true_eq] at h
    omega
  have := hk c.toNat hc
  rw [Char.ofNat_toNat] at this
  exact this h

theorem calm_name {c : Char} (h : c.isAlphanum = true ∨ c = '_' ∨ c = '.') : calm c = true := by
  have key : ∀ k < 123, (Char.ofNat k).isAlphanum = true → calm (Char.ofNat k) = true := by decide +kernel
  rcases h with h | rfl | rfl
  · have := key c.toNat (alpha_range h)
    rw [Char.ofNat_toNat] at this
    exact this h
  · rfl
  · rfl

theorem writes_calm {b : Nat} {ds t : Str} (hw : Spec.Writes b ds t) (hp : ∀ c ∈ ds, calm c = true) : ∀ c ∈ t, calm c = true := by
  intro c hc
  cases hw with
  | decimal => exact hp c hc
  | dollar | percent =>
    rcases List.mem_cons.1 hc with rfl | hc
    · decide
    · exact hp c hc
  | zeroX _ x h | zeroB _ x h =>
    rcases List.mem_cons.1 hc with rfl | hc
    · decide
    · rcases List.mem_cons.1 hc with rfl | hc
      · rcases h with rfl | rfl <;> decide
      · exact hp c hc
  | octal _ x h | suffixB _ x h =>
    rcases List.mem_append.1 hc with hc | hc
    · exact hp c hc
    · rw [List.mem_singleton] at hc
      subst hc
      rcases h with rfl | rfl <;> decide
  | suffixH _ y _ x h =>
    rcases List.mem_append.1 hc with hc | hc
    · exact hp c hc
    · rw [List.mem_singleton] at hc
      subst hc
      rcases h with rfl | rfl <;> decide

theorem name_calm {t : Str} (h : Spec.IsName t) : ∀ c ∈ t, calm c = true := by
  cases t with
  | nil => exact h.elim
  | cons c cs =>
    obtain ⟨h1, h2, -⟩ := h
    intro x hx
    rcases List.mem_cons.1 hx with rfl | hx
    · refine calm_name ?_
      rcases h1 with h1 | h1 | h1
      · exact .inl (by simp [Char.isAlphanum, h1])
      · exact .inr (.inl h1)
      · exact .inr (.inr h1)
    · exact calm_name (h2 x hx)

theorem text_bal {k : Spec.Level} {e : Spec.Expr} {t : Str} (h : Spec.Text k e t) :
    Spec.Bal (fun _ => true) t ∧ (k.shifts = false → Spec.Bal noCmp t) := by
  have both : ∀ {t : Str} {p : Prop}, Spec.Bal noCmp t → Spec.Bal (fun _ => true) t ∧ (p → Spec.Bal noCmp t) :=
    fun h => ⟨Spec.Bal.any h, fun _ => h⟩
  have wrap : ∀ {b1 t b2 : Str}, (∀ c ∈ b1, Spec.IsBlank c) → (∀ c ∈ b2, Spec.IsBlank c) → Spec.Bal (fun _ => true) t →
      Spec.Bal noCmp ('(' :: (b1 ++ (t ++ (b2 ++ [')'])))) := by
    intro b1 t b2 h1 h2 h
    have := Bal.wrap (allow := noCmp) (Spec.Bal.append (Bal.blank h1).any (Spec.Bal.append h (Bal.blank h2).any))
    simpa using this
  induction h with
  | num hw hne hn => exact both (Bal.calm (writes_calm hw fun c hc => calm_x (number_digits hn c hc).1))
  | label h => exact both (Bal.calm (name_calm h))
  | here => exact both (Bal.calm (by decide))
  | @bin k op a b ta tb b1 b2 _ hs _ _ h1 h2 iha ihb =>
    refine ⟨?_, fun h => ?_⟩
    · refine iha.1.append ((Bal.blank h1).any.append (Spec.Bal.append ?_ ((Bal.blank h2).any.append ihb.1)))
      cases op <;> exact .plain _ _ _ (by decide) (by decide) (by decide) (by decide) rfl (by first | exact .nil _ | exact .plain _ _ _ (by decide) (by decide) (by decide) (by decide) rfl (.nil _))
    · refine (iha.2 h).append ((Bal.blank h1).append (Spec.Bal.append ?_ ((Bal.blank h2).append (ihb.2 h))))
      rw [h] at hs
      cases op <;> first | exact absurd (hs rfl) (by decide) | exact Bal.calm (by decide)
  | neg _ _ _ h1 ih =>
    exact ⟨.plain _ _ _ (by decide) (by decide) (by decide) (by decide) rfl ((Bal.blank h1).any.append ih.1),
      fun h => .plain _ _ _ (by decide) (by decide) (by decide) (by decide) rfl ((Bal.blank h1).append (ih.2 h))⟩
  | not _ _ h1 ih =>
    exact ⟨.plain _ _ _ (by decide) (by decide) (by decide) (by decide) rfl ((Bal.blank h1).any.append ih.1),
      fun h => .plain _ _ _ (by decide) (by decide) (by decide) (by decide) rfl ((Bal.blank h1).append (ih.2 h))⟩
  | @lo k k' a t b0 b1 b2 l o hl ho _ h0 h1 h2 ih =>
    have h : Spec.Bal noCmp ([l, o] ++ (b0 ++ '(' :: (b1 ++ (t ++ (b2 ++ [')']))))) := by
      refine Spec.Bal.append (Bal.calm ?_) ((Bal.blank h0).append (wrap h1 h2 ih.1))
      rcases hl with rfl | rfl <;> rcases ho with rfl | rfl <;> decide
    exact both h
  | @hi k k' a t b0 b1 b2 l o hl ho _ h0 h1 h2 ih =>
    have h : Spec.Bal noCmp ([l, o] ++ (b0 ++ '(' :: (b1 ++ (t ++ (b2 ++ [')']))))) := by
      refine Spec.Bal.append (Bal.calm ?_) ((Bal.blank h0).append (wrap h1 h2 ih.1))
      rcases hl with rfl | rfl <;> rcases ho with rfl | rfl <;> decide
    exact both h
  | paren _ h1 h2 ih => exact both (wrap h1 h2 ih.1)

theorem sum_bal {ρ : Str → Int} {names : List Str} {v : Int} {l : List (Bool × Int)} {t : Str} (h : Spec.Sum ρ names v l t) : Spec.Bal noCmp t := by
  induction h with
  | one h _ _ => exact (text_bal h).2 rfl
  | @more v rest t e te w b1 b2 minus _ h _ _ h1 h2 ih =>
    refine ih.append ((Bal.blank h1).append (.plain _ _ _ ?_ ?_ ?_ ?_ ?_ ((Bal.blank h2).append ((text_bal h).2 rfl)))) <;>
      cases minus <;> decide

/-! ## Either side of a comparison -/

/-- What the splitting of a comparison needs of its sides. -/
structure Flank (t : Str) : Prop where
  bal : Spec.Bal noCmp t
  ne : t ≠ []
  lead : Lead t
  trail : Trail t

theorem rtext_ends {t : Str} (h : RText t.reverse) : t ≠ [] ∧ Lead t ∧ Trail t := by
  refine ⟨by simpa using h.ne, fun c r e => ?_, fun c r e => ?_⟩
  · exact h.trail c r.reverse (by rw [e]; simp)
  · exact h.lead c r.reverse (by rw [e]; simp)

theorem side_flank {ρ : Str → Int} {names : List Str} {v : Int} {t : Str} (h : Spec.Side ρ names v t) : Flank t := by
  cases h with
  | expr h hs _ _ =>
    have := rtext_ends (text_shape h).1
    exact ⟨(text_bal h).2 hs, this.1, this.2.1, this.2.2⟩
  | sum h _ =>
    have := rtext_ends (sum_shape h).1
    exact ⟨sum_bal h, this.1, this.2.1, this.2.2⟩

theorem side_gives {z : Prop} {ρ : Str → Int} {names : List Str} {v : Int} {t : Str} (h : Spec.Side ρ names v t) (s : St)
    (hk : Knows z s ρ names) (hz : z → s.calcR.modifier = 0) : Gives z (parse (some t) s) (.ok v) := by
  have key : RText t.reverse → (∀ s' : St, Knows z s' ρ names → (z → s'.calcR.modifier = 0) →
      Gives z (parse2 (t.length + 1) true t.reverse s') (.ok v)) → Gives z (parse (some t) s) (.ok v) := by
    intro hs hg
    obtain ⟨l, k, hl⟩ := parse_start (t := t) (by simpa using hs.ne) (fun c hc => hs.quotes c (List.mem_reverse.2 hc)) s
    exact .toward hl (hg _ hk hz)
  cases h with
  | @expr k e _ _ h hs he hx =>
    refine key (text_shape h).1 fun s' hk hz => ?_
    have := text_gives h ρ _ true s' (Nat.lt_succ_self _) (fun x hx' => hk x (hx x hx')) hz
    rw [he] at this
    exact this
  | sum h hm =>
    exact key (sum_shape h).1 fun s' hk hz => sum_gives _ (Nat.lt_succ_self _) h hm _ true s' (Nat.lt_succ_self _) hk hz

/-! ## Finding the comparison -/

theorem lit_self (c : Char) : litMatch c c = true := by simp [litMatch]

/-- Wherever `c` occurs at top level, it is not followed by `d`. -/
def Lone (c d : Char) (q : Quote) (s : Str) : Prop :=
  ∀ p x r, s = p ++ x :: r → litMatch c x = true → q.run p = Quote.zero → ∀ y r', r = y :: r' → litMatch d y = false

theorem NoTop.lone {c d : Char} {q : Quote} {s : Str} (h : NoTop c q s) : Lone c d q s :=
  fun p x r e hx hz => absurd hz (h p x r e hx)

theorem Lone.tail {c d x : Char} {q : Quote} {s : Str} (h : Lone c d q (x :: s)) : Lone c d (q.step x) s :=
  fun p y r e hx hz => h (x :: p) y r (by rw [e]; rfl) hx hz

theorem Lone.append {c d : Char} {q : Quote} {a b : Str} (ha : NoTop c q a) (hb : Lone c d (q.run a) b) : Lone c d q (a ++ b) := by
  intro p x r e hx hz y r' hr
  rcases append_split e with ⟨r'', e1, e2⟩ | ⟨p', e1, e2⟩
  · cases r'' with
    | nil =>
      rw [List.nil_append] at e2
      rw [List.append_nil] at e1
      subst e1
      exact hb [] x r e2.symm hx hz y r' hr
    | cons z r'' =>
      injection e2 with e2 e3
      subst e2
      exact absurd hz (ha p x r'' e1 hx)
  · rw [e2, Quote.run_append] at hz
    exact hb p' x r e1 hx hz y r' hr

theorem Lone.cons {c d x : Char} {q : Quote} {s : Str} (h : ∀ y r', s = y :: r' → litMatch d y = false) (hs : NoTop c (q.step x) s) :
    Lone c d q (x :: s) := by
  intro p y r e hx hz
  cases p with
  | nil => injection e with _ e; subst e; exact h
  | cons z p =>
    injection e with e1 e2
    subst e1
    exact absurd hz (hs p y r e2 hx)

theorem matchSeg_lone {c d : Char} {q : Quote} {e : Bool} {tail s : Str} (hc : c ≠ '_') (hd : d ≠ '_') (h : Lone c d q s) :
    ∃ b, matchSeg q e ('_' :: c :: d :: tail) s = .bad b := by
  rw [matchSeg_blank]
  obtain ⟨b, h1, h2, h3⟩ := skipBlanks_spec s
  cases hs : skipBlanks s with
  | nil => exact ⟨true, matchSeg_end _ _ hc _⟩
  | cons x r =>
    rw [matchSeg_lit _ _ hc]
    by_cases hx : q = Quote.zero ∧ litMatch c x = true
    · rw [if_pos hx]
      obtain ⟨rfl, hx⟩ := hx
      rw [hs] at h1
      cases r with
      | nil => exact ⟨true, matchSeg_end _ _ hd _⟩
      | cons y r =>
        rw [matchSeg_lit _ _ hd, h b x (y :: r) h1 hx (run_blank h2) y r rfl, if_neg (by simp)]
        exact ⟨false, rfl⟩
    · rw [if_neg hx]; exact ⟨false, rfl⟩

theorem seek_lone {c d : Char} {e : Bool} {tail : Str} (hc : c ≠ '_') (hd : d ≠ '_') {s : Str} :
    ∀ {q : Quote}, Lone c d q s → ∃ n, seek e ('_' :: c :: d :: tail) q s = .error n := by
  induction s with
  | nil =>
    intro q h
    obtain ⟨b, hb⟩ := matchSeg_lone (e := e) (tail := tail) hc hd h
    exact ⟨0, by rw [seek, hb]⟩
  | cons x s ih =>
    intro q h
    obtain ⟨b, hb⟩ := matchSeg_lone (e := e) (tail := tail) hc hd h
    cases b with
    | true => exact ⟨0, by rw [seek, hb]⟩
    | false =>
      obtain ⟨n, h1⟩ := ih h.tail
      exact ⟨n + 1, by rw [seek, hb]; simp only; rw [h1]⟩

theorem filter_lone {c d : Char} {s : Str} (h1 : c ≠ '_') (h2 : d ≠ '_') (h3 : c ≠ '?') (h4 : d ≠ '?') (h : Lone c d Quote.zero s) :
    (filter s ['?', '_', c, d, '_', '?']).ok = false := by
  have e : splitPat ['?', '_', c, d, '_', '?'] = ([], [['_', c, d, '_'], []]) := by simp [splitPat, h3, h4]
  unfold filter
  rw [e]
  simp only [List.isEmpty_cons, matchSeg_nil]
  rw [filterWild]
  · obtain ⟨n, h1⟩ := seek_lone (e := false) (tail := ['_']) h1 h2 h
    simp only [List.isEmpty_cons]
    rw [h1]
  · intro h; cases h

theorem filter_two {c d : Char} {a bl r : Str} (h1 : c ≠ '_') (h2 : d ≠ '_') (h3 : c ≠ '?') (h4 : d ≠ '?') (hcb : isblank c = false)
    (ha : NoTop c Quote.zero a) (hz : Quote.zero.run a = Quote.zero) (hl : Trail a) (hbl : Blank bl) :
    ∃ w k, filter (a ++ (bl ++ c :: d :: r)) ['?', '_', c, d, '_', '?'] = ⟨true, [a, skipBlanks r], w, k⟩ := by
  have e : splitPat ['?', '_', c, d, '_', '?'] = ([], [['_', c, d, '_'], []]) := by simp [splitPat, h3, h4]
  unfold filter
  rw [e]
  simp only [List.isEmpty_cons, matchSeg_nil]
  rw [filterWild]
  · simp only [List.isEmpty_cons]
    rw [seek_sep (rest := skipBlanks r) h1 hcb hbl (lit_self c)
      (by rw [matchSeg_lit _ _ h2, if_pos ⟨rfl, lit_self d⟩, matchSeg_blank, matchSeg_nil]) ha hz hl]
    simp only [filterWild]
    exact ⟨_, _, rfl⟩
  · intro h; cases h

/-- The characters of comparisons. -/
def cmpChars : List Char := ['<', '>', '=', '!']

theorem cmp_lit {c x : Char} (hc : c ∈ cmpChars) (hx : litMatch c x = true) : x = c :=
  litMatch_eq (by clear hx; revert c; decide) (by rintro rfl; revert hc; decide) hx

theorem cmp_noTop {c : Char} (hc : c ∈ cmpChars) {s : Str} (h : Spec.Bal noCmp s) : NoTop c Quote.zero s := by
  refine Bal.noTop h c fun x hx => ?_
  rw [cmp_lit hc hx]
  clear hx
  revert hc; revert c; decide

theorem find_miss {o pat : Str} {c : Cmp} {cs : List (Str × Cmp)} (h : (filter o pat).ok = false) (s : St) :
    Toward (findCmp o ((pat, c) :: cs) s) (findCmp o cs s) := by
  rw [findCmp]
  refine Toward.bind (a := none) (s' := s) ?_ (.refl _)
  rw [filter2_miss h]
  split
  · exact .inr ⟨_, rfl⟩
  · exact .refl _

theorem find_hit {o pat a b : Str} {c : Cmp} {cs : List (Str × Cmp)} {w k : Nat} (h : filter o pat = ⟨true, [a, b], w, k⟩) (s : St) :
    ∃ n, Toward (findCmp o ((pat, c) :: cs) s) (.ok (some (a, b, c)) { s with bufpos := n }) := by
  refine ⟨s.bufpos + w, ?_⟩
  rw [findCmp]
  refine Toward.bind (a := some (a, b)) (s' := { s with bufpos := s.bufpos + w }) ?_ (.refl _)
  rw [filter2_hit h]
  split
  · exact .inr ⟨_, rfl⟩
  · exact .refl _

/-- The comparison that the assembler makes for a relation. -/
def cmpOf : Spec.Rel → Cmp
  | .eq => { eq := true } | .ne => { ne := true } | .lt => { lt := true } | .gt => { gt := true }
  | .le => { lt := true, eq := true } | .ge => { gt := true, eq := true }

theorem find_cmp {rel : Spec.Rel} {sym a b b1 b2 : Str} (hs : sym ∈ rel.written) (ha : Flank a) (hb : Flank b)
    (h1 : Blank b1) (h2 : Blank b2) (s : St) :
    ∃ n, Toward (findCmp (a ++ (b1 ++ (sym ++ (b2 ++ b)))) compar s) (.ok (some (a, b, cmpOf rel)) { s with bufpos := n }) := by
  have za : Quote.zero.run a = Quote.zero := Bal.run ha.bal 0
  have skip : skipBlanks (b2 ++ b) = b := by rw [skipBlanks_append h2, hb.lead.skip]
  have blank : ∀ {c}, c ∈ cmpChars → isblank c = false := by intro c hc; revert hc; revert c; decide
  have wild : ∀ {c}, c ∈ cmpChars → c ≠ '_' ∧ c ≠ '?' := by intro c hc; revert hc; revert c; decide
  -- the text in front of and behind the symbol
  have front : ∀ {c}, c ∈ cmpChars → NoTop c Quote.zero (a ++ b1) := fun hc =>
    (cmp_noTop hc ha.bal).append (NoTop.blank (blank hc) h1)
  have behind : ∀ {c}, c ∈ cmpChars → NoTop c Quote.zero (b2 ++ b) := fun hc =>
    (NoTop.blank (blank hc) h2).append (by rw [run_blank h2]; exact cmp_noTop hc hb.bal)
  have zf : Quote.zero.run (a ++ b1) = Quote.zero := by rw [Quote.run_append, za, run_blank h1]
  have step : ∀ {c}, c ∈ cmpChars → Quote.zero.step c = Quote.zero := by intro c hc; revert hc; revert c; decide
  have first : ∀ {d}, d ∈ cmpChars → ∀ y r', b2 ++ b = y :: r' → litMatch d y = false := by
    intro d hd y r' e
    cases h : litMatch d y with
    | false => rfl
    | true => exact absurd rfl (behind hd [] y r' e h)
  -- symbols of one character
  have miss1 : ∀ {c x}, c ∈ cmpChars → x ∈ cmpChars → c ≠ x → NoTop c Quote.zero (a ++ (b1 ++ ([x] ++ (b2 ++ b)))) := by
    intro c x hc hx hne
    rw [← List.append_assoc]
    refine (front hc).append ?_
    rw [zf]
    refine NoTop.append (NoTop.of_not fun y hy => ?_) ?_
    · rw [List.mem_singleton] at hy
      subst hy
      cases h : litMatch c y with
      | false => rfl
      | true => exact absurd (cmp_lit hc h).symm hne
    · rw [Quote.run_cons, step hx]; exact behind hc
  have lone1 : ∀ {c d}, c ∈ cmpChars → d ∈ cmpChars → Lone c d Quote.zero (a ++ (b1 ++ ([c] ++ (b2 ++ b)))) := by
    intro c d hc hd
    rw [← List.append_assoc]
    refine Lone.append (front hc) ?_
    rw [zf]
    refine Lone.cons (first hd) ?_
    rw [step hc]; exact behind hc
  have hit1 : ∀ {c}, c ∈ cmpChars → ∃ w k, filter (a ++ (b1 ++ ([c] ++ (b2 ++ b)))) ['?', '_', c, '_', '?'] = ⟨true, [a, b], w, k⟩ := by
    intro c hc
    obtain ⟨w, k, h, -⟩ := filter_sep (x := c) (r := b2 ++ b) (wild hc).2 (wild hc).1 (blank hc) (cmp_noTop hc ha.bal) za ha.trail h1 (lit_self c)
    rw [skip] at h
    exact ⟨w, k, h⟩
  -- symbols of two characters
  have miss2 : ∀ {c x y}, c ∈ cmpChars → x ∈ cmpChars → y ∈ cmpChars → c ≠ x → c ≠ y → NoTop c Quote.zero (a ++ (b1 ++ ([x, y] ++ (b2 ++ b)))) := by
    intro c x y hc hx hy h3 h4
    rw [← List.append_assoc]
    refine (front hc).append ?_
    rw [zf]
    refine NoTop.append (NoTop.of_not fun z hz => ?_) ?_
    · cases h : litMatch c z with
      | false => rfl
      | true =>
        have := cmp_lit hc h
        subst this
        simp [h3, h4] at hz
    · rw [Quote.run_cons, step hx, Quote.run_cons, step hy]; exact behind hc
  have lone21 : ∀ {x y d}, x ∈ cmpChars → y ∈ cmpChars → d ∈ cmpChars → x ≠ y → d ≠ y → Lone x d Quote.zero (a ++ (b1 ++ ([x, y] ++ (b2 ++ b)))) := by
    intro x y d hx hy hd hne hdy
    rw [← List.append_assoc]
    refine Lone.append (front hx) ?_
    rw [zf]
    refine Lone.cons ?_ ?_
    · intro z r' e
      injection e with e
      subst e
      cases h : litMatch d y with
      | false => rfl
      | true => exact absurd (cmp_lit hd h).symm hdy
    · rw [step hx]
      refine NoTop.append (a := [y]) (NoTop.of_not fun z hz => ?_) ?_
      · rw [List.mem_singleton] at hz
        subst hz
        cases h : litMatch x z with
        | false => rfl
        | true => exact absurd (cmp_lit hx h).symm hne
      · rw [Quote.run_cons, step hy]; exact behind hx
  have lone22 : ∀ {x y d}, x ∈ cmpChars → y ∈ cmpChars → d ∈ cmpChars → x ≠ y → Lone y d Quote.zero (a ++ (b1 ++ ([x, y] ++ (b2 ++ b)))) := by
    intro x y d hx hy hd hne
    have e : a ++ (b1 ++ ([x, y] ++ (b2 ++ b))) = (a ++ b1 ++ [x]) ++ (y :: (b2 ++ b)) := by simp
    rw [e]
    refine Lone.append ((front hy).append (NoTop.of_not fun z hz => ?_)) ?_
    · rw [List.mem_singleton] at hz
      subst hz
      cases h : litMatch y z with
      | false => rfl
      | true => exact absurd (cmp_lit hy h) hne
    · rw [Quote.run_append, zf, Quote.run_cons, step hx]
      refine Lone.cons (first hd) ?_
      change NoTop y (Quote.zero.step y) _
      rw [step hy]; exact behind hy
  have hit2 : ∀ {x y}, x ∈ cmpChars → y ∈ cmpChars → ∃ w k, filter (a ++ (b1 ++ ([x, y] ++ (b2 ++ b)))) ['?', '_', x, y, '_', '?'] = ⟨true, [a, b], w, k⟩ := by
    intro x y hx hy
    obtain ⟨w, k, h⟩ := filter_two (d := y) (r := b2 ++ b) (wild hx).1 (wild hy).1 (wild hx).2 (wild hy).2 (blank hx) (cmp_noTop hx ha.bal) za ha.trail h1
    rw [skip] at h
    exact ⟨w, k, h⟩
  have lone : ∀ {c d} {t : Str}, c ∈ cmpChars → d ∈ cmpChars → Lone c d Quote.zero t → (filter t ['?', '_', c, d, '_', '?']).ok = false :=
    fun hc hd h => filter_lone (wild hc).1 (wild hd).1 (wild hc).2 (wild hd).2 h
  have none : ∀ {c} {t : Str}, c ∈ cmpChars → NoTop c Quote.zero t → (filter t ['?', '_', c, '_', '?']).ok = false :=
    fun hc h => (filter_sep_none (wild hc).2 (wild hc).1 h).1
  have m : '<' ∈ cmpChars ∧ '>' ∈ cmpChars ∧ '=' ∈ cmpChars ∧ '!' ∈ cmpChars := by decide
  obtain ⟨mL, mG, mE, mN⟩ := m
  cases rel with
  | ge =>
    simp only [Spec.Rel.written, List.mem_singleton] at hs
    subst hs
    obtain ⟨w, k, h⟩ := hit2 mG mE
    exact find_hit h s
  | le =>
    simp only [Spec.Rel.written, List.mem_singleton] at hs
    subst hs
    obtain ⟨w, k, h⟩ := hit2 mL mE
    obtain ⟨n, hn⟩ := find_hit (c := cmpOf .le) (cs := compar.drop 2) h s
    refine ⟨n, (find_miss (lone mG mE (miss2 mG mL mE (by decide) (by decide)).lone) s).trans hn⟩
  | eq =>
    simp only [Spec.Rel.written, List.mem_cons, List.not_mem_nil, or_false] at hs
    rcases hs with rfl | rfl
    · obtain ⟨w, k, h⟩ := hit1 mE
      obtain ⟨n, hn⟩ := find_hit (c := cmpOf .eq) (cs := compar.drop 5) h s
      refine ⟨n, (find_miss (lone mG mE (miss1 mG mE (by decide)).lone) s).trans ?_⟩
      refine (find_miss (lone mL mE (miss1 mL mE (by decide)).lone) s).trans ?_
      refine (find_miss (lone mE mE (lone1 mE mE)) s).trans ?_
      exact (find_miss (lone mN mE (miss1 mN mE (by decide)).lone) s).trans hn
    · obtain ⟨w, k, h⟩ := hit2 mE mE
      obtain ⟨n, hn⟩ := find_hit (c := cmpOf .eq) (cs := compar.drop 3) h s
      refine ⟨n, (find_miss (lone mG mE (miss2 mG mE mE (by decide) (by decide)).lone) s).trans ?_⟩
      exact (find_miss (lone mL mE (miss2 mL mE mE (by decide) (by decide)).lone) s).trans hn
  | ne =>
    simp only [Spec.Rel.written, List.mem_cons, List.not_mem_nil, or_false] at hs
    rcases hs with rfl | rfl
    · obtain ⟨w, k, h⟩ := hit2 mL mG
      obtain ⟨n, hn⟩ := find_hit (c := cmpOf .ne) (cs := compar.drop 6) h s
      refine ⟨n, (find_miss (lone mG mE (lone22 mL mG mE (by decide))) s).trans ?_⟩
      refine (find_miss (lone mL mE (lone21 mL mG mE (by decide) (by decide))) s).trans ?_
      refine (find_miss (lone mE mE (miss2 mE mL mG (by decide) (by decide)).lone) s).trans ?_
      refine (find_miss (lone mN mE (miss2 mN mL mG (by decide) (by decide)).lone) s).trans ?_
      exact (find_miss (none mE (miss2 mE mL mG (by decide) (by decide))) s).trans hn
    · obtain ⟨w, k, h⟩ := hit2 mN mE
      obtain ⟨n, hn⟩ := find_hit (c := cmpOf .ne) (cs := compar.drop 4) h s
      refine ⟨n, (find_miss (lone mG mE (miss2 mG mN mE (by decide) (by decide)).lone) s).trans ?_⟩
      refine (find_miss (lone mL mE (miss2 mL mN mE (by decide) (by decide)).lone) s).trans ?_
      exact (find_miss (lone mE mE (lone22 mN mE mE (by decide))) s).trans hn
  | lt =>
    simp only [Spec.Rel.written, List.mem_singleton] at hs
    subst hs
    obtain ⟨w, k, h⟩ := hit1 mL
    obtain ⟨n, hn⟩ := find_hit (c := cmpOf .lt) (cs := compar.drop 7) h s
    refine ⟨n, (find_miss (lone mG mE (miss1 mG mL (by decide)).lone) s).trans ?_⟩
    refine (find_miss (lone mL mE (lone1 mL mE)) s).trans ?_
    refine (find_miss (lone mE mE (miss1 mE mL (by decide)).lone) s).trans ?_
    refine (find_miss (lone mN mE (miss1 mN mL (by decide)).lone) s).trans ?_
    refine (find_miss (none mE (miss1 mE mL (by decide))) s).trans ?_
    exact (find_miss (lone mL mG (lone1 mL mG)) s).trans hn
  | gt =>
    simp only [Spec.Rel.written, List.mem_singleton] at hs
    subst hs
    obtain ⟨w, k, h⟩ := hit1 mG
    obtain ⟨n, hn⟩ := find_hit (c := cmpOf .gt) (cs := []) h s
    refine ⟨n, (find_miss (lone mG mE (lone1 mG mE)) s).trans ?_⟩
    refine (find_miss (lone mL mE (miss1 mL mG (by decide)).lone) s).trans ?_
    refine (find_miss (lone mE mE (miss1 mE mG (by decide)).lone) s).trans ?_
    refine (find_miss (lone mN mE (miss1 mN mG (by decide)).lone) s).trans ?_
    refine (find_miss (none mE (miss1 mE mG (by decide))) s).trans ?_
    refine (find_miss (lone mL mG (miss1 mL mG (by decide)).lone) s).trans ?_
    exact (find_miss (none mL (miss1 mL mG (by decide))) s).trans hn

theorem find_none {a : Str} (ha : Spec.Bal noCmp a) (s : St) : Toward (findCmp a compar s) (.ok none s) := by
  have h := fun (c : Char) (hc : c ∈ cmpChars) => cmp_noTop hc ha
  have two : ∀ c ∈ cmpChars, ∀ d ∈ cmpChars, (filter a ['?', '_', c, d, '_', '?']).ok = false := by
    intro c hc d hd
    have wild : ∀ {c}, c ∈ cmpChars → c ≠ '_' ∧ c ≠ '?' := by intro c hc; revert hc; revert c; decide
    exact filter_lone (wild hc).1 (wild hd).1 (wild hc).2 (wild hd).2 (h c hc).lone
  have one : ∀ c ∈ cmpChars, (filter a ['?', '_', c, '_', '?']).ok = false := by
    intro c hc
    have wild : ∀ {c}, c ∈ cmpChars → c ≠ '_' ∧ c ≠ '?' := by intro c hc; revert hc; revert c; decide
    exact (filter_sep_none (wild hc).2 (wild hc).1 (h c hc)).1
  refine (find_miss (two '>' (by decide) '=' (by decide)) s).trans ?_
  refine (find_miss (two '<' (by decide) '=' (by decide)) s).trans ?_
  refine (find_miss (two '=' (by decide) '=' (by decide)) s).trans ?_
  refine (find_miss (two '!' (by decide) '=' (by decide)) s).trans ?_
  refine (find_miss (one '=' (by decide)) s).trans ?_
  refine (find_miss (two '<' (by decide) '>' (by decide)) s).trans ?_
  refine (find_miss (one '<' (by decide)) s).trans ?_
  refine (find_miss (one '>' (by decide)) s).trans ?_
  exact .refl _

/-! ## The comparison -/

theorem cmp_value {rel : Spec.Rel} {r1 r2 : Result} {s : St} (t1 : r1.type = .absolute) (t2 : r2.type = .absolute)
    (u1 : r1.flags.undef = false) (u2 : r2.flags.undef = false) (hm : rel = .lt ∨ rel = .gt ∨ r1.modifier = r2.modifier) :
    ∃ s', compareRes (cmpOf rel) r1 r2 s = .ok (rel.holds r1.value.toInt r2.value.toInt) s' := by
  unfold compareRes
  rw [if_neg (by simp [u1, u2]), if_neg (by simp [t1, t2]), if_neg (by simp [t1])]
  have hs : ∀ x y : Word, x.slt y = decide (x.toInt < y.toInt) := fun x y => rfl
  have he : ∀ x y : Word, decide (x = y) = decide (x.toInt = y.toInt) := fun x y => by
    by_cases h : x = y
    · simp [h]
    · have : x.toInt ≠ y.toInt := fun h' => h (BitVec.eq_of_toInt_eq h')
      simp [h, this]
  have done : ∀ {x y : Bool} {n : Note}, x = y → ∃ s', ((do note n; pure x) : M Bool) s = .ok y s' := by
    rintro x y n rfl; exact ⟨_, rfl⟩
  refine done ?_
  cases rel with
  | lt => simp [cmpOf, hs, Spec.Rel.holds]
  | gt => simp [cmpOf, hs, Spec.Rel.holds]
  | eq =>
    have hm : r1.modifier = r2.modifier := by simpa using hm
    simp [cmpOf, hm, he, Spec.Rel.holds]
  | ne =>
    have hm : r1.modifier = r2.modifier := by simpa using hm
    simp [cmpOf, hm, he, Spec.Rel.holds]
  | le =>
    have hm : r1.modifier = r2.modifier := by simpa using hm
    simp only [cmpOf, hm, hs, Spec.Rel.holds, true_and, he, Bool.false_and, Bool.true_and, Bool.false_or, Bool.or_false]
    rw [← Bool.decide_or]
    exact decide_eq_decide.2 (by omega)
  | ge =>
    have hm : r1.modifier = r2.modifier := by simpa using hm
    simp only [cmpOf, hm, hs, Spec.Rel.holds, true_and, he, Bool.false_and, Bool.true_and, Bool.false_or, Bool.or_false]
    rw [← Bool.decide_or]
    exact decide_eq_decide.2 (by omega)

/-- The test that IF makes has the outcome `b`, unless the pattern matcher runs out of its work buffer. -/
def Tests (t : Str) (s : St) (b : Bool) : Prop :=
  (∃ s', testtrue (some t) s = .ok b s') ∨ ∃ s', testtrue (some t) s = .stop (.ub .filterBuffer) s'

theorem tests_of {t : Str} {s : St} {b : Bool} {r : Res Bool} (h : Toward (testtrue (some t) s) r)
    (hr : (∃ s', r = .ok b s') ∨ ∃ s', r = .stop (.ub .filterBuffer) s') : Tests t s b := by
  rcases h with h | h
  · unfold Tests; rw [h]; exact hr
  · exact .inr h

theorem two_sides {z : Prop} {ρ : Str → Int} {names : List Str} {rel : Spec.Rel} {sym ta tb b1 b2 : Str} {a b : Int}
    (hs : sym ∈ rel.written) (ha : Spec.Side ρ names a ta) (hb : Spec.Side ρ names b tb)
    (h1 : ∀ c ∈ b1, Spec.IsBlank c) (h2 : ∀ c ∈ b2, Spec.IsBlank c) (s : St) (hk : Knows z s ρ names) (hz : z → s.calcR.modifier = 0)
    (hm : z ∨ rel = .lt ∨ rel = .gt) : Tests (ta ++ (b1 ++ (sym ++ (b2 ++ tb)))) s (rel.holds a b) := by
  have fa := side_flank ha
  have fb := side_flank hb
  obtain ⟨n, hf⟩ := find_cmp hs fa fb (.of h1) (.of h2) s
  have hne : ta ++ (b1 ++ (sym ++ (b2 ++ tb))) ≠ [] := by simp [fa.ne]
  have e : testtrue (some (ta ++ (b1 ++ (sym ++ (b2 ++ tb))))) = (do
      match ← findCmp (ta ++ (b1 ++ (sym ++ (b2 ++ tb)))) compar with
      | none => do
        let r1 ← parse (some (ta ++ (b1 ++ (sym ++ (b2 ++ tb)))))
        compareRes { ne := true } r1 {}
      | some (a, b, q) => do
        let r1 ← parse (some a)
        let r2 ← parse (some b)
        compareRes q r1 r2) := by
    unfold testtrue
    change (match ta ++ (b1 ++ (sym ++ (b2 ++ tb))) with | [] => _ | o => _) = _
    split
    · rename_i h; exact absurd h hne
    · rfl
  have ga := side_gives (z := z) ha { s with bufpos := n } hk hz
  refine tests_of (r := (do
      let r1 ← parse (some ta)
      let r2 ← parse (some tb)
      compareRes (cmpOf rel) r1 r2 : M Bool) { s with bufpos := n }) ?_ ?_
  · rw [e]
    exact Toward.bind hf (.refl _)
  · rcases ga with ⟨t, h⟩ | ⟨r1, s1, h, t1, v1, u1, z1⟩
    · exact .inr ⟨t, run_stop h⟩
    · rw [run_ok h]
      have hk1 : Knows z s1 ρ names := Knows.gen (s := { s with bufpos := n }) hk (nwalk_gen (inferInstance : W NStep (parse (some ta))).1 h)
      rcases side_gives (z := z) hb s1 hk1 (fun h => (z1 h).2) with ⟨t, h'⟩ | ⟨r2, s2, h', t2, v2, u2, z2⟩
      · exact .inr ⟨t, run_stop h'⟩
      · rw [run_ok h']
        obtain ⟨s3, e3⟩ := cmp_value (rel := rel) (s := s2) t1 t2 u1 u2 (by
          rcases hm with hm | hm | hm
          · exact .inr (.inr ((z1 hm).1.trans (z2 hm).1.symm))
          · exact .inl hm
          · exact .inr (.inl hm))
        rw [v1, v2] at e3
        exact .inl ⟨s3, e3⟩

/-- **C27** (order). `a < b` and `a > b` hold exactly when they hold between the numbers, whatever was assembled
    before. -/
theorem C27_order {ρ : Str → Int} {names : List Str} {rel : Spec.Rel} {sym ta tb b1 b2 : Str} {a b : Int}
    (hs : sym ∈ rel.written) (hr : rel = .lt ∨ rel = .gt) (ha : Spec.Side ρ names a ta) (hb : Spec.Side ρ names b tb)
    (h1 : ∀ c ∈ b1, Spec.IsBlank c) (h2 : ∀ c ∈ b2, Spec.IsBlank c) (s : St)
    (hk : ∀ x ∈ names, ∃ l, searchlabel s x = some l ∧ l.flags.undef = false ∧ l.type = .absolute ∧ l.value.toInt = ρ x) :
    Tests (ta ++ (b1 ++ (sym ++ (b2 ++ tb)))) s (rel.holds a b) :=
  two_sides (z := False) hs ha hb h1 h2 s (fun x hx => by
    obtain ⟨l, h1, h2, h3, h4⟩ := hk x hx
    exact ⟨l, h1, h2, h3, h4, False.elim⟩) False.elim (.inr hr)

/-- **C27** (comparison), in part. Every comparison comes out as it holds between the numbers, provided that no
    register has left its modifier behind: neither in the place where expressions are worked out nor in the
    labels of the comparison.  That proviso is needed: see `C27_false`. -/
theorem C27_compare_partial {ρ : Str → Int} {names : List Str} {rel : Spec.Rel} {sym ta tb b1 b2 : Str} {a b : Int}
    (hs : sym ∈ rel.written) (ha : Spec.Side ρ names a ta) (hb : Spec.Side ρ names b tb)
    (h1 : ∀ c ∈ b1, Spec.IsBlank c) (h2 : ∀ c ∈ b2, Spec.IsBlank c) (s : St)
    (hk : ∀ x ∈ names, ∃ l, searchlabel s x = some l ∧ l.flags.undef = false ∧ l.type = .absolute ∧ l.value.toInt = ρ x ∧ l.modifier = 0)
    (hm : s.calcR.modifier = 0) : Tests (ta ++ (b1 ++ (sym ++ (b2 ++ tb)))) s (rel.holds a b) :=
  two_sides (z := True) hs ha hb h1 h2 s (fun x hx => by
    obtain ⟨l, h1, h2, h3, h4, h5⟩ := hk x hx
    exact ⟨l, h1, h2, h3, h4, fun _ => h5⟩) (fun _ => hm) (.inl trivial)

/-- **C27** (single expression), in part. A single expression counts as true exactly when it is not zero, under the
    same proviso. -/
theorem C27_single_partial {ρ : Str → Int} {names : List Str} {t : Str} {a : Int} (ha : Spec.Side ρ names a t) (s : St)
    (hk : ∀ x ∈ names, ∃ l, searchlabel s x = some l ∧ l.flags.undef = false ∧ l.type = .absolute ∧ l.value.toInt = ρ x ∧ l.modifier = 0)
    (hm : s.calcR.modifier = 0) : Tests t s (decide (a ≠ 0)) := by
  have fa := side_flank ha
  have e : testtrue (some t) = (do
      match ← findCmp t compar with
      | none => do
        let r1 ← parse (some t)
        compareRes { ne := true } r1 {}
      | some (a, b, q) => do
        let r1 ← parse (some a)
        let r2 ← parse (some b)
        compareRes q r1 r2) := by
    unfold testtrue
    change (match t with | [] => _ | o => _) = _
    split
    · exact absurd rfl fa.ne
    · rfl
  refine tests_of (r := (do
      let r1 ← parse (some t)
      compareRes { ne := true } r1 {} : M Bool) s) ?_ ?_
  · rw [e]
    exact Toward.bind (find_none fa.bal s) (.refl _)
  · rcases side_gives (z := True) ha s (fun x hx => by
      obtain ⟨l, h1, h2, h3, h4, h5⟩ := hk x hx
      exact ⟨l, h1, h2, h3, h4, fun _ => h5⟩) (fun _ => hm) with ⟨t, h⟩ | ⟨r1, s1, h, t1, v1, u1, z1⟩
    · exact .inr ⟨t, run_stop h⟩
    · rw [run_ok h]
      obtain ⟨s2, this⟩ := cmp_value (rel := .ne) (r2 := {}) (s := s1) t1 rfl u1 rfl (.inr (.inr (z1 trivial).1))
      refine .inl ⟨s2, this.trans ?_⟩
      rw [v1]
      rfl

/-! ## IF -/

/-- What is done from ELSE on (macro.c:280-352): the lines are handled by `self`, as active exactly when those of the first
    branch were not. -/
def elseRest (self : Status → M RC) (fuel : Nat) (st : Status) (taken : Bool) (old : Option Char) : M RC := do
  let s ← getS
  whenM (st.act && taken) (modS fun s => { s with lineprefix := some 'C' })
  let r ← ifLoop self ⟨st.lst && (!taken || s.flags.iflistOn), st.act && !taken⟩ fuel
  modS fun s => { s with lineprefix := old }
  if r = .endm ∨ r = .else_ then error c!"ELSE or ENDM illegal here"
  else do
    ifList st
    pure (if r = .exitm then .exitm else .cont)

/-- What IF does once it knows whether its condition holds (macro.c:199-353, the lines after the test). -/
def ifRest (self : Status → M RC) (fuel : Nat) (st : Status) (taken : Bool) : M RC := do
  let s ← getS
  ifList st
  let s' ← getS
  markSkipped st taken
  let r ← ifLoop self ⟨st.lst && (taken || s.flags.iflistOn), st.act && taken⟩ fuel
  modS fun s => { s with lineprefix := s'.lineprefix }
  if r = .endm then error c!"ENDM illegal here"
  else do
    ifList st
    match r with
    | .endc => pure .cont
    | .exitm => pure .exitm
    | _ => elseRest self fuel st taken s'.lineprefix

theorem ifElse_eq (self : Status → M RC) (fuel : Nat) (st : Status) (taken : Bool) (old : Option Char) :
    ifElse self fuel st taken old = elseRest self fuel st taken old := by
  unfold ifElse elseRest markSkipped Status.and branchStatus
  cases taken <;> rfl

/-- **C27** (branch). In text that is being assembled, IF goes on as its test tells it: the lines of the first branch
    are handled (by `self`) as active exactly when the test came out true, those after ELSE exactly when it came out
    false. -/
theorem C27_branch {t : Str} {s : St} {b : Bool} (h : Tests t s b) (self : Status → M RC) (fuel : Nat) (lst : Bool) :
    (∃ s', xIf self fuel ⟨lst, true⟩ (some t) s = ifRest self fuel ⟨lst, true⟩ b s') ∨
      ∃ s', xIf self fuel ⟨lst, true⟩ (some t) s = .stop (.ub .filterBuffer) s' := by
  rcases h with ⟨s', h⟩ | ⟨s', h⟩
  · refine .inl ⟨s', ?_⟩
    unfold xIf
    rw [if_pos rfl, run_ok h]
    simp only [ifElse_eq]
    rfl
  · refine .inr ⟨s', ?_⟩
    unfold xIf
    rw [if_pos rfl, run_stop h]

/-! ## Examples -/

/-- The hypotheses are met: `$10 >= 3 + 4` is a comparison of 16 with 7 ... -/
example : Spec.Side (fun _ => 0) [] 16 c!"$10" ∧ Spec.Side (fun _ => 0) [] 7 c!"3 + 4" ∧ c!">=" ∈ Spec.Rel.ge.written ∧
    (initSt { fs := fun _ => none } []).calcR.modifier = 0 := by
  have num : ∀ (c : Char) (n : Nat), Spec.number 10 [c] = some n → n < 2 ^ 32 → c.isDigit = true → Spec.Text .tight (.num n) [c] := by
    intro c n h1 h2 h3
    exact .num (b := 10) (ds := [c]) (.decimal _) (by simp) h1 h2
  refine ⟨?_, ?_, by decide, rfl⟩
  · exact .expr (k := .tight) (.num (b := 16) (ds := c!"10") (.dollar _) (by simp) rfl (by decide)) rfl rfl (by simp [Spec.Expr.names])
  · have h3 : Spec.Sum (fun _ => 0) [] 3 [] ['3'] := .one (num '3' 3 rfl (by decide) rfl) rfl (by simp [Spec.Expr.names])
    have := Spec.Sum.more (b1 := [' ']) (b2 := [' ']) false h3 (num '4' 4 rfl (by decide) rfl) rfl (by simp [Spec.Expr.names])
      (by simp [Spec.IsBlank]) (by simp [Spec.IsBlank])
    exact .sum this (by decide)

/-- ... and this is what the assembler makes of it. -/
example : (match testtrue (some c!"$10 >= 3 + 4") (initSt { fs := fun _ => none } []) with | .ok b _ => some b | _ => none) = some true := by
  decide +kernel

/-- `push af` leaves the modifier of the register behind. -/
def staleIf : Str := c!" cpu z80\n *= 0\n push af\n if 0\n db 1\n else\n db 2\n endc\n"

/-- The bytes that the second pass generates, in reverse order. -/
def secondPass (src : Str) : Option (List Byte) :=
  match assemble 60 { scode := some c!"o", list := false } (initSt { fs := fun _ => none } src) with
  | .ok _ s => some ((bytesOf s.log).filterMap fun b => if b.1 = 2 then some b.2.2.1 else none)
  | _ => none

/-- The property is false of the assembler: after `push af` the condition `0` counts as true. -/
theorem C27_false : secondPass staleIf = some [1, 0xf5] := by decide +kernel

/-- Without it the other branch is taken. -/
example : secondPass c!" cpu z80\n *= 0\n if 0\n db 1\n else\n db 2\n endc\n" = some [2] := by decide +kernel

end Crasm

import Verif.Spec.Expr
import Verif.Props.C09
import Verif.Proof.Gen

/-! The expression parser on expression texts (which it reads in reverse). -/

namespace Crasm

/-! ## Shape of reversed texts -/

/-- A reversed text without quotes whose parentheses are balanced: in reverse, the depth never rises above
    where it was, and comes back to it. -/
structure RText (R : Str) : Prop where
  ne : R ≠ []
  lead : Lead R
  trail : Trail R
  quotes : ∀ c ∈ R, c ≠ '\'' ∧ c ≠ '"'
  deep : ∀ (d : Int) p r, R = p ++ r → ∃ d', d' ≤ d ∧ (Quote.at d).run p = Quote.at d'
  back : ∀ d : Int, (Quote.at d).run R = Quote.at d

/-- ... and without operators outside parentheses. -/
structure RTok (R : Str) : Prop extends RText R where
  ops : ∀ c ∈ opChars, NoTop c Quote.zero R

/-- The part of `RText` that does not concern its ends. -/
structure RPart (R : Str) : Prop where
  quotes : ∀ c ∈ R, c ≠ '\'' ∧ c ≠ '"'
  deep : ∀ (d : Int) p r, R = p ++ r → ∃ d', d' ≤ d ∧ (Quote.at d).run p = Quote.at d'
  back : ∀ d : Int, (Quote.at d).run R = Quote.at d

theorem RText.part {R : Str} (h : RText R) : RPart R := ⟨h.quotes, h.deep, h.back⟩

theorem RPart.append {a b : Str} (ha : RPart a) (hb : RPart b) : RPart (a ++ b) := by
  refine ⟨fun c hc => ?_, fun d p r e => ?_, fun d => ?_⟩
  · rcases List.mem_append.1 hc with h | h
    · exact ha.quotes c h
    · exact hb.quotes c h
  · rcases List.append_eq_append_iff.1 e with ⟨x, rfl, h2⟩ | ⟨x, h1, h2⟩
    · obtain ⟨d', h3, h4⟩ := hb.deep d x r h2
      exact ⟨d', h3, by rw [Quote.run_append, ha.back, h4]⟩
    · exact ha.deep d p x h1
  · rw [Quote.run_append, ha.back, hb.back]

theorem RPart.plain {a : Str} (h : ∀ c ∈ a, c ≠ '\'' ∧ c ≠ '"' ∧ c ≠ '(' ∧ c ≠ ')') : RPart a := by
  have run : ∀ (a : Str), (∀ c ∈ a, c ≠ '\'' ∧ c ≠ '"' ∧ c ≠ '(' ∧ c ≠ ')') → ∀ d : Int, (Quote.at d).run a = Quote.at d := by
    intro a
    induction a with
    | nil => intro _ d; rfl
    | cons c a ih =>
      intro h d
      have hc := h c (by simp)
      rw [Quote.run_cons, at_plain hc.1 hc.2.1 hc.2.2.1 hc.2.2.2]
      exact ih (fun x hx => h x (by simp [hx])) d
  refine ⟨fun c hc => ⟨(h c hc).1, (h c hc).2.1⟩, fun d p r e => ⟨d, Int.le_refl _, run p ?_ d⟩, run a h⟩
  intro c hc
  exact h c (by rw [e]; simp [hc])

theorem RPart.blank {b : Str} (h : Blank b) : RPart b := by
  refine RPart.plain fun c hc => ?_
  rcases isblank_eq (h c hc) with rfl | rfl <;> decide

theorem RPart.wrap {a : Str} (h : RPart a) : RPart (')' :: (a ++ ['('])) := by
  refine ⟨fun c hc => ?_, fun d p r e => ?_, fun d => ?_⟩
  · rcases List.mem_cons.1 hc with rfl | hc
    · decide
    · rcases List.mem_append.1 hc with hc | hc
      · exact h.quotes c hc
      · rw [List.mem_singleton] at hc; subst hc; decide
  · cases p with
    | nil => exact ⟨d, Int.le_refl _, rfl⟩
    | cons c p =>
      rw [List.cons_append] at e
      injection e with e1 e2
      subst e1
      rw [Quote.run_cons, at_close]
      rcases List.append_eq_append_iff.1 e2 with ⟨x, rfl, h2⟩ | ⟨x, h1, h2⟩
      · rw [Quote.run_append, h.back]
        cases x with
        | nil => exact ⟨d - 1, by omega, rfl⟩
        | cons y x =>
          rw [List.cons_append] at h2
          injection h2 with h3 h4
          subst h3
          have : x = [] := (List.append_eq_nil_iff.1 h4.symm).1
          subst this
          exact ⟨d, Int.le_refl _, by rw [Quote.run_cons, at_open]; simp⟩
      · obtain ⟨d', h3, h4⟩ := h.deep (d - 1) p x h1
        exact ⟨d', by omega, h4⟩
  · rw [Quote.run_cons, at_close, Quote.run_append, h.back, Quote.run_cons, at_open]
    simp

/-- Inside parentheses nothing is at top level. -/
theorem wrap_noTop {a : Str} (h : RPart a) {c : Char} (hc : c ∈ opChars) : NoTop c Quote.zero (')' :: (a ++ ['('])) := by
  have lit : ∀ x, litMatch c x = true → x = c := fun x hx =>
    litMatch_eq (by clear hx; revert c; decide) (by rintro rfl; revert hc; decide) hx
  intro p x r e hx
  have := lit x hx
  subst this
  cases p with
  | nil => injection e with e; subst e; revert hc; decide
  | cons y p =>
    rw [List.cons_append] at e
    injection e with e1 e2
    subst e1
    rw [← Quote.at_zero, Quote.run_cons, at_close]
    rcases List.append_eq_append_iff.1 e2 with ⟨z, rfl, h2⟩ | ⟨z, h1, h2⟩
    · cases z with
      | nil => injection h2 with h2; subst h2; exact absurd hc (by decide)
      | cons w z =>
        rw [List.cons_append] at h2
        injection h2 with _ h2
        have := (List.append_eq_nil_iff.1 h2.symm).2
        cases this
    · obtain ⟨d', h3, h4⟩ := h.deep (0 - 1) p z h1
      rw [h4]
      intro hz
      have := congrArg Quote.depth hz
      simp [Quote.at] at this
      omega

theorem noTop_plain {c : Char} {q : Quote} {a : Str} (h : c ∉ a) (hc : c ∈ opChars) : NoTop c q a := by
  refine NoTop.of_not fun x hx => ?_
  refine lit_ne (by clear h; revert c; decide) (by rintro rfl; revert hc; decide) ?_
  rintro rfl
  exact h hx

theorem RPart.zero {a : Str} (h : RPart a) : Quote.zero.run a = Quote.zero := by
  rw [← Quote.at_zero]; exact h.back 0

/-- A leaf. -/
theorem RTok.leaf {a : Str} (hne : a ≠ []) (h : ∀ c ∈ a, plainChar c = true) : RTok a := by
  have hp : ∀ c ∈ a, isblank c = false := by
    intro c hc
    have := h c hc
    cases hb : isblank c with
    | false => rfl
    | true => simp [plainChar, hb] at this
  have hr : RPart a := .plain fun c hc => by
    have := h c hc
    refine ⟨?_, ?_, ?_, ?_⟩ <;> rintro rfl <;> revert this <;> decide
  exact { ne := hne, lead := fun c r e => hp c (by rw [e]; simp), trail := fun c r e => hp c (by rw [e]; simp),
          quotes := hr.quotes, deep := hr.deep, back := hr.back, ops := plain_noTop h }

/-- Something in parentheses, with a word in front (behind, in reverse). -/
theorem RTok.wrap {R b1 b2 tail : Str} (h : RText R) (h1 : Blank b1) (h2 : Blank b2)
    (ht : ∀ c ∈ tail, plainChar c = true ∨ isblank c = true) (hl : Trail tail) :
    RTok (')' :: (b1 ++ (R ++ (b2 ++ '(' :: tail)))) := by
  have hi : RPart (b1 ++ (R ++ b2)) := (RPart.blank h1).append (h.part.append (RPart.blank h2))
  have hq : ∀ c ∈ tail, c ≠ '\'' ∧ c ≠ '"' ∧ c ≠ '(' ∧ c ≠ ')' := by
    intro c hc
    rcases ht c hc with h | h
    · refine ⟨?_, ?_, ?_, ?_⟩ <;> rintro rfl <;> revert h <;> decide
    · rcases isblank_eq h with rfl | rfl <;> decide
  have hp : RPart tail := .plain hq
  have e : ')' :: (b1 ++ (R ++ (b2 ++ '(' :: tail))) = (')' :: ((b1 ++ (R ++ b2)) ++ ['('])) ++ tail := by simp
  have hw := hi.wrap
  have ha := hw.append hp
  rw [e]
  refine { ne := by simp, lead := ?_, trail := ?_, quotes := ha.quotes, deep := ha.deep, back := ha.back, ops := ?_ }
  · intro c r e'
    injection e' with e'
    subst e'
    decide
  · rcases List.eq_nil_or_concat tail with rfl | ⟨x, y, rfl⟩
    · intro c r e'
      rw [List.append_nil] at e'
      have := last_eq (ds := ')' :: (b1 ++ (R ++ b2))) (x := '(') (by simpa using e')
      subst this
      decide
    · exact Trail.append hl (by simp)
  · intro c hc
    refine NoTop.append (wrap_noTop hi hc) (noTop_plain ?_ hc)
    intro hm
    rcases ht c hm with h | h
    · simp [plainChar, hc] at h
    · rcases isblank_eq h with rfl | rfl <;> (revert hc; decide)

/-- Two operands and an operator. -/
theorem RText.join {Rb Ra b1 b2 op : Str} (hb : RText Rb) (ha : RText Ra) (h1 : Blank b1) (h2 : Blank b2)
    (ho : ∀ c ∈ op, c ∈ opChars) : RText (Rb ++ (b2 ++ (op ++ (b1 ++ Ra)))) := by
  have hp : RPart op := .plain fun c hc => by
    have := ho c hc
    refine ⟨?_, ?_, ?_, ?_⟩ <;> rintro rfl <;> revert this <;> decide
  have h := hb.part.append ((RPart.blank h2).append (hp.append ((RPart.blank h1).append ha.part)))
  refine { ne := ?_, lead := ?_, trail := ?_, quotes := h.quotes, deep := h.deep, back := h.back }
  · intro h; exact hb.ne (List.append_eq_nil_iff.1 h).1
  · intro c r e
    obtain ⟨x, R, rfl⟩ : ∃ x R, Rb = x :: R := by
      cases Rb with | nil => exact absurd rfl hb.ne | cons x R => exact ⟨x, R, rfl⟩
    injection e with e
    subst e
    exact hb.lead x R rfl
  · exact Trail.append (Trail.append (Trail.append (Trail.append ha.trail ha.ne) (by simp [ha.ne])) (by simp [ha.ne])) (by simp [ha.ne])

/-- An operand with a sign. -/
theorem RText.sign {Ra b1 : Str} {c : Char} (ha : RText Ra) (h1 : Blank b1) (hc : c ∈ opChars) :
    RText (Ra ++ (b1 ++ [c])) := by
  have hp : RPart [c] := .plain fun x hx => by
    rw [List.mem_singleton] at hx
    subst hx
    refine ⟨?_, ?_, ?_, ?_⟩ <;> rintro rfl <;> revert hc <;> decide
  have h := ha.part.append ((RPart.blank h1).append hp)
  refine { ne := by simp, lead := ?_, trail := ?_, quotes := h.quotes, deep := h.deep, back := h.back }
  · intro x r e
    obtain ⟨y, R, rfl⟩ : ∃ x R, Ra = x :: R := by
      cases Ra with | nil => exact absurd rfl ha.ne | cons x R => exact ⟨x, R, rfl⟩
    injection e with e
    subst e
    exact ha.lead y R rfl
  · intro x r e
    rw [← List.append_assoc] at e
    have := last_eq e
    subst this
    clear h hp e
    revert hc; revert x
    decide

/-! ## Patterns on reversed texts -/

/-- A part of a pattern without `(` fails on a text with `(`, and not because the text has ended. -/
theorem matchSeg_open {q : Quote} : ∀ {w s : Str}, (∀ p ∈ w, litMatch p '(' = false) → '(' ∈ s →
    matchSeg q true w s = .bad false := by
  intro w
  induction w with
  | nil =>
    intro s _ hs
    cases s with
    | nil => cases hs
    | cons c s => simp [matchSeg]
  | cons p w ih =>
    intro s hw hs
    by_cases hp : p = '_'
    · subst hp
      rw [matchSeg_blank]
      refine ih (fun x hx => hw x (by simp [hx])) ?_
      obtain ⟨b, e, hb, -⟩ := skipBlanks_spec s
      rw [e] at hs
      rcases List.mem_append.1 hs with h | h
      · exact absurd (hb _ h) (by decide)
      · exact h
    · cases s with
      | nil => cases hs
      | cons c s =>
        rw [matchSeg_lit _ _ hp]
        by_cases hm : q = Quote.zero ∧ litMatch p c = true
        · rw [if_pos hm]
          refine ih (fun x hx => hw x (by simp [hx])) ?_
          rcases List.mem_cons.1 hs with h | h
          · subst h; rw [hw p (by simp)] at hm; exact absurd hm.2 (by simp)
          · exact h
        · rw [if_neg hm]

/-- A wildcard up to the parenthesis that ends the (reversed) text. -/
theorem seek_open {w bl r : Str} (hw : ∀ p ∈ w, litMatch p '(' = false) (hbl : Blank bl)
    (hr : matchSeg Quote.zero true w r = .ok []) {a : Str} : ∀ {q : Quote}, q.run a = Quote.zero → Trail a →
      seek true ('_' :: '(' :: w) q (a ++ (bl ++ '(' :: r)) = .ok (a, [], Quote.zero) := by
  induction a with
  | nil =>
    intro q hz _
    simp only [Quote.run_nil] at hz
    subst hz
    have hm : matchSeg Quote.zero true ('_' :: '(' :: w) (bl ++ '(' :: r) = .ok [] := by
      rw [matchSeg_blank, skipBlanks_append hbl, skipBlanks_cons (by decide), matchSeg_lit _ _ (by decide),
        if_pos ⟨rfl, by decide⟩, hr]
    rw [List.nil_append]
    cases hs : bl ++ '(' :: r with
    | nil => simp at hs
    | cons y s => rw [hs] at hm; rw [seek, hm]
  | cons y a ih =>
    intro q hz hl
    have hm : matchSeg q true ('_' :: '(' :: w) (y :: a ++ (bl ++ '(' :: r)) = .bad false := by
      obtain ⟨b, z, r', h1, h2, h3⟩ := hl.not_blank (by simp)
      rw [matchSeg_blank, h1, List.append_assoc, skipBlanks_append h2, List.cons_append, skipBlanks_cons h3,
        matchSeg_lit _ _ (by decide)]
      split
      · exact matchSeg_open hw (by simp)
      · rfl
    rw [List.cons_append] at hm ⊢
    rw [seek, hm]
    simp only
    rw [ih hz hl.tail]

/-- The patterns for parentheses. -/
theorem filter_close {pat w R b1 b2 r : Str} (hp : splitPat pat = ([')', '_'], [['_', '('] ++ w]))
    (hw : ∀ p ∈ w, litMatch p '(' = false) (h1 : Blank b1) (h2 : Blank b2) (h : RText R)
    (hr : matchSeg Quote.zero true w r = .ok []) :
    ∃ wr k, filter (')' :: (b1 ++ (R ++ (b2 ++ '(' :: r)))) pat = ⟨true, [R], wr, k⟩ := by
  unfold filter
  rw [hp]
  have e : matchSeg Quote.zero false [')', '_'] (')' :: (b1 ++ (R ++ (b2 ++ '(' :: r)))) = .ok (R ++ (b2 ++ '(' :: r)) := by
    rw [matchSeg_lit _ _ (by decide), if_pos ⟨rfl, by decide⟩, matchSeg_blank, skipBlanks_append h1, matchSeg_nil]
    obtain ⟨x, R', rfl⟩ : ∃ x R', R = x :: R' := by
      cases R with | nil => exact absurd rfl h.ne | cons x R => exact ⟨x, R, rfl⟩
    rw [List.cons_append, skipBlanks_cons (h.lead x R' rfl)]
  simp only [List.isEmpty_cons]
  rw [e]
  simp only
  rw [filterWild]
  · rw [show ([] : List Str).isEmpty = true from rfl]
    simp only [List.cons_append, List.nil_append]
    rw [seek_open hw h2 hr h.part.zero h.trail]
    exact ⟨_, _, by simp [filterWild]; exact ⟨rfl, rfl⟩⟩
  · intro h; cases h

/-- Patterns that need another last character. -/
theorem filter_last {pat e : Str} {p x : Char} (hl : ∀ a, Spec.Fits pat a e → ∃ a y, e = a ++ [y] ∧ Spec.Same p y)
    {a : Str} (he : e = a ++ [x]) (hx : ¬ Spec.Same p x) : (filter e pat).ok = false := by
  cases hf : (filter e pat).ok with
  | false => rfl
  | true =>
    obtain ⟨b, y, h1, h2⟩ := hl _ (C14_captures e pat hf)
    rw [he] at h1
    have := last_eq h1
    subst this
    exact absurd h2 hx

/-- A pattern ending with a given character. -/
theorem fits_last {p : Char} (h1 : p ≠ '?') (h2 : p ≠ '_') : ∀ {pat : Str} {caps : List Str} {s : Str},
    Spec.Fits (pat ++ [p]) caps s → ∃ a y, s = a ++ [y] ∧ Spec.Same p y := by
  intro pat
  induction pat with
  | nil =>
    intro caps s h
    simp only [List.nil_append, Spec.Fits, if_neg h1, if_neg h2] at h
    obtain ⟨x, s', rfl, hs, h⟩ := h
    cases caps with
    | nil => exact ⟨[], x, by rw [show s' = [] from h]; rfl, hs⟩
    | cons => exact absurd h (by simp [Spec.Fits])
  | cons q pat ih =>
    intro caps s h
    rw [List.cons_append] at h
    unfold Spec.Fits at h
    split at h
    · cases caps with
      | nil => exact absurd h (by simp)
      | cons c caps =>
        obtain ⟨s', rfl, h⟩ := h
        obtain ⟨a, y, rfl, hy⟩ := ih h
        exact ⟨c ++ a, y, by simp, hy⟩
    · split at h
      · obtain ⟨b, s', rfl, -, h⟩ := h
        obtain ⟨a, y, rfl, hy⟩ := ih h
        exact ⟨b ++ a, y, by simp, hy⟩
      · obtain ⟨x, s', rfl, -, h⟩ := h
        obtain ⟨a, y, rfl, hy⟩ := ih h
        exact ⟨x :: a, y, by simp, hy⟩

/-! ## Rows that apply -/

theorem firstMatch_one {e a b : Str} {pat : Str} {op : Op2} {w k : Nat} : ∀ {pre post : List (Str × Op2)},
    (∀ p ∈ pre, (filter e p.1).ok = false) → (∀ p ∈ post, (filter e p.1).ok = false) →
    filter e pat = ⟨true, [a, b], w, k⟩ → ∀ s,
    Toward (firstMatch e (pre ++ (pat, op) :: post) s) (.ok (some (a, b, op)) { s with bufpos := s.bufpos + w }) := by
  intro pre
  induction pre with
  | nil =>
    intro post _ h2 hf s
    rw [List.nil_append]
    unfold firstMatch
    exact Toward.bind (toward_filter2 hf s) (Toward.bind (firstMatch_miss h2 _) (.refl _))
  | cons p pre ih =>
    intro post h1 h2 hf s
    rw [List.cons_append]
    unfold firstMatch
    exact Toward.bind (toward_miss2 (h1 p (by simp)) s)
      (Toward.bind (ih (fun q hq => h1 q (by simp [hq])) h2 hf s) (.refl _))

/-- A dyadic operator applied to what `rec` gives for both sides. -/
def both (rec : Bool → Str → M Result) (tgt : Bool) (op : Op2) (c1 c2 : Str) : M Result := do
  let p ← rec tgt c2
  let a ← rec false c1
  finishOp tgt (applyOp2 op p a)
def one (rec : Bool → Str → M Result) (tgt : Bool) (op : Op1) (c : Str) : M Result := do
  let p ← rec tgt c
  finishOp tgt (applyOp1 op p)

theorem rows_hit {rec : Bool → Str → M Result} {tgt : Bool} {e a b pat : Str} {op : Op2} {w k : Nat}
    {pre post alts : List (Str × Op2)} {rows : List Ent} (he : alts = pre ++ (pat, op) :: post)
    (h1 : ∀ p ∈ pre, (filter e p.1).ok = false) (h2 : ∀ p ∈ post, (filter e p.1).ok = false)
    (hf : filter e pat = ⟨true, [a, b], w, k⟩) (ha : a ≠ []) (hb : b ≠ []) (s : St) :
    Toward (parseRows rec tgt e (.dya alts :: rows) s) (both rec tgt op a b { s with bufpos := s.bufpos + w }) := by
  rw [parseRows, he]
  refine Toward.bind (firstMatch_one h1 h2 hf s) ?_
  simp only [ha, hb, or_self, if_false]
  exact .refl _

theorem rows_mon_hit {rec : Bool → Str → M Result} {tgt : Bool} {e a pat : Str} {op : Op1} {w k : Nat}
    {rows : List Ent} (hf : filter e pat = ⟨true, [a], w, k⟩) (ha : a ≠ []) (s : St) :
    Toward (parseRows rec tgt e (.mon pat op :: rows) s) (one rec tgt op a { s with bufpos := s.bufpos + w }) := by
  rw [parseRows]
  refine Toward.bind (toward_filter1 hf s) ?_
  cases a with
  | nil => exact absurd rfl ha
  | cons c a => exact .refl _

theorem rows_paren_hit {rec : Bool → Str → M Result} {tgt : Bool} {e a pat : Str} {w k : Nat}
    {rows : List Ent} (hf : filter e pat = ⟨true, [a], w, k⟩) (ha : a ≠ []) (s : St) :
    Toward (parseRows rec tgt e (.paren pat :: rows) s) (rec tgt a { s with bufpos := s.bufpos + w }) := by
  rw [parseRows]
  refine Toward.bind (toward_filter1 hf s) ?_
  cases a with
  | nil => exact absurd rfl ha
  | cons c a => exact .refl _

/-! ## The parser on each construct -/

def Spec.BinOp.op : Spec.BinOp → Op2
  | .add => .add | .sub => .sub | .mul => .mul | .div => .div | .and => .and | .or => .or | .xor => .xor
  | .shl => .lsh | .shr => .rsh

theorem op_hit {op : Spec.BinOp} {Ra Rb b1 b2 : Str} (ha : RText Ra) (hb : RTok Rb) (h1 : Blank b1) (h2 : Blank b2) :
    ∃ w k, filter (Rb ++ (b2 ++ (op.sym.reverse ++ (b1 ++ Ra)))) (['?', '_'] ++ op.sym ++ ['_', '?']) =
      ⟨true, [Rb, Ra], w, k⟩ := by
  have hs : skipBlanks (b1 ++ Ra) = Ra := by rw [skipBlanks_append h1, ha.lead.skip]
  have single : ∀ c ∈ opChars, ∃ w k, filter (Rb ++ (b2 ++ ([c] ++ (b1 ++ Ra)))) ['?', '_', c, '_', '?'] =
      ⟨true, [Rb, Ra], w, k⟩ := by
    intro c hc
    obtain ⟨w, k, h, -⟩ := filter_sep (c := c) (x := c) (a := Rb) (bl := b2) (r := b1 ++ Ra)
      (by rintro rfl; revert hc; decide) (by rintro rfl; revert hc; decide) (by revert hc; revert c; decide)
      (hb.ops c hc) hb.part.zero hb.trail h2 (by simp [litMatch])
    rw [hs] at h
    exact ⟨w, k, h⟩
  have double : ∀ c ∈ ['<', '>'], ∃ w k, filter (Rb ++ (b2 ++ ([c, c] ++ (b1 ++ Ra)))) ['?', '_', c, c, '_', '?'] =
      ⟨true, [Rb, Ra], w, k⟩ := by
    intro c hc
    have h5 : isblank c = false := by revert hc; revert c; decide
    have h6 : c ∈ opChars := by clear h5; revert hc; revert c; decide
    have h3 : c ≠ '?' := by rintro rfl; revert hc; decide
    have h4 : c ≠ '_' := by rintro rfl; revert hc; decide
    have hl : litMatch c c = true := by simp [litMatch]
    unfold filter
    have e : splitPat ['?', '_', c, c, '_', '?'] = ([], [['_', c, c, '_'], []]) := by
      simp [splitPat, h3]
    rw [e]
    simp only [List.isEmpty_cons, matchSeg_nil]
    rw [filterWild]
    · have := seek_sep (e := false) (c := c) (x := c) (tail := [c, '_']) (bl := b2) (r := c :: (b1 ++ Ra)) (rest := Ra) h4 h5 h2 hl
        (by rw [matchSeg_lit _ _ h4, if_pos ⟨rfl, hl⟩, matchSeg_blank, matchSeg_nil, hs]) (a := Rb) (q := Quote.zero)
        (hb.ops c h6) hb.part.zero hb.trail
      simp only [List.isEmpty_cons, List.cons_append, List.nil_append]
      rw [this]
      simp only [filterWild]
      exact ⟨_, _, rfl⟩
    · intro h; cases h
  cases op
  · exact single _ (by decide)
  · exact single _ (by decide)
  · exact single _ (by decide)
  · exact single _ (by decide)
  · exact single _ (by decide)
  · exact single _ (by decide)
  · exact single _ (by decide)
  · exact double _ (by decide)
  · exact double _ (by decide)

theorem op_noTop {op : Spec.BinOp} {Ra Rb b1 b2 : Str} (ha : RTok Ra) (hb : RTok Rb) (h1 : Blank b1) (h2 : Blank b2) :
    ∀ c ∈ opChars, c ∉ op.sym → NoTop c Quote.zero (Rb ++ (b2 ++ (op.sym.reverse ++ (b1 ++ Ra)))) := by
  intro c hc hn
  have hcb : isblank c = false := by clear hn; revert hc; revert c; decide
  have hs : RPart op.sym.reverse := .plain (by cases op <;> decide)
  refine (hb.ops c hc).append ?_
  rw [hb.part.zero]
  refine (NoTop.blank hcb h2).append ?_
  rw [run_blank h2]
  refine (noTop_plain (by simpa using hn) hc).append ?_
  rw [hs.zero]
  refine (NoTop.blank hcb h1).append ?_
  rw [run_blank h1]
  exact ha.ops c hc

theorem parse2_bin {n : Nat} {tgt : Bool} {op : Spec.BinOp} {Ra Rb b1 b2 : Str} (ha : RTok Ra) (hb : RTok Rb)
    (h1 : Blank b1) (h2 : Blank b2) (s : St) :
    ∃ b, Toward (parse2 (n + 1) tgt (Rb ++ (b2 ++ (op.sym.reverse ++ (b1 ++ Ra)))) s)
      (both (parse2 n) tgt (Spec.BinOp.op op) Rb Ra { s with bufpos := b }) := by
  obtain ⟨w, k, hf⟩ := op_hit (op := op) ha.toRText hb h1 h2
  have nt := op_noTop (op := op) ha hb h1 h2
  refine ⟨s.bufpos + w, ?_⟩
  rw [parse2]
  generalize Rb ++ (b2 ++ (op.sym.reverse ++ (b1 ++ Ra))) = e at hf nt
  have r0 : '\\' ∉ op.sym → ∀ p ∈ [(c!"?_\\_?", Op2.rlist)], (filter e p.1).ok = false := by
    intro h p hp
    rw [List.mem_singleton] at hp; subst hp
    exact filter_wild (c := '\\') rfl (by decide) (nt _ (by decide) h)
  have r1 : '+' ∉ op.sym → '-' ∉ op.sym → ∀ p ∈ [(c!"?_+_?", Op2.add), (c!"?_-_?", Op2.sub)], (filter e p.1).ok = false := by
    intro h h' p hp
    simp only [List.mem_cons, List.not_mem_nil, or_false] at hp
    rcases hp with rfl | rfl
    · exact filter_wild (c := '+') rfl (by decide) (nt _ (by decide) h)
    · exact filter_wild (c := '-') rfl (by decide) (nt _ (by decide) h')
  have r2 : '*' ∉ op.sym → '/' ∉ op.sym → ∀ p ∈ [(c!"?_*_?", Op2.mul), (c!"?_/_?", Op2.div)], (filter e p.1).ok = false := by
    intro h h' p hp
    simp only [List.mem_cons, List.not_mem_nil, or_false] at hp
    rcases hp with rfl | rfl
    · exact filter_wild (c := '*') rfl (by decide) (nt _ (by decide) h)
    · exact filter_wild (c := '/') rfl (by decide) (nt _ (by decide) h')
  have r3 : '|' ∉ op.sym → '&' ∉ op.sym → '^' ∉ op.sym →
      ∀ p ∈ [(c!"?_|_?", Op2.or), (c!"?_&_?", Op2.and), (c!"?_^_?", Op2.xor)], (filter e p.1).ok = false := by
    intro h h' h'' p hp
    simp only [List.mem_cons, List.not_mem_nil, or_false] at hp
    rcases hp with rfl | rfl | rfl
    · exact filter_wild (c := '|') rfl (by decide) (nt _ (by decide) h)
    · exact filter_wild (c := '&') rfl (by decide) (nt _ (by decide) h')
    · exact filter_wild (c := '^') rfl (by decide) (nt _ (by decide) h'')
  have miss : ∀ (c : Char) (pat : Str), c ∈ opChars → c ∉ op.sym → splitPat pat = ([], [['_', c, '_'], []]) →
      (filter e pat).ok = false := fun c pat h1 h2 h3 =>
    filter_wild h3 (by rintro rfl; revert h1; decide) (nt c h1 h2)
  have miss2 : ∀ (c : Char) (pat : Str), c ∈ opChars → c ∉ op.sym → splitPat pat = ([], [['_', c, c, '_'], []]) →
      (filter e pat).ok = false := fun c pat h1 h2 h3 =>
    filter_wild h3 (by rintro rfl; revert h1; decide) (nt c h1 h2)
  have nil : ∀ p ∈ ([] : List (Str × Op2)), (filter e p.1).ok = false := by intro p hp; cases hp
  cases op with
  | add =>
    refine (rows_dya (r0 (by decide)) s).trans ?_
    refine rows_hit (pre := []) rfl nil ?_ hf hb.ne ha.ne s
    intro p hp; rw [List.mem_singleton] at hp; subst hp
    exact miss '-' _ (by decide) (by decide) rfl
  | sub =>
    refine (rows_dya (r0 (by decide)) s).trans ?_
    refine rows_hit (pre := [(c!"?_+_?", Op2.add)]) rfl ?_ nil hf hb.ne ha.ne s
    intro p hp; rw [List.mem_singleton] at hp; subst hp
    exact miss '+' _ (by decide) (by decide) rfl
  | mul =>
    refine (rows_dya (r0 (by decide)) s).trans ((rows_dya (r1 (by decide) (by decide)) s).trans ?_)
    refine rows_hit (pre := []) rfl nil ?_ hf hb.ne ha.ne s
    intro p hp; rw [List.mem_singleton] at hp; subst hp
    exact miss '/' _ (by decide) (by decide) rfl
  | div =>
    refine (rows_dya (r0 (by decide)) s).trans ((rows_dya (r1 (by decide) (by decide)) s).trans ?_)
    refine rows_hit (pre := [(c!"?_*_?", Op2.mul)]) rfl ?_ nil hf hb.ne ha.ne s
    intro p hp; rw [List.mem_singleton] at hp; subst hp
    exact miss '*' _ (by decide) (by decide) rfl
  | or =>
    refine (rows_dya (r0 (by decide)) s).trans ((rows_dya (r1 (by decide) (by decide)) s).trans ((rows_dya (r2 (by decide) (by decide)) s).trans ?_))
    refine rows_hit (pre := []) rfl nil ?_ hf hb.ne ha.ne s
    intro p hp
    simp only [List.mem_cons, List.not_mem_nil, or_false] at hp
    rcases hp with rfl | rfl
    · exact miss '&' _ (by decide) (by decide) rfl
    · exact miss '^' _ (by decide) (by decide) rfl
  | and =>
    refine (rows_dya (r0 (by decide)) s).trans ((rows_dya (r1 (by decide) (by decide)) s).trans ((rows_dya (r2 (by decide) (by decide)) s).trans ?_))
    refine rows_hit (pre := [(c!"?_|_?", Op2.or)]) rfl ?_ ?_ hf hb.ne ha.ne s
    · intro p hp; rw [List.mem_singleton] at hp; subst hp
      exact miss '|' _ (by decide) (by decide) rfl
    · intro p hp; rw [List.mem_singleton] at hp; subst hp
      exact miss '^' _ (by decide) (by decide) rfl
  | xor =>
    refine (rows_dya (r0 (by decide)) s).trans ((rows_dya (r1 (by decide) (by decide)) s).trans ((rows_dya (r2 (by decide) (by decide)) s).trans ?_))
    refine rows_hit (pre := [(c!"?_|_?", Op2.or), (c!"?_&_?", Op2.and)]) rfl ?_ nil hf hb.ne ha.ne s
    intro p hp
    simp only [List.mem_cons, List.not_mem_nil, or_false] at hp
    rcases hp with rfl | rfl
    · exact miss '|' _ (by decide) (by decide) rfl
    · exact miss '&' _ (by decide) (by decide) rfl
  | shl =>
    refine (rows_dya (r0 (by decide)) s).trans ((rows_dya (r1 (by decide) (by decide)) s).trans ((rows_dya (r2 (by decide) (by decide)) s).trans
      ((rows_dya (r3 (by decide) (by decide) (by decide)) s).trans ?_)))
    refine rows_hit (pre := []) rfl nil ?_ hf hb.ne ha.ne s
    intro p hp; rw [List.mem_singleton] at hp; subst hp
    exact miss2 '>' _ (by decide) (by decide) rfl
  | shr =>
    refine (rows_dya (r0 (by decide)) s).trans ((rows_dya (r1 (by decide) (by decide)) s).trans ((rows_dya (r2 (by decide) (by decide)) s).trans
      ((rows_dya (r3 (by decide) (by decide) (by decide)) s).trans ?_)))
    refine rows_hit (pre := [(c!"?_<<_?", Op2.lsh)]) rfl ?_ nil hf hb.ne ha.ne s
    intro p hp; rw [List.mem_singleton] at hp; subst hp
    exact miss2 '<' _ (by decide) (by decide) rfl

/-- The pattern `?_c`. -/
theorem filter_sign {c : Char} {Ra b1 : Str} (hc : c ∈ opChars) (ha : RTok Ra) (h1 : Blank b1) :
    ∃ w k, filter (Ra ++ (b1 ++ [c])) ['?', '_', c] = ⟨true, [Ra], w, k⟩ := by
  have h5 : isblank c = false := by revert hc; revert c; decide
  have h3 : c ≠ '?' := by rintro rfl; revert hc; decide
  have h4 : c ≠ '_' := by rintro rfl; revert hc; decide
  unfold filter
  have e : splitPat ['?', '_', c] = ([], [['_', c]]) := by simp [splitPat, h3]
  rw [e]
  simp only [List.isEmpty_cons, matchSeg_nil]
  rw [filterWild]
  · have := seek_sep (e := true) (c := c) (x := c) (tail := []) (bl := b1) (r := []) (rest := []) h4 h5 h1 (by simp [litMatch])
      (by simp [matchSeg]) (a := Ra) (q := Quote.zero) (ha.ops c hc) ha.part.zero ha.trail
    rw [show ([] : List Str).isEmpty = true from rfl, this]
    simp only [filterWild]
    exact ⟨_, _, rfl⟩
  · intro h; cases h

theorem sign_noTop {c : Char} {Ra b1 : Str} (ha : RTok Ra) (h1 : Blank b1) :
    ∀ x ∈ opChars, x ≠ c → NoTop x Quote.zero (Ra ++ (b1 ++ [c])) := by
  intro x hx hn
  have hxb : isblank x = false := by clear hn; revert hx; revert x; decide
  refine (ha.ops x hx).append ?_
  rw [ha.part.zero]
  refine (NoTop.blank hxb h1).append ?_
  rw [run_blank h1]
  exact noTop_plain (by simpa using hn) hx

theorem parse2_neg {n : Nat} {tgt : Bool} {Ra b1 : Str} (ha : RTok Ra) (h1 : Blank b1) (s : St) :
    ∃ b, Toward (parse2 (n + 1) tgt (Ra ++ (b1 ++ ['-'])) s) (one (parse2 n) tgt .minus Ra { s with bufpos := b }) := by
  have nt := sign_noTop (c := '-') ha h1
  obtain ⟨w, k, hf⟩ := filter_sign (c := '-') (by decide) ha h1
  obtain ⟨w', k', hf', -⟩ := filter_sep (c := '-') (x := '-') (a := Ra) (bl := b1) (r := []) (by decide) (by decide) (by decide)
    (ha.ops _ (by decide)) ha.part.zero ha.trail h1 (by decide)
  have miss : ∀ (c : Char) (pat : Str), c ∈ opChars → c ≠ '-' → splitPat pat = ([], [['_', c, '_'], []]) →
      (filter (Ra ++ (b1 ++ ['-'])) pat).ok = false := fun c pat h1 h2 h3 =>
    filter_wild h3 (by rintro rfl; revert h1; decide) (nt c h1 h2)
  have miss2 : ∀ (c : Char) (pat : Str), c ∈ opChars → c ≠ '-' → splitPat pat = ([], [['_', c, c, '_'], []]) →
      (filter (Ra ++ (b1 ++ ['-'])) pat).ok = false := fun c pat h1 h2 h3 =>
    filter_wild h3 (by rintro rfl; revert h1; decide) (nt c h1 h2)
  refine ⟨s.bufpos + w' + w, ?_⟩
  rw [parse2]
  refine (rows_dya (fun p hp => ?_) s).trans ?_
  · rw [List.mem_singleton] at hp; subst hp
    exact miss '\\' _ (by decide) (by decide) rfl
  have skip : Toward (parseRows (parse2 n) tgt (Ra ++ (b1 ++ ['-'])) revTable.tail s)
      (parseRows (parse2 n) tgt (Ra ++ (b1 ++ ['-'])) (revTable.drop 2) { s with bufpos := s.bufpos + w' }) := by
    refine Toward.bind (a := some (Ra, [], .sub)) (s' := { s with bufpos := s.bufpos + w' }) ?_ ?_
    · refine firstMatch_one (pre := [(c!"?_+_?", Op2.add)]) (post := []) ?_ ?_ hf' s
      · intro p hp; rw [List.mem_singleton] at hp; subst hp
        exact miss '+' _ (by decide) (by decide) rfl
      · intro p hp; cases hp
    · simp only [or_true, if_true]
      exact .refl _
  refine skip.trans ?_
  refine (rows_dya (fun p hp => ?_) _).trans ?_
  · simp only [List.mem_cons, List.not_mem_nil, or_false] at hp
    rcases hp with rfl | rfl
    · exact miss '*' _ (by decide) (by decide) rfl
    · exact miss '/' _ (by decide) (by decide) rfl
  refine (rows_dya (fun p hp => ?_) _).trans ?_
  · simp only [List.mem_cons, List.not_mem_nil, or_false] at hp
    rcases hp with rfl | rfl | rfl
    · exact miss '|' _ (by decide) (by decide) rfl
    · exact miss '&' _ (by decide) (by decide) rfl
    · exact miss '^' _ (by decide) (by decide) rfl
  refine (rows_dya (fun p hp => ?_) _).trans ?_
  · simp only [List.mem_cons, List.not_mem_nil, or_false] at hp
    rcases hp with rfl | rfl
    · exact miss2 '<' _ (by decide) (by decide) rfl
    · exact miss2 '>' _ (by decide) (by decide) rfl
  exact rows_mon_hit hf ha.ne _

theorem parse2_not {n : Nat} {tgt : Bool} {Ra b1 : Str} (ha : RTok Ra) (h1 : Blank b1) (s : St) :
    ∃ b, Toward (parse2 (n + 1) tgt (Ra ++ (b1 ++ ['~'])) s) (one (parse2 n) tgt .not Ra { s with bufpos := b }) := by
  have nt := sign_noTop (c := '~') ha h1
  obtain ⟨w, k, hf⟩ := filter_sign (c := '~') (by decide) ha h1
  have dm : ∀ alts, .dya alts ∈ revTable.take 5 → ∀ p ∈ alts, (filter (Ra ++ (b1 ++ ['~'])) p.1).ok = false := by
    intro alts ha'
    simp only [revTable, List.take, List.mem_cons, Ent.dya.injEq, List.not_mem_nil, or_false] at ha'
    intro p hp
    rcases ha' with rfl | rfl | rfl | rfl | rfl <;> simp only [List.mem_cons, List.not_mem_nil, or_false] at hp
    · subst hp; exact filter_wild (c := '\\') rfl (by decide) (nt _ (by decide) (by decide))
    · rcases hp with rfl | rfl
      · exact filter_wild (c := '+') rfl (by decide) (nt _ (by decide) (by decide))
      · exact filter_wild (c := '-') rfl (by decide) (nt _ (by decide) (by decide))
    · rcases hp with rfl | rfl
      · exact filter_wild (c := '*') rfl (by decide) (nt _ (by decide) (by decide))
      · exact filter_wild (c := '/') rfl (by decide) (nt _ (by decide) (by decide))
    · rcases hp with rfl | rfl | rfl
      · exact filter_wild (c := '|') rfl (by decide) (nt _ (by decide) (by decide))
      · exact filter_wild (c := '&') rfl (by decide) (nt _ (by decide) (by decide))
      · exact filter_wild (c := '^') rfl (by decide) (nt _ (by decide) (by decide))
    · rcases hp with rfl | rfl
      · exact filter_wild (c := '<') rfl (by decide) (nt _ (by decide) (by decide))
      · exact filter_wild (c := '>') rfl (by decide) (nt _ (by decide) (by decide))
  refine ⟨s.bufpos + w, ?_⟩
  rw [parse2]
  refine (rows_dya (dm _ (by simp [revTable])) s).trans ?_
  refine (rows_dya (dm _ (by simp [revTable])) s).trans ?_
  refine (rows_dya (dm _ (by simp [revTable])) s).trans ?_
  refine (rows_dya (dm _ (by simp [revTable])) s).trans ?_
  refine (rows_dya (dm _ (by simp [revTable])) s).trans ?_
  refine (rows_mon (filter_wild (c := '-') rfl (by decide) (nt _ (by decide) (by decide))) s).trans ?_
  exact rows_mon_hit hf ha.ne _

/-- Patterns for other words before the parenthesis. -/
theorem close_miss {e a pat : Str} {x p : Char} (he : e = a ++ [x]) (h1 : p ≠ '?') (h2 : p ≠ '_')
    (hx : toupper p ≠ toupper x) (hp : p ≠ ' ') : (filter e (pat ++ [p])).ok = false := by
  refine filter_last (p := p) (fun a h => fits_last h1 h2 h) he ?_
  rintro (h | h)
  · rw [← toupper_eq, ← toupper_eq] at h; exact hx h
  · exact hp h.1

theorem parse2_paren {n : Nat} {tgt : Bool} {R b1 b2 : Str} (h : RText R) (h1 : Blank b1) (h2 : Blank b2) (s : St) :
    ∃ b, Toward (parse2 (n + 1) tgt (')' :: (b1 ++ (R ++ (b2 ++ ['('])))) s) (parse2 n tgt R { s with bufpos := b }) := by
  have ht := RTok.wrap (tail := []) h h1 h2 (by simp) .nil
  obtain ⟨w, k, hf⟩ := filter_close (pat := c!")_?_(") (w := []) (r := []) rfl (by simp) h1 h2 h (by simp [matchSeg])
  have he : ')' :: (b1 ++ (R ++ (b2 ++ ['(']))) = (')' :: (b1 ++ (R ++ b2))) ++ ['('] := by simp
  refine ⟨s.bufpos + w, ?_⟩
  rw [parse2]
  refine (rows_noop ht.ops s).trans ?_
  refine (rows_mon (close_miss (pat := c!")_?_(_TI") (p := 'B') he (by decide) (by decide) (by decide) (by decide)) s).trans ?_
  refine (rows_mon (close_miss (pat := c!")_?_(_RDD") (p := 'A') he (by decide) (by decide) (by decide) (by decide)) s).trans ?_
  refine (rows_mon (close_miss (pat := c!")_?_(_O") (p := 'L') he (by decide) (by decide) (by decide) (by decide)) s).trans ?_
  refine (rows_mon (close_miss (pat := c!")_?_(_I") (p := 'H') he (by decide) (by decide) (by decide) (by decide)) s).trans ?_
  refine (rows_dya (fun p hp => ?_) s).trans ?_
  · rw [List.mem_singleton] at hp; subst hp
    exact filter_first (by decide) (by decide) fun c r he => by injection he with he; subst he; decide
  exact rows_paren_hit hf h.ne s

theorem parse2_lo {n : Nat} {tgt : Bool} {R b0 b1 b2 : Str} {l o : Char} (hl : l = 'l' ∨ l = 'L') (ho : o = 'o' ∨ o = 'O')
    (h : RText R) (h0 : Blank b0) (h1 : Blank b1) (h2 : Blank b2) (s : St) :
    ∃ b, Toward (parse2 (n + 1) tgt (')' :: (b1 ++ (R ++ (b2 ++ '(' :: (b0 ++ [o, l]))))) s)
      (one (parse2 n) tgt .lo R { s with bufpos := b }) := by
  have hlo : plainChar l = true ∧ plainChar o = true ∧ litMatch 'L' l = true ∧ litMatch 'O' o = true ∧ isblank o = false ∧ isblank l = false := by
    rcases hl with rfl | rfl <;> rcases ho with rfl | rfl <;> decide
  have ht := RTok.wrap (tail := b0 ++ [o, l]) h h1 h2 (by
    intro c hc
    rcases List.mem_append.1 hc with hc | hc
    · exact .inr (h0 c hc)
    · simp only [List.mem_cons, List.not_mem_nil, or_false] at hc
      rcases hc with rfl | rfl
      · exact .inl hlo.2.1
      · exact .inl hlo.1) (Trail.append (by
        intro c r e
        have := last_eq (ds := [o]) (x := l) e
        subst this
        exact hlo.2.2.2.2.2) (by simp))
  obtain ⟨w, k, hf⟩ := filter_close (pat := c!")_?_(_OL") (w := c!"_OL") (r := b0 ++ [o, l]) rfl (by decide) h1 h2 h (by
    rw [matchSeg_blank, skipBlanks_append h0, skipBlanks_cons hlo.2.2.2.2.1, matchSeg_lit _ _ (by decide), if_pos ⟨rfl, hlo.2.2.2.1⟩,
      matchSeg_lit _ _ (by decide), if_pos ⟨rfl, hlo.2.2.1⟩]
    simp [matchSeg])
  have he : ')' :: (b1 ++ (R ++ (b2 ++ '(' :: (b0 ++ [o, l])))) = (')' :: (b1 ++ (R ++ (b2 ++ '(' :: (b0 ++ [o]))))) ++ [l] := by simp
  refine ⟨s.bufpos + w, ?_⟩
  rw [parse2]
  refine (rows_noop ht.ops s).trans ?_
  refine (rows_mon (close_miss (pat := c!")_?_(_TI") (p := 'B') he (by decide) (by decide) (by rcases hl with rfl | rfl <;> decide) (by decide)) s).trans ?_
  refine (rows_mon (close_miss (pat := c!")_?_(_RDD") (p := 'A') he (by decide) (by decide) (by rcases hl with rfl | rfl <;> decide) (by decide)) s).trans ?_
  exact rows_mon_hit hf h.ne s

theorem parse2_hi {n : Nat} {tgt : Bool} {R b0 b1 b2 : Str} {l o : Char} (hl : l = 'h' ∨ l = 'H') (ho : o = 'i' ∨ o = 'I')
    (h : RText R) (h0 : Blank b0) (h1 : Blank b1) (h2 : Blank b2) (s : St) :
    ∃ b, Toward (parse2 (n + 1) tgt (')' :: (b1 ++ (R ++ (b2 ++ '(' :: (b0 ++ [o, l]))))) s)
      (one (parse2 n) tgt .hi R { s with bufpos := b }) := by
  have hlo : plainChar l = true ∧ plainChar o = true ∧ litMatch 'H' l = true ∧ litMatch 'I' o = true ∧ isblank o = false ∧ isblank l = false := by
    rcases hl with rfl | rfl <;> rcases ho with rfl | rfl <;> decide
  have ht := RTok.wrap (tail := b0 ++ [o, l]) h h1 h2 (by
    intro c hc
    rcases List.mem_append.1 hc with hc | hc
    · exact .inr (h0 c hc)
    · simp only [List.mem_cons, List.not_mem_nil, or_false] at hc
      rcases hc with rfl | rfl
      · exact .inl hlo.2.1
      · exact .inl hlo.1) (Trail.append (by
        intro c r e
        have := last_eq (ds := [o]) (x := l) e
        subst this
        exact hlo.2.2.2.2.2) (by simp))
  obtain ⟨w, k, hf⟩ := filter_close (pat := c!")_?_(_IH") (w := c!"_IH") (r := b0 ++ [o, l]) rfl (by decide) h1 h2 h (by
    rw [matchSeg_blank, skipBlanks_append h0, skipBlanks_cons hlo.2.2.2.2.1, matchSeg_lit _ _ (by decide), if_pos ⟨rfl, hlo.2.2.2.1⟩,
      matchSeg_lit _ _ (by decide), if_pos ⟨rfl, hlo.2.2.1⟩]
    simp [matchSeg])
  have he : ')' :: (b1 ++ (R ++ (b2 ++ '(' :: (b0 ++ [o, l])))) = (')' :: (b1 ++ (R ++ (b2 ++ '(' :: (b0 ++ [o]))))) ++ [l] := by simp
  refine ⟨s.bufpos + w, ?_⟩
  rw [parse2]
  refine (rows_noop ht.ops s).trans ?_
  refine (rows_mon (close_miss (pat := c!")_?_(_TI") (p := 'B') he (by decide) (by decide) (by rcases hl with rfl | rfl <;> decide) (by decide)) s).trans ?_
  refine (rows_mon (close_miss (pat := c!")_?_(_RDD") (p := 'A') he (by decide) (by decide) (by rcases hl with rfl | rfl <;> decide) (by decide)) s).trans ?_
  refine (rows_mon (close_miss (pat := c!")_?_(_O") (p := 'L') he (by decide) (by decide) (by rcases hl with rfl | rfl <;> decide) (by decide)) s).trans ?_
  exact rows_mon_hit hf h.ne s

end Crasm

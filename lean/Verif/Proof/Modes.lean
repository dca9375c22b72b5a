import Verif.Proof.Parse
import Verif.Spec.M6502

/-! Recognising the operand forms of the 6502 (and those of the 6800 that look like them). -/

namespace Crasm
open Spec.M6502 (Bl Written Form)

/-- A pattern part that matches nowhere. -/
theorem seek_none {e : Bool} {seg : Str} {s : Str} : ∀ {q : Quote},
    (∀ p r, s = p ++ r → ∃ b, matchSeg (q.run p) e seg r = .bad b) → ∃ n, n ≤ s.length ∧ seek e seg q s = .error n := by
  induction s with
  | nil =>
    intro q h
    obtain ⟨b, hb⟩ := h [] [] rfl
    exact ⟨0, by simp, by rw [seek]; rw [Quote.run_nil] at hb; rw [hb]⟩
  | cons c s ih =>
    intro q h
    obtain ⟨b, hb⟩ := h [] (c :: s) rfl
    rw [Quote.run_nil] at hb
    cases b with
    | true => exact ⟨0, by simp, by rw [seek, hb]⟩
    | false =>
      obtain ⟨n, hn, hs⟩ := ih (q := q.step c) fun p r e => by
        obtain ⟨b, hb⟩ := h (c :: p) r (by rw [e]; rfl)
        exact ⟨b, hb⟩
      exact ⟨n + 1, by simp; omega, by rw [seek, hb]; dsimp only; rw [hs]⟩

/-- In balanced text, no closing parenthesis is outside of parentheses. -/
theorem Bal.noClose {allow : Char → Bool} {s : Str} (h : Spec.Bal allow s) : NoTop ')' Quote.zero s := by
  have key : ∀ d : Int, 0 ≤ d → ∀ p r, s = p ++ ')' :: r → (Quote.at d).run p ≠ Quote.zero := by
    induction h with
    | nil => intro d _ p r e; simp at e
    | plain allow c s h1 h2 h3 h4 _ _ ih =>
      intro d hd p r e
      cases p with
      | nil => simp at e; exact absurd e.1 h4
      | cons x p =>
        simp only [List.cons_append, List.cons.injEq] at e
        obtain ⟨rfl, e⟩ := e
        rw [Quote.run_cons, at_plain h1 h2 h3 h4]
        exact ih d hd p r e
    | paren allow t s ht hs ih1 ih2 =>
      intro d hd p r e
      cases p with
      | nil => simp at e
      | cons x p =>
        simp only [List.cons_append, List.cons.injEq] at e
        obtain ⟨rfl, e⟩ := e
        rw [Quote.run_cons, at_open]
        rcases append_split e with ⟨r', e1, e2⟩ | ⟨p', e1, e2⟩
        · exact Bal.nz ht (d + 1) (by omega) p r' e1
        · subst e2
          rw [Quote.run_append, Bal.run ht]
          cases p' with
          | nil => simp [Quote.at, Quote.zero]; omega
          | cons y p' =>
            simp only [List.cons_append, List.cons.injEq] at e1
            obtain ⟨rfl, e1⟩ := e1
            rw [Quote.run_cons, at_close]
            rw [show d + 1 - 1 = d by omega]
            exact ih2 d hd p' r e1
    | quoted allow q t s hq ht hs ih =>
      intro d hd p r e
      cases p with
      | nil => simp at e; rcases hq with rfl | rfl <;> simp at e
      | cons x p =>
        simp only [List.cons_append, List.cons.injEq] at e
        obtain ⟨rfl, e⟩ := e
        rw [Quote.run_cons, at_quote hq]
        rcases append_split e with ⟨r', e1, e2⟩ | ⟨p', e1, e2⟩
        · exact quoted_nz hq ht p r' e1
        · subst e2
          rw [Quote.run_append, quoted_run hq ht]
          cases p' with
          | nil => rcases hq with rfl | rfl <;> simp at e1
          | cons y p' =>
            simp only [List.cons_append, List.cons.injEq] at e1
            obtain ⟨rfl, e1⟩ := e1
            rw [Quote.run_cons, inside_quote hq]
            exact ih d hd p' r e1
  intro p x r e hx
  have : x = ')' := litMatch_eq (by decide) (by decide) hx
  subst this
  exact key 0 (by omega) p r e

/-! ### Patterns with one wildcard -/

theorem filter_lead_bad {s pat seg0 : Str} {segs : List Str} (hp : splitPat pat = (seg0, segs)) {b : Bool}
    (h : matchSeg Quote.zero segs.isEmpty seg0 s = .bad b) : (filter s pat).ok = false := by
  unfold filter
  rw [hp]
  simp only
  rw [h]

theorem filter_one_hit {s pat seg0 seg rest t : Str} (hp : splitPat pat = (seg0, [seg])) (hne : seg ≠ [])
    (h : matchSeg Quote.zero false seg0 s = .ok rest) (hs : seek true seg Quote.zero rest = .ok (t, [], Quote.zero)) :
    ∃ w k, filter s pat = ⟨true, [t], w, k⟩ := by
  unfold filter
  rw [hp]
  simp only [List.isEmpty_cons]
  rw [h]
  simp only
  rw [filterWild]
  · simp only [List.isEmpty_nil]
    rw [hs]
    simp only [filterWild]
    exact ⟨_, _, rfl⟩
  · intro h; exact absurd h hne

theorem filter_one_miss {s pat seg0 seg rest : Str} {n : Nat} (hp : splitPat pat = (seg0, [seg])) (hne : seg ≠ [])
    (h : matchSeg Quote.zero false seg0 s = .ok rest) (hs : seek true seg Quote.zero rest = .error n) :
    (filter s pat).ok = false := by
  unfold filter
  rw [hp]
  simp only [List.isEmpty_cons]
  rw [h]
  simp only
  rw [filterWild]
  · simp only [List.isEmpty_nil]
    rw [hs]
  · intro h; exact absurd h hne

theorem filter_one_rest {s pat seg0 rest : Str} (hp : splitPat pat = (seg0, [[]]))
    (h : matchSeg Quote.zero false seg0 s = .ok rest) : ∃ w k, filter s pat = ⟨true, [rest], w, k⟩ := by
  unfold filter
  rw [hp]
  simp only [List.isEmpty_cons]
  rw [h]
  simp only [filterWild]
  exact ⟨_, _, rfl⟩

theorem searchMode_run {o t : Str} {m : Nat} (pre : List (Str × Nat)) (pat : Str) (post : List (Str × Nat))
    (hpre : ∀ p ∈ pre, (filter o p.1).ok = false) (h : ∃ w k, filter o pat = ⟨true, [t], w, k⟩) (s : St) :
    ∃ b, Toward (C6502.searchMode o (pre ++ (pat, m) :: post) s) (.ok (some (m, t)) { s with bufpos := b }) := by
  obtain ⟨w, k, h⟩ := h
  refine ⟨s.bufpos + w, ?_⟩
  induction pre with
  | nil =>
    simp only [List.nil_append]
    unfold C6502.searchMode
    have := filterC_run o pat s
    rw [h] at this
    simp only [if_true] at this
    by_cases hb : bufSize ≤ s.bufpos + w
    · rw [if_pos hb] at this
      exact .inr ⟨s, run_stop this⟩
    · rw [if_neg hb] at this
      rw [run_ok this]
      exact .refl _
  | cons p pre ih =>
    simp only [List.cons_append]
    unfold C6502.searchMode
    have := filterC_run o p.1 s
    rw [hpre p (by simp)] at this
    by_cases hb : bufSize ≤ s.bufpos + (filter o p.1).wrote
    · rw [if_pos hb] at this
      exact .inr ⟨s, run_stop this⟩
    · rw [if_neg hb] at this
      simp only [Bool.false_eq_true, if_false] at this
      rw [run_ok this]
      exact ih fun q hq => hpre q (by simp [hq])

/-! ### The separators -/

theorem Operand.lead {e : Str} (h : Spec.Operand e) : Lead e := .of h.first
theorem Operand.trail {e : Str} (h : Spec.Operand e) : Trail e := .of h.last
theorem Operand.noComma {e : Str} (h : Spec.Operand e) : NoTop ',' Quote.zero e :=
  Bal.noTop h.bal ',' fun x hx => by
    have : x = ',' := litMatch_eq (by decide) (by decide) hx
    subst this; decide
theorem Operand.zero {e : Str} (h : Spec.Operand e) : Quote.zero.run e = Quote.zero := Bal.run h.bal 0

theorem skip_lead {b e r : Str} (hb : Blank b) (he : Lead e) (hne : e ≠ []) : skipBlanks (b ++ (e ++ r)) = e ++ r := by
  rw [skipBlanks_append hb]
  cases e with
  | nil => exact absurd rfl hne
  | cons c e => exact skipBlanks_cons (he c e rfl)

/-- `_c…` from the end of `e` on, where it does not match. -/
theorem seek_after {c x : Char} {tail e b r : Str} (hc : c ≠ '_') (hcb : isblank c = false) (hx : litMatch c x = true)
    (h1 : NoTop c Quote.zero e) (h2 : Quote.zero.run e = Quote.zero) (hb : Blank b)
    (hbad : ∃ k, matchSeg Quote.zero true tail r = .bad k) (hr : NoTop c (Quote.zero.step x) r) :
    ∃ n, n ≤ (e ++ (b ++ x :: r)).length ∧ seek true ('_' :: c :: tail) Quote.zero (e ++ (b ++ x :: r)) = .error n := by
  have only : ∀ p y r', e ++ (b ++ x :: r) = p ++ y :: r' → litMatch c y = true → Quote.zero.run p = Quote.zero → r' = r := by
    intro p y r' he hy hz
    rcases append_split he with ⟨r1, e1, e2⟩ | ⟨p1, e1, e2⟩
    · cases r1 with
      | nil =>
        -- `y` is the first character after `e`
        simp only [List.append_nil] at e1
        cases b with
        | nil =>
          simp only [List.nil_append, List.cons.injEq] at e2
          exact e2.2
        | cons d b =>
          simp only [List.nil_append, List.cons_append, List.cons.injEq] at e2
          rw [e2.1, litMatch_blank hcb hb.cons.1] at hy
          cases hy
      | cons z r1 =>
        simp only [List.cons_append, List.cons.injEq] at e2
        obtain ⟨rfl, -⟩ := e2
        exact absurd hz (h1 p _ r1 e1 hy)
    · subst e2
      rw [Quote.run_append, h2] at hz
      rcases append_split e1 with ⟨r1, e3, e4⟩ | ⟨p2, e3, e4⟩
      · cases r1 with
        | nil =>
          simp only [List.nil_append, List.cons.injEq] at e4
          exact e4.2
        | cons z r1 =>
          simp only [List.cons_append, List.cons.injEq] at e4
          obtain ⟨rfl, -⟩ := e4
          rw [litMatch_blank hcb (hb _ (by rw [e3]; simp))] at hy
          cases hy
      · subst e4
        rw [Quote.run_append, run_blank hb] at hz
        cases p2 with
        | nil =>
          simp only [List.nil_append, List.cons.injEq] at e3
          exact e3.2.symm
        | cons z p2 =>
          simp only [List.cons_append, List.cons.injEq] at e3
          obtain ⟨rfl, e3⟩ := e3
          exact absurd hz (hr p2 y r' e3 hy)
  refine seek_none fun p r' he => ?_
  rw [matchSeg_blank]
  obtain ⟨b', g1, g2, -⟩ := skipBlanks_spec r'
  cases hs : skipBlanks r' with
  | nil => exact ⟨true, matchSeg_end _ _ hc _⟩
  | cons y r1 =>
    rw [matchSeg_lit _ _ hc]
    by_cases hm : Quote.zero.run p = Quote.zero ∧ litMatch c y = true
    · rw [if_pos hm]
      have : r1 = r := by
        refine only (p ++ b') y r1 ?_ hm.2 ?_
        · rw [he, g1, hs]; simp
        · rw [Quote.run_append, hm.1, run_blank g2]
      rw [this, hm.1]
      exact hbad
    · rw [if_neg hm]; exact ⟨false, rfl⟩

/-! ### The forms -/

theorem matchSeg_opening {p : Char} (hp : p ≠ '_') (hl : isalpha p = false) (hs : p ≠ ' ') {e : Bool} {seg s : Str}
    (h : ∀ c r, s = c :: r → c ≠ p) : ∃ b, matchSeg Quote.zero e (p :: seg) s = .bad b := by
  cases s with
  | nil => exact ⟨true, matchSeg_end _ _ hp _⟩
  | cons c s =>
    rw [matchSeg_lit _ _ hp, if_neg]
    · exact ⟨false, rfl⟩
    · rintro ⟨-, hm⟩
      exact h c s rfl (litMatch_eq hl hs hm)

/-- The pattern `X` or `Y` at the end of the text. -/
theorem match_letter {p x : Char} {b : Str} (hp : p ≠ '_') (hx : litMatch p x = true) (hxb : isblank x = false) (hb : Blank b) :
    matchSeg Quote.zero true ['_', p] (b ++ [x]) = .ok [] := by
  rw [matchSeg_blank, skipBlanks_append hb, skipBlanks_cons hxb, matchSeg_lit _ _ hp, if_pos ⟨rfl, hx⟩]
  simp [matchSeg]
theorem match_not_letter {p x : Char} {b : Str} (hp : p ≠ '_') (hx : litMatch p x = false) (hxb : isblank x = false) (hb : Blank b) {tail r : Str} :
    ∃ k, matchSeg Quote.zero true ('_' :: p :: tail) (b ++ x :: r) = .bad k := by
  rw [matchSeg_blank, skipBlanks_append hb, skipBlanks_cons hxb, matchSeg_lit _ _ hp, if_neg (by simp [hx])]
  exact ⟨false, rfl⟩

theorem ch_X {x : Char} (h : x = 'X' ∨ x = 'x') : litMatch 'X' x = true ∧ litMatch 'Y' x = false ∧ isblank x = false ∧
    litMatch ',' x = false ∧ litMatch ')' x = false := by
  rcases h with rfl | rfl <;> decide
theorem ch_Y {x : Char} (h : x = 'Y' ∨ x = 'y') : litMatch 'Y' x = true ∧ litMatch 'X' x = false ∧ isblank x = false ∧
    litMatch ',' x = false ∧ litMatch ')' x = false := by
  rcases h with rfl | rfl <;> decide

/-- The numbers of the addressing modes in `addmodes`. -/
def modeNum : Form → Nat
  | .indX => 0
  | .indY => 2
  | .ind => 4
  | .dirX => 6
  | .dirY => 8
  | .dir => 10
  | .imm => 12

section
variable {e : Str} (he : Spec.Operand e)
include he

/-- `e,x` after what is matched by the part before the wildcard. -/
theorem seek_index {p x : Char} {b1 b2 : Str} (hp : p ≠ '_') (hx : litMatch p x = true) (hxb : isblank x = false) (h1 : Blank b1) (h2 : Blank b2) :
    seek true ['_', ',', '_', p] Quote.zero (e ++ (b1 ++ ',' :: (b2 ++ [x]))) = .ok (e, [], Quote.zero) :=
  seek_sep (by decide) (by decide) h1 (by decide) (match_letter hp hx hxb h2) (Operand.noComma he) (Operand.zero he) (Operand.trail he)

theorem seek_index_bad {p x : Char} {b1 b2 : Str} (hp : p ≠ '_') (hx : litMatch p x = false) (hxb : isblank x = false)
    (hxc : litMatch ',' x = false) (h1 : Blank b1) (h2 : Blank b2) :
    ∃ n, n ≤ (e ++ (b1 ++ ',' :: (b2 ++ [x]))).length ∧ seek true ['_', ',', '_', p] Quote.zero (e ++ (b1 ++ ',' :: (b2 ++ [x]))) = .error n :=
  seek_after (by decide) (by decide) (by decide) (Operand.noComma he) (Operand.zero he) h1 (match_not_letter hp hx hxb h2)
    (NoTop.append (.blank (by decide) h2) (.of_not fun y hy => by
      simp only [List.mem_singleton] at hy; subst hy; exact hxc))
end

theorem first_miss {o pat seg0 : Str} {segs : List Str} {p : Char} (hp : splitPat pat = (p :: seg0, segs)) (h1 : p ≠ '_')
    (h2 : isalpha p = false) (h3 : p ≠ ' ') (h : ∀ c r, o = c :: r → c ≠ p) : (filter o pat).ok = false := by
  obtain ⟨b, hb⟩ := matchSeg_opening (e := segs.isEmpty) (seg := seg0) h1 h2 h3 h
  exact filter_lead_bad hp hb

/-- Nothing but blanks. -/
theorem blank_miss {o : Str} (h : Lead o) (hne : o ≠ []) : (filter o c!"_").ok = false := by
  have : matchSeg Quote.zero true ['_'] o = .bad false := by
    rw [matchSeg_blank, h.skip]
    cases o with
    | nil => exact absurd rfl hne
    | cons c o => simp [matchSeg]
  exact filter_lead_bad (segs := []) rfl this

theorem paren_misses {o : Str} (h : ∀ c r, o = c :: r → c ≠ '(') : (filter o c!"(_?_,_X_)").ok = false ∧
    (filter o c!"(_?_)_,_Y").ok = false ∧ (filter o c!"(_?_)").ok = false :=
  ⟨first_miss (p := '(') rfl (by decide) (by decide) (by decide) h, first_miss (p := '(') rfl (by decide) (by decide) (by decide) h,
    first_miss (p := '(') rfl (by decide) (by decide) (by decide) h⟩
theorem at_misses {o : Str} (h : ∀ c r, o = c :: r → c ≠ '@') : (filter o c!"@_?_,_X").ok = false ∧
    (filter o c!"@_?_,_Y").ok = false ∧ (filter o c!"@_?").ok = false :=
  ⟨first_miss (p := '@') rfl (by decide) (by decide) (by decide) h, first_miss (p := '@') rfl (by decide) (by decide) (by decide) h,
    first_miss (p := '@') rfl (by decide) (by decide) (by decide) h⟩
theorem hash_miss {o : Str} (h : ∀ c r, o = c :: r → c ≠ '#') : (filter o c!"#_?").ok = false :=
  first_miss (p := '#') rfl (by decide) (by decide) (by decide) h

/-- Take off the opening character and the blanks after it. -/
theorem match_open {p : Char} {b s : Str} (hp : p ≠ '_') (hm : litMatch p p = true) (hb : Blank b) (hs : Lead s) :
    matchSeg Quote.zero false [p, '_'] (p :: (b ++ s)) = .ok s := by
  rw [matchSeg_lit _ _ hp, if_pos ⟨rfl, hm⟩, matchSeg_blank, skipBlanks_append hb, hs.skip, matchSeg_nil]

theorem Lead.app {e r : Str} (h : Lead e) (hne : e ≠ []) : Lead (e ++ r) := by
  intro c s hc
  cases e with
  | nil => exact absurd rfl hne
  | cons d e =>
    simp only [List.cons_append, List.cons.injEq] at hc
    exact hc.1 ▸ h d e rfl

/-- After the end of the parentheses the text counts as nested. -/
theorem noTop_closed {c : Char} {r : Str} (hc : c ≠ ')') (h : ∀ p s, r = p ++ s → (Quote.at (-1)).run p ≠ Quote.zero)
    (hl : litMatch c ')' = false) : NoTop c Quote.zero (')' :: r) := by
  intro p x s e hx
  cases p with
  | nil =>
    simp only [List.nil_append, List.cons.injEq] at e
    rw [← e.1, hl] at hx; cases hx
  | cons y p =>
    simp only [List.cons_append, List.cons.injEq] at e
    obtain ⟨rfl, e⟩ := e
    rw [Quote.run_cons, ← Quote.at_zero, at_close]
    exact h p _ e

theorem run_plain {d : Int} {s : Str} (h : ∀ c ∈ s, c ≠ '\'' ∧ c ≠ '"' ∧ c ≠ '(' ∧ c ≠ ')') : (Quote.at d).run s = Quote.at d := by
  induction s with
  | nil => rfl
  | cons c s ih =>
    have hc := h c (by simp)
    rw [Quote.run_cons, at_plain hc.1 hc.2.1 hc.2.2.1 hc.2.2.2, ih fun x hx => h x (by simp [hx])]

theorem blank_plain {b : Str} (h : Blank b) : ∀ c ∈ b, c ≠ '\'' ∧ c ≠ '"' ∧ c ≠ '(' ∧ c ≠ ')' := by
  intro c hc
  rcases isblank_eq (h c hc) with rfl | rfl <;> decide

theorem closed_nz {r : Str} (h : ∀ c ∈ r, c ≠ '\'' ∧ c ≠ '"' ∧ c ≠ '(' ∧ c ≠ ')') : ∀ p s, r = p ++ s → (Quote.at (-1)).run p ≠ Quote.zero := by
  intro p s e
  rw [run_plain fun c hc => h c (by rw [e]; simp [hc])]
  decide

theorem addmodes_split (k : Nat) {a} (h : C6502.addmodes[k]? = some a) :
    C6502.addmodes = C6502.addmodes.take k ++ a :: C6502.addmodes.drop (k + 1) := by
  obtain ⟨hk, h⟩ := List.getElem?_eq_some_iff.1 h
  rw [← h, List.getElem_cons_drop, List.take_append_drop]

/-- The addressing mode found for an operand written in one of the forms. -/
theorem mode_text {f : Form} {e o : Str} (h : Written f e o) (s : St) :
    ∃ b, Toward (C6502.searchMode o C6502.addmodes s) (.ok (some (modeNum f, e)) { s with bufpos := b }) := by
  have find : ∀ (k : Nat) {pat : Str} {m : Nat} {t : Str}, C6502.addmodes[k]? = some (pat, m) →
      (∀ p ∈ C6502.addmodes.take k, (filter o p.1).ok = false) → (∃ w k, filter o pat = ⟨true, [t], w, k⟩) →
      ∃ b, Toward (C6502.searchMode o C6502.addmodes s) (.ok (some (m, t)) { s with bufpos := b }) := by
    intro k pat m t hk h1 h2
    rw [addmodes_split k hk]
    exact searchMode_run _ pat _ h1 h2 s
  cases h with
  | imm hb he =>
    have l : Lead e := Operand.lead he
    rename_i b
    refine find 7 rfl ?_ (filter_one_rest (seg0 := ['#', '_']) rfl (match_open (by decide) (by decide) (.of hb) l))
    have hp := paren_misses (o := '#' :: (b ++ e)) (by intro c r h; cases h; decide)
    have ha := at_misses (o := '#' :: (b ++ e)) (by intro c r h; cases h; decide)
    have hbl := blank_miss (o := '#' :: (b ++ e)) (by intro c r h; cases h; decide) (by simp)
    simp only [C6502.addmodes, List.take, List.mem_cons, List.not_mem_nil, or_false, forall_eq_or_imp, forall_eq]
    exact ⟨hp.1, ha.1, hp.2.1, ha.2.1, hp.2.2, ha.2.2, hbl⟩
  | dir he h =>
    have l : Lead e := Operand.lead he
    refine find 10 rfl ?_ (filter_one_rest (seg0 := []) rfl (matchSeg_nil _ _))
    have hp := paren_misses (o := e) fun c r h' => (h c r h').1
    have ha := at_misses (o := e) fun c r h' => (h c r h').2.1
    have hh := hash_miss (o := e) fun c r h' => (h c r h').2.2
    have hbl := blank_miss l he.ne
    obtain ⟨n, -, hx⟩ := seek_sep_none (e := true) (tail := ['_', 'X']) (by decide) (Operand.noComma he)
    obtain ⟨n', -, hy⟩ := seek_sep_none (e := true) (tail := ['_', 'Y']) (by decide) (Operand.noComma he)
    have mx : (filter e c!"?_,_X").ok = false := filter_one_miss (seg0 := []) (seg := c!"_,_X") rfl (by decide) (matchSeg_nil _ _) hx
    have my : (filter e c!"?_,_Y").ok = false := filter_one_miss (seg0 := []) (seg := c!"_,_Y") rfl (by decide) (matchSeg_nil _ _) hy
    simp only [C6502.addmodes, List.take, List.mem_cons, List.not_mem_nil, or_false, forall_eq_or_imp, forall_eq]
    exact ⟨hp.1, ha.1, hp.2.1, ha.2.1, hp.2.2, ha.2.2, hbl, hh, mx, my⟩
  | @dirX _ b1 b2 x he h h1 h2 hx =>
    have l : Lead e := Operand.lead he
    have hx := ch_X hx
    have hd : ∀ c r, e ++ (b1 ++ ',' :: (b2 ++ [x])) = c :: r → c ≠ '(' ∧ c ≠ '@' ∧ c ≠ '#' := by
      intro c r hc
      cases e with
      | nil => exact absurd rfl he.ne
      | cons d e => cases hc; exact h _ e rfl
    refine find 8 rfl ?_ (filter_one_hit (seg0 := []) (seg := c!"_,_X") rfl (by decide) (matchSeg_nil _ _)
      (seek_index he (by decide) hx.1 hx.2.2.1 (.of h1) (.of h2)))
    have hp := paren_misses fun c r h' => (hd c r h').1
    have ha := at_misses fun c r h' => (hd c r h').2.1
    have hh := hash_miss fun c r h' => (hd c r h').2.2
    have hbl := blank_miss (o := e ++ (b1 ++ ',' :: (b2 ++ [x]))) (Lead.app l he.ne) (by simp)
    simp only [C6502.addmodes, List.take, List.mem_cons, List.not_mem_nil, or_false, forall_eq_or_imp, forall_eq]
    exact ⟨hp.1, ha.1, hp.2.1, ha.2.1, hp.2.2, ha.2.2, hbl, hh⟩
  | @dirY _ b1 b2 y he h h1 h2 hy =>
    have l : Lead e := Operand.lead he
    have hy := ch_Y hy
    have hd : ∀ c r, e ++ (b1 ++ ',' :: (b2 ++ [y])) = c :: r → c ≠ '(' ∧ c ≠ '@' ∧ c ≠ '#' := by
      intro c r hc
      cases e with
      | nil => exact absurd rfl he.ne
      | cons d e => cases hc; exact h _ e rfl
    refine find 9 rfl ?_ (filter_one_hit (seg0 := []) (seg := c!"_,_Y") rfl (by decide) (matchSeg_nil _ _)
      (seek_index he (by decide) hy.1 hy.2.2.1 (.of h1) (.of h2)))
    have hp := paren_misses fun c r h' => (hd c r h').1
    have ha := at_misses fun c r h' => (hd c r h').2.1
    have hh := hash_miss fun c r h' => (hd c r h').2.2
    have hbl := blank_miss (o := e ++ (b1 ++ ',' :: (b2 ++ [y]))) (Lead.app l he.ne) (by simp)
    obtain ⟨n, -, hs⟩ := seek_index_bad he (p := 'X') (by decide) hy.2.1 hy.2.2.1 hy.2.2.2.1 (.of h1) (.of h2)
    have mx : (filter (e ++ (b1 ++ ',' :: (b2 ++ [y]))) c!"?_,_X").ok = false :=
      filter_one_miss (seg0 := []) (seg := c!"_,_X") rfl (by decide) (matchSeg_nil _ _) hs
    simp only [C6502.addmodes, List.take, List.mem_cons, List.not_mem_nil, or_false, forall_eq_or_imp, forall_eq]
    exact ⟨hp.1, ha.1, hp.2.1, ha.2.1, hp.2.2, ha.2.2, hbl, hh, mx⟩
  | @ind _ b1 b2 he h1 h2 =>
    have l : Lead e := Operand.lead he
    have ho : matchSeg Quote.zero false ['(', '_'] ('(' :: (b1 ++ (e ++ (b2 ++ [')'])))) = .ok (e ++ (b2 ++ [')'])) :=
      match_open (by decide) (by decide) (.of h1) (Lead.app l he.ne)
    have ha := at_misses (o := '(' :: (b1 ++ (e ++ (b2 ++ [')'])))) (by intro c r h; cases h; decide)
    have nc : NoTop ',' Quote.zero (e ++ (b2 ++ [')'])) := by
      refine NoTop.append (Operand.noComma he) ?_
      rw [Operand.zero he]
      exact NoTop.append (.blank (by decide) (.of h2)) (.of_not fun y hy => by
        simp only [List.mem_singleton] at hy; subst hy; decide)
    obtain ⟨n, -, s0⟩ := seek_sep_none (e := true) (tail := c!"_X_)") (by decide) nc
    obtain ⟨n', -, s2⟩ := seek_after (c := ')') (x := ')') (tail := c!"_,_Y") (r := []) (by decide) (by decide) (by decide)
      (Bal.noClose he.bal) (Operand.zero he) (.of h2) ⟨true, rfl⟩ (by intro p x r e; simp at e)
    refine find 4 rfl ?_ (filter_one_hit (seg0 := ['(', '_']) (seg := c!"_)") rfl (by decide) ho
      (seek_sep (by decide) (by decide) (.of h2) (by decide) rfl (Bal.noClose he.bal) (Operand.zero he) (Operand.trail he)))
    have m0 := filter_one_miss (pat := c!"(_?_,_X_)") (seg0 := ['(', '_']) (seg := c!"_,_X_)") rfl (by decide) ho s0
    have m2 := filter_one_miss (pat := c!"(_?_)_,_Y") (seg0 := ['(', '_']) (seg := c!"_)_,_Y") rfl (by decide) ho s2
    simp only [C6502.addmodes, List.take, List.mem_cons, List.not_mem_nil, or_false, forall_eq_or_imp, forall_eq]
    exact ⟨m0, ha.1, m2, ha.2.1⟩
  | @indX _ b1 b2 b3 b4 x he h1 h2 h3 h4 hx =>
    have l : Lead e := Operand.lead he
    have hx := ch_X hx
    refine find 0 rfl (by simp) (filter_one_hit (seg0 := ['(', '_']) (seg := c!"_,_X_)") rfl (by decide)
      (match_open (by decide) (by decide) (.of h1) (Lead.app l he.ne))
      (seek_sep (by decide) (by decide) (.of h2) (by decide) ?_ (Operand.noComma he) (Operand.zero he) (Operand.trail he)))
    rw [matchSeg_blank, skipBlanks_append (.of h3), skipBlanks_cons hx.2.2.1, matchSeg_lit _ _ (by decide), if_pos ⟨rfl, hx.1⟩,
      matchSeg_blank, skipBlanks_append (.of h4)]
    rfl
  | @indY _ b1 b2 b3 b4 y he h1 h2 h3 h4 hy =>
    have l : Lead e := Operand.lead he
    have hy' := ch_Y hy
    have ho : matchSeg Quote.zero false ['(', '_'] ('(' :: (b1 ++ (e ++ (b2 ++ ')' :: (b3 ++ ',' :: (b4 ++ [y])))))) =
        .ok (e ++ (b2 ++ ')' :: (b3 ++ ',' :: (b4 ++ [y])))) :=
      match_open (by decide) (by decide) (.of h1) (Lead.app l he.ne)
    have ha := at_misses (o := '(' :: (b1 ++ (e ++ (b2 ++ ')' :: (b3 ++ ',' :: (b4 ++ [y])))))) (by intro c r h; cases h; decide)
    have nc : NoTop ',' Quote.zero (e ++ (b2 ++ ')' :: (b3 ++ ',' :: (b4 ++ [y])))) := by
      refine NoTop.append (Operand.noComma he) ?_
      rw [Operand.zero he]
      refine NoTop.append (.blank (by decide) (.of h2)) ?_
      rw [run_blank (.of h2)]
      refine noTop_closed (by decide) (closed_nz fun c hc => ?_) (by decide)
      simp only [List.mem_append, List.mem_cons, List.not_mem_nil, or_false] at hc
      rcases hc with hc | rfl | hc | rfl
      · exact blank_plain (.of h3) c hc
      · decide
      · exact blank_plain (.of h4) c hc
      · rcases hy with rfl | rfl <;> decide
    obtain ⟨n, -, s0⟩ := seek_sep_none (e := true) (tail := c!"_X_)") (by decide) nc
    have m0 := filter_one_miss (pat := c!"(_?_,_X_)") (seg0 := ['(', '_']) (seg := c!"_,_X_)") rfl (by decide) ho s0
    refine find 2 rfl ?_ (filter_one_hit (seg0 := ['(', '_']) (seg := c!"_)_,_Y") rfl (by decide) ho
      (seek_sep (by decide) (by decide) (.of h2) (by decide) ?_ (Bal.noClose he.bal) (Operand.zero he) (Operand.trail he)))
    · simp only [C6502.addmodes, List.take, List.mem_cons, List.not_mem_nil, or_false, forall_eq_or_imp, forall_eq]
      exact ⟨m0, ha.1⟩
    · rw [matchSeg_blank, skipBlanks_append (.of h3), skipBlanks_cons (by decide), matchSeg_lit _ _ (by decide), if_pos ⟨rfl, by decide⟩]
      exact match_letter (by decide) hy'.1 hy'.2.2.1 (.of h4)
  | @atInd _ b he hb =>
    have l : Lead e := Operand.lead he
    have ho : matchSeg Quote.zero false ['@', '_'] ('@' :: (b ++ e)) = .ok e := match_open (by decide) (by decide) (.of hb) l
    have hp := paren_misses (o := '@' :: (b ++ e)) (by intro c r h; cases h; decide)
    obtain ⟨n, -, hx⟩ := seek_sep_none (e := true) (tail := ['_', 'X']) (by decide) (Operand.noComma he)
    obtain ⟨n', -, hy⟩ := seek_sep_none (e := true) (tail := ['_', 'Y']) (by decide) (Operand.noComma he)
    have mx := filter_one_miss (pat := c!"@_?_,_X") (seg0 := ['@', '_']) (seg := c!"_,_X") rfl (by decide) ho hx
    have my := filter_one_miss (pat := c!"@_?_,_Y") (seg0 := ['@', '_']) (seg := c!"_,_Y") rfl (by decide) ho hy
    refine find 5 rfl ?_ (filter_one_rest (seg0 := ['@', '_']) rfl ho)
    simp only [C6502.addmodes, List.take, List.mem_cons, List.not_mem_nil, or_false, forall_eq_or_imp, forall_eq]
    exact ⟨hp.1, mx, hp.2.1, my, hp.2.2⟩
  | @atX _ b b1 b2 x he hb h1 h2 hx =>
    have l : Lead e := Operand.lead he
    have hx := ch_X hx
    have hp := paren_misses (o := '@' :: (b ++ (e ++ (b1 ++ ',' :: (b2 ++ [x]))))) (by intro c r h; cases h; decide)
    refine find 1 rfl ?_ (filter_one_hit (seg0 := ['@', '_']) (seg := c!"_,_X") rfl (by decide)
      (match_open (by decide) (by decide) (.of hb) (Lead.app l he.ne))
      (seek_index he (by decide) hx.1 hx.2.2.1 (.of h1) (.of h2)))
    simp only [C6502.addmodes, List.take, List.mem_cons, List.not_mem_nil, or_false, forall_eq]
    exact hp.1
  | @atY _ b b1 b2 y he hb h1 h2 hy =>
    have l : Lead e := Operand.lead he
    have hy := ch_Y hy
    have hp := paren_misses (o := '@' :: (b ++ (e ++ (b1 ++ ',' :: (b2 ++ [y]))))) (by intro c r h; cases h; decide)
    have ho : matchSeg Quote.zero false ['@', '_'] ('@' :: (b ++ (e ++ (b1 ++ ',' :: (b2 ++ [y]))))) = .ok (e ++ (b1 ++ ',' :: (b2 ++ [y]))) :=
      match_open (by decide) (by decide) (.of hb) (Lead.app l he.ne)
    obtain ⟨n, -, hs⟩ := seek_index_bad he (p := 'X') (by decide) hy.2.1 hy.2.2.1 hy.2.2.2.1 (.of h1) (.of h2)
    have mx := filter_one_miss (pat := c!"@_?_,_X") (seg0 := ['@', '_']) (seg := c!"_,_X") rfl (by decide) ho hs
    refine find 3 rfl ?_ (filter_one_hit (seg0 := ['@', '_']) (seg := c!"_,_Y") rfl (by decide) ho
      (seek_index he (by decide) hy.1 hy.2.2.1 (.of h1) (.of h2)))
    simp only [C6502.addmodes, List.take, List.mem_cons, List.not_mem_nil, or_false, forall_eq_or_imp, forall_eq]
    exact ⟨hp.1, mx, hp.2.1⟩

end Crasm

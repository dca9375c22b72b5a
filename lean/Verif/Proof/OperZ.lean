import Verif.Proof.Emit
import Verif.Proof.Modes
import Verif.Spec.MZ80

/-! # The operands of the Z80 -/

namespace Crasm
namespace Zop
open _root_.Spec.Z80 (Kind Arg Form Written Fixed Free Bl Ix Pair R8)
open Z80 (Z Idx getreg getIndexed indexed docode)

/-! ### The patterns -/

def words : List Str := [c!"HL", c!"BC", c!"DE", c!"IX", c!"IY"]

theorem lit_upper {p c : Char} (hp : toupper p = p) (hs : p ≠ ' ') : litMatch p c = decide (toupper c = p) := by
  unfold litMatch
  rw [hp]
  have : decide (p = ' ') = false := decide_eq_false hs
  rw [this]
  simp [eq_comm]

/-- A word of two letters before the rest of a pattern. -/
theorem match_word {p1 p2 c1 c2 : Char} (h1 : p1 ≠ '_') (h2 : p2 ≠ '_') {e : Bool} {seg s : Str}
    (m1 : litMatch p1 c1 = true) (m2 : litMatch p2 c2 = true) :
    matchSeg Quote.zero e (p1 :: p2 :: seg) (c1 :: c2 :: s) = matchSeg Quote.zero e seg s := by
  rw [matchSeg_lit _ _ h1, if_pos ⟨rfl, m1⟩, matchSeg_lit _ _ h2, if_pos ⟨rfl, m2⟩]
theorem match_word_bad {p1 p2 c1 c2 : Char} (h1 : p1 ≠ '_') (h2 : p2 ≠ '_') {e : Bool} {seg s : Str}
    (m : litMatch p1 c1 = false ∨ litMatch p2 c2 = false) :
    ∃ b, matchSeg Quote.zero e (p1 :: p2 :: seg) (c1 :: c2 :: s) = .bad b := by
  rw [matchSeg_lit _ _ h1]
  split
  · next h =>
    rw [matchSeg_lit _ _ h2, if_neg]
    · exact ⟨_, rfl⟩
    · rintro ⟨-, h'⟩
      rcases m with m | m
      · rw [m] at h; exact absurd h.2 (by decide)
      · rw [m] at h'; cases h'
  · exact ⟨_, rfl⟩

theorem word_letters {w : Str} (hw : w ∈ words) : ∃ p1 p2, w = [p1, p2] ∧ p1 ≠ '_' ∧ p2 ≠ '_' ∧ toupper p1 = p1 ∧ toupper p2 = p2 ∧
    isalpha p1 = true ∧ isalpha p2 = true := by
  simp only [words, List.mem_cons, List.not_mem_nil, or_false] at hw
  rcases hw with rfl | rfl | rfl | rfl | rfl <;> exact ⟨_, _, rfl, by decide, by decide, by decide, by decide, by decide, by decide⟩

theorem alpha_space {p : Char} (h : isalpha p = true) : p ≠ ' ' := alpha_ne h (by decide)

/-- A word at the beginning of the text. -/
theorem word_hit {w x : Str} (hw : w ∈ words) (hx : _root_.Spec.Z80.Word w x) {e : Bool} {seg s : Str} :
    matchSeg Quote.zero e (w ++ seg) (x ++ s) = matchSeg Quote.zero e seg s := by
  obtain ⟨p1, p2, rfl, h1, h2, u1, u2, a1, a2⟩ := word_letters hw
  obtain ⟨c1, l, rfl, hc1, hl⟩ := List.map_eq_cons_iff.1 hx
  obtain ⟨c2, l', rfl, hc2, hl'⟩ := List.map_eq_cons_iff.1 hl
  rw [List.map_eq_nil_iff] at hl'
  subst hl'
  exact match_word h1 h2 (by rw [lit_upper u1 (alpha_space a1)]; simp [hc1]) (by rw [lit_upper u2 (alpha_space a2)]; simp [hc2])
theorem word_miss {w w' x : Str} (hw : w ∈ words) (hw' : w' ∈ words) (hx : _root_.Spec.Z80.Word w' x) (hne : w ≠ w')
    {e : Bool} {seg s : Str} : ∃ b, matchSeg Quote.zero e (w ++ seg) (x ++ s) = .bad b := by
  obtain ⟨p1, p2, rfl, h1, h2, u1, u2, a1, a2⟩ := word_letters hw
  obtain ⟨q1, q2, rfl, -⟩ := word_letters hw'
  obtain ⟨c1, l, rfl, hc1, hl⟩ := List.map_eq_cons_iff.1 hx
  obtain ⟨c2, l', rfl, hc2, hl'⟩ := List.map_eq_cons_iff.1 hl
  rw [List.map_eq_nil_iff] at hl'
  subst hl'
  refine match_word_bad h1 h2 ?_
  rw [lit_upper u1 (alpha_space a1), lit_upper u2 (alpha_space a2), hc1, hc2]
  simp only [decide_eq_false_iff_not]
  by_cases h : q1 = p1
  · right
    rintro rfl
    exact hne (by rw [h])
  · exact .inl h

/-- Pattern parts that may follow the word. -/
theorem match_close {e : Bool} {b s : Str} (hb : Blank b) : matchSeg Quote.zero e c!"_)" (b ++ ')' :: s) = matchSeg Quote.zero e [] s := by
  rw [show c!"_)" = ['_', ')'] from rfl, matchSeg_blank, skipBlanks_append hb, skipBlanks_cons (by decide), matchSeg_lit _ _ (by decide), if_pos ⟨rfl, by decide⟩]
theorem match_sign {p c : Char} (hp : p ≠ '_') (hl : isalpha p = false) (hs : p ≠ ' ') {e : Bool} {b seg s : Str} (hb : Blank b) (hc : isblank c = false) :
    matchSeg Quote.zero e ('_' :: p :: seg) (b ++ c :: s) = if c = p then matchSeg Quote.zero e seg s else .bad false := by
  rw [matchSeg_blank, skipBlanks_append hb, skipBlanks_cons hc, matchSeg_lit _ _ hp]
  by_cases h : c = p
  · subst h
    rw [if_pos rfl, if_pos ⟨rfl, by simp [litMatch]⟩]
  · rw [if_neg h, if_neg (fun h' => h (litMatch_eq hl hs h'.2))]

theorem opened {e : Bool} {b seg s : Str} (hb : Blank b) (hs : Lead s) :
    matchSeg Quote.zero e ('(' :: '_' :: seg) ('(' :: (b ++ s)) = matchSeg Quote.zero e seg s := by
  rw [matchSeg_lit _ _ (by decide), if_pos ⟨rfl, by decide⟩, matchSeg_blank, skipBlanks_append hb, hs.skip]

theorem word_lead {w x s : Str} (hw : w ∈ words) (hx : _root_.Spec.Z80.Word w x) : Lead (x ++ s) := by
  obtain ⟨p1, p2, rfl, -, -, -, -, a1, -⟩ := word_letters hw
  obtain ⟨c1, l, rfl, hc1, -⟩ := List.map_eq_cons_iff.1 hx
  intro c r hc
  simp only [List.cons_append, List.cons.injEq] at hc
  rw [← hc.1]
  have : isalpha c1 = true := alpha_of_upper (by rw [hc1]; exact a1)
  cases h : isblank c1 with
  | false => rfl
  | true => rcases isblank_eq h with rfl | rfl <;> exact absurd this (by decide)

/-! ### Patterns as data -/

/-- `(_w_)` -/
def patW (w : Str) : Str := '(' :: '_' :: (w ++ c!"_)")
/-- `(_w_+_?_)`, `(_w_-_?_)` -/
def patS (w : Str) (p : Char) : Str := '(' :: '_' :: (w ++ '_' :: p :: c!"_?_)")

theorem split_W {w : Str} (hw : w ∈ words) : splitPat (patW w) = (patW w, []) := by
  simp only [words, List.mem_cons, List.not_mem_nil, or_false] at hw
  rcases hw with rfl | rfl | rfl | rfl | rfl <;> rfl
theorem split_S {w : Str} (hw : w ∈ words) {p : Char} (hp : p = '+' ∨ p = '-') :
    splitPat (patS w p) = ('(' :: '_' :: (w ++ ['_', p, '_']), [c!"_)"]) := by
  simp only [words, List.mem_cons, List.not_mem_nil, or_false] at hw
  rcases hw with rfl | rfl | rfl | rfl | rfl <;> rcases hp with rfl | rfl <;> rfl

theorem indexed_eq : indexed = [(patW c!"IX", .ix, none), (patW c!"IY", .iy, none), (patS c!"IX" '+', .ix, some true),
    (patS c!"IY" '+', .iy, some true), (patS c!"IX" '-', .ix, some false), (patS c!"IY" '-', .iy, some false)] := rfl

/-- Nothing matches if the text does not begin with a parenthesis. -/
theorem noparen_W {o w : Str} (hw : w ∈ words) (h : ∀ c r, o = c :: r → c ≠ '(') : (filter o (patW w)).ok = false :=
  first_miss (p := '(') (split_W hw) (by decide) (by decide) (by decide) h
theorem noparen_S {o w : Str} (hw : w ∈ words) {p : Char} (hp : p = '+' ∨ p = '-') (h : ∀ c r, o = c :: r → c ≠ '(') :
    (filter o (patS w p)).ok = false :=
  first_miss (p := '(') (split_S hw hp) (by decide) (by decide) (by decide) h

/-- `(w … )`: text with a word in front. -/
theorem wordW_miss {w w' x s b : Str} (hw : w ∈ words) (hw' : w' ∈ words) (hx : _root_.Spec.Z80.Word w' x) (hb : Blank b) (hne : w ≠ w') :
    (filter ('(' :: (b ++ (x ++ s))) (patW w)).ok = false := by
  obtain ⟨k, hk⟩ := word_miss hw hw' hx hne (e := true) (seg := c!"_)") (s := s)
  exact filter_lead_bad (split_W hw) (b := k) (by
    unfold patW
    simp only [List.isEmpty_nil]
    rw [opened hb (word_lead hw' hx)]; exact hk)
theorem wordS_miss {w w' x s b : Str} (hw : w ∈ words) (hw' : w' ∈ words) (hx : _root_.Spec.Z80.Word w' x) (hb : Blank b) (hne : w ≠ w')
    {p : Char} (hp : p = '+' ∨ p = '-') : (filter ('(' :: (b ++ (x ++ s))) (patS w p)).ok = false := by
  obtain ⟨k, hk⟩ := word_miss hw hw' hx hne (e := false) (seg := ['_', p, '_']) (s := s)
  exact filter_lead_bad (split_S hw hp) (b := k) (by
    simp only [List.isEmpty_cons]
    rw [opened hb (word_lead hw' hx)]; exact hk)
/-- the word alone -/
theorem wordW_hit {w x b1 b2 : Str} (hw : w ∈ words) (hx : _root_.Spec.Z80.Word w x) (h1 : Blank b1) (h2 : Blank b2) :
    ∃ n k, filter ('(' :: (b1 ++ (x ++ (b2 ++ [')'])))) (patW w) = ⟨true, [], n, k⟩ := by
  have hm : matchSeg Quote.zero true (patW w) ('(' :: (b1 ++ (x ++ (b2 ++ [')'])))) = .ok [] := by
    unfold patW
    rw [opened h1 (word_lead hw hx), word_hit hw hx, match_close h2]
    rfl
  unfold filter
  rw [split_W hw]
  simp only [List.isEmpty_nil]
  rw [hm]
  exact ⟨_, _, rfl⟩
/-- not the word alone -/
theorem wordW_more {w x s b1 b2 : Str} {c : Char} (hw : w ∈ words) (hx : _root_.Spec.Z80.Word w x) (h1 : Blank b1) (h2 : Blank b2)
    (hc : c ≠ ')') (hcb : isblank c = false) : (filter ('(' :: (b1 ++ (x ++ (b2 ++ c :: s)))) (patW w)).ok = false := by
  refine filter_lead_bad (split_W hw) (b := false) ?_
  unfold patW
  simp only [List.isEmpty_nil]
  rw [opened h1 (word_lead hw hx), word_hit hw hx]
  rw [show c!"_)" = ['_', ')'] from rfl, match_sign (by decide) (by decide) (by decide) h2 hcb, if_neg hc]
/-- another sign -/
theorem wordS_other {w x s b1 b2 : Str} {c p : Char} (hw : w ∈ words) (hx : _root_.Spec.Z80.Word w x) (h1 : Blank b1) (h2 : Blank b2)
    (hp : p = '+' ∨ p = '-') (hc : c ≠ p) (hcb : isblank c = false) : (filter ('(' :: (b1 ++ (x ++ (b2 ++ c :: s)))) (patS w p)).ok = false := by
  refine filter_lead_bad (split_S hw hp) (b := false) ?_
  simp only [List.isEmpty_cons]
  rw [opened h1 (word_lead hw hx), word_hit hw hx]
  rcases hp with rfl | rfl <;> rw [match_sign (by decide) (by decide) (by decide) h2 hcb, if_neg hc]
/-- the word, a sign and an expression -/
theorem wordS_hit {w x e b1 b2 b3 b4 : Str} {p : Char} (hw : w ∈ words) (hx : _root_.Spec.Z80.Word w x) (he : Spec.Operand e)
    (h1 : Blank b1) (h2 : Blank b2) (h3 : Blank b3) (h4 : Blank b4) (hp : p = '+' ∨ p = '-') :
    ∃ n k, filter ('(' :: (b1 ++ (x ++ (b2 ++ p :: (b3 ++ (e ++ (b4 ++ [')']))))))) (patS w p) = ⟨true, [e], n, k⟩ := by
  refine filter_one_hit (rest := e ++ (b4 ++ [')'])) (split_S hw hp) (by decide) ?_ ?_
  · have hpb : isblank p = false := by rcases hp with rfl | rfl <;> decide
    have hl : Lead (e ++ (b4 ++ [')'])) := Lead.app (Operand.lead he) he.ne
    rw [opened h1 (word_lead hw hx), word_hit hw hx]
    rcases hp with rfl | rfl
    all_goals
      rw [match_sign (by decide) (by decide) (by decide) h2 hpb, if_pos rfl, matchSeg_blank, skipBlanks_append h3, hl.skip, matchSeg_nil]
  · exact seek_sep (by decide) (by decide) h4 (by decide) rfl (Bal.noClose he.bal) (Operand.zero he) (Operand.trail he)

/-! ### An expression in parentheses -/

theorem blank_not {p : Char} (hp : isalpha p = true) {c : Char} (hc : isblank c = true ∨ c = ')') : litMatch p c = false := by
  rcases hc with hc | rfl
  · refine litMatch_blank ?_ hc
    cases h : isblank p with
    | false => rfl
    | true => rcases isblank_eq h with rfl | rfl <;> exact absurd hp (by decide)
  · cases h : litMatch p ')' with
    | false => rfl
    | true =>
      unfold litMatch at h
      simp only [Bool.or_eq_true, decide_eq_true_eq, Bool.and_eq_true] at h
      rcases h with h | h
      · have h1 : toupper p = ')' := h
        have h2 : isalpha (toupper p) = true := by
          have := toupper_idem p
          by_cases hc : 97 ≤ p.toNat ∧ p.toNat ≤ 122
          · have := toupper_toNat hc
            unfold isalpha
            have : 65 ≤ (toupper p).toNat ∧ (toupper p).toNat ≤ 90 := by omega
            simp [this]
          · have : toupper p = p := by unfold toupper; rw [if_neg hc]
            rw [this]; exact hp
        rw [h1] at h2
        exact absurd h2 (by decide)
      · exact absurd hp (by rw [h.1]; decide)

theorem free_miss {e b : Str} (he : Spec.Operand e) (hf : Free e) (hb : Blank b) {w : Str} (hw : w ∈ words) {atEnd : Bool} {p : Char} {seg : Str}
    (hp : p = ')' ∨ (p = '+' ∨ p = '-') ∧ w ∈ [c!"IX", c!"IY"]) :
    ∃ k, matchSeg Quote.zero atEnd (w ++ '_' :: p :: seg) (e ++ (b ++ [')'])) = .bad k := by
  have hw0 := hw
  obtain ⟨p1, p2, rfl, h1, h2, u1, u2, a1, a2⟩ := word_letters hw
  cases e with
  | nil => exact absurd rfl he.ne
  | cons c1 e =>
    cases e with
    | nil =>
      -- one letter
      cases b with
      | nil => exact match_word_bad (c1 := c1) (c2 := ')') h1 h2 (.inr (blank_not a2 (.inr rfl)))
      | cons d b => exact match_word_bad (c1 := c1) (c2 := d) h1 h2 (.inr (blank_not a2 (.inl hb.cons.1)))
    | cons c2 e =>
      by_cases m : litMatch p1 c1 = true ∧ litMatch p2 c2 = true
      · have hword : _root_.Spec.Z80.Word [p1, p2] [c1, c2] := by
          have g1 := m.1
          have g2 := m.2
          rw [lit_upper u1 (alpha_space a1), decide_eq_true_eq] at g1
          rw [lit_upper u2 (alpha_space a2), decide_eq_true_eq] at g2
          simp [_root_.Spec.Z80.Word, g1, g2]
        simp only [List.cons_append, List.nil_append]
        rw [match_word h1 h2 m.1 m.2]
        have hne : e ≠ [] := by
          rintro rfl
          exact hf.not _ hw0 hword
        have ht : Trail e := (Operand.trail he).tail.tail
        obtain ⟨b', c, r, rfl, hb', hc⟩ := ht.not_blank hne
        simp only [List.append_assoc, List.cons_append]
        have hpne : p ≠ '_' ∧ isalpha p = false ∧ p ≠ ' ' := by
          rcases hp with rfl | ⟨rfl | rfl, -⟩ <;> decide
        rw [match_sign hpne.1 hpne.2.1 hpne.2.2 hb' hc, if_neg]
        · exact ⟨false, rfl⟩
        · rintro rfl
          rcases hp with rfl | ⟨hp, hw'⟩
          · refine Bal.noClose he.bal (c1 :: c2 :: b') ')' r (by simp) (by decide) ?_
            have l1 : isalpha c1 = true := by
              have := m.1
              rw [lit_upper u1 (alpha_space a1), decide_eq_true_eq] at this
              exact alpha_of_upper (by rw [this]; exact a1)
            have l2 : isalpha c2 = true := by
              have := m.2
              rw [lit_upper u2 (alpha_space a2), decide_eq_true_eq] at this
              exact alpha_of_upper (by rw [this]; exact a2)
            rw [← Quote.at_zero]
            refine run_plain fun x hx => ?_
            simp only [List.mem_cons] at hx
            rcases hx with rfl | rfl | hx
            · exact ⟨alpha_ne l1 (by decide), alpha_ne l1 (by decide), alpha_ne l1 (by decide), alpha_ne l1 (by decide)⟩
            · exact ⟨alpha_ne l2 (by decide), alpha_ne l2 (by decide), alpha_ne l2 (by decide), alpha_ne l2 (by decide)⟩
            · exact blank_plain hb' x hx
          · have := hf.index [c1, c2] b' _ r _ rfl hw' hword (fun c hc => isblank_iff.1 (hb' c hc))
            rcases hp with rfl | rfl
            · exact this.1 rfl
            · exact this.2 rfl
      · refine match_word_bad (c1 := c1) (c2 := c2) h1 h2 ?_
        cases g1 : litMatch p1 c1 with
        | false => exact .inl rfl
        | true =>
          cases g2 : litMatch p2 c2 with
          | false => exact .inr rfl
          | true => exact absurd ⟨g1, g2⟩ m

theorem freeW_miss {e b1 b2 w : Str} (he : Spec.Operand e) (hf : Free e) (h1 : Blank b1) (h2 : Blank b2) (hw : w ∈ words) :
    (filter ('(' :: (b1 ++ (e ++ (b2 ++ [')'])))) (patW w)).ok = false := by
  obtain ⟨k, hk⟩ := free_miss he hf h2 hw (atEnd := true) (seg := []) (.inl rfl)
  refine filter_lead_bad (split_W hw) (b := k) ?_
  unfold patW
  simp only [List.isEmpty_nil]
  rw [opened h1 (Lead.app (Operand.lead he) he.ne)]
  exact hk
theorem freeS_miss {e b1 b2 w : Str} (he : Spec.Operand e) (hf : Free e) (h1 : Blank b1) (h2 : Blank b2) (hw : w ∈ words)
    (hi : w ∈ [c!"IX", c!"IY"]) {p : Char} (hp : p = '+' ∨ p = '-') : (filter ('(' :: (b1 ++ (e ++ (b2 ++ [')'])))) (patS w p)).ok = false := by
  obtain ⟨k, hk⟩ := free_miss he hf h2 hw (atEnd := false) (seg := ['_']) (.inr ⟨hp, hi⟩)
  refine filter_lead_bad (split_S hw hp) (b := k) ?_
  simp only [List.isEmpty_cons]
  rw [opened h1 (Lead.app (Operand.lead he) he.ne)]
  exact hk
theorem paren_hit {e b1 b2 : Str} (he : Spec.Operand e) (h1 : Blank b1) (h2 : Blank b2) :
    ∃ n k, filter ('(' :: (b1 ++ (e ++ (b2 ++ [')'])))) c!"(_?_)" = ⟨true, [e], n, k⟩ :=
  filter_one_hit (seg0 := ['(', '_']) (seg := c!"_)") rfl (by decide)
    (match_open (by decide) (by decide) h1 (Lead.app (Operand.lead he) he.ne))
    (seek_sep (by decide) (by decide) h2 (by decide) rfl (Bal.noClose he.bal) (Operand.zero he) (Operand.trail he))

/-! ### Running `getreg` -/

/-- What the value of an expression is to the processor. -/
def regKind (n : Int) : Kind :=
  match n with
  | 0 => .r8 .b | 1 => .r8 .c | 2 => .r8 .d | 3 => .r8 .e | 4 => .r8 .h | 5 => .r8 .l | 7 => .r8 .a
  | 8 => .r16 .bc | 9 => .r16 .de | 10 => .r16 .hl | 11 => .r16 .sp | 12 => .r16 (.index .ix) | 13 => .r16 (.index .iy)
  | 16 => .f | 17 => .i | 18 => .r | 19 => .r16 .af
  | _ => .unknown
def single (r : Result) : Bool :=
  0 ≤ r.modifier ∧ r.modifier < 32 ∧ r.value = (BitVec.ofNat 32 (2 ^ r.modifier.toNat)).signExtend 64
def meaning (r : Result) : Arg :=
  if r.type = .absolute then ⟨.num, r.value.toInt⟩
  else if r.type = .regs ∧ single r = true then ⟨regKind r.modifier, 0⟩
  else ⟨.other, 0⟩

/-- In a state like `s`, the expression `e` stands for `m`; or cannot be evaluated. -/
def Evals (e : Str) (m : Arg) (s : St) : Prop := ∃ s0 r s1, Gen [] s s0 ∧ parse (some e) s0 = .ok r s1 ∧ m = meaning r
def NoValue (e : Str) (s : St) : Prop := ∃ s0 s1, Gen [] s s0 ∧ parse (some e) s0 = .err s1

/-- The text `o` is the operand `a`; or contains an expression that cannot be evaluated. -/
def Reads (o : Str) (a : Arg) (s : St) : Prop :=
  (Fixed a.kind o ∧ a.val = 0) ∨ ∃ f e m, Written f e o ∧ Evals e m s ∧ a = f.value m
def Fails (o : Str) (s : St) : Prop := ∃ f e, Written f e o ∧ NoValue e s
def Spelled (o : Str) : Prop := (∃ k, Fixed k o) ∨ ∃ f e, Written f e o

theorem Evals.before {e : Str} {m : Arg} {s s' : St} (g : Gen [] s s') (h : Evals e m s') : Evals e m s := by
  obtain ⟨s0, r, s1, g1, h1, h2⟩ := h
  exact ⟨s0, r, s1, by simpa using g.trans g1, h1, h2⟩
theorem NoValue.before {e : Str} {s s' : St} (g : Gen [] s s') (h : NoValue e s') : NoValue e s := by
  obtain ⟨s0, s1, g1, h1⟩ := h
  exact ⟨s0, s1, by simpa using g.trans g1, h1⟩
theorem Reads.before {o : Str} {a : Arg} {s s' : St} (g : Gen [] s s') (h : Reads o a s') : Reads o a s := by
  rcases h with h | ⟨f, e, m, h1, h2, h3⟩
  · exact .inl h
  · exact .inr ⟨f, e, m, h1, h2.before g, h3⟩
theorem Fails.before {o : Str} {s s' : St} (g : Gen [] s s') (h : Fails o s') : Fails o s := by
  obtain ⟨f, e, h1, h2⟩ := h
  exact ⟨f, e, h1, h2.before g⟩

/-- The flags alone. -/
def flags (z : Z) : Z := { z with offset := 0, arg := 0 }

def idx : Ix → Idx
  | .ix => .ix
  | .iy => .iy
def useIndex (z : Z) (i : Idx) : Option (Int × Z) :=
  if z.indexflag ≠ .none ∧ z.indexflag ≠ i then none else some (10, { z with indexflag := i })
/-- What `getreg` makes of an operand: a number for it, and new flags. -/
def absorb (z : Z) : Kind → Option (Int × Z)
  | .r8 x => some (x.code, z)
  | .r16 .bc => some (8, z)
  | .r16 .de => some (9, z)
  | .r16 .sp => some (11, z)
  | .r16 .af => some (19, z)
  | .r16 .hl => useIndex z .hl
  | .r16 (.index x) => useIndex z (idx x)
  | .f => some (16, z)
  | .i => some (17, z)
  | .r => some (18, z)
  | .atHL => if z.indexflag ≠ .none ∧ z.indexflag ≠ .hl then none else some (6, { z with indexflag := .hl })
  | .atBC => some (-4, z)
  | .atDE => some (-5, z)
  | .at x => if z.indexflag ≠ .none ∨ z.offsetflag = true then none
      else some (6, { z with offsetflag := true, indexflag := idx x })
  | .mem => if z.arg8flag || z.arg16flag then none else some (-1, { z with arg16flag := true })
  | .num => if z.arg8flag || z.arg16flag then none else some (-2, { z with arg16flag := true })
  | .unknown => none
  | .other => none

/-- `z` has the flags `zf`, and the displacement `d` and number `n` if the flags say so. -/
structure Holds (z zf : Z) (d n : Int) : Prop where
  flags : flags z = zf
  offset : z.offsetflag = true → lowByte z.offset = BitVec.ofInt 8 d
  arg : z.arg16flag = true → lowByte z.arg = BitVec.ofInt 8 n ∧ lowByte (z.arg >>> 8) = BitVec.ofInt 8 (n / 256)

theorem getIndexed_miss {z : Z} {o : Str} : ∀ {ps : List (Str × Idx × Option Bool)}, (∀ p ∈ ps, (filter o p.1).ok = false) → ∀ s,
    Toward (getIndexed z o ps s) (.ok none s) := by
  intro ps
  induction ps with
  | nil => intro _ s; exact .refl _
  | cons p ps ih =>
    obtain ⟨pat, i, sg⟩ := p
    intro h s
    unfold getIndexed
    have := filterC_run o pat s
    rw [h _ (List.mem_cons_self)] at this
    by_cases hb : bufSize ≤ s.bufpos + (filter o pat).wrote
    · rw [if_pos hb] at this
      exact .inr ⟨s, run_stop this⟩
    · rw [if_neg hb] at this
      simp only [Bool.false_eq_true, if_false] at this
      rw [run_ok this]
      exact ih (fun q hq => h q (by simp [hq])) s

/-- The end of `getIndexed`. -/
def indexEnd (z : Z) (i : Idx) (offset : BitVec 32) : M (Option Z) :=
  if z.indexflag ≠ .none || z.offsetflag then error Z80.badop
  else pure (some { z with offset := offset, offsetflag := true, indexflag := i })
def indexOff (e : Str) (plus : Bool) : M (BitVec 32) := do
  let r ← parseAbs (some e)
  let o : BitVec 32 := r.value.setWidth 32
  if plus then pure o
  else if o = BitVec.intMin 32 then ubM .signedOverflow else pure (-o)

theorem getIndexed_hit {z : Z} {o pat : Str} {i : Idx} {sg : Option Bool} {caps : List Str} {pre post : List (Str × Idx × Option Bool)}
    (hpre : ∀ p ∈ pre, (filter o p.1).ok = false) (h : ∃ n k, filter o pat = ⟨true, caps, n, k⟩) (s : St) :
    ∃ b, Toward (getIndexed z o (pre ++ (pat, i, sg) :: post) s)
      ((do let offset ← (match sg with
             | none => pure (0 : BitVec 32)
             | some plus => indexOff (caps.headD []) plus)
           indexEnd z i offset : M (Option Z)) { s with bufpos := b }) := by
  obtain ⟨w, k, h⟩ := h
  refine ⟨s.bufpos + w, ?_⟩
  induction pre with
  | nil =>
    simp only [List.nil_append]
    unfold getIndexed
    have := filterC_run o pat s
    rw [h] at this
    simp only [if_true] at this
    by_cases hb : bufSize ≤ s.bufpos + w
    · rw [if_pos hb] at this
      exact .inr ⟨s, run_stop this⟩
    · rw [if_neg hb] at this
      rw [run_ok this]
      cases sg <;> exact .refl _
  | cons p pre ih =>
    obtain ⟨pat', i', sg'⟩ := p
    simp only [List.cons_append]
    unfold getIndexed
    have := filterC_run o pat' s
    rw [hpre _ (List.mem_cons_self)] at this
    by_cases hb : bufSize ≤ s.bufpos + (filter o pat').wrote
    · rw [if_pos hb] at this
      exact .inr ⟨s, run_stop this⟩
    · rw [if_neg hb] at this
      simp only [Bool.false_eq_true, if_false] at this
      rw [run_ok this]
      exact ih fun q hq => hpre q (by simp [hq])

theorem toward_filter0 {e pat : Str} {caps : List Str} {w k : Nat} (h : filter e pat = ⟨true, caps, w, k⟩) (s : St) :
    Toward (filter0 e pat s) (.ok true { s with bufpos := s.bufpos + w }) := by
  rw [filter0_run, h]
  split
  · exact .inr ⟨s, rfl⟩
  · exact .refl _
theorem toward_miss0 {e pat : Str} (h : (filter e pat).ok = false) (s : St) : Toward (filter0 e pat s) (.ok false s) := by
  rw [filter0_run, h]
  split
  · exact .inr ⟨s, rfl⟩
  · exact .refl _

/-- How `getreg` ends: the program stops; or the operand contains an expression without value; or it is `a`. -/
def Got (zf : Z) (d n : Int) (o : Str) (s : St) (r : Res (Int × Z)) : Prop :=
  (∃ w s', r = .stop w s') ∨ (Fails o s ∧ ∃ s', r = .err s') ∨
  ∃ a, Reads o a s ∧ (a.kind = .unknown ∨
    match absorb zf a.kind with
    | none => ∃ s', r = .err s'
    | some (k, zf') => ∃ z' s', r = .ok (k, z') s' ∧ Gen [] s s' ∧
        Holds z' zf' (if a.kind.isAt then a.val else d) (if a.kind.isNum then a.val else n))

theorem Got.stop {zf : Z} {d n : Int} {o : Str} {s : St} {r : Res (Int × Z)} (h : ∃ w s', r = .stop w s') : Got zf d n o s r := .inl h

theorem low_val (v : Word) : lowByte (v.setWidth 32) = BitVec.ofInt 8 v.toInt := by
  apply BitVec.eq_of_toNat_eq
  unfold lowByte
  rw [BitVec.toNat_ofInt, BitVec.toInt_eq_toNat_cond]
  simp only [BitVec.toNat_setWidth]
  have := v.isLt
  split <;> omega
theorem low_neg (v : Word) : lowByte (-(v.setWidth 32)) = BitVec.ofInt 8 (-v.toInt) := by
  apply BitVec.eq_of_toNat_eq
  unfold lowByte
  rw [BitVec.toNat_ofInt, BitVec.toInt_eq_toNat_cond]
  simp only [BitVec.toNat_setWidth, BitVec.toNat_neg]
  have := v.isLt
  split <;> omega
theorem high_val (v : Word) : lowByte ((v.setWidth 32) >>> 8) = BitVec.ofInt 8 (v.toInt / 256) := by
  apply BitVec.eq_of_toNat_eq
  unfold lowByte
  rw [BitVec.toNat_ofInt, BitVec.toInt_eq_toNat_cond]
  simp only [BitVec.toNat_setWidth, BitVec.toNat_ushiftRight, Nat.shiftRight_eq_div_pow]
  have := v.isLt
  split <;> omega

theorem Holds.ofFlag {z zf : Z} {d n : Int} (h : Holds z zf d n) : z.indexflag = zf.indexflag ∧ z.offsetflag = zf.offsetflag ∧
    z.arg8flag = zf.arg8flag ∧ z.arg16flag = zf.arg16flag := by
  have := h.flags
  subst this
  exact ⟨rfl, rfl, rfl, rfl⟩

theorem Got.error {zf : Z} {d n : Int} {o : Str} {s : St} {a : Arg} {r : Res (Int × Z)} (ha : Reads o a s) (hn : absorb zf a.kind = none)
    (h : (∃ s', r = .err s') ∨ ∃ w s', r = .stop w s') : Got zf d n o s r := by
  rcases h with h | h
  · refine .inr (.inr ⟨a, ha, .inr ?_⟩)
    rw [hn]
    exact h
  · exact .inl h
theorem error_bind_cases (msg : Str) (f : α → M β) (s : St) :
    (∃ s', ((error msg : M α) >>= f) s = .err s') ∨ ∃ w s', ((error msg : M α) >>= f) s = .stop w s' := by
  rcases error_cases (α := α) msg s with ⟨s', h⟩ | ⟨w, s', h⟩
  · exact .inl ⟨s', run_err h⟩
  · exact .inr ⟨w, s', run_stop h⟩
theorem Got.toward {zf : Z} {d n : Int} {o : Str} {s : St} {r r' : Res (Int × Z)} (h : Toward r r') (h' : Got zf d n o s r') : Got zf d n o s r := by
  rcases h with rfl | ⟨t, h⟩
  · exact h'
  · exact .inl ⟨_, _, h⟩

theorem indexed_got {z zf : Z} {d n : Int} (hz : Holds z zf d n) {o : Str} {x : Ix} {s s1 : St} {off : BitVec 32} {v : Int}
    (hr : Reads o ⟨.at x, v⟩ s) (g : Gen [] s s1) (hv : lowByte off = BitVec.ofInt 8 v)
    (h : Toward (getIndexed z o indexed s) (indexEnd z (idx x) off s1)) : Got zf d n o s (getreg z o s) := by
  have hf := hz.ofFlag
  unfold getreg
  rcases h with h | ⟨t, h⟩
  · unfold indexEnd at h
    by_cases hc : z.indexflag ≠ .none ∨ z.offsetflag = true
    · refine .error hr (by simp only [absorb]; rw [← hf.1, ← hf.2.1, if_pos hc]) ?_
      rw [if_pos (by simpa using hc)] at h
      rcases error_cases (α := Option Z) Z80.badop s1 with ⟨s', h'⟩ | ⟨w, s', h'⟩
      · exact .inl ⟨s', run_err (h.trans h')⟩
      · exact .inr ⟨w, s', run_stop (h.trans h')⟩
    · refine .inr (.inr ⟨_, hr, .inr ?_⟩)
      simp only [absorb]
      rw [← hf.1, ← hf.2.1, if_neg hc]
      rw [if_neg (by simpa using hc)] at h
      refine ⟨_, s1, run_ok h, g, ?_⟩
      have hfl := hz.flags
      subst hfl
      exact ⟨rfl, fun _ => hv, hz.arg⟩
  · exact .inl ⟨_, _, run_stop h⟩

theorem name_mem (x : Ix) : x.name ∈ words := by cases x <;> decide

theorem parse_gen {e : Str} {s s1 : St} {r : Result} (h : parse (some e) s = .ok r s1) : Gen [] s s1 := nwalk_gen W.walk h

theorem value_other {f : Form} {m : Arg} (hf : f ≠ .expr) (hm : m.kind ≠ .num) : (f.value m).kind = .other := by
  obtain ⟨k, v⟩ := m
  cases f with
  | expr => exact absurd rfl hf
  | ind => cases k <;> first | rfl | exact absurd rfl hm
  | plus x => cases k <;> first | rfl | exact absurd rfl hm
  | minus x => cases k <;> first | rfl | exact absurd rfl hm
theorem regKind_not (n : Int) : regKind n ≠ .num ∧ regKind n ≠ .mem ∧ regKind n ≠ .other ∧ (regKind n).isAt = false ∧ (regKind n).isNum = false := by
  unfold regKind
  split <;> exact ⟨fun h => (by cases h), fun h => (by cases h), fun h => (by cases h), rfl, rfl⟩
theorem meaning_not {r : Result} (ht : r.type ≠ .absolute) : (meaning r).kind ≠ .num := by
  unfold meaning
  rw [if_neg ht]
  split
  · exact (regKind_not _).1
  · intro h; cases h

/-- `(IX+e)` and `(IX-e)` -/
theorem signed_got {z zf : Z} {d n : Int} (hz : Holds z zf d n) {f : Form} {o e : Str} {x : Ix} {plus : Bool} {s s0 : St}
    (hf : f = if plus then .plus x else .minus x) (hw : Written f e o) (g : Gen [] s s0)
    (h : Toward (getIndexed z o indexed s) ((indexOff e plus >>= fun off => indexEnd z (idx x) off) s0)) :
    Got zf d n o s (getreg z o s) := by
  rcases res_cases (parse (some e) s0) with ⟨r, s1, hp⟩ | ⟨s1, hp⟩ | ⟨w, s1, hp⟩
  · have hev : Evals e (meaning r) s := ⟨s0, r, s1, g, hp, rfl⟩
    have hr : Reads o (f.value (meaning r)) s := .inr ⟨f, e, _, hw, hev, rfl⟩
    by_cases ht : r.type = .absolute
    · have hm : meaning r = ⟨.num, r.value.toInt⟩ := by unfold meaning; rw [if_pos ht]
      rw [hm] at hr
      have g1 : Gen [] s s1 := by simpa using g.trans (parse_gen hp)
      cases plus with
      | true =>
        have hf' : f = .plus x := hf
        rw [hf'] at hr
        refine indexed_got hz hr g1 (low_val r.value) (h.trans ?_)
        have : indexOff e true s0 = .ok (r.value.setWidth 32) s1 := by
          unfold indexOff
          rw [run_ok (parseAbs_of hp ht)]
          rfl
        rw [run_ok this]
        exact .refl _
      | false =>
        have hf' : f = .minus x := hf
        rw [hf'] at hr
        by_cases hmin : (r.value.setWidth 32 : BitVec 32) = BitVec.intMin 32
        · have : indexOff e false s0 = .stop (.ub .signedOverflow) s1 := by
            unfold indexOff
            rw [run_ok (parseAbs_of hp ht)]
            simp only [Bool.false_eq_true, if_false]
            rw [if_pos hmin]
            rfl
          rw [run_stop this] at h
          unfold getreg
          rcases h with h | ⟨t, h⟩ <;> exact .inl ⟨_, _, run_stop h⟩
        · refine indexed_got hz hr g1 (low_neg r.value) (h.trans ?_)
          have : indexOff e false s0 = .ok (-(r.value.setWidth 32)) s1 := by
            unfold indexOff
            rw [run_ok (parseAbs_of hp ht)]
            simp only [Bool.false_eq_true, if_false]
            rw [if_neg hmin]
            rfl
          rw [run_ok this]
          exact .refl _
    · have hk : (f.value (meaning r)).kind = .other :=
        value_other (by rw [hf]; cases plus <;> intro h <;> cases h) (meaning_not ht)
      refine .error hr (by rw [hk]; rfl) ?_
      have : (∃ s', (indexOff e plus >>= fun off => indexEnd z (idx x) off) s0 = .err s') ∨
          ∃ w s', (indexOff e plus >>= fun off => indexEnd z (idx x) off) s0 = .stop w s' := by
        unfold indexOff parseAbs
        rw [bind_assoc, bind_assoc, run_ok hp, bind_assoc]
        unfold checktype
        rw [if_neg ht]
        exact error_bind_cases _ _ _
      unfold getreg
      rcases h with h | ⟨t, h⟩
      · rcases this with ⟨s', h'⟩ | ⟨w, s', h'⟩
        · exact .inl ⟨s', run_err (h.trans h')⟩
        · exact .inr ⟨w, s', run_stop (h.trans h')⟩
      · exact .inr ⟨_, _, run_stop h⟩
  · have : (indexOff e plus >>= fun off => indexEnd z (idx x) off) s0 = .err s1 := by
      unfold indexOff parseAbs
      rw [bind_assoc, bind_assoc, run_err hp]
    rw [this] at h
    unfold getreg
    rcases h with h | ⟨t, h⟩
    · exact .inr (.inl ⟨⟨f, e, hw, s0, s1, g, hp⟩, s1, run_err h⟩)
    · exact .inl ⟨_, _, run_stop h⟩
  · have : (indexOff e plus >>= fun off => indexEnd z (idx x) off) s0 = .stop w s1 := by
      unfold indexOff parseAbs
      rw [bind_assoc, bind_assoc, run_stop hp]
    rw [this] at h
    unfold getreg
    rcases h with h | ⟨t, h⟩ <;> exact .inl ⟨_, _, run_stop h⟩

/-- `getreg` once it is known that the operand is not indexed. -/
def notIndexed (z : Z) (oper : Str) : M (Int × Z) := do
  if ← filter0 oper c!"(_HL_)" then
    if z.indexflag ≠ .none ∧ z.indexflag ≠ .hl then error Z80.badop
    else pure (6, { z with indexflag := .hl })
  else if ← filter0 oper c!"(_BC_)" then pure (-4, z)
  else if ← filter0 oper c!"(_DE_)" then pure (-5, z)
  else match ← filter1 oper c!"(_?_)" with
    | some oper2 => do
      let r ← parseAbs (some oper2)
      let z' ← Z80.setArg z r.value
      pure (-1, z')
    | none => do
      let r ← parse (some oper)
      if r.type = .absolute then do
        let z' ← Z80.setArg z r.value
        pure (-2, z')
      else do
        checktype r .regs
        Z80.singleReg r
        Z80.regResult z r.modifier
theorem getreg_notIndexed {z : Z} {o : Str} (h : ∀ p ∈ indexed, (filter o p.1).ok = false) (s : St) :
    Toward (getreg z o s) (notIndexed z o s) := by
  unfold getreg
  exact Toward.bind (getIndexed_miss h s) (.refl _)

theorem indexed_all {o : Str} (hW : ∀ w ∈ [c!"IX", c!"IY"], (filter o (patW w)).ok = false)
    (hS : ∀ w ∈ [c!"IX", c!"IY"], ∀ p, p = '+' ∨ p = '-' → (filter o (patS w p)).ok = false) :
    ∀ p ∈ indexed, (filter o p.1).ok = false := by
  rw [indexed_eq]
  simp only [List.mem_cons, List.not_mem_nil, or_false, forall_eq_or_imp, forall_eq]
  exact ⟨hW _ (by decide), hW _ (by decide), hS _ (by decide) _ (.inl rfl), hS _ (by decide) _ (.inl rfl),
    hS _ (by decide) _ (.inr rfl), hS _ (by decide) _ (.inr rfl)⟩

theorem ix_words {w : Str} (h : w ∈ [c!"IX", c!"IY"]) : w ∈ words := by
  simp only [List.mem_cons, List.not_mem_nil, or_false] at h
  rcases h with rfl | rfl <;> decide

theorem plain_got {z zf : Z} {d n : Int} (hz : Holds z zf d n) {o : Str} {s : St} (a : Arg) (hr : Reads o a s) {i : Int} (ha : absorb zf a.kind = some (i, zf))
    (h1 : a.kind.isAt = false) (h2 : a.kind.isNum = false) {r : Res (Int × Z)} {s' : St} (g : Gen [] s s') (h : r = .ok (i, z) s') : Got zf d n o s r := by
  refine .inr (.inr ⟨a, hr, .inr ?_⟩)
  rw [ha, h1, h2]
  exact ⟨z, s', h, g, hz⟩

theorem arg_got {z zf : Z} {d n : Int} (hz : Holds z zf d n) {o : Str} {s s0 : St} {a : Arg} {v : Word} (hr : Reads o a s) (g : Gen [] s s0) {i : Int}
    (hk : (a.kind = .mem ∧ i = -1) ∨ (a.kind = .num ∧ i = -2)) (hv : a.val = v.toInt) :
    Got zf d n o s ((do let z' ← Z80.setArg z v; pure (i, z') : M (Int × Z)) s0) := by
  have hf := hz.ofFlag
  unfold Z80.setArg
  have habs : absorb zf a.kind = if z.arg8flag || z.arg16flag then none else some (i, { zf with arg16flag := true }) := by
    rw [hf.2.2.1, hf.2.2.2]
    rcases hk with ⟨hk, rfl⟩ | ⟨hk, rfl⟩ <;> rw [hk] <;> rfl
  have hn : a.kind.isAt = false ∧ a.kind.isNum = true := by
    rcases hk with ⟨hk, -⟩ | ⟨hk, -⟩ <;> rw [hk] <;> exact ⟨rfl, rfl⟩
  by_cases hc : (z.arg8flag || z.arg16flag) = true
  · rw [if_pos hc]
    exact .error hr (by rw [habs, if_pos hc]) (error_bind_cases _ _ _)
  · rw [if_neg hc]
    refine .inr (.inr ⟨a, hr, .inr ?_⟩)
    rw [habs, if_neg hc, hn.1, hn.2]
    refine ⟨_, s0, rfl, g, ?_⟩
    have hfl := hz.flags
    subst hfl
    exact ⟨rfl, hz.offset, fun _ => by rw [if_pos rfl, hv]; exact ⟨low_val v, high_val v⟩⟩

theorem reg_got {z zf : Z} {d n : Int} (hz : Holds z zf d n) {o : Str} {s s0 : St} {m : Int} (hr : Reads o ⟨regKind m, 0⟩ s) (g : Gen [] s s0) :
    Got zf d n o s (Z80.regResult z m s0) := by
  have hf := hz.ofFlag
  have hn := regKind_not m
  have index : ∀ {i : Idx} {k : Kind}, regKind m = k → absorb zf k = useIndex zf i →
      Got zf d n o s ((if z.indexflag ≠ .none ∧ z.indexflag ≠ i then error Z80.badop else pure (10, { z with indexflag := i }) : M (Int × Z)) s0) := by
    intro i k hk ha
    rw [hk] at hr hn
    by_cases hc : z.indexflag ≠ .none ∧ z.indexflag ≠ i
    · rw [if_pos hc]
      exact .error hr (by rw [ha]; unfold useIndex; rw [← hf.1, if_pos hc]) (error_cases _ _)
    · rw [if_neg hc]
      refine .inr (.inr ⟨_, hr, .inr ?_⟩)
      rw [ha]
      unfold useIndex
      rw [← hf.1, if_neg hc, hn.2.2.2.1, hn.2.2.2.2]
      refine ⟨_, s0, rfl, g, ?_⟩
      have hfl := hz.flags
      subst hfl
      exact ⟨rfl, hz.offset, hz.arg⟩
  unfold Z80.regResult
  by_cases h12 : m = 12
  · subst h12
    rw [if_pos (.inl rfl)]
    exact index (i := .ix) rfl rfl
  by_cases h13 : m = 13
  · subst h13
    rw [if_pos (.inr (.inl rfl))]
    exact index (i := .iy) rfl rfl
  by_cases h10 : m = 10
  · subst h10
    rw [if_pos (.inr (.inr rfl))]
    exact index (i := .hl) rfl rfl
  have hno : ¬ (m = 12 ∨ m = 13 ∨ m = Z80.HLREGISTER) := by
    rintro (h | h | h)
    · exact h12 h
    · exact h13 h
    · exact h10 h
  rw [if_neg hno]
  by_cases hu : regKind m = .unknown
  · exact .inr (.inr ⟨_, hr, .inl hu⟩)
  · refine plain_got hz ⟨regKind m, 0⟩ hr (i := m) ?_ hn.2.2.2.1 hn.2.2.2.2 g rfl
    revert hu
    show regKind m ≠ .unknown → absorb zf (regKind m) = some (m, zf)
    unfold regKind
    split <;> first | (intro _; rfl) | (intro h; exact absurd rfl h) | (exact absurd rfl h12) | (exact absurd rfl h13) | (exact absurd rfl h10)

theorem expr_got {z zf : Z} {d n : Int} (hz : Holds z zf d n) {e : Str} {s s0 : St} (hw : Written .expr e e) (g : Gen [] s s0) :
    Got zf d n e s ((do
      let r ← parse (some e)
      if r.type = .absolute then do
        let z' ← Z80.setArg z r.value
        pure (-2, z')
      else do
        checktype r .regs
        Z80.singleReg r
        Z80.regResult z r.modifier : M (Int × Z)) s0) := by
  rcases res_cases (parse (some e) s0) with ⟨r, s1, hp⟩ | ⟨s1, hp⟩ | ⟨w, s1, hp⟩
  · have hr : Reads e (meaning r) s := .inr ⟨.expr, e, _, hw, ⟨s0, r, s1, g, hp, rfl⟩, rfl⟩
    have g1 : Gen [] s s1 := by simpa using g.trans (parse_gen hp)
    rw [run_ok hp]
    by_cases ht : r.type = .absolute
    · rw [if_pos ht]
      have hm : meaning r = ⟨.num, r.value.toInt⟩ := by unfold meaning; rw [if_pos ht]
      rw [hm] at hr
      exact arg_got hz hr g1 (.inr ⟨rfl, rfl⟩) rfl
    · rw [if_neg ht]
      unfold checktype
      by_cases hreg : r.type = .regs
      · rw [if_pos hreg]
        change Got zf d n e s ((Z80.singleReg r >>= fun _ => Z80.regResult z r.modifier) s1)
        unfold Z80.singleReg
        by_cases hu : r.modifier < 0 ∨ 32 ≤ r.modifier
        · rw [if_pos hu]
          exact .inl ⟨_, _, rfl⟩
        · rw [if_neg hu]
          by_cases hv : r.value ≠ (BitVec.ofNat 32 (2 ^ r.modifier.toNat)).signExtend 64
          · rw [if_pos hv]
            have hm : meaning r = ⟨.other, 0⟩ := by
              unfold meaning
              rw [if_neg ht, if_neg]
              rintro ⟨-, h⟩
              unfold single at h
              rw [decide_eq_true_eq] at h
              exact hv h.2.2
            rw [hm] at hr
            exact .error hr rfl (error_bind_cases _ _ _)
          · rw [if_neg hv]
            have hm : meaning r = ⟨regKind r.modifier, 0⟩ := by
              unfold meaning
              rw [if_neg ht, if_pos]
              refine ⟨hreg, ?_⟩
              unfold single
              rw [decide_eq_true_eq]
              exact ⟨by omega, by omega, Classical.not_not.1 hv⟩
            rw [hm] at hr
            exact reg_got hz hr g1
      · rw [if_neg hreg]
        have hm : meaning r = ⟨.other, 0⟩ := by
          unfold meaning
          rw [if_neg ht, if_neg (fun h => hreg h.1)]
        rw [hm] at hr
        exact .error hr rfl (error_bind_cases _ _ _)
  · rw [run_err hp]
    exact .inr (.inl ⟨⟨.expr, e, hw, s0, s1, g, hp⟩, s1, rfl⟩)
  · rw [run_stop hp]
    exact .inl ⟨_, _, rfl⟩

theorem ind_got {z zf : Z} {d n : Int} (hz : Holds z zf d n) {o e : Str} {s s0 : St} (hw : Written .ind e o) (g : Gen [] s s0) :
    Got zf d n o s ((do
      let r ← parseAbs (some e)
      let z' ← Z80.setArg z r.value
      pure (-1, z') : M (Int × Z)) s0) := by
  unfold parseAbs
  rw [bind_assoc]
  rcases res_cases (parse (some e) s0) with ⟨r, s1, hp⟩ | ⟨s1, hp⟩ | ⟨w, s1, hp⟩
  · have hr : Reads o (Form.value .ind (meaning r)) s := .inr ⟨.ind, e, _, hw, ⟨s0, r, s1, g, hp, rfl⟩, rfl⟩
    have g1 : Gen [] s s1 := by simpa using g.trans (parse_gen hp)
    rw [run_ok hp]
    by_cases ht : r.type = .absolute
    · have hm : meaning r = ⟨.num, r.value.toInt⟩ := by unfold meaning; rw [if_pos ht]
      rw [hm] at hr
      unfold checktype
      rw [if_pos ht]
      exact arg_got hz hr g1 (.inl ⟨rfl, rfl⟩) rfl
    · unfold checktype
      rw [if_neg ht]
      refine .error hr (by rw [value_other (by intro h; cases h) (meaning_not ht)]; rfl) ?_
      rw [bind_assoc]
      exact error_bind_cases _ _ _
  · rw [run_err hp]
    exact .inr (.inl ⟨⟨.ind, e, hw, s0, s1, g, hp⟩, s1, rfl⟩)
  · rw [run_stop hp]
    exact .inl ⟨_, _, rfl⟩

theorem getreg_run {z zf : Z} {d n : Int} (hz : Holds z zf d n) {o : Str} (ho : Spelled o) (s : St) : Got zf d n o s (getreg z o s) := by
  rcases ho with ⟨k, hk⟩ | ⟨f, e, hw⟩
  · have hr : Reads o ⟨k, 0⟩ s := .inl ⟨hk, rfl⟩
    cases hk with
    | @mk w x b1 b2 hm hx h1 h2 =>
      have h1 : Blank b1 := .of h1
      have h2 : Blank b2 := .of h2
      have hw : w ∈ words := by
        simp only [_root_.Spec.Z80.fixed, List.mem_cons, Prod.mk.injEq, List.not_mem_nil, or_false] at hm
        rcases hm with ⟨rfl, -⟩ | ⟨rfl, -⟩ | ⟨rfl, -⟩ | ⟨rfl, -⟩ | ⟨rfl, -⟩ <;> decide
      have miss : ∀ w' ∈ words, w' ≠ w → (filter ('(' :: (b1 ++ (x ++ (b2 ++ [')'])))) (patW w')).ok = false :=
        fun w' hw' hne => wordW_miss hw' hw hx h1 hne
      have missS : ∀ w' ∈ words, ∀ p, p = '+' ∨ p = '-' → (filter ('(' :: (b1 ++ (x ++ (b2 ++ [')'])))) (patS w' p)).ok = false := by
        intro w' hw' p hp
        by_cases hne : w' = w
        · subst hne
          exact wordS_other hw hx h1 h2 hp (by rcases hp with rfl | rfl <;> decide) (by decide)
        · exact wordS_miss hw' hw hx h1 hne hp
      obtain ⟨n1, k1, hit⟩ := wordW_hit hw hx h1 h2
      have noIx : w ≠ c!"IX" → w ≠ c!"IY" → ∀ p ∈ indexed, (filter ('(' :: (b1 ++ (x ++ (b2 ++ [')'])))) p.1).ok = false := by
        intro n1 n2
        refine indexed_all ?_ fun w' hw' p hp => missS w' (ix_words hw') p hp
        intro w' hw'
        refine miss w' (ix_words hw') ?_
        simp only [List.mem_cons, List.not_mem_nil, or_false] at hw'
        rcases hw' with rfl | rfl
        · exact fun h => n1 h.symm
        · exact fun h => n2 h.symm
      simp only [_root_.Spec.Z80.fixed, List.mem_cons, Prod.mk.injEq, List.not_mem_nil, or_false] at hm
      rcases hm with ⟨rfl, rfl⟩ | ⟨rfl, rfl⟩ | ⟨rfl, rfl⟩ | ⟨rfl, rfl⟩ | ⟨rfl, rfl⟩
      · refine .toward (getreg_notIndexed (noIx (by decide) (by decide)) s) ?_
        unfold notIndexed
        refine .toward (Toward.bind (toward_filter0 (show filter _ c!"(_HL_)" = _ from hit) s) (.refl _)) ?_
        simp only [if_true]
        have hf := hz.ofFlag
        by_cases hc : z.indexflag ≠ .none ∧ z.indexflag ≠ .hl
        · rw [if_pos hc]
          exact .error hr (by simp only [absorb]; rw [← hf.1, if_pos hc]) (error_cases _ _)
        · rw [if_neg hc]
          refine .inr (.inr ⟨_, hr, .inr ?_⟩)
          simp only [absorb]
          rw [← hf.1, if_neg hc]
          refine ⟨_, _, rfl, gen_bufpos _ _, ?_⟩
          have hfl := hz.flags
          subst hfl
          exact ⟨rfl, hz.offset, hz.arg⟩
      · refine .toward (getreg_notIndexed (noIx (by decide) (by decide)) s) ?_
        unfold notIndexed
        refine .toward (Toward.bind (toward_miss0 (show (filter _ c!"(_HL_)").ok = false from miss c!"HL" (by decide) (by decide)) s) (.refl _)) ?_
        simp only [Bool.false_eq_true, if_false]
        refine .toward (Toward.bind (toward_filter0 (show filter _ c!"(_BC_)" = _ from hit) s) (.refl _)) ?_
        simp only [if_true]
        exact plain_got hz _ hr rfl rfl rfl (gen_bufpos _ _) rfl
      · refine .toward (getreg_notIndexed (noIx (by decide) (by decide)) s) ?_
        unfold notIndexed
        refine .toward (Toward.bind (toward_miss0 (show (filter _ c!"(_HL_)").ok = false from miss c!"HL" (by decide) (by decide)) s) (.refl _)) ?_
        simp only [Bool.false_eq_true, if_false]
        refine .toward (Toward.bind (toward_miss0 (show (filter _ c!"(_BC_)").ok = false from miss c!"BC" (by decide) (by decide)) s) (.refl _)) ?_
        simp only [Bool.false_eq_true, if_false]
        refine .toward (Toward.bind (toward_filter0 (show filter _ c!"(_DE_)" = _ from hit) s) (.refl _)) ?_
        simp only [if_true]
        exact plain_got hz _ hr rfl rfl rfl (gen_bufpos _ _) rfl
      · obtain ⟨b, h⟩ := getIndexed_hit (z := z) (i := .ix) (sg := none) (pre := []) (post := indexed.drop 1) (by simp) ⟨n1, k1, hit⟩ s
        exact indexed_got (x := .ix) hz hr (gen_bufpos s b) (by decide) h
      · obtain ⟨b, h⟩ := getIndexed_hit (z := z) (i := .iy) (sg := none) (pre := indexed.take 1) (post := indexed.drop 2)
          (by
            simp only [indexed, List.take, List.mem_cons, List.not_mem_nil, or_false, forall_eq]
            exact miss c!"IX" (by decide) (by decide)) ⟨n1, k1, hit⟩ s
        exact indexed_got (x := .iy) hz hr (gen_bufpos s b) (by decide) h
  · have hw0 := hw
    cases hw with
    | expr he h =>
      refine .toward (getreg_notIndexed (indexed_all (fun w hw => noparen_W (ix_words hw) h) fun w hw p hp => noparen_S (ix_words hw) hp h) s) ?_
      unfold notIndexed
      refine .toward (Toward.bind (toward_miss0 (show (filter _ c!"(_HL_)").ok = false from noparen_W (w := c!"HL") (by decide) h) s) (.refl _)) ?_
      simp only [Bool.false_eq_true, if_false]
      refine .toward (Toward.bind (toward_miss0 (show (filter _ c!"(_BC_)").ok = false from noparen_W (w := c!"BC") (by decide) h) s) (.refl _)) ?_
      simp only [Bool.false_eq_true, if_false]
      refine .toward (Toward.bind (toward_miss0 (show (filter _ c!"(_DE_)").ok = false from noparen_W (w := c!"DE") (by decide) h) s) (.refl _)) ?_
      simp only [Bool.false_eq_true, if_false]
      refine .toward (Toward.bind (toward_miss1 (paren_misses h).2.2 s) (.refl _)) ?_
      exact expr_got hz hw0 (.refl _)
    | ind he hf h1 h2 =>
      have h1 : Blank _ := .of h1
      have h2 : Blank _ := .of h2
      refine .toward (getreg_notIndexed (indexed_all (fun w hw => freeW_miss he hf h1 h2 (ix_words hw))
        fun w hw p hp => freeS_miss he hf h1 h2 (ix_words hw) hw hp) s) ?_
      unfold notIndexed
      refine .toward (Toward.bind (toward_miss0 (show (filter _ c!"(_HL_)").ok = false from freeW_miss (w := c!"HL") he hf h1 h2 (by decide)) s) (.refl _)) ?_
      simp only [Bool.false_eq_true, if_false]
      refine .toward (Toward.bind (toward_miss0 (show (filter _ c!"(_BC_)").ok = false from freeW_miss (w := c!"BC") he hf h1 h2 (by decide)) s) (.refl _)) ?_
      simp only [Bool.false_eq_true, if_false]
      refine .toward (Toward.bind (toward_miss0 (show (filter _ c!"(_DE_)").ok = false from freeW_miss (w := c!"DE") he hf h1 h2 (by decide)) s) (.refl _)) ?_
      simp only [Bool.false_eq_true, if_false]
      obtain ⟨n1, k1, hit⟩ := paren_hit he h1 h2
      refine .toward (Toward.bind (toward_filter1 hit s) (.refl _)) ?_
      exact ind_got hz hw0 (gen_bufpos _ _)
    | @plus x _ w b1 b2 b3 b4 he hx h1 h2 h3 h4 =>
      have h1 : Blank b1 := .of h1
      have h2 : Blank b2 := .of h2
      have hit := wordS_hit (name_mem x) hx he h1 h2 (.of h3) (.of h4) (.inl rfl)
      have missW : ∀ w' ∈ words, (filter ('(' :: (b1 ++ (w ++ (b2 ++ '+' :: (b3 ++ (e ++ (b4 ++ [')']))))))) (patW w')).ok = false := by
        intro w' hw'
        by_cases hne : w' = x.name
        · subst hne
          exact wordW_more (name_mem x) hx h1 h2 (by decide) (by decide)
        · exact wordW_miss hw' (name_mem x) hx h1 hne
      cases x with
      | ix =>
        obtain ⟨b, h⟩ := getIndexed_hit (z := z) (i := .ix) (sg := some true) (pre := indexed.take 2) (post := indexed.drop 3)
          (by
            simp only [indexed, List.take, List.mem_cons, List.not_mem_nil, or_false, forall_eq_or_imp, forall_eq]
            exact ⟨missW c!"IX" (by decide), missW c!"IY" (by decide)⟩) hit s
        exact signed_got (x := .ix) (plus := true) hz rfl hw0 (gen_bufpos s b) h
      | iy =>
        obtain ⟨b, h⟩ := getIndexed_hit (z := z) (i := .iy) (sg := some true) (pre := indexed.take 3) (post := indexed.drop 4)
          (by
            simp only [indexed, List.take, List.mem_cons, List.not_mem_nil, or_false, forall_eq_or_imp, forall_eq]
            exact ⟨missW c!"IX" (by decide), missW c!"IY" (by decide),
              wordS_miss (w := c!"IX") (by decide) (name_mem _) hx h1 (by decide) (.inl rfl)⟩) hit s
        exact signed_got (x := .iy) (plus := true) hz rfl hw0 (gen_bufpos s b) h
    | @minus x _ w b1 b2 b3 b4 he _ hx h1 h2 h3 h4 =>
      have h1 : Blank b1 := .of h1
      have h2 : Blank b2 := .of h2
      have hit := wordS_hit (name_mem x) hx he h1 h2 (.of h3) (.of h4) (.inr rfl)
      have missW : ∀ w' ∈ words, (filter ('(' :: (b1 ++ (w ++ (b2 ++ '-' :: (b3 ++ (e ++ (b4 ++ [')']))))))) (patW w')).ok = false := by
        intro w' hw'
        by_cases hne : w' = x.name
        · subst hne
          exact wordW_more (name_mem x) hx h1 h2 (by decide) (by decide)
        · exact wordW_miss hw' (name_mem x) hx h1 hne
      have missP : ∀ w' ∈ words, (filter ('(' :: (b1 ++ (w ++ (b2 ++ '-' :: (b3 ++ (e ++ (b4 ++ [')']))))))) (patS w' '+')).ok = false := by
        intro w' hw'
        by_cases hne : w' = x.name
        · subst hne
          exact wordS_other (name_mem x) hx h1 h2 (.inl rfl) (by decide) (by decide)
        · exact wordS_miss hw' (name_mem x) hx h1 hne (.inl rfl)
      cases x with
      | ix =>
        obtain ⟨b, h⟩ := getIndexed_hit (z := z) (i := .ix) (sg := some false) (pre := indexed.take 4) (post := indexed.drop 5)
          (by
            simp only [indexed, List.take, List.mem_cons, List.not_mem_nil, or_false, forall_eq_or_imp, forall_eq]
            exact ⟨missW c!"IX" (by decide), missW c!"IY" (by decide), missP c!"IX" (by decide), missP c!"IY" (by decide)⟩) hit s
        exact signed_got (x := .ix) (plus := false) hz rfl hw0 (gen_bufpos s b) h
      | iy =>
        obtain ⟨b, h⟩ := getIndexed_hit (z := z) (i := .iy) (sg := some false) (pre := indexed.take 5) (post := indexed.drop 6)
          (by
            simp only [indexed, List.take, List.mem_cons, List.not_mem_nil, or_false, forall_eq_or_imp, forall_eq]
            exact ⟨missW c!"IX" (by decide), missW c!"IY" (by decide), missP c!"IX" (by decide), missP c!"IY" (by decide),
              wordS_miss (w := c!"IX") (by decide) (name_mem _) hx h1 (by decide) (.inr rfl)⟩) hit s
        exact signed_got (x := .iy) (plus := false) hz rfl hw0 (gen_bufpos s b) h

end Zop
end Crasm

import Verif.Proof.Words
import Verif.Proof.Lawful

/-! The expression parser on texts without operators. -/

namespace Crasm

/-- `r` is `r'`, or the work buffer of the pattern matcher was exhausted. -/
def Toward (r r' : Res α) : Prop := r = r' ∨ ∃ t, r = .stop (.ub .filterBuffer) t

theorem Toward.refl (r : Res α) : Toward r r := .inl rfl
theorem Toward.trans {a b c : Res α} (h : Toward a b) (h' : Toward b c) : Toward a c := by
  rcases h with rfl | h
  · exact h'
  · exact .inr h
theorem Toward.bind {m : M α} {f : α → M β} {s s' : St} {a : α} {r : Res β} (h : Toward (m s) (.ok a s'))
    (h' : Toward (f a s') r) : Toward ((m >>= f) s) r := by
  rcases h with h | ⟨t, h⟩
  · rw [run_ok h]; exact h'
  · exact .inr ⟨t, run_stop h⟩

theorem toward_filter2 {e pat a b : Str} {w k : Nat} (h : filter e pat = ⟨true, [a, b], w, k⟩) (s : St) :
    Toward (filter2 e pat s) (.ok (some (a, b)) { s with bufpos := s.bufpos + w }) := by
  rw [filter2_hit h]
  split
  · exact .inr ⟨s, rfl⟩
  · exact .refl _
theorem toward_filter1 {e pat a : Str} {w k : Nat} (h : filter e pat = ⟨true, [a], w, k⟩) (s : St) :
    Toward (filter1 e pat s) (.ok (some a) { s with bufpos := s.bufpos + w }) := by
  rw [filter1_hit h]
  split
  · exact .inr ⟨s, rfl⟩
  · exact .refl _
theorem toward_miss2 {e pat : Str} (h : (filter e pat).ok = false) (s : St) :
    Toward (filter2 e pat s) (.ok none s) := by
  rw [filter2_miss h]
  split
  · exact .inr ⟨s, rfl⟩
  · exact .refl _
theorem toward_miss1 {e pat : Str} (h : (filter e pat).ok = false) (s : St) :
    Toward (filter1 e pat s) (.ok none s) := by
  rw [filter1_miss h]
  split
  · exact .inr ⟨s, rfl⟩
  · exact .refl _

theorem firstMatch_miss {e : Str} : ∀ {alts : List (Str × Op2)}, (∀ p ∈ alts, (filter e p.1).ok = false) → ∀ s,
    Toward (firstMatch e alts s) (.ok none s) := by
  intro alts
  induction alts with
  | nil => intro _ s; exact .refl _
  | cons p alts ih =>
    intro h s
    unfold firstMatch
    refine Toward.bind (toward_miss2 (h p (by simp)) s) (Toward.bind (ih (fun q hq => h q (by simp [hq])) s) ?_)
    exact .refl _

/-! Rows that do not apply. -/

theorem rows_dya {rec : Bool → Str → M Result} {tgt : Bool} {e : Str} {alts : List (Str × Op2)} {rows : List Ent}
    (h : ∀ p ∈ alts, (filter e p.1).ok = false) (s : St) :
    Toward (parseRows rec tgt e (.dya alts :: rows) s) (parseRows rec tgt e rows s) := by
  rw [parseRows]
  exact Toward.bind (firstMatch_miss h s) (.refl _)
theorem rows_mon {rec : Bool → Str → M Result} {tgt : Bool} {e pat : Str} {op : Op1} {rows : List Ent}
    (h : (filter e pat).ok = false) (s : St) :
    Toward (parseRows rec tgt e (.mon pat op :: rows) s) (parseRows rec tgt e rows s) := by
  rw [parseRows]
  exact Toward.bind (toward_miss1 h s) (.refl _)
theorem rows_paren {rec : Bool → Str → M Result} {tgt : Bool} {e pat : Str} {rows : List Ent}
    (h : (filter e pat).ok = false) (s : St) :
    Toward (parseRows rec tgt e (.paren pat :: rows) s) (parseRows rec tgt e rows s) := by
  rw [parseRows]
  exact Toward.bind (toward_miss1 h s) (.refl _)

/-! Patterns that do not match. -/

/-- A pattern starting with a character that the text does not start with. -/
theorem filter_first {p : Char} {pat e : Str} (h1 : p ≠ '?') (h2 : p ≠ '_')
    (h : ∀ c r, e = c :: r → litMatch p c = false) : (filter e (p :: pat)).ok = false := by
  unfold filter splitPat
  simp only [if_neg h1]
  cases e with
  | nil => rw [matchSeg_end _ _ h2]
  | cons c e =>
    rw [matchSeg_lit _ _ h2, if_neg]
    rw [h c e rfl]
    simp

/-- A wildcard followed by a part that starts, after blanks, with a character not at top level. -/
theorem filter_wild {c : Char} {pat e seg : Str} {segs : List Str} (hp : splitPat pat = ([], ('_' :: c :: seg) :: segs))
    (hu : c ≠ '_') (h : NoTop c Quote.zero e) : (filter e pat).ok = false := by
  unfold filter
  rw [hp]
  simp only [List.isEmpty_cons, matchSeg_nil]
  rw [filterWild]
  · obtain ⟨n, -, h1⟩ := seek_sep_none (e := segs.isEmpty) (tail := seg) hu h
    rw [h1]
  · intro h; cases h

/-- The characters of operators. -/
def opChars : List Char := ['\\', '+', '-', '*', '/', '|', '&', '^', '<', '>', '~']

/-- Characters that mean nothing to the parser of expressions. -/
def plainChar (c : Char) : Bool :=
  !(c ∈ opChars || c = '(' || c = ')' || c = '{' || c = '}' || c = '\'' || c = '"' || isblank c)

theorem lit_ne {p c : Char} (hp : isalpha p = false) (hs : p ≠ ' ') (h : c ≠ p) : litMatch p c = false := by
  cases hl : litMatch p c with
  | false => rfl
  | true => exact absurd (litMatch_eq hp hs hl) h

theorem dya_miss {e : Str} (h : ∀ c ∈ opChars, NoTop c Quote.zero e) (alts : List (Str × Op2))
    (ha : .dya alts ∈ revTable.take 5) : ∀ p ∈ alts, (filter e p.1).ok = false := by
  simp only [revTable, List.take, List.mem_cons, Ent.dya.injEq, List.not_mem_nil, or_false] at ha
  intro p hp
  rcases ha with rfl | rfl | rfl | rfl | rfl <;> simp only [List.mem_cons, List.not_mem_nil, or_false] at hp
  · subst hp; exact filter_wild (c := '\\') rfl (by decide) (h _ (by decide))
  · rcases hp with rfl | rfl
    · exact filter_wild (c := '+') rfl (by decide) (h _ (by decide))
    · exact filter_wild (c := '-') rfl (by decide) (h _ (by decide))
  · rcases hp with rfl | rfl
    · exact filter_wild (c := '*') rfl (by decide) (h _ (by decide))
    · exact filter_wild (c := '/') rfl (by decide) (h _ (by decide))
  · rcases hp with rfl | rfl | rfl
    · exact filter_wild (c := '|') rfl (by decide) (h _ (by decide))
    · exact filter_wild (c := '&') rfl (by decide) (h _ (by decide))
    · exact filter_wild (c := '^') rfl (by decide) (h _ (by decide))
  · rcases hp with rfl | rfl
    · exact filter_wild (c := '<') rfl (by decide) (h _ (by decide))
    · exact filter_wild (c := '>') rfl (by decide) (h _ (by decide))

/-- A text without operators at top level, up to the rows for parentheses. -/
theorem rows_noop {rec : Bool → Str → M Result} {tgt : Bool} {e : Str}
    (h : ∀ c ∈ opChars, NoTop c Quote.zero e) (s : St) :
    Toward (parseRows rec tgt e revTable s) (parseRows rec tgt e (revTable.drop 7) s) := by
  refine (rows_dya (dya_miss h _ (by simp [revTable])) s).trans ?_
  refine (rows_dya (dya_miss h _ (by simp [revTable])) s).trans ?_
  refine (rows_dya (dya_miss h _ (by simp [revTable])) s).trans ?_
  refine (rows_dya (dya_miss h _ (by simp [revTable])) s).trans ?_
  refine (rows_dya (dya_miss h _ (by simp [revTable])) s).trans ?_
  refine (rows_mon (filter_wild (c := '-') rfl (by decide) (h _ (by decide))) s).trans ?_
  refine (rows_mon (filter_wild (c := '~') rfl (by decide) (h _ (by decide))) s).trans ?_
  exact .refl _

/-- The remaining rows need a parenthesis or a brace. -/
theorem rows_leaf {rec : Bool → Str → M Result} {tgt : Bool} {e : Str}
    (h : ∀ c r, e = c :: r → c ≠ ')' ∧ c ≠ '}') (s : St) :
    Toward (parseRows rec tgt e (revTable.drop 7) s) (parseLeaf tgt (creverse e) s) := by
  have h1 : ∀ pat, (filter e (')' :: pat)).ok = false := fun pat =>
    filter_first (by decide) (by decide) fun c r he => lit_ne (by decide) (by decide) (h c r he).1
  have h2 : ∀ pat, (filter e ('}' :: pat)).ok = false := fun pat =>
    filter_first (by decide) (by decide) fun c r he => lit_ne (by decide) (by decide) (h c r he).2
  refine (rows_mon (h1 _) s).trans ?_
  refine (rows_mon (h1 _) s).trans ?_
  refine (rows_mon (h1 _) s).trans ?_
  refine (rows_mon (h1 _) s).trans ?_
  refine (rows_dya (fun p hp => ?_) s).trans ?_
  · simp only [List.mem_cons, List.not_mem_nil, or_false] at hp
    subst hp
    exact h2 _
  refine (rows_paren (h1 _) s).trans ?_
  exact .refl _

theorem plain_noTop {e : Str} (h : ∀ c ∈ e, plainChar c = true) : ∀ c ∈ opChars, NoTop c Quote.zero e := by
  intro c hc
  refine NoTop.of_not fun x hx => lit_ne ?_ ?_ ?_
  · revert c; decide
  · rintro rfl; revert hc; decide
  · rintro rfl
    have := h x hx
    simp [plainChar, hc] at this

theorem parse2_leaf {n : Nat} {tgt : Bool} {e : Str} (h : ∀ c ∈ e, plainChar c = true) (s : St) :
    Toward (parse2 (n + 1) tgt e s) (parseLeaf tgt (creverse e) s) := by
  rw [parse2]
  refine (rows_noop (plain_noTop h) s).trans (rows_leaf ?_ s)
  rintro c r rfl
  have := h c (by simp)
  constructor <;> rintro rfl <;> revert this <;> decide

/-- Without quotes, creverse is plain reversal. -/
theorem fixEscapes_plain : ∀ (l acc : Str), (∀ c ∈ l, c ≠ '\'' ∧ c ≠ '"') →
    fixEscapes .none acc l = acc.reverse ++ l := by
  intro l
  induction l with
  | nil => intro acc _; simp [fixEscapes]
  | cons c l ih =>
    intro acc h
    have hc := h c (by simp)
    rw [fixEscapes.eq_def]
    simp only [if_neg hc.1, if_neg hc.2]
    rw [if_neg (by simp), ih _ fun x hx => h x (by simp [hx])]
    simp
theorem creverse_plain {e : Str} (h : ∀ c ∈ e, c ≠ '\'' ∧ c ≠ '"') : creverse e = e.reverse := by
  unfold creverse
  rw [fixEscapes_plain _ _ (by simpa using h)]
  rfl

theorem plain_quote {e : Str} (h : ∀ c ∈ e, plainChar c = true) : ∀ c ∈ e, c ≠ '\'' ∧ c ≠ '"' := by
  intro c hc
  have := h c hc
  constructor <;> rintro rfl <;> revert this <;> decide

/-- A text without operators, parentheses, quotes and blanks is taken as a label or a constant. -/
theorem parse_leaf {e : Str} (hne : e ≠ []) (h : ∀ c ∈ e, plainChar c = true) (s : St) :
    Toward (parse (some e) s) (parseLeaf true e s) := by
  cases e with
  | nil => exact absurd rfl hne
  | cons c e =>
    have hr : creverse (creverse (c :: e)) = c :: e := by
      rw [creverse_plain (plain_quote h), creverse_plain (fun x hx => plain_quote h x (List.mem_reverse.1 hx)), List.reverse_reverse]
    have h0 : (filter (c :: e) c!"(?)").ok = false := by
      refine filter_first (by decide) (by decide) fun x r he => lit_ne (by decide) (by decide) ?_
      have := h x (by rw [he]; simp)
      rintro rfl; revert this; decide
    unfold parse
    refine Toward.bind (a := false) (s' := s) ?_ ?_
    · rw [filter0_run]
      split
      · exact .inr ⟨s, rfl⟩
      · rw [h0]; exact .refl _
    · refine Toward.bind (a := ()) (s' := s) (.refl _) ?_
      have := parse2_leaf (n := (c :: e).length) (tgt := true) (e := creverse (c :: e))
        (by rw [creverse_plain (plain_quote h)]; exact fun x hx => h x (List.mem_reverse.1 hx)) s
      rw [hr] at this
      exact this

end Crasm

import Verif.Proof.FilterL
import Verif.Proof.Whole

/-! # C15: comments never change what is assembled -/

namespace Crasm

/-- The statement of a line: what is left when the comment and the blanks around are taken off. -/
def strip (line : Str) : Str :=
  match filter line c!"_?_;?" with
  | ⟨true, [l, _], _, _⟩ => l
  | _ => (rtrim line).dropWhile isblank

theorem filter_comment {s a bl r : Str} (hs : skipBlanks s = a ++ (bl ++ ';' :: r)) (h1 : NoTop ';' Quote.zero a)
    (h2 : Quote.zero.run a = Quote.zero) (h3 : Trail a) (h4 : Blank bl) :
    ∃ w k, filter s c!"_?_;?" = ⟨true, [a, r], w, k⟩ := by
  unfold filter
  rw [show splitPat c!"_?_;?" = (['_'], [['_', ';'], []]) from by decide]
  simp only [List.isEmpty_cons, matchSeg_blank, matchSeg_nil, hs]
  rw [filterWild]
  · simp only [List.isEmpty_cons]
    rw [seek_sep (c := ';') (tail := []) (rest := r) (by decide) (by decide) h4 (by decide) (matchSeg_nil _ _)
      h1 h2 h3]
    exact ⟨_, _, rfl⟩
  · intro h; cases h

theorem filter_no_comment {s : Str} (h : NoTop ';' Quote.zero (skipBlanks s)) :
    (filter s c!"_?_;?").ok = false := by
  unfold filter
  rw [show splitPat c!"_?_;?" = (['_'], [['_', ';'], []]) from by decide]
  simp only [List.isEmpty_cons, matchSeg_blank, matchSeg_nil]
  rw [filterWild]
  · simp only [List.isEmpty_cons]
    obtain ⟨n, -, h1⟩ := seek_sep_none (c := ';') (e := false) (tail := []) (by decide) h
    rw [h1]
  · intro h; cases h

theorem rtrim_append {a bl : Str} (ha : Trail a) (hb : Blank bl) : rtrim (a ++ bl) = a := by
  have h1 : ∀ l : Str, Blank l → ∀ r, (l ++ r).dropWhile isblank = r.dropWhile isblank := by
    intro l hl r
    induction l with
    | nil => rfl
    | cons c l ih => rw [List.cons_append, List.dropWhile_cons, hl.cons.1, if_pos rfl, ih hl.cons.2]
  unfold rtrim
  rw [List.reverse_append, h1 _ (fun c hc => hb c (List.mem_reverse.1 hc))]
  cases hr : a.reverse with
  | nil => rw [List.reverse_eq_nil_iff] at hr; rw [hr]; rfl
  | cons c r =>
    have : a = r.reverse ++ [c] := by rw [← List.reverse_reverse a, hr, List.reverse_cons]
    rw [List.dropWhile_cons, ha c _ this, if_neg (by simp), ← hr, List.reverse_reverse]

theorem dropWhile_skip (s : Str) : s.dropWhile isblank = skipBlanks s := by
  induction s with
  | nil => rfl
  | cons c s ih => rw [List.dropWhile_cons, skipBlanks, ih]

/-- A comment added to a balanced line does not change the statement. -/
theorem strip_comment {line bl text : Str} (hq : Quote.zero.run line = Quote.zero) (hb : Blank bl) :
    strip (line ++ (bl ++ ';' :: text)) = strip line := by
  obtain ⟨b0, e0, hb0, hl⟩ := skipBlanks_spec line
  have hq0 : Quote.zero.run (skipBlanks line) = Quote.zero := by
    rw [e0, Quote.run_append, run_blank hb0] at hq
    exact hq
  have e1 : skipBlanks line ≠ [] →
      skipBlanks (line ++ (bl ++ ';' :: text)) = skipBlanks line ++ (bl ++ ';' :: text) := by
    intro hne
    have h := congrArg (fun l => skipBlanks (l ++ (bl ++ ';' :: text))) e0
    rw [h, List.append_assoc, skipBlanks_append hb0]
    cases hs : skipBlanks line with
    | nil => exact absurd hs hne
    | cons c r => rw [List.cons_append, skipBlanks_cons (hl c r hs)]
  rcases first_sep ';' (skipBlanks line) with h | ⟨a, bl', x, r, e, h1, h2, h3, h4, h5⟩
  · have hno := filter_no_comment h
    have hstrip : strip line = skipBlanks (rtrim line) := by
      unfold strip
      generalize filter line c!"_?_;?" = f at hno
      obtain ⟨ok, caps, w, k⟩ := f
      subst hno
      simp only
      exact dropWhile_skip _
    obtain ⟨a, b1, e2, ha, hb1⟩ := trail_split (skipBlanks line)
    by_cases hne : a = []
    · -- nothing but blanks
      subst hne
      have hall : Blank line := by
        rw [e0, e2]
        intro c hc
        rcases List.mem_append.1 hc with hc | hc
        · exact hb0 c hc
        · exact hb1 c hc
      have hr : rtrim line = [] := rtrim_append (a := []) .nil hall
      obtain ⟨w, k, hf⟩ := filter_comment (s := line ++ (bl ++ ';' :: text)) (a := []) (bl := []) (r := text)
        (by rw [skipBlanks_append hall, skipBlanks_append hb]; rfl) (by intro p x r e; simp at e) rfl .nil .nil
      rw [hstrip, hr]
      unfold strip
      rw [hf]
      rfl
    · have hne' : skipBlanks line ≠ [] := by
        intro hz
        rw [hz] at e2
        exact hne (List.append_eq_nil_iff.1 e2.symm).1
      have hrt : rtrim line = b0 ++ a := by
        rw [e0, e2, ← List.append_assoc]
        exact rtrim_append (Trail.append ha hne) hb1
      have hlead : Lead a := by
        intro c r e
        exact hl c (r ++ b1) (by rw [e2, e]; rfl)
      have hqa : Quote.zero.run a = Quote.zero := by
        rw [e2, Quote.run_append] at hq0
        exact (Quote.Good.zero.run a).blank hb1 hq0
      obtain ⟨w, k, hf⟩ := filter_comment (s := line ++ (bl ++ ';' :: text)) (a := a) (bl := b1 ++ bl) (r := text)
        (by rw [e1 hne', e2]; simp)
        (by intro p x r e hx; exact h p x (r ++ b1) (by rw [e2, e]; simp) hx) hqa ha
        (by
          intro c hc
          rcases List.mem_append.1 hc with hc | hc
          · exact hb1 c hc
          · exact hb c hc)
      rw [hstrip, hrt, skipBlanks_append hb0, hlead.skip]
      unfold strip
      rw [hf]
  · have hx := litMatch_eq (c := ';') (by decide) (by decide) h5
    subst hx
    obtain ⟨w, k, hf⟩ := filter_comment e h1 h2 h3 h4
    obtain ⟨w', k', hf'⟩ := filter_comment (s := line ++ (bl ++ ';' :: text)) (a := a) (bl := bl')
      (r := r ++ (bl ++ ';' :: text)) (by rw [e1 (by rw [e]; simp), e]; simp) h1 h2 h3 h4
    unfold strip
    rw [hf, hf']

/-- `stripLine` returns the statement. -/
theorem stripLine_strip (s : St) : stripLine s = .stop (.ub .filterBuffer) s ∨
    ∃ b c, stripLine s = .ok (strip s.curline) { s with bufpos := b, curline := c } := by
  rcases first_sep ';' (skipBlanks s.curline) with h | ⟨a, bl', x, r, e, h1, h2, h3, h4, h5⟩
  · have hno := filter_no_comment h
    have hm := filter2_miss hno s
    by_cases hb : bufSize ≤ s.bufpos + (filter s.curline c!"_?_;?").wrote
    · rw [if_pos hb] at hm
      exact .inl ((run_ok (m := getS) (s' := s) rfl).trans (run_stop hm))
    · rw [if_neg hb] at hm
      refine .inr ⟨s.bufpos, rtrim s.curline, (run_ok (m := getS) (s' := s) rfl).trans ((run_ok hm).trans ?_)⟩
      have : strip s.curline = (rtrim s.curline).dropWhile isblank := by
        unfold strip
        generalize filter s.curline c!"_?_;?" = f at hno
        obtain ⟨ok, caps, w, k⟩ := f
        subst hno
        rfl
      rw [this]
      rfl
  · have hx := litMatch_eq (c := ';') (by decide) (by decide) h5
    subst hx
    obtain ⟨w, k, hf⟩ := filter_comment e h1 h2 h3 h4
    have hm := filter2_hit hf s
    by_cases hb : bufSize ≤ s.bufpos + w
    · rw [if_pos hb] at hm
      exact .inl ((run_ok (m := getS) (s' := s) rfl).trans (run_stop hm))
    · rw [if_neg hb] at hm
      refine .inr ⟨s.bufpos + w, s.curline, (run_ok (m := getS) (s' := s) rfl).trans ((run_ok hm).trans ?_)⟩
      unfold strip
      rw [hf]
      rfl

theorem rr_bufpos {s₁ s₂ : St} (r : RR s₁ s₂) (k k' : Nat) :
    RR { s₁ with bufpos := k } { s₂ with bufpos := k' } := by
  obtain ⟨⟨l, b, c, x, y, z, st, rfl, e⟩, i1, i2⟩ := r
  exact ⟨⟨l, k', c, x, y, z, st, rfl, e⟩, i1, i2⟩

/-- The rest of `asmline` once the statement has been found. -/
theorem asmline_body (n : Nat) (st : Status) (s : St) :
    asmline (n + 1) st s = (stripLine >>= fun t => asmBody (asmline n) n st (startsFlush s.curline) t)
      (startedSt s) := by
  rw [asmline]
  exact run_ok (startLine_eq s)

theorem asmBody_flush (self : Status → M RC) (fuel : Nat) (st : Status) (b b' : Bool) (t : Str)
    (h : t = [] ∨ b = b') : asmBody self fuel st b t = asmBody self fuel st b' t := by
  rcases h with rfl | rfl <;> rfl

/-- The two states hold the same program: everything is equal except the listing and its options, the text
    of the current line and the fill of the pattern buffer. -/
def SameProgram (s t : St) : Prop :=
  s.code = t.code ∧ s.tree = t.tree ∧ s.log = t.log ∧ s.errnumber = t.errnumber ∧ s.advance = t.advance ∧
  s.passnumber = t.passnumber ∧ s.macrolevel = t.macrolevel ∧ s.segment = t.segment ∧ s.thiscall = t.thiscall ∧
  s.main = t.main ∧ s.mainEof = t.mainEof ∧ s.stack.map Src.strip = t.stack.map Src.strip ∧
  s.cpuflag = t.cpuflag ∧ s.calcR = t.calcR ∧ s.linenumber = t.linenumber ∧ s.lineprefix = t.lineprefix ∧
  s.source = t.source ∧ s.env = t.env ∧
  { s.flags with listOn := false, nolist := false, nowarning := false } =
    { t.flags with listOn := false, nolist := false, nowarning := false }

theorem RR.same {s t : St} (r : RR s t) : SameProgram s t := by
  obtain ⟨⟨l, b, c, x, y, z, st, rfl, e⟩, -, -⟩ := r
  exact ⟨rfl, rfl, rfl, rfl, rfl, rfl, rfl, rfl, rfl, rfl, rfl, e, rfl, rfl, rfl, rfl, rfl, rfl, rfl⟩

/-- Same outcome (value or error) and same program, unless one of the two runs stops. -/
def SameOutcome : Res RC → Res RC → Prop
  | .ok a s, .ok b t => a = b ∧ SameProgram s t
  | .err s, .err t => SameProgram s t
  | .stop _ _, _ => True
  | _, .stop _ _ => True
  | _, _ => False

/-- **C15.** Assembling a line with balanced quotes and parentheses, and the same line followed by blanks and
    a comment, from any state `s` (the invariant `Inv` of the listing holds in every state of a run), has the
    same outcome: the same code, symbols, location counter (`*` in the table), errors and events. -/
theorem C15_comment (n : Nat) (st : Status) (s : St) (hs : Inv s) (line bl text : Str)
    (hl : Spec.Bal (fun _ => true) line) (hb : ∀ c ∈ bl, Spec.IsBlank c) :
    SameOutcome (asmline n st { s with curline := line })
      (asmline n st { s with curline := line ++ (bl ++ ';' :: text) }) := by
  have key : Agree (asmline n st { s with curline := line })
      (asmline n st { s with curline := line ++ (bl ++ ';' :: text) }) := by
    cases n with
    | zero => exact ⟨hs, hs⟩
    | succ n =>
      rw [asmline_body, asmline_body]
      have hr : RR { s with curline := line } { s with curline := line ++ (bl ++ ';' :: text) } :=
        rr_curline ⟨.rfl' s, hs, hs⟩ _ _
      have hr2 : RR (startedSt { s with curline := line })
          (startedSt { s with curline := line ++ (bl ++ ';' :: text) }) := by
        have := Rel.go (inferInstance : Rel startLine) hr
        unfold RelAt at this
        rw [startLine_eq, startLine_eq] at this
        exact this.2
      have hst := strip_comment (text := text) (Bal.run hl 0) (Blank.of hb)
      have hc1 : (startedSt { s with curline := line }).curline = line := rfl
      have hc2 : (startedSt { s with curline := line ++ (bl ++ ';' :: text) }).curline =
        line ++ (bl ++ ';' :: text) := rfl
      have h1 := stripLine_strip (startedSt { s with curline := line })
      have h2 := stripLine_strip (startedSt { s with curline := line ++ (bl ++ ';' :: text) })
      rw [hc1] at h1
      rw [hc2, hst] at h2
      generalize startedSt { s with curline := line } = t1 at *
      generalize startedSt { s with curline := line ++ (bl ++ ';' :: text) } = t2 at *
      have hfl : strip line = [] ∨ startsFlush line = startsFlush (line ++ (bl ++ ';' :: text)) := by
        cases line with
        | nil => exact .inl rfl
        | cons c l => exact .inr rfl
      have hbody : ∀ u1 u2, RR u1 u2 →
          RelAt u1 u2 (asmBody (asmline n) n st (startsFlush line) (strip line))
            (asmBody (asmline n) n st (startsFlush (line ++ (bl ++ ';' :: text))) (strip line)) := by
        intro u1 u2 r
        rw [asmBody_flush _ _ _ _ _ _ hfl]
        exact (rel_asmBody (rel_asmline n) (walk_asmline n) n st _ _).go r
      change Agree ((stripLine >>= fun t => asmBody (asmline n) n st (startsFlush line) t) t1)
        ((stripLine >>= fun t => asmBody (asmline n) n st (startsFlush (line ++ (bl ++ ';' :: text))) t) t2)
      rcases h1 with h1 | ⟨b1, c1, h1⟩ <;> rcases h2 with h2 | ⟨b2, c2, h2⟩
      · rw [run_stop h1, run_stop h2]
        exact ⟨hr2.2.1, hr2.2.2⟩
      · rw [run_stop h1, run_ok h2]
        have r := rr_curline (rr_bufpos hr2 b2 b2) c2 c2
        exact ⟨hr2.2.1, (hbody _ _ r.right).inv.2⟩
      · rw [run_ok h1, run_stop h2]
        have r := rr_curline (rr_bufpos hr2 b1 b1) c1 c1
        have := (hbody _ _ r.left).inv.1
        revert this
        generalize asmBody (asmline n) n st (startsFlush line) (strip line) _ = x
        intro hx
        cases x <;> exact ⟨hx, hr2.2.2⟩
      · rw [run_ok h1, run_ok h2]
        exact hbody _ _ (rr_curline (rr_bufpos hr2 b1 b2) c1 c2)
  revert key
  generalize asmline n st { s with curline := line } = x
  generalize asmline n st { s with curline := line ++ (bl ++ ';' :: text) } = y
  intro key
  cases x <;> cases y <;> simp only [Agree, SameOutcome] at key ⊢
  · exact ⟨key.1, key.2.same⟩
  · exact key.same

/-! The line `a=1+';'` (a semicolon inside quotes), with and without a comment: both define A as 60. -/

def valueOfA : Res Unit → Option Nat
  | .ok _ s => (s.tree.find c!"A").map (·.value.toNat)
  | _ => none

example : Inv (initSt { fs := fun _ => none } []) := inv_initSt _ _
example : Spec.Bal (fun _ => true) c!"a=1+';'" :=
  .plain _ _ _ (by decide) (by decide) (by decide) (by decide) rfl <|
  .plain _ _ _ (by decide) (by decide) (by decide) (by decide) rfl <|
  .plain _ _ _ (by decide) (by decide) (by decide) (by decide) rfl <|
  .plain _ _ _ (by decide) (by decide) (by decide) (by decide) rfl <|
  .quoted _ '\'' c!";" [] (.inl rfl) (.plain _ _ (by decide) (by decide) .nil) (.nil _)
example : (valueOfA (assemble 9 {} (initSt { fs := fun _ => none } c!"a=1+';'\n")),
    valueOfA (assemble 9 {} (initSt { fs := fun _ => none } c!"a=1+';'  ; a=2\n"))) = (some 60, some 60) := by
  decide +kernel

end Crasm

import Verif.Props.C05
import Verif.Proof.LineP

/-! # C41: a line is taken apart as it is written -/

namespace Crasm.C41

/-- The words of the vocabulary when the line is read: mnemonics, directives and macros. -/
def Known (s : St) (w : Str) : Prop := (entryOf s w).isSome

/-- **C41.**  Write a statement in one of the ways of `Spec.Stmt` -- one word; mnemonic and operands; label and
    mnemonic; all three; label, equal sign and value --, with any blanks before and after it and any comment behind
    it.  Then the assembler finds exactly that label, that mnemonic and that operand field, and the vocabulary entry
    of that mnemonic.  Nothing but the pattern buffer, the blanks at the end of the line and the location counter's
    bookkeeping of a new line is touched. -/
theorem C41_fields {s : St} {t mnemo : Str} {label oper : Option Str} (h : Spec.Stmt (Known s) t label mnemo oper)
    (hl : Spec.Around t s.curline) (hlen : s.curline.length ≤ 600) :
    ∃ s', statement s = .ok (some ⟨label, mnemo, oper, entryOf s mnemo⟩) s' ∧ Split s s' := by
  obtain ⟨hi, hne⟩ := Stmt.inner h
  obtain ⟨b, cl, h1, hb, hc⟩ := stripLine_around (s := startedSt s) hi hl
    (by show 0 + (2 + s.curline.length) < 4000; omega)
  change b ≤ 0 + (2 + s.curline.length) at hb
  have hle : t.length ≤ s.curline.length := by
    generalize s.curline = line at hl
    cases hl <;> simp only [List.length_append] <;> omega
  obtain ⟨s2, h2, b2, nts, rfl, hb2⟩ := splitLine_reads (s := { startedSt s with bufpos := b, curline := cl }) h
    (by show b + (12 + 5 * t.length) < 4000; omega)
  refine ⟨_, ?_, ⟨b2, cl, nts, rfl, ?_, hc⟩⟩
  · unfold statement
    rw [run_ok (startLine_eq s), run_ok h1, if_neg hne, run_ok h2]
    rfl
  · change b2 ≤ b + _ at hb2
    omega

/-- A line with nothing but blanks and a comment holds no statement. -/
theorem C41_blank {s : St} (hl : Spec.Around [] s.curline) (hlen : s.curline.length ≤ 600) :
    ∃ s', statement s = .ok none s' ∧ Split s s' := by
  obtain ⟨b, cl, h1, hb, hc⟩ := stripLine_around (s := startedSt s) InLine.nil hl
    (by show 0 + (2 + s.curline.length) < 4000; omega)
  change b ≤ 0 + (2 + s.curline.length) at hb
  refine ⟨_, ?_, ⟨b, cl, s.notes, rfl, by omega, hc⟩⟩
  unfold statement
  rw [run_ok (startLine_eq s), run_ok h1, if_pos rfl]
  rfl

/-- And the line is executed with those fields. -/
theorem C41_line {n : Nat} {st : Status} {s : St} {t mnemo : Str} {label oper : Option Str}
    (h : Spec.Stmt (Known s) t label mnemo oper) (hl : Spec.Around t s.curline) (hlen : s.curline.length ≤ 600) :
    ∃ s', Split s s' ∧ asmline (n + 1) st s =
      doFields (asmline n) n st (startsFlush s.curline) ⟨label, mnemo, oper, entryOf s mnemo⟩ s' := by
  obtain ⟨s', h1, h2⟩ := C41_fields h hl hlen
  refine ⟨s', h2, ?_⟩
  show asmlineF (asmline n) n st s = _
  unfold asmlineF
  unfold statement at h1
  rw [run_ok (startLine_eq s)] at h1 ⊢
  rw [getS_bind_run]
  obtain ⟨x, s1, e1, h1⟩ := bind_ok h1
  rw [run_ok e1]
  by_cases hx : x = []
  · rw [if_pos hx] at h1
    cases h1
  · rw [if_neg hx] at h1 ⊢
    obtain ⟨f, s2, e2, h1⟩ := bind_ok h1
    cases h1
    rw [run_ok e2]
    rfl

/-- A mnemonic that is not in the vocabulary is an error, unless it is a single word in the first column. -/
theorem C41_unknown {n : Nat} {st : Status} {s : St} {t mnemo : Str} {label oper : Option Str}
    (h : Spec.Stmt (Known s) t label mnemo oper) (hl : Spec.Around t s.curline) (hlen : s.curline.length ≤ 600)
    (hk : ¬ Known s mnemo) (hc : (∃ c r, s.curline = c :: r ∧ Spec.IsBlank c) ∨ label ≠ none ∨ oper ≠ none) :
    ∀ rc s', asmline (n + 1) st s ≠ .ok rc s' := by
  intro rc s' hok
  obtain ⟨s1, -, h1⟩ := C41_line (n := n) (st := st) h hl hlen
  rw [h1] at hok
  have he : entryOf s mnemo = none := by
    unfold Known at hk
    cases he : entryOf s mnemo with
    | none => rfl
    | some e => rw [he] at hk; exact absurd rfl hk
  unfold doFields at hok
  rw [he] at hok
  dsimp only at hok
  rw [if_neg] at hok
  · exact error_not_ok hok
  · simp only [Bool.and_eq_true, Option.isNone_iff_eq_none]
    rintro ⟨⟨h1, h2⟩, h3⟩
    rcases hc with ⟨c, r, e, hb⟩ | hc | hc
    · rw [e] at h1
      have := isblank_iff.2 hb
      simp [startsFlush, this] at h1
    · exact hc h2
    · exact hc h3

/-- A single word in the first column that is not in the vocabulary is a label: the line does what defining it at
    the location counter does, and is listed. -/
theorem C41_lone {n : Nat} {s : St} {w : Str} (h : Spec.Word w) (hl : Spec.Around w s.curline)
    (hlen : s.curline.length ≤ 600) (hk : ¬ Known s w) (hc : ∃ c r, s.curline = c :: r ∧ ¬ Spec.IsBlank c) :
    ∃ s', Split s s' ∧ asmline (n + 1) ⟨true, true⟩ s = (do herelabel w; outputline; pure RC.cont : M RC) s' := by
  obtain ⟨s1, hs, h1⟩ := C41_line (n := n) (st := ⟨true, true⟩) (.one h) hl hlen
  refine ⟨s1, hs, ?_⟩
  rw [h1]
  have he : entryOf s w = none := by
    unfold Known at hk
    cases he : entryOf s w with
    | none => rfl
    | some e => rw [he] at hk; exact absurd rfl hk
  have hf : startsFlush s.curline = true := by
    obtain ⟨c, r, e, hb⟩ := hc
    rw [e]
    have : isblank c = false := by
      cases hx : isblank c with
      | false => rfl
      | true => exact absurd (isblank_iff.1 hx) hb
    simp [startsFlush, this]
  unfold doFields
  rw [he, hf]
  rfl

/-- The bound on the length is no restriction: asmline() is called after linegets() only, and a line read by it, be
    it from a file or from a macro body with its arguments, has at most 249 characters. -/
theorem C41_length {s s' : St} {u : Unit} (h : linegets s = .ok u s') : s'.curline.length ≤ 600 :=
  Nat.le_trans (linegets_length h) (by decide)

/-- Two lines with the same fields, whatever blanks and comments they are written with, are taken apart alike. -/
theorem C41_same {s s' : St} {t t' mnemo : Str} {label oper : Option Str}
    (h : Spec.Stmt (Known s) t label mnemo oper) (hl : Spec.Around t s.curline) (hlen : s.curline.length ≤ 600)
    (h' : Spec.Stmt (Known s) t' label mnemo oper) (hl' : Spec.Around t' s'.curline) (hlen' : s'.curline.length ≤ 600)
    (hs : s' = { s with curline := s'.curline }) :
    ∃ f s1 s1', statement s = .ok (some f) s1 ∧ statement s' = .ok (some f) s1' := by
  have hk : entryOf s' = entryOf s := by rw [hs]; rfl
  have hk' : Known s' = Known s := by unfold Known; rw [hk]
  obtain ⟨s1, e, -⟩ := C41_fields h hl hlen
  obtain ⟨s1', e', -⟩ := C41_fields (s := s') (by rw [hk']; exact h') hl' hlen'
  rw [hk] at e'
  exact ⟨_, s1, s1', e, e'⟩

/-! ### Non-vacuity -/

/-- The fields found on the last line of a program. -/
def fields (src : Str) (k : Nat) : Option (Option Str × Str × Option Str × Bool) :=
  match statement (afterLines src k) with
  | .ok (some f) _ => some (f.label, f.mnemo, f.oper, f.entry.isSome)
  | _ => none

/-- A line with everything: a semicolon in a string, an equal sign in the operands, tabs and a comment. -/
def full : Str := c!"foo\tasc  \"a;b\" , 'c=' \t ; comment \""
theorem full_reads : Spec.Around (c!"foo" ++ (c!"\t" ++ (c!"asc" ++ (c!"  " ++ c!"\"a;b\" , 'c='")))) full :=
  .comment (b := []) (b' := c!" \t ") (text := c!" comment \"") (by intro c h; cases h) (by decide)
theorem field_full : Spec.Field c!"\"a;b\" , 'c='" := by
  refine ⟨?_, by decide, ?_, ?_⟩
  · refine .quoted _ '"' c!"a;b" c!" , 'c='" (by decide) ?_ ?_
    · exact .plain _ _ (by decide) (by decide) (.plain _ _ (by decide) (by decide) (.plain _ _ (by decide) (by decide) .nil))
    · refine .plain _ _ _ (by decide) (by decide) (by decide) (by decide) (by decide) ?_
      refine .plain _ _ _ (by decide) (by decide) (by decide) (by decide) (by decide) ?_
      refine .plain _ _ _ (by decide) (by decide) (by decide) (by decide) (by decide) ?_
      refine .quoted _ '\'' c!"c=" [] (by decide) ?_ (.nil _)
      exact .plain _ _ (by decide) (by decide) (.plain _ _ (by decide) (by decide) .nil)
  · rintro c r ⟨⟩; decide
  · intro c r e
    have := congrArg List.getLast? e
    rw [List.getLast?_concat] at this
    cases this
    decide
theorem word_of {w : Str} (h : w ≠ [] ∧ ∀ c ∈ w, c ∉ [' ', '\t', '\'', '"', '(', ')', ';', '=']) : Spec.Word w := ⟨h.1, h.2⟩
/-- The hypotheses of `C41_fields` hold of that line in a running program. -/
example : ∃ s', statement (afterLines (c!" cpu 6502\n" ++ full) 1) =
    .ok (some ⟨some c!"foo", c!"asc", some c!"\"a;b\" , 'c='", entryOf (afterLines (c!" cpu 6502\n" ++ full) 1) c!"asc"⟩) s' ∧
      Split (afterLines (c!" cpu 6502\n" ++ full) 1) s' := by
  have hcl : (afterLines (c!" cpu 6502\n" ++ full) 1).curline = full := by decide +kernel
  refine C41_fields (.both (l := c!"foo") (b := c!"\t") (m := c!"asc") (b' := c!"  ") (word_of (by decide)) (.inr (by
    refine ⟨by decide, by decide, by decide⟩)) ⟨by decide, by decide⟩
    (word_of (by decide)) ⟨by decide, by decide⟩ field_full ?_) ?_ ?_
  · show ¬ (entryOf _ _).isSome = true
    decide +kernel
  · rw [hcl]; exact full_reads
  · rw [hcl]; decide
example : fields (c!" cpu 6502\n" ++ full) 1 = some (some c!"foo", c!"asc", some c!"\"a;b\" , 'c='", true) := by
  decide +kernel
example : fields c!" lda = 5" 0 = some (some c!"lda", c!"equ", some c!"5", true) := by decide +kernel
example : fields c!" cpu 6502\n  lda  #5;x" 1 = some (none, c!"lda", some c!"#5", true) := by decide +kernel
example : fields c!" if a = b" 0 = some (none, c!"if", some c!"a = b", true) := by decide +kernel

end Crasm.C41

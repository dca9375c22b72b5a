import Verif.Spec.Macro
import Verif.Props.C13
import Verif.Proof.CodeInv
import Verif.Proof.Run
import Verif.Props.C27

/-!
  **C28** Macro parameters are substituted textually.
-/

namespace Crasm

theorem append_room : ∀ (a out : Str), out.length + a.length ≤ 241 → appendArg out a = a.reverse ++ out := by
  intro a
  induction a with
  | nil => intro out _; rfl
  | cons c a ih =>
    intro out h
    simp only [List.length_cons] at h
    rw [appendArg, if_neg (by simp only [lineMax]; omega), ih _ (by simp only [List.length_cons]; omega)]
    simp

theorem digit_char (n : Nat) (h : n ≤ 9) : Nat.digitChar n = Char.ofNat (n + 48) := by
  have : ∀ n < 10, Nat.digitChar n = Char.ofNat (n + 48) := by decide
  exact this n (by omega)

/-- A parameter that is a digit. -/
theorem param_digit {c : Char} (h : '1' ≤ c ∧ c ≤ '9') : c ∈ ['1', '2', '3', '4', '5', '6', '7', '8', '9'] := by
  have h1 : 49 ≤ c.toNat := by simpa [Char.le_def, UInt32.le_iff_toNat_le] using h.1
  have h2 : c.toNat ≤ 57 := by simpa [Char.le_def, UInt32.le_iff_toNat_le] using h.2
  have key : ∀ k < 58, 49 ≤ k → Char.ofNat k ∈ ['1', '2', '3', '4', '5', '6', '7', '8', '9'] := by decide
  have := key c.toNat (by omega) h1
  rwa [Char.ofNat_toNat] at this

theorem expand_plain {args : List Str} {whole : Str} {c : Char} (h : c ≠ '\\') (s : Str) :
    Spec.expand args whole (c :: s) = c :: Spec.expand args whole s := by
  rw [Spec.expand]
  · rintro rfl; exact absurd rfl h
  · rintro x y rfl; exact absurd rfl h

theorem expand_room {args : List Str} {whole : Str} (hn : args.length ≤ 9) : ∀ (n : Nat) (s out : Str), s.length ≤ n →
    out.length + (Spec.expand args whole s).length ≤ 240 →
    expandLine args whole false out s = ((Spec.expand args whole s).reverse ++ out, false) := by
  intro n
  induction n with
  | zero =>
    intro s out hs _
    have : s = [] := List.length_eq_zero_iff.1 (by omega)
    subst this
    rw [Spec.expand, expandLine]; rfl
  | succ n ih =>
    intro s out hs hl
    cases s with
    | nil => rw [Spec.expand, expandLine]; rfl
    | cons c s =>
      simp only [List.length_cons] at hs
      rw [expandLine, if_neg (by simp only [lineMax]; omega)]
      by_cases hc : c = '\\'
      · subst hc
        rw [if_neg (by simp)]
        cases s with
        | nil => rw [Spec.expand, expandLine]; rfl
        | cons d s =>
          simp only [List.length_cons] at hs
          -- a parameter replaced by `t`
          have sub : ∀ (t : Str), Spec.expand args whole ('\\' :: d :: s) = t ++ Spec.expand args whole s →
              expandLine args whole false (appendArg out t) s = ((Spec.expand args whole ('\\' :: d :: s)).reverse ++ out, false) := by
            intro t e
            rw [e] at hl ⊢
            simp only [List.length_append] at hl
            rw [append_room _ _ (by omega), ih s _ (by omega) (by simp only [List.length_append, List.length_reverse]; omega)]
            simp
          rw [expandLine]
          by_cases h1 : d = '#'
          · subst h1
            rw [if_pos rfl]
            have e : Spec.expand args whole ('\\' :: '#' :: s) = [Char.ofNat (args.length + 48)] ++ Spec.expand args whole s := by
              rw [Spec.expand, digit_char _ hn]; rfl
            have := sub _ e
            rw [append_room _ _ (by rw [e] at hl; simp only [List.length_append, List.length_cons, List.length_nil] at hl ⊢; omega)] at this
            exact this
          rw [if_neg h1]
          by_cases h2 : d = '*'
          · subst h2
            rw [if_pos rfl]
            exact sub whole (by rw [Spec.expand])
          rw [if_neg h2]
          by_cases h3 : '1' ≤ d ∧ d ≤ '9'
          · rw [if_pos h3]
            refine sub _ ?_
            have := param_digit h3
            simp only [List.mem_cons, List.not_mem_nil, or_false] at this
            rcases this with rfl | rfl | rfl | rfl | rfl | rfl | rfl | rfl | rfl <;> (rw [Spec.expand]; rfl)
          rw [if_neg h3]
          have e : Spec.expand args whole ('\\' :: d :: s) = '\\' :: Spec.expand args whole (d :: s) := by
            rw [Spec.expand]
            all_goals first | exact h1 | exact h2 | (rintro rfl; exact h3 (by decide))
          rw [e] at hl ⊢
          simp only [List.length_cons] at hl
          have := ih (d :: s) ('\\' :: out) (by simp only [List.length_cons]; omega) (by simp only [List.length_cons]; omega)
          rw [expandLine] at this
          simp only [List.reverse_cons, List.append_assoc, List.singleton_append]
          exact this
      · rw [if_pos hc]
        rw [expand_plain hc] at hl ⊢
        simp only [List.length_cons] at hl
        rw [ih s _ (by omega) (by simp only [List.length_cons]; omega)]
        simp

/-- **C28** (text). A macro line is turned into exactly the text meant, when that is at most 240 characters long. -/
theorem C28_text {args : List Str} {whole line : Str} (hn : args.length ≤ 9) (hl : (Spec.expand args whole line).length ≤ 240) :
    expandLine args whole false [] line = ((Spec.expand args whole line).reverse, false) := by
  have := expand_room hn line.length line [] (Nat.le_refl _) (by simpa using hl)
  simpa using this

/-- **C28** (line). Reading a line inside the expansion of a macro gives exactly the text meant. -/
theorem C28_line {s : St} {src : Src} {rest : List Src} {args : List Str} {whole line : Str} {lines : List Str}
    (hs : s.stack = src :: rest) (hk : src.kind = .macro args whole (line :: lines)) (hn : args.length ≤ 9)
    (hl : (Spec.expand args whole line).length ≤ 240) :
    linegets s = .ok () { s with curline := Spec.expand args whole line,
                                 log := .line s.passnumber (rest.length + 1) (Spec.expand args whole line) :: s.log,
                                 stack := { src with kind := .macro args whole lines } :: rest } := by
  obtain ⟨o1, o2, o3, kind⟩ := src
  simp only at hk
  subst hk
  unfold linegets
  have e : popEnds s.stack s = s := by rw [hs]; rfl
  change (modS (fun s => popEnds s.stack s) >>= fun _ => (getS >>= fun s => _)) s = _
  rw [modS_bind_run, e, getS_bind_run, hs]
  change (modS _ >>= fun _ => _) s = _
  rw [modS_bind_run, C28_text hn hl]
  simp only [List.reverse_reverse]
  rfl

/-- **C28** (call). A call of a macro with the operands `ops`, written `t`, runs the lines of the macro with exactly
    these as arguments and `t` as the whole operand, when none of these texts is longer than 59 characters (`C28_cut`). -/
theorem C28_call_partial {self : Status → M RC} {fuel : Nat} {key : Str} {lab : Label} {st : Status} {ops : List Str} {t : Str}
    {ls : List Str} {s s' : St} (hops : ∀ o ∈ ops, Spec.Operand o) (hj : Spec.Joined ops t) (hn : ops.length ≤ 9)
    (hl : ∀ o ∈ ops, o.length ≤ 59) (ht : t.length ≤ 59) (hp : lab.ptr = .lines ls)
    (h : macrocall self fuel key lab st (some t) s = .ok () s') :
    ∃ s1 src st' r s2, s1.stack = src :: s.stack ∧ src.kind = .macro ops t ls ∧
      s1.log = .opened s.passnumber (s.stack.length + 1) (.macro ops t ls) :: s.log ∧
      macroRun self st' fuel s1 = .ok r s2 := by
  unfold macrocall at h
  obtain ⟨_, sa, ha, h1⟩ := bind_ok h
  clear h
  have ea : sa.stack = s.stack ∧ sa.log = s.log ∧ sa.passnumber = s.passnumber := by
    revert ha
    unfold markUsed modS
    dsimp only
    split
    · intro e; cases e; exact ⟨rfl, rfl, rfl⟩
    · intro e; cases e; exact ⟨rfl, rfl, rfl⟩
  obtain ⟨_, sb, hb, h⟩ := bind_ok h1
  clear h1
  obtain ⟨rfl, -⟩ := checkDepth_ok hb
  rw [getS_bind_run] at h
  obtain ⟨args, sc, hc, h⟩ := bind_ok h
  change macroArgs (t.length + 1) [] t sb = _ at hc
  rcases C13_macro_partial hops hj hn hl sb with ⟨b, e⟩ | ⟨_, e⟩ <;> rw [e] at hc <;> cases hc
  rw [hp] at h
  obtain ⟨_, sd, hd, h⟩ := bind_ok h
  have ed : sd.stack = sb.stack ∧ sd.log = sb.log ∧ sd.passnumber = sb.passnumber := by
    have q := (by quiet : Quiet (whenM ((sb.flags.macrolistOn && st.lst) = true) outputline)).run { sb with bufpos := b }
    rw [hd] at q
    obtain ⟨_, _, _, rfl⟩ := q
    exact ⟨rfl, rfl, rfl⟩
  rw [modS_bind_run] at h
  obtain ⟨r, se, he, -⟩ := bind_ok h
  refine ⟨_, ⟨sb.flags.listOn, sb.lineprefix, sb.linenumber, .macro ops t ls⟩, _, _, _, ?_, rfl, ?_, he⟩
  · simp only [ed.1, ea.1, orEmpty, Option.getD_some, List.take_of_length_le ht]
  · simp only [orEmpty, Option.getD_some, List.take_of_length_le ht, ed.1, ed.2.1, ed.2.2, ea.1, ea.2.1, ea.2.2]

/-! ## Non-vacuity -/

example : Spec.expand [c!"x+1", c!"(a,b)"] c!"x+1, (a,b)" c!" lda \\1\\\\3\\q;\\#:\\*" = c!" lda x+1\\\\q;2:x+1, (a,b)" := by
  simp [Spec.expand]

/-- A program with a macro of two parameters. -/
def macroDemo : Str := c!" cpu 6502\n *= 0\nm macro\n db \\2,\\#\n db \\1\n endm\n m 1 , 2+1\n"

example : secondPass macroDemo = some [1, 2, 3] := by decide +kernel

/-- An argument of more than 59 characters loses its end. -/
theorem C28_cut : secondPass (c!" cpu 6502\n *= 0\nm macro\n db \\1\n endm\n m " ++ List.replicate 59 '0' ++ c!"7\n") = some [0] := by
  decide +kernel

end Crasm

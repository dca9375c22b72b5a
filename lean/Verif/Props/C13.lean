import Verif.Proof.FilterL
import Verif.Proof.Frame
import Verif.Model.Main

/-! # C13: operand lists split exactly at top-level separators -/

namespace Crasm

/-- Take `w` bytes of the pattern buffer. -/
def spend (w : Nat) : M Unit := fun s =>
  if bufSize ≤ s.bufpos + w then .stop (.ub .filterBuffer) s else .ok () { s with bufpos := s.bufpos + w }

/-- Stop unless the pattern buffer has room for `w` bytes. -/
def room (w : Nat) : M Unit := fun s =>
  if bufSize ≤ s.bufpos + w then .stop (.ub .filterBuffer) s else .ok () s

/-- Do `act` for each operand in turn; the numbers are the bytes of pattern buffer used to find it. -/
def eachOperand (act : Str → M Unit) : List (Str × Nat) → M Unit
  | [] => pure ()
  | [(o, w)] => do room w; act o
  | (o, w) :: rest => do spend w; act o; eachOperand act rest

theorem operand_noTop {o : Str} (h : Spec.Operand o) : NoTop ',' Quote.zero o :=
  Bal.noTop h.bal ',' fun x hx => by
    rw [litMatch_eq (c := ',') (by decide) (by decide) hx]
    decide

theorem joined_lead {ops : List Str} {t : Str} (hj : Spec.Joined ops t) (h : ∀ o ∈ ops, Spec.Operand o) :
    t ≠ [] ∧ Lead t := by
  cases hj with
  | one o => exact ⟨(h t (by simp)).ne, Lead.of (h t (by simp)).first⟩
  | more o b b' t os hb hb' hj =>
    have ho := h o (by simp)
    refine ⟨by simp [ho.ne], ?_⟩
    intro c r e
    cases o with
    | nil => exact absurd rfl ho.ne
    | cons d o =>
      simp only [List.cons_append, List.cons.injEq] at e
      rw [← e.1]
      exact Lead.of ho.first d o rfl

/-- The list operator finds the first operand and the rest of the list. -/
theorem joined_filter {o b b' t : Str} (ho : Spec.Operand o) (hb : ∀ c ∈ b, Spec.IsBlank c)
    (hb' : ∀ c ∈ b', Spec.IsBlank c) (ht : Lead t) :
    ∃ k, filter (o ++ (b ++ ',' :: (b' ++ t))) c!"?_,_?" = ⟨true, [o, t], 2 + o.length + t.length, k⟩ := by
  have hz : Quote.zero.run o = Quote.zero := Bal.run ho.bal 0
  obtain ⟨w, k, h, hw⟩ := filter_sep (c := ',') (x := ',') (r := b' ++ t) (by decide) (by decide) (by decide)
    (operand_noTop ho) hz (Trail.of ho.last) (Blank.of hb) (by decide)
  rw [skipBlanks_append (Blank.of hb'), ht.skip] at h hw
  exact ⟨k, by rw [h, hw]⟩

/-- **C13**, data directives.  `DB`/`DW`/`DDB`/`DL` with a list of operands handles exactly these operands,
    in order (`stocke` being what is done with one operand). The only other effect is on the fill of the
    pattern buffer, which uses at most the length of the list plus 2 for each operand. -/
theorem C13_data (modifier : Int) {ops : List Str} {t : Str} (hops : ∀ o ∈ ops, Spec.Operand o)
    (hj : Spec.Joined ops t) :
    ∃ ws : List Nat, ws.length = ops.length ∧ (∀ w ∈ ws, w ≤ t.length + 2) ∧
      xDc modifier (some t) = eachOperand (fun o => stocke (some o) modifier) (ops.zip ws) := by
  unfold xDc
  have key : ∀ n, t.length < n → ∃ ws : List Nat, ws.length = ops.length ∧ (∀ w ∈ ws, w ≤ t.length + 2) ∧
      dcLoop modifier n (some t) = eachOperand (fun o => stocke (some o) modifier) (ops.zip ws) := by
    induction hj with
    | one o =>
      intro n hn
      cases n with
      | zero => omega
      | succ n =>
      obtain ⟨hf, hw⟩ := filter_sep_none (c := ',') (by decide) (by decide) (operand_noTop (hops o (by simp)))
      refine ⟨[(filter o c!"?_,_?").wrote], rfl, by intro w h; simp at h; omega, ?_⟩
      funext s
      rw [dcLoop]
      have hm := filter2_miss (pat := c!"?_,_?") hf s
      by_cases hb : bufSize ≤ s.bufpos + (filter o c!"?_,_?").wrote
      · rw [if_pos hb] at hm
        refine (run_stop hm).trans ?_
        exact (run_stop (m := room _) (f := fun _ => stocke (some o) modifier) (if_pos hb)).symm
      · rw [if_neg hb] at hm
        refine (run_ok hm).trans ?_
        exact (run_ok (m := room _) (f := fun _ => stocke (some o) modifier) (if_neg hb)).symm
    | more o b b' t os hb hb' hj ih =>
      intro n hn
      have ho := hops o (by simp)
      obtain ⟨ht1, ht2⟩ := joined_lead hj (fun o h => hops o (by simp [h]))
      cases n with
      | zero => omega
      | succ n =>
      have hlen : t.length < n := by
        simp only [List.length_append, List.length_cons] at hn
        omega
      obtain ⟨ws, h1, h2, h3⟩ := ih (fun o h => hops o (by simp [h])) n hlen
      obtain ⟨k, hf⟩ := joined_filter ho hb hb' ht2
      refine ⟨(2 + o.length + t.length) :: ws, by simp [h1], ?_, ?_⟩
      · intro w hw
        simp only [List.length_append, List.length_cons]
        rcases List.mem_cons.1 hw with rfl | hw
        · omega
        · have := h2 w hw
          omega
      · cases os with
        | nil => cases hj
        | cons o' os =>
        cases ws with
        | nil => simp at h1
        | cons w' ws =>
        funext s
        rw [dcLoop]
        have hm := filter2_hit hf s
        have he : eachOperand (fun o => stocke (some o) modifier)
            ((o :: o' :: os).zip ((2 + o.length + t.length) :: w' :: ws)) =
            (do spend (2 + o.length + t.length); stocke (some o) modifier; dcLoop modifier n (some t)) := by
          rw [h3]; rfl
        rw [he]
        by_cases hb : bufSize ≤ s.bufpos + (2 + o.length + t.length)
        · rw [if_pos hb] at hm
          refine (run_stop hm).trans ?_
          exact (run_stop (m := spend _) (if_pos hb)).symm
        · rw [if_neg hb] at hm
          refine (run_ok hm).trans ?_
          exact (run_ok (m := spend _) (f := fun _ => do stocke (some o) modifier; dcLoop modifier n (some t))
            (if_neg hb)).symm
  exact key _ (Nat.lt_succ_self _)

/-- **C13**, macro calls, for at most 9 operands of at most 59 characters: the arguments are exactly the
    operands, or the pattern buffer is exhausted.  Longer operands are cut, see `C13_macro_cut`. -/
theorem C13_macro_partial {ops : List Str} {t : Str} (hops : ∀ o ∈ ops, Spec.Operand o)
    (hj : Spec.Joined ops t) (hn : ops.length ≤ 9) (hl : ∀ o ∈ ops, o.length ≤ 59) (s : St) :
    (∃ b, macroArgs (t.length + 1) [] t s = .ok ops { s with bufpos := b }) ∨
    (∃ s', macroArgs (t.length + 1) [] t s = .stop (.ub .filterBuffer) s') := by
  have key : ∀ n acc s, t.length < n → acc.length + ops.length ≤ 9 →
      (∃ b, macroArgs n acc t s = .ok (acc.reverse ++ ops) { s with bufpos := b }) ∨
      (∃ s', macroArgs n acc t s = .stop (.ub .filterBuffer) s') := by
    clear hn
    induction hj with
    | one o =>
      intro n acc s hn ha
      cases n with
      | zero => omega
      | succ n =>
      have ho := hops o (by simp)
      obtain ⟨hf, hw⟩ := filter_sep_none (c := ',') (by decide) (by decide) (operand_noTop ho)
      rw [macroArgs, if_neg ho.ne, if_neg (by simp at ha; omega)]
      have hm := filter2_miss (pat := c!"?_,_?") hf s
      by_cases hb : bufSize ≤ s.bufpos + (filter o c!"?_,_?").wrote
      · rw [if_pos hb] at hm
        exact .inr ⟨_, run_stop hm⟩
      · rw [if_neg hb] at hm
        refine .inl ⟨s.bufpos, (run_ok hm).trans ?_⟩
        change Res.ok _ s = _
        rw [List.take_of_length_le (hl o (by simp)), List.reverse_cons]
    | more o b b' t os hb hb' hj ih =>
      intro n acc s hn ha
      have ho := hops o (by simp)
      obtain ⟨ht1, ht2⟩ := joined_lead hj (fun o h => hops o (by simp [h]))
      cases n with
      | zero => omega
      | succ n =>
      have hlen : t.length < n := by
        simp only [List.length_append, List.length_cons] at hn
        omega
      obtain ⟨k, hf⟩ := joined_filter ho hb hb' ht2
      rw [macroArgs, if_neg (by simp [ho.ne]), if_neg (by simp at ha; omega)]
      have hm := filter2_hit hf s
      by_cases hb : bufSize ≤ s.bufpos + (2 + o.length + t.length)
      · rw [if_pos hb] at hm
        exact .inr ⟨_, run_stop hm⟩
      · rw [if_neg hb] at hm
        rcases ih (fun o h => hops o (by simp [h])) (fun o h => hl o (by simp [h])) n (o.take 59 :: acc)
          { s with bufpos := s.bufpos + (2 + o.length + t.length) } hlen
          (by simp only [List.length_cons] at ha ⊢; omega) with ⟨b, h⟩ | ⟨s', h⟩
        · refine .inl ⟨b, (run_ok hm).trans (h.trans ?_)⟩
          rw [List.take_of_length_le (hl o (by simp)), List.reverse_cons, List.append_assoc]
          rfl
        · exact .inr ⟨s', (run_ok hm).trans h⟩
  rcases key (t.length + 1) [] s (Nat.lt_succ_self _) (by simpa using hn) with ⟨b, h⟩ | h
  · exact .inl ⟨b, by simpa using h⟩
  · exact .inr h

/-- More than 9 operands are never accepted. -/
theorem C13_macro_many {ops : List Str} {t : Str} (hops : ∀ o ∈ ops, Spec.Operand o)
    (hj : Spec.Joined ops t) (hn : 9 < ops.length) (s s' : St) (args : List Str) :
    macroArgs (t.length + 1) [] t s ≠ .ok args s' := by
  have key : ∀ n acc s, acc.length ≤ 9 → 9 < acc.length + ops.length →
      macroArgs n acc t s ≠ .ok args s' := by
    clear hn
    induction hj with
    | one o =>
      intro n acc s ha hb
      have ho := hops o (by simp)
      cases n with
      | zero => intro h; cases h
      | succ n =>
      rw [macroArgs, if_neg ho.ne, if_pos (by simp at hb; omega)]
      exact error_not_ok
    | more o b b' t os hb hb' hj ih =>
      intro n acc s ha hbb
      have ho := hops o (by simp)
      obtain ⟨ht1, ht2⟩ := joined_lead hj (fun o h => hops o (by simp [h]))
      obtain ⟨k, hf⟩ := joined_filter ho hb hb' ht2
      cases n with
      | zero => intro h; cases h
      | succ n =>
      rw [macroArgs, if_neg (by simp [ho.ne])]
      split
      · exact error_not_ok
      · have hm := filter2_hit hf s
        by_cases hb : bufSize ≤ s.bufpos + (2 + o.length + t.length)
        · rw [if_pos hb] at hm
          rw [run_stop hm]
          intro h; cases h
        · rw [if_neg hb] at hm
          rw [run_ok hm]
          exact ih (fun o h => hops o (by simp [h])) n (o.take 59 :: acc) _
            (by simp only [List.length_cons]; omega) (by simp only [List.length_cons] at hbb ⊢; omega)
  exact key (t.length + 1) [] s (by simp) (by simpa using hn)

/-- The claim does not hold for longer operands of a macro call: they are silently cut at 59 characters. -/
theorem C13_macro_cut : ∃ o : Str, Spec.Operand o ∧ Spec.Joined [o] o ∧ ∃ s a s',
    macroArgs (o.length + 1) [] o s = .ok [a] s' ∧ a ≠ o := by
  have hb : ∀ n, Spec.Bal (fun c => c != ',') (List.replicate n 'x') := by
    intro n
    induction n with
    | zero => exact .nil _
    | succ n ih => exact .plain _ _ _ (by decide) (by decide) (by decide) (by decide) (by decide) ih
  have hm : ∀ c ∈ List.replicate 60 'x', ¬ Spec.IsBlank c := by
    intro c h
    rw [List.eq_of_mem_replicate h]
    decide
  refine ⟨List.replicate 60 'x', ⟨hb _, by decide, ?_, ?_⟩, .one _, initSt { fs := fun _ => none } [],
    List.replicate 59 'x', _, rfl, by decide⟩
  · intro c r e; exact hm c (by rw [e]; simp)
  · intro c r e; exact hm c (by rw [e]; simp)

/-! A list of three operands with a comma inside quotes and parentheses. -/

example : Spec.Joined [c!"(1,2)", c!"','", c!"x+1"] c!"(1,2) , ',',x+1" :=
  .more c!"(1,2)" c!" " c!" " _ _ (by simp [Spec.IsBlank]) (by simp [Spec.IsBlank])
    (.more c!"','" [] [] _ _ (by simp) (by simp) (.one _))

example : Spec.Operand c!"(1,2)" := by
  refine ⟨.paren _ c!"1,2" [] ?_ (.nil _), by decide, ?_, ?_⟩
  · exact .plain _ _ _ (by decide) (by decide) (by decide) (by decide) rfl
      (.plain _ _ _ (by decide) (by decide) (by decide) (by decide) rfl
        (.plain _ _ _ (by decide) (by decide) (by decide) (by decide) rfl (.nil _)))
  · rintro c r ⟨⟩; decide
  · intro c r e
    have := congrArg List.getLast? e
    simp at this
    subst this
    decide

example : Spec.Operand c!"','" := by
  refine ⟨.quoted _ '\'' c!"," [] (.inl rfl) (.plain _ _ (by decide) (by decide) .nil) (.nil _), by decide, ?_, ?_⟩
  · rintro c r ⟨⟩; decide
  · intro c r e
    have := congrArg List.getLast? e
    simp at this
    subst this
    decide

end Crasm

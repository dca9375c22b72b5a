import Verif.Props.C06
import Verif.Spec.Quote

/-! # C08: ASC -/

namespace Crasm

theorem escape_mem {c : Char} {n : Nat} : (c, n) ∈ Spec.escapes ↔ escape c = some n := by
  unfold escape Spec.escapes
  simp only [List.mem_cons, Prod.mk.injEq, List.not_mem_nil, or_false]
  constructor
  · rintro (⟨rfl, rfl⟩ | ⟨rfl, rfl⟩ | ⟨rfl, rfl⟩ | ⟨rfl, rfl⟩ | ⟨rfl, rfl⟩ | ⟨rfl, rfl⟩ | ⟨rfl, rfl⟩) <;> decide
  · intro h
    split at h
    · simp_all
    split at h
    · simp_all
    split at h
    · simp_all
    split at h
    · simp_all
    split at h
    · rename_i hc
      rcases hc with rfl | rfl | rfl <;> simp_all <;> subst h <;> decide
    · cases h

/-- With an origin, `insert8` never raises an error. -/
theorem insert8_no_err {x : Byte} {s : St} (ho : s.flags.orgGv = true) :
    (∃ s', insert8 x s = .ok () s' ∧ Gen [x] s s') ∨ (∃ w s', insert8 x s = .stop w s') := by
  cases h : insert8 x s with
  | ok u s' => exact .inl ⟨s', rfl, insert8_gen h⟩
  | stop w s' => exact .inr ⟨w, s', rfl⟩
  | err s' =>
    exfalso
    by_cases hc : s.flags.nocode = false → s.code.file = none → s.env.canCreate = true
    · rcases insert8_run x s ho hc with ⟨w, s1, c, h1, -⟩ | ⟨s1, h1, hq⟩ <;> rw [h1] at h <;> cases h
    · obtain ⟨h1, h2, h3⟩ : s.flags.nocode = false ∧ s.code.file = none ∧ s.env.canCreate = false := by
        simpa using hc
      simp [insert8, openScode, ho, h1, h2, h3, bind_run] at h

theorem ascLoop_gen {d : Char} (hd : d ≠ '\\') {t : Str} {cs : List Nat} (h : Spec.Escaped d t cs) : ∀ s : St,
    s.flags.orgGv = true →
    (∃ s', ascLoop d false (t ++ [d]) s = .ok () s' ∧ Gen (cs.map (BitVec.ofNat 8)) s s') ∨
    (∃ w s', ascLoop d false (t ++ [d]) s = .stop w s') := by
  induction h with
  | nil =>
    intro s _
    refine .inl ⟨s, ?_, .refl _⟩
    simp [ascLoop]
  | @plain c t cs h1 h2 h ih =>
    intro s ho
    simp only [List.cons_append, ascLoop, if_neg h1, if_neg h2]
    rcases insert8_no_err (x := BitVec.ofNat 8 c.toNat) ho with ⟨s1, e, g⟩ | ⟨w, s1, e⟩
    · rw [run_ok e]
      obtain ⟨f, hf⟩ := g.flags
      rcases ih s1 (by rw [hf]; exact ho) with ⟨s2, e2, g2⟩ | ⟨w, s2, e2⟩
      · exact .inl ⟨s2, e2, g.trans g2⟩
      · exact .inr ⟨w, s2, e2⟩
    · rw [run_stop e]
      exact .inr ⟨w, s1, rfl⟩
  | @esc c n t cs h1 h ih =>
    intro s ho
    simp only [List.cons_append, ascLoop, if_neg (Ne.symm hd), if_true, escape_mem.1 h1]
    rcases insert8_no_err (x := BitVec.ofNat 8 n) ho with ⟨s1, e, g⟩ | ⟨w, s1, e⟩
    · rw [run_ok e]
      obtain ⟨f, hf⟩ := g.flags
      rcases ih s1 (by rw [hf]; exact ho) with ⟨s2, e2, g2⟩ | ⟨w, s2, e2⟩
      · exact .inl ⟨s2, e2, g.trans g2⟩
      · exact .inr ⟨w, s2, e2⟩
    · rw [run_stop e]
      exact .inr ⟨w, s1, rfl⟩

theorem asc_entry {e : Entry} (he : e ∈ pseudos) (hn : e.name = c!"ASC") :
    e.label.type = .mnemo ∧ e.label.ptr = .handler (.pseudo .asc) := by
  revert e; decide +kernel

/-- **C08.**  `ASC` on a string in quotes generates exactly the characters the string spells, one byte each;
    with an origin given it cannot fail (`stop`: the program cannot go on at all, e.g. because the code file
    cannot be created). -/
theorem C08_asc {e : Entry} (he : e ∈ pseudos) (hn : e.name = c!"ASC") {d : Char} (hd : d = '\'' ∨ d = '"')
    {t : Str} {cs : List Nat} (ht : Spec.Escaped d t cs) :
    e.label.type = .mnemo ∧ ∃ h, e.label.ptr = .handler h ∧ ∀ {self fuel label s}, s.flags.orgGv = true →
      (∃ s', callHandler self fuel h e.label.modifier label (some (d :: (t ++ [d]))) s = .ok .cont s' ∧
        Gen (cs.map (BitVec.ofNat 8)) s s') ∨
      (∃ w s', callHandler self fuel h e.label.modifier label (some (d :: (t ++ [d]))) s = .stop w s') := by
  refine ⟨(asc_entry he hn).1, _, (asc_entry he hn).2, ?_⟩
  intro self fuel label s ho
  have hb : d ≠ '\\' := by rcases hd with rfl | rfl <;> decide
  simp only [callHandler, xAsc, if_pos hd]
  rcases ascLoop_gen hb ht s ho with ⟨s1, e, g⟩ | ⟨w, s1, e⟩
  · exact .inl ⟨s1, (run_ok e).trans rfl, g⟩
  · exact .inr ⟨w, s1, run_stop e⟩

theorem ascLoop_bad {d : Char} (hd : d ≠ '\\') {c : Char} (hc : ∀ n, (c, n) ∉ Spec.escapes) {rest : Str}
    {t : Str} {cs : List Nat} (h : Spec.Escaped d t cs) : ∀ (s s' : St) (u : Unit),
    ascLoop d false (t ++ '\\' :: c :: rest) s ≠ .ok u s' := by
  induction h with
  | nil =>
    intro s s' u h
    have : escape c = none := by
      cases he : escape c with
      | none => rfl
      | some n => exact absurd (escape_mem.2 he) (hc n)
    simp only [List.nil_append, ascLoop, if_neg (Ne.symm hd), if_true, this] at h
    exact error_not_ok h
  | @plain c t cs h1 h2 h ih =>
    intro s s' u h
    simp only [List.cons_append, ascLoop, if_neg h1, if_neg h2] at h
    obtain ⟨_, s1, -, h⟩ := bind_ok h
    exact ih _ _ _ h
  | @esc c n t cs h1 h ih =>
    intro s s' u h
    simp only [List.cons_append, ascLoop, if_neg (Ne.symm hd), if_true, escape_mem.1 h1] at h
    obtain ⟨_, s1, -, h⟩ := bind_ok h
    exact ih _ _ _ h

/-- **C08**, rejection: a string whose first unknown thing is an unknown escape is never accepted. -/
theorem C08_reject {e : Entry} (he : e ∈ pseudos) (hn : e.name = c!"ASC") {d : Char} (hd : d = '\'' ∨ d = '"')
    {t : Str} {cs : List Nat} (ht : Spec.Escaped d t cs) {c : Char} (hc : ∀ n, (c, n) ∉ Spec.escapes)
    (rest : Str) :
    ∃ h, e.label.ptr = .handler h ∧ ∀ {self fuel label s rc s'},
      callHandler self fuel h e.label.modifier label (some (d :: (t ++ '\\' :: c :: rest))) s ≠ .ok rc s' := by
  refine ⟨_, (asc_entry he hn).2, ?_⟩
  intro self fuel label s rc s' h
  have hb : d ≠ '\\' := by rcases hd with rfl | rfl <;> decide
  simp only [callHandler, xAsc, if_pos hd] at h
  obtain ⟨_, s1, h1, -⟩ := bind_ok h
  exact ascLoop_bad hb hc ht _ _ _ h1

/-- **C08**, completeness: every string of characters that can stand in a source line (tab, printable, or not
    ASCII), NUL, line feed and carriage return has a spelling consisting of such characters only. -/
theorem C08_spelling {d : Char} (hd : d = '\'' ∨ d = '"') (cs : List Char)
    (h : ∀ c ∈ cs, keepChar c = true ∨ c.toNat ∈ [0, 10, 13]) :
    ∃ t : Str, (∀ c ∈ t, keepChar c = true) ∧ Spec.Escaped d t (cs.map Char.toNat) := by
  induction cs with
  | nil => exact ⟨[], by simp, .nil⟩
  | cons c cs ih =>
    obtain ⟨t, h1, h2⟩ := ih fun c hc => h c (by simp [hc])
    have esc : ∀ x : Char, (x, c.toNat) ∈ Spec.escapes → ∃ t : Str, (∀ c ∈ t, keepChar c = true) ∧
        Spec.Escaped d t ((c :: cs).map Char.toNat) := by
      intro x hx
      refine ⟨'\\' :: x :: t, ?_, .esc hx h2⟩
      have kx : keepChar x = true := by
        revert hx
        generalize c.toNat = n
        simp only [Spec.escapes, List.mem_cons, Prod.mk.injEq, List.not_mem_nil, or_false]
        rintro (⟨rfl, -⟩ | ⟨rfl, -⟩ | ⟨rfl, -⟩ | ⟨rfl, -⟩ | ⟨rfl, -⟩ | ⟨rfl, -⟩ | ⟨rfl, -⟩) <;> decide
      intro y hy
      rcases List.mem_cons.1 hy with rfl | hy
      · decide
      rcases List.mem_cons.1 hy with rfl | hy
      · exact kx
      · exact h1 y hy
    by_cases hn : c.toNat = 0
    · exact esc '0' (by rw [hn]; decide)
    by_cases hn : c.toNat = 10
    · exact esc 'n' (by rw [hn]; decide)
    by_cases hn : c.toNat = 13
    · exact esc 'r' (by rw [hn]; decide)
    by_cases hq : c = d
    · subst hq
      rcases hd with rfl | rfl
      · exact esc '\'' (by decide)
      · exact esc '"' (by decide)
    by_cases hb : c = '\\'
    · subst hb; exact esc '\\' (by decide)
    · refine ⟨c :: t, ?_, .plain hq hb h2⟩
      intro y hy
      rcases List.mem_cons.1 hy with rfl | hy
      · rcases h y (by simp) with h | h
        · exact h
        · simp at h; omega
      · exact h1 y hy

example : Spec.Escaped '\'' c!"a\\'\\t;" [97, 39, 9, 59] :=
  .plain (by decide) (by decide) (.esc (by decide) (.esc (by decide) (.plain (by decide) (by decide) .nil)))
example : emittedBytes c!" cpu 6502\n*=$100\n asc 'a\\'\\t;' ; x\n asc \"it's\"\n" =
    [(0x100, 97), (0x101, 39), (0x102, 9), (0x103, 59), (0x104, 105), (0x105, 116), (0x106, 39), (0x107, 115)] := by
  decide +kernel

end Crasm

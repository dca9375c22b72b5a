import Verif.Spec.Line
import Verif.Proof.Modes
import Verif.Proof.RelL
import Verif.Props.C15
import Verif.Props.C11

/-! Taking a line apart: the patterns of crasm.c:400-483 on written lines. -/

namespace Crasm

theorem litMatch_space {y : Char} : litMatch ' ' y = isblank y := by
  by_cases h : isblank y = true
  · rcases isblank_eq h with rfl | rfl <;> rfl
  · have h1 : y ≠ ' ' := by rintro rfl; exact h rfl
    have h2 : y ≠ '\t' := by rintro rfl; exact h rfl
    have h3 : toupper ' ' ≠ toupper y := by
      intro e
      have e1 : toupper ' ' = ' ' := by decide
      rw [e1] at e
      by_cases hc : 97 ≤ y.toNat ∧ y.toNat ≤ 122
      · have := toupper_toNat hc
        rw [← e] at this
        have : (32 : Nat) = y.toNat - 32 := this
        omega
      · apply h1
        rw [e]
        unfold toupper
        rw [if_neg hc]
    simp only [litMatch, h3, decide_false, h2, Bool.false_or, Bool.and_false]
    cases hb : isblank y with
    | true => exact absurd hb h
    | false => rfl

/-- A character that leaves `quote` alone. -/
def Flat (y : Char) : Prop := y ≠ '\'' ∧ y ≠ '"' ∧ y ≠ '(' ∧ y ≠ ')'
instance (y : Char) : Decidable (Flat y) := inferInstanceAs (Decidable (_ ∧ _))

theorem step_flat {y : Char} (h : Flat y) : Quote.zero.step y = Quote.zero := at_plain h.1 h.2.1 h.2.2.1 h.2.2.2

theorem seek_first {c x : Char} {tail rest r : Str} (hc : c ≠ '_') (hx : litMatch c x = true)
    (hr : matchSeg Quote.zero false tail r = .ok rest) {m : Str}
    (hm : ∀ y ∈ m, litMatch c y = false ∧ Flat y) :
    seek false (c :: tail) Quote.zero (m ++ x :: r) = .ok (m, rest, Quote.zero) := by
  induction m with
  | nil =>
    rw [List.nil_append, seek, matchSeg_lit _ _ hc, if_pos ⟨rfl, hx⟩, hr]
  | cons y m ih =>
    have hy := hm y (by simp)
    rw [List.cons_append, seek, matchSeg_lit _ _ hc, if_neg (by simp [hy.1])]
    dsimp only
    rw [step_flat hy.2, ih fun z hz => hm z (by simp [hz])]

theorem seek_first_none {c : Char} {tail : Str} (hc : c ≠ '_') {m : Str} (hm : ∀ y ∈ m, litMatch c y = false)
    (q : Quote) : ∃ n, n ≤ m.length ∧ seek false (c :: tail) q m = .error n := by
  refine seek_none fun p r e => ?_
  cases r with
  | nil => exact ⟨_, matchSeg_end _ _ hc _⟩
  | cons y r =>
    refine ⟨false, ?_⟩
    rw [matchSeg_lit _ _ hc, if_neg (by simp [hm y (by rw [e]; simp)])]

theorem Word.flat {w : Str} (h : Spec.Word w) : ∀ y ∈ w, Flat y := by
  intro y hy
  have := h.chars y hy
  simp only [List.mem_cons, List.not_mem_nil, not_or] at this
  exact ⟨this.2.2.1, this.2.2.2.1, this.2.2.2.2.1, this.2.2.2.2.2.1⟩
theorem Word.noBlank {w : Str} (h : Spec.Word w) : ∀ y ∈ w, isblank y = false := by
  intro y hy
  have := h.chars y hy
  cases hb : isblank y with
  | false => rfl
  | true => rcases isblank_eq hb with rfl | rfl <;> simp at this
theorem Word.ne {w : Str} (h : Spec.Word w) {c : Char} (hc : c ∈ [' ', '\t', '\'', '"', '(', ')', ';', '=']) :
    ∀ y ∈ w, y ≠ c := by
  rintro y hy rfl
  exact h.chars y hy hc
theorem Word.lead {w : Str} (h : Spec.Word w) : Lead w := by
  rintro c r rfl
  exact Word.noBlank h c (by simp)
theorem Word.trail {w : Str} (h : Spec.Word w) : Trail w := by
  rintro c r rfl
  exact Word.noBlank h c (by simp)
theorem Word.run {w : Str} (h : Spec.Word w) : Quote.zero.run w = Quote.zero := run_plain (d := 0) (Word.flat h)
theorem Word.noTop {w : Str} (h : Spec.Word w) {c : Char} (hc : c ∈ [';', '=']) (q : Quote) : NoTop c q w := by
  refine .of_not fun y hy => ?_
  cases hl : litMatch c y with
  | false => rfl
  | true =>
    have h1 : isalpha c = false ∧ c ≠ ' ' := by
      simp only [List.mem_cons, List.not_mem_nil, or_false] at hc
      rcases hc with rfl | rfl <;> decide
    have := litMatch_eq h1.1 h1.2 hl
    subst this
    exact absurd rfl (Word.ne h (by simp at hc ⊢; rcases hc with rfl | rfl <;> simp) y hy)

theorem Word.head {w : Str} (h : Spec.Word w) : w.head? ≠ some '=' := by
  cases w with
  | nil => simp
  | cons c w =>
    have := Word.ne h (c := '=') (by simp) c (by simp)
    simpa using this

theorem Field.lead {o : Str} (h : Spec.Field o) : Lead o := .of h.first
theorem Field.trail {o : Str} (h : Spec.Field o) : Trail o := .of h.last
theorem Field.run {o : Str} (h : Spec.Field o) : Quote.zero.run o = Quote.zero := Bal.run h.bal 0
theorem Field.noTop {o : Str} (h : Spec.Field o) : NoTop ';' Quote.zero o :=
  Bal.noTop h.bal ';' fun x hx => by
    have : x = ';' := litMatch_eq (by decide) (by decide) hx
    subst this; decide

/-! ### The patterns -/

/-- `? _?`: up to the first blank. -/
theorem filter_gap {m b o : Str} (hm : ∀ y ∈ m, isblank y = false ∧ Flat y) (hb : Blank b) (hbn : b ≠ []) (ho : Lead o) :
    ∃ w k, filter (m ++ (b ++ o)) c!"? _?" = ⟨true, [m, o], w, k⟩ ∧ w = 2 + m.length + o.length := by
  cases b with
  | nil => exact absurd rfl hbn
  | cons x b =>
    unfold filter
    rw [show splitPat c!"? _?" = ([], [[' ', '_'], []]) from by decide]
    simp only [List.isEmpty_cons, matchSeg_nil]
    rw [filterWild]
    · simp only [List.isEmpty_cons]
      rw [List.cons_append, seek_first (rest := o) (by decide) (by rw [litMatch_space]; exact hb.cons.1)
        (by rw [matchSeg_blank, matchSeg_nil, skipBlanks_append hb.cons.2, ho.skip])
        fun y hy => ⟨by rw [litMatch_space]; exact (hm y hy).1, (hm y hy).2⟩]
      simp only [filterWild]
      exact ⟨_, _, rfl, by omega⟩
    · intro h; cases h
theorem filter_gap_none {m : Str} (hm : ∀ y ∈ m, isblank y = false) :
    (filter m c!"? _?").ok = false ∧ (filter m c!"? _?").wrote ≤ 1 + m.length := by
  unfold filter
  rw [show splitPat c!"? _?" = ([], [[' ', '_'], []]) from by decide]
  simp only [List.isEmpty_cons, matchSeg_nil]
  rw [filterWild]
  · simp only [List.isEmpty_cons]
    obtain ⟨n, hn, h1⟩ := seek_first_none (c := ' ') (tail := ['_']) (by decide)
      (fun y hy => by rw [litMatch_space]; exact hm y hy) Quote.zero
    rw [h1]
    exact ⟨rfl, by simp only; omega⟩
  · intro h; cases h

theorem litMatch_dot {y : Char} : litMatch '.' y = decide (y = '.') := by
  by_cases h : y = '.'
  · subst h; rfl
  · simp only [h, decide_false]
    cases hl : litMatch '.' y with
    | false => rfl
    | true => exact absurd (litMatch_eq (by decide) (by decide) hl) h

/-- `?.?`: up to the first dot. -/
theorem filter_dot {a r : Str} (ha : ∀ y ∈ a, y ≠ '.' ∧ Flat y) :
    ∃ w k, filter (a ++ '.' :: r) c!"?.?" = ⟨true, [a, r], w, k⟩ ∧ w = 2 + a.length + r.length := by
  unfold filter
  rw [show splitPat c!"?.?" = ([], [['.'], []]) from by decide]
  simp only [List.isEmpty_cons, matchSeg_nil]
  rw [filterWild]
  · simp only [List.isEmpty_cons]
    rw [seek_first (rest := r) (by decide) (by decide) (matchSeg_nil _ _)
      fun y hy => ⟨by rw [litMatch_dot]; simp [(ha y hy).1], (ha y hy).2⟩]
    simp only [filterWild]
    exact ⟨_, _, rfl, by omega⟩
  · intro h; cases h
theorem filter_dot_none {m : Str} (hm : ∀ y ∈ m, y ≠ '.') :
    (filter m c!"?.?").ok = false ∧ (filter m c!"?.?").wrote ≤ 1 + m.length := by
  unfold filter
  rw [show splitPat c!"?.?" = ([], [['.'], []]) from by decide]
  simp only [List.isEmpty_cons, matchSeg_nil]
  rw [filterWild]
  · simp only [List.isEmpty_cons]
    obtain ⟨n, hn, h1⟩ := seek_first_none (c := '.') (tail := []) (by decide)
      (fun y hy => by rw [litMatch_dot]; simp [hm y hy]) Quote.zero
    rw [h1]
    exact ⟨rfl, by simp only; omega⟩
  · intro h; cases h

/-! ### The vocabulary -/

/-- The vocabulary entry of a word (crasm.c:314-349): its own, or, if the word is not in the dictionary at all and
    has a dot, that of the part before the first dot, if its modifier is negative. -/
def entryOf (s : St) (w : Str) : Option (Str × Label) :=
  match searchlabel s w with
  | some l => usable (canon s.segment w) l
  | none =>
    if '.' ∈ w then
      match searchlabel s (w.takeWhile fun c => c != '.') with
      | some l => if l.modifier < 0 then usable (canon s.segment (w.takeWhile fun c => c != '.')) l else none
      | none => none
    else none

/-- Only the buffer position and the notes differ; at most `n` bytes of the buffer have been used. -/
def Near (n : Nat) (s s' : St) : Prop :=
  ∃ b nts, s' = { s with bufpos := b, notes := nts } ∧ b ≤ s.bufpos + n

theorem Near.refl (s : St) : Near 0 s s := ⟨s.bufpos, s.notes, rfl, by omega⟩
theorem Near.trans {n k : Nat} {s s' s'' : St} (h : Near n s s') (h' : Near k s' s'') : Near (n + k) s s'' := by
  obtain ⟨b, t, rfl, hb⟩ := h
  obtain ⟨b', t', rfl, hb'⟩ := h'
  exact ⟨b', t', rfl, by simp only at hb'; omega⟩
theorem Near.mono {n k : Nat} {s s' : St} (h : Near n s s') (hk : n ≤ k) : Near k s s' := by
  obtain ⟨b, t, rfl, hb⟩ := h
  exact ⟨b, t, rfl, by omega⟩
theorem Near.entry {n : Nat} {s s' : St} (h : Near n s s') (w : Str) : entryOf s' w = entryOf s w := by
  obtain ⟨b, t, rfl, hb⟩ := h; rfl
theorem Near.buf {n : Nat} {s s' : St} (h : Near n s s') : s'.bufpos ≤ s.bufpos + n := by
  obtain ⟨b, t, rfl, hb⟩ := h; exact hb
theorem Near.moved (s : St) (n : Nat) : Near n s { s with bufpos := s.bufpos + n } := ⟨_, s.notes, rfl, Nat.le_refl _⟩

theorem filter2_near {s pat a b : Str} {w k : Nat} (h : filter s pat = ⟨true, [a, b], w, k⟩) {st : St}
    (hr : st.bufpos + w < bufSize) : ∃ st', filter2 s pat st = .ok (some (a, b)) st' ∧ Near w st st' :=
  ⟨_, by rw [filter2_hit h, if_neg (by omega)], .moved st w⟩
theorem filter2_none {s pat : Str} (h : (filter s pat).ok = false) {st : St}
    (hr : st.bufpos + (filter s pat).wrote < bufSize) : filter2 s pat st = .ok none st := by
  rw [filter2_miss h, if_neg (by omega)]

theorem takeWhile_dot {w : Str} (h : '.' ∈ w) : ∃ r, w = (w.takeWhile fun c => c != '.') ++ '.' :: r := by
  induction w with
  | nil => cases h
  | cons c w ih =>
    by_cases hc : c = '.'
    · subst hc; exact ⟨w, by simp⟩
    · obtain ⟨r, hr⟩ := ih (by
        rcases List.mem_cons.1 h with e | h
        · exact absurd e.symm hc
        · exact h)
      refine ⟨r, ?_⟩
      rw [List.takeWhile_cons, if_pos (by simp [hc]), List.cons_append, ← hr]

theorem mem_takeWhile_dot {w : Str} {y : Char} (h : y ∈ w.takeWhile fun c => c != '.') : y ≠ '.' := by
  induction w with
  | nil => cases h
  | cons c w ih =>
    rw [List.takeWhile_cons] at h
    by_cases hc : c = '.'
    · rw [if_neg (by simp [hc])] at h; cases h
    · rw [if_pos (by simp [hc])] at h
      rcases List.mem_cons.1 h with rfl | h
      · exact hc
      · exact ih h

theorem findmnemo_run {w : Str} (hw : ∀ y ∈ w, Flat y) {s : St} (hr : s.bufpos + (2 + w.length) < bufSize) :
    ∃ s', findmnemo w s = .ok (entryOf s w) s' ∧ Near (2 + w.length) s s' := by
  unfold findmnemo entryOf
  rw [getS_bind_run]
  cases hs : searchlabel s w with
  | some l => exact ⟨s, rfl, (Near.refl s).mono (by omega)⟩
  | none =>
    dsimp only
    by_cases hd : '.' ∈ w
    · obtain ⟨r, hr1⟩ := takeWhile_dot hd
      have hmem : ∀ y ∈ w.takeWhile fun c => c != '.', y ≠ '.' ∧ Flat y := by
        intro y hy
        refine ⟨?_, hw y (List.takeWhile_subset _ hy)⟩
        exact mem_takeWhile_dot hy
      rw [if_pos hd]
      generalize (w.takeWhile fun c => c != '.') = a at hr1 hmem
      obtain ⟨n, k, hf, hn⟩ := filter_dot (r := r) hmem
      rw [← hr1] at hf
      have hl : w.length = a.length + (1 + r.length) := by rw [hr1]; simp; omega
      obtain ⟨s1, h1, hn1⟩ := filter2_near hf (st := s) (by omega)
      rw [run_ok h1]
      dsimp only
      cases ha : searchlabel s a with
      | none => exact ⟨s1, rfl, hn1.mono (by omega)⟩
      | some l =>
        dsimp only
        by_cases hm : l.modifier < 0
        · rw [if_pos hm, if_pos hm]
          cases hu : usable (canon s.segment a) l with
          | none => exact ⟨s1, rfl, hn1.mono (by omega)⟩
          | some e =>
            obtain ⟨b, t, rfl, hb⟩ := hn1
            exact ⟨_, rfl, ⟨b, _, rfl, by omega⟩⟩
        · rw [if_neg hm, if_neg hm]
          exact ⟨s1, rfl, hn1.mono (by omega)⟩
    · rw [if_neg hd]
      obtain ⟨h1, h2⟩ := filter_dot_none (m := w) fun y hy e => hd (e ▸ hy)
      rw [run_ok (filter2_none h1 (by omega))]
      exact ⟨s, rfl, (Near.refl s).mono (by omega)⟩

/-! ### The fields -/

theorem Gap.blank {b : Str} (h : Spec.Gap b) : Blank b := .of h.1

theorem splitMnemo_arg {label : Option Str} {m b o : Str} (hm : Spec.Word m) (hb : Spec.Gap b) (ho : Lead o) (hne : o ≠ [])
    {s : St} (hr : s.bufpos + (4 + 2 * (m.length + o.length)) < bufSize) :
    ∃ s', splitMnemo label (m ++ (b ++ o)) s = .ok ⟨label, m, some o, entryOf s m⟩ s' ∧
      Near (4 + 2 * (m.length + o.length)) s s' := by
  unfold splitMnemo
  obtain ⟨w, k, hf, hw⟩ := filter_gap (fun y hy => ⟨Word.noBlank hm y hy, Word.flat hm y hy⟩) (Gap.blank hb) hb.2 ho
  obtain ⟨s1, h1, hn1⟩ := filter2_near hf (st := s) (by omega)
  obtain ⟨s2, h2, hn2⟩ := findmnemo_run (Word.flat hm) (s := s1) (by have := hn1.buf; omega)
  rw [run_ok h1]
  cases m with
  | nil => exact absurd rfl hm.ne
  | cons c m =>
    cases o with
    | nil => exact absurd rfl hne
    | cons d o =>
      dsimp only
      rw [run_ok h2, hn1.entry]
      exact ⟨s2, rfl, (hn1.trans hn2).mono (by simp at *; omega)⟩

theorem splitMnemo_one {label : Option Str} {m : Str} (hm : Spec.Word m)
    {s : St} (hr : s.bufpos + (2 + m.length) < bufSize) :
    ∃ s', splitMnemo label m s = .ok ⟨label, m, none, entryOf s m⟩ s' ∧ Near (2 + m.length) s s' := by
  unfold splitMnemo
  obtain ⟨hf, hw⟩ := filter_gap_none (Word.noBlank hm)
  obtain ⟨s2, h2, hn2⟩ := findmnemo_run (Word.flat hm) (s := s) (by omega)
  rw [run_ok (filter2_none hf (by omega))]
  dsimp only
  rw [run_ok h2]
  exact ⟨s2, rfl, hn2⟩

/-- The equal sign is looked for first; it counts only right after the first word. -/
theorem no_equate {m b o : Str} (hm : Spec.Word m) (hb : Spec.Gap b) (ho : Lead o) (hne : o ≠ [])
    (he : o.head? ≠ some '=') {s : St} (hr : s.bufpos + (2 + (m ++ (b ++ o)).length) < bufSize) :
    ∃ r s', filter2 (m ++ (b ++ o)) c!"?_=_?" s = .ok r s' ∧ Near (2 + (m ++ (b ++ o)).length) s s' ∧
      (r = none ∨ ∃ l o, r = some (l, o) ∧ nospacein l = false) := by
  rcases first_sep '=' (m ++ (b ++ o)) with h | ⟨a, bl, x, r, e, h1, h2, h3, h4, h5⟩
  · obtain ⟨h1, h2⟩ := filter_sep_none (by decide) (by decide) h
    exact ⟨none, s, filter2_none h1 (by omega), (Near.refl s).mono (by omega), .inl rfl⟩
  · have hx : x = '=' := litMatch_eq (by decide) (by decide) h5
    subst hx
    obtain ⟨w, k, hf, hw⟩ := filter_sep (r := r) (by decide) (by decide) (by decide) h1 h2 h3 h4 h5
    rw [← e] at hf
    have hl : (skipBlanks r).length ≤ r.length := by
      obtain ⟨b', e', -⟩ := skipBlanks_spec r
      have := congrArg List.length e'
      simp only [List.length_append] at this
      omega
    have hlen := congrArg List.length e
    simp only [List.length_append, List.length_cons] at hlen
    have hw' : w ≤ 2 + (m ++ (b ++ o)).length := by simp only [List.length_append]; omega
    obtain ⟨s1, g1, gn⟩ := filter2_near hf (st := s) (by omega)
    refine ⟨_, s1, g1, gn.mono hw', .inr ⟨_, _, rfl, ?_⟩⟩
    rw [← Bool.not_eq_true]
    intro hns
    have hns : ∀ y ∈ a, isblank y = false := by
      intro y hy
      have := List.all_eq_true.1 hns y hy
      simpa using this
    -- the equal sign would come right after the first word and the blanks
    obtain ⟨c, b, rfl⟩ : ∃ c b', b = c :: b' := by
      cases b with
      | nil => exact absurd rfl hb.2
      | cons c b => exact ⟨c, b, rfl⟩
    have hbl := Gap.blank hb
    have key : ¬ (c :: b) ++ o = bl ++ '=' :: r := by
      intro e
      have := congrArg skipBlanks e
      rw [skipBlanks_append hbl, skipBlanks_append h4, ho.skip, skipBlanks_cons (by decide)] at this
      exact he (by rw [this]; rfl)
    rcases append_split e.symm with ⟨z, e1, e2⟩ | ⟨z, e1, e2⟩
    · cases z with
      | nil => exact key e2
      | cons y z =>
        have : c = y := by
          have := congrArg List.head? e2
          simpa using this
        have h0 := hns y (by rw [e1]; simp)
        rw [← this, hbl.cons.1] at h0
        cases h0
    · cases z with
      | nil => exact key e1.symm
      | cons y z =>
        have hy : y ∈ m := by rw [e2]; simp
        cases bl with
        | nil =>
          have : '=' = y := by
            have := congrArg List.head? e1
            simpa using this
          exact Word.ne hm (by simp) y hy this.symm
        | cons d bl =>
          have : d = y := by
            have := congrArg List.head? e1
            simpa using this
          have h0 := Word.noBlank hm y hy
          rw [← this, h4.cons.1] at h0
          cases h0

theorem checklabel_of {l : Str} (h : Spec.LabelName l) : checklabel l = true := by
  rcases h with rfl | h
  · rfl
  · exact (name_facts h).2.2

/-- crasm.c:455-483. -/
def splitOther (t : Str) : M Fields := do
  let f ← splitMnemo none t
  match f.oper, f.entry with
  | some rest, none =>
    if !checklabel f.mnemo then error c!"malformed label"
    else splitMnemo (some f.mnemo) rest
  | _, _ => pure f

theorem splitLine_other {t : Str} {r : Option (Str × Str)} {s s1 : St} (h : filter2 t c!"?_=_?" s = .ok r s1)
    (hr : r = none ∨ ∃ l o, r = some (l, o) ∧ nospacein l = false) : splitLine t s = splitOther t s1 := by
  unfold splitLine splitOther
  rw [run_ok h]
  rcases hr with rfl | ⟨l, o, rfl, hf⟩
  · rfl
  · dsimp only
    rw [if_neg (by rw [hf]; simp)]
    rfl

/-- crasm.c:444-483 on a written statement. -/
theorem splitLine_reads {s : St} {t : Str} {label : Option Str} {mnemo : Str} {oper : Option Str}
    (h : Spec.Stmt (fun w => (entryOf s w).isSome) t label mnemo oper)
    (hr : s.bufpos + (12 + 5 * t.length) < bufSize) :
    ∃ s', splitLine t s = .ok ⟨label, mnemo, oper, entryOf s mnemo⟩ s' ∧ Near (12 + 5 * t.length) s s' := by
  cases h with
  | one hm =>
    obtain ⟨h1, h2⟩ := filter_sep_none (by decide) (by decide) (Word.noTop hm (c := '=') (by simp) Quote.zero)
    rw [splitLine_other (filter2_none h1 (by omega)) (.inl rfl)]
    obtain ⟨s2, g2, n2⟩ := splitMnemo_one (label := none) hm (s := s) (by omega)
    unfold splitOther
    rw [run_ok g2]
    exact ⟨s2, rfl, n2.mono (by omega)⟩
  | @oper _ b o hm hb ho he hk =>
    have hlen : (mnemo ++ (b ++ o)).length = mnemo.length + (b.length + o.length) := by simp
    obtain ⟨r, s1, g1, n1, hno⟩ := no_equate hm hb (Field.lead ho) ho.ne he (s := s) (by omega)
    have := n1.buf
    obtain ⟨s2, g2, n2⟩ := splitMnemo_arg (label := none) hm hb (Field.lead ho) ho.ne (s := s1) (by omega)
    rw [splitLine_other g1 hno]
    unfold splitOther
    rw [run_ok g2, n1.entry]
    cases hent : entryOf s mnemo with
    | none => rw [hent] at hk; cases hk
    | some e => exact ⟨s2, rfl, (n1.trans n2).mono (by omega)⟩
  | @label l b _ hl hn hb hm hk =>
    have hlen : (l ++ (b ++ mnemo)).length = l.length + (b.length + mnemo.length) := by simp
    obtain ⟨r, s1, g1, n1, hno⟩ := no_equate hl hb (Word.lead hm) hm.ne (Word.head hm) (s := s) (by omega)
    have := n1.buf
    obtain ⟨s2, g2, n2⟩ := splitMnemo_arg (label := none) hl hb (Word.lead hm) hm.ne (s := s1) (by omega)
    have := n2.buf
    obtain ⟨s3, g3, n3⟩ := splitMnemo_one (label := some l) hm (s := s2) (by omega)
    rw [splitLine_other g1 hno]
    unfold splitOther
    rw [run_ok g2, n1.entry]
    rw [n2.entry, n1.entry] at g3
    cases hent : entryOf s l with
    | some e => rw [hent] at hk; exact absurd rfl hk
    | none =>
      dsimp only
      rw [if_neg (by rw [checklabel_of hn]; simp)]
      exact ⟨s3, g3, ((n1.trans n2).trans n3).mono (by omega)⟩
  | @both l b _ b' o hl hn hb hm hb' ho hk =>
    have hlen : (l ++ (b ++ (mnemo ++ (b' ++ o)))).length = l.length + (b.length + (mnemo.length + (b'.length + o.length))) := by
      simp
    have hlen' : (mnemo ++ (b' ++ o)).length = mnemo.length + (b'.length + o.length) := by simp
    have hne : mnemo ++ (b' ++ o) ≠ [] := by simp [hm.ne]
    have hh : (mnemo ++ (b' ++ o)).head? ≠ some '=' := by
      cases hmn : mnemo with
      | nil => exact absurd hmn hm.ne
      | cons c w => have := Word.head hm; rw [hmn] at this; exact this
    have hle : Lead (mnemo ++ (b' ++ o)) := (Word.lead hm).app hm.ne
    obtain ⟨r, s1, g1, n1, hno⟩ := no_equate hl hb hle hne hh (s := s) (by omega)
    have := n1.buf
    obtain ⟨s2, g2, n2⟩ := splitMnemo_arg (label := none) hl hb hle hne (s := s1) (by omega)
    have := n2.buf
    obtain ⟨s3, g3, n3⟩ := splitMnemo_arg (label := some l) hm hb' (Field.lead ho) ho.ne (s := s2) (by omega)
    rw [splitLine_other g1 hno]
    unfold splitOther
    rw [run_ok g2, n1.entry]
    rw [n2.entry, n1.entry] at g3
    cases hent : entryOf s l with
    | some e => rw [hent] at hk; exact absurd rfl hk
    | none =>
      dsimp only
      rw [if_neg (by rw [checklabel_of hn]; simp)]
      exact ⟨s3, g3, ((n1.trans n2).trans n3).mono (by omega)⟩
  | @equate l b b' o hl hn hb hb' ho =>
    have hlen : (l ++ (b ++ '=' :: (b' ++ o))).length = l.length + (b.length + (b'.length + o.length + 1)) := by simp
    have hle : Lead o := by
      rcases ho with ⟨-, rfl⟩ | ho
      · intro c r e; cases e
      · exact Field.lead ho
    obtain ⟨w, k, hf, hw⟩ := filter_sep (c := '=') (x := '=') (bl := b) (r := b' ++ o) (by decide) (by decide) (by decide)
      (Word.noTop hl (by simp) _) (Word.run hl) (Word.trail hl) (.of hb) (by decide)
    rw [skipBlanks_append (.of hb'), hle.skip] at hf hw
    obtain ⟨s1, g1, n1⟩ := filter2_near hf (st := s) (by omega)
    have := n1.buf
    obtain ⟨s2, g2, n2⟩ := findmnemo_run (w := c!"equ") (by decide) (s := s1)
      (by simp only [List.length_cons, List.length_nil]; omega)
    unfold splitLine
    rw [run_ok g1]
    dsimp only
    rw [if_pos (by
      unfold nospacein
      rw [List.all_eq_true]
      intro y hy
      rw [Word.noBlank hl y hy]; rfl)]
    dsimp only
    rw [run_ok g2, n1.entry, if_neg (by rw [checklabel_of hn]; simp)]
    exact ⟨s2, rfl, (n1.trans n2).mono (by simp only [List.length_cons, List.length_nil]; omega)⟩

/-! ### The text of the line -/

theorem filter_semi {s a bl r : Str} (hs : skipBlanks s = a ++ (bl ++ ';' :: r)) (h1 : NoTop ';' Quote.zero a)
    (h2 : Quote.zero.run a = Quote.zero) (h3 : Trail a) (h4 : Blank bl) :
    ∃ w k, filter s c!"_?_;?" = ⟨true, [a, r], w, k⟩ ∧ w = 2 + a.length + r.length := by
  unfold filter
  rw [show splitPat c!"_?_;?" = (['_'], [['_', ';'], []]) from by decide]
  simp only [List.isEmpty_cons, matchSeg_blank, matchSeg_nil, hs]
  rw [filterWild]
  · simp only [List.isEmpty_cons]
    rw [seek_sep (c := ';') (tail := []) (rest := r) (by decide) (by decide) h4 (by decide) (matchSeg_nil _ _)
      h1 h2 h3]
    exact ⟨_, _, rfl, by simp only [filterWild]; omega⟩
  · intro h; cases h

theorem filter_no_semi {s : Str} (h : NoTop ';' Quote.zero (skipBlanks s)) :
    (filter s c!"_?_;?").ok = false ∧ (filter s c!"_?_;?").wrote ≤ 1 + s.length := by
  unfold filter
  rw [show splitPat c!"_?_;?" = (['_'], [['_', ';'], []]) from by decide]
  simp only [List.isEmpty_cons, matchSeg_blank, matchSeg_nil]
  rw [filterWild]
  · simp only [List.isEmpty_cons]
    obtain ⟨n, hn, h1⟩ := seek_sep_none (c := ';') (e := false) (tail := []) (by decide) h
    rw [h1]
    have hl : (skipBlanks s).length ≤ s.length := by
      obtain ⟨b', e', -⟩ := skipBlanks_spec s
      have := congrArg List.length e'
      simp only [List.length_append] at this
      omega
    exact ⟨rfl, by simp only; omega⟩
  · intro h; cases h

/-- A text that can stand between the blanks and the comment of a line. -/
structure InLine (t : Str) : Prop where
  lead : Lead t
  trail : Trail t
  run : Quote.zero.run t = Quote.zero
  noTop : NoTop ';' Quote.zero t

theorem InLine.nil : InLine [] :=
  ⟨(fun _ _ e => by cases e), Trail.nil, rfl, (fun _ _ _ e => by simp at e)⟩
theorem InLine.word {w : Str} (h : Spec.Word w) : InLine w := ⟨Word.lead h, Word.trail h, Word.run h, Word.noTop h (by simp) _⟩
theorem InLine.field {o : Str} (h : Spec.Field o) : InLine o := ⟨Field.lead h, Field.trail h, Field.run h, Field.noTop h⟩
theorem InLine.join {a b c : Str} (ha : InLine a) (hne : a ≠ []) (hb : Blank b) (hc : InLine c) (hcn : c ≠ []) :
    InLine (a ++ (b ++ c)) := by
  refine ⟨ha.lead.app hne, ?_, ?_, ?_⟩
  · rw [← List.append_assoc]
    exact Trail.append hc.trail hcn
  · rw [Quote.run_append, Quote.run_append, ha.run, run_blank hb, hc.run]
  · refine ha.noTop.append ?_
    rw [ha.run]
    refine NoTop.append (.blank (by decide) hb) ?_
    rw [run_blank hb]
    exact hc.noTop

theorem InLine.eq : InLine ['='] := by
  refine ⟨?_, ?_, rfl, .of_not fun x hx => ?_⟩
  · rintro c r ⟨⟩; rfl
  · intro c r e
    cases r with
    | nil => cases e; rfl
    | cons d r => simp at e
  · rw [List.mem_singleton.1 hx]; decide

theorem Stmt.inner {known : Str → Prop} {t mnemo : Str} {label oper : Option Str}
    (h : Spec.Stmt known t label mnemo oper) : InLine t ∧ t ≠ [] := by
  cases h with
  | one hm => exact ⟨.word hm, hm.ne⟩
  | oper hm hb ho he hk =>
    exact ⟨.join (.word hm) hm.ne (Gap.blank hb) (.field ho) ho.ne, by simp [hm.ne]⟩
  | label hl hn hb hm hk => exact ⟨.join (.word hl) hl.ne (Gap.blank hb) (.word hm) hm.ne, by simp [hl.ne]⟩
  | both hl hn hb hm hb' ho hk =>
    exact ⟨.join (.word hl) hl.ne (Gap.blank hb) (.join (.word hm) hm.ne (Gap.blank hb') (.field ho) ho.ne)
      (by simp [hm.ne]), by simp [hl.ne]⟩
  | @equate l b b' o hl hn hb hb' ho =>
    refine ⟨.join (.word hl) hl.ne (.of hb) ?_ (by simp), by simp [hl.ne]⟩
    rcases ho with ⟨rfl, rfl⟩ | ho
    · exact InLine.eq
    · exact InLine.join (a := ['=']) InLine.eq (by simp) (.of hb') (.field ho) ho.ne

/-- What is left of the line in `curline`: possibly without the blanks at its end. -/
def Cut (line line' : Str) : Prop := ∃ b, line = line' ++ b ∧ Blank b

theorem stripLine_around {t : Str} (ht : InLine t) {s : St} (h : Spec.Around t s.curline)
    (hr : s.bufpos + (2 + s.curline.length) < bufSize) :
    ∃ b cl, stripLine s = .ok t { s with bufpos := b, curline := cl } ∧ b ≤ s.bufpos + (2 + s.curline.length) ∧
      Cut s.curline cl := by
  unfold stripLine
  rw [getS_bind_run]
  generalize hline : s.curline = line at h hr
  cases h with
  | @plain b b' hb hb' =>
    have hb := Blank.of hb
    have hb' := Blank.of hb'
    have hno : NoTop ';' Quote.zero (skipBlanks (b ++ (t ++ b'))) := by
      rw [skipBlanks_append hb]
      by_cases hne : t = []
      · subst hne
        rw [List.nil_append, ← List.append_nil b', skipBlanks_append hb']
        intro p x r e; simp [skipBlanks] at e
      · rw [(ht.lead.app hne).skip]
        refine ht.noTop.append ?_
        rw [ht.run]
        exact .blank (by decide) hb'
    obtain ⟨h1, h2⟩ := filter_no_semi hno
    rw [run_ok (filter2_none h1 (by omega))]
    by_cases hne : t = []
    · subst hne
      have hall : Blank (b ++ ([] ++ b')) := by
        intro c hc
        rcases List.mem_append.1 hc with hc | hc
        · exact hb c hc
        · exact hb' c hc
      have hrt : rtrim (b ++ ([] ++ b')) = [] := rtrim_append (a := []) .nil hall
      rw [hline] at *
      refine ⟨s.bufpos, [], ?_, by omega, ⟨_, rfl, hall⟩⟩
      show (modS _ >>= _) s = _
      rw [modS_bind_run, hrt]
      rfl
    · have hrt : rtrim (b ++ (t ++ b')) = b ++ t := by
        rw [← List.append_assoc]
        exact rtrim_append (Trail.append ht.trail hne) hb'
      refine ⟨s.bufpos, b ++ t, ?_, by omega, ⟨b', by simp, hb'⟩⟩
      show (modS _ >>= _) s = _
      rw [modS_bind_run, hrt, dropWhile_skip, skipBlanks_append hb, ht.lead.skip]
      rfl
  | @comment b b' text hb hb' =>
    have hb := Blank.of hb
    have hb' := Blank.of hb'
    obtain ⟨w, k, hf, hw⟩ : ∃ w k, filter (b ++ (t ++ (b' ++ ';' :: text))) c!"_?_;?" = ⟨true, [t, text], w, k⟩ ∧
        w = 2 + t.length + text.length := by
      by_cases hne : t = []
      · subst hne
        refine filter_semi (a := []) (bl := []) ?_ ht.noTop rfl .nil .nil
        rw [skipBlanks_append hb, List.nil_append, skipBlanks_append hb', skipBlanks_cons (by decide)]
        rfl
      · refine filter_semi ?_ ht.noTop ht.run ht.trail hb'
        rw [skipBlanks_append hb, (ht.lead.app hne).skip]
    have hlen : (b ++ (t ++ (b' ++ ';' :: text))).length = b.length + (t.length + (b'.length + (text.length + 1))) := by
      simp
    rw [hlen] at hr
    have h2 := filter2_hit hf s
    rw [if_neg (by omega)] at h2
    rw [hline] at *
    rw [run_ok h2]
    exact ⟨_, _, by rw [← hline]; rfl, by omega, ⟨[], by simp, .nil⟩⟩

/-- The state after a line has been taken apart: a bit of the pattern buffer is used and the blanks at the end of
    the line may be gone. -/
def Split (s s' : St) : Prop :=
  ∃ b cl nts, s' = { startedSt s with bufpos := b, curline := cl, notes := nts } ∧ b ≤ 14 + 6 * s.curline.length ∧
    Cut s.curline cl

/-! ### The length of a line -/

theorem fgets_length (n : Nat) (s : Str) : (fgets n s).1.length ≤ n := by
  induction n generalizing s with
  | zero => simp [fgets]
  | succ n ih =>
    cases s with
    | nil => simp [fgets]
    | cons c s =>
      unfold fgets
      by_cases hc : c = '\n'
      · rw [if_pos hc]; simp
      · rw [if_neg hc]
        have := ih s
        simp only [List.length_cons]
        omega
theorem kept_length (raw : Str) : ((lineText raw).filter keepChar).length ≤ raw.length := by
  refine Nat.le_trans (List.length_filter_le _ _) ?_
  unfold lineText
  exact (List.takeWhile_prefix _).length_le
theorem appendArg_length (a out : Str) (h : out.length ≤ 241) : (appendArg out a).length ≤ 241 := by
  induction a generalizing out with
  | nil => exact h
  | cons c a ih =>
    unfold appendArg
    by_cases hc : lineMax - 10 < out.length
    · rw [if_pos hc]; exact h
    · rw [if_neg hc]
      refine ih _ ?_
      unfold lineMax at hc
      simp only [List.length_cons]; omega
theorem expandLine_length (args : List Str) (all : Str) (s : Str) : ∀ (b : Bool) (out : Str),
    out.length ≤ (if b then 240 else 241) → (expandLine args all b out s).1.length ≤ 241 := by
  induction s with
  | nil =>
    intro b out h
    cases b with
    | false => exact h
    | true => simpa [expandLine] using h
  | cons c s ih =>
    intro b out h
    cases b with
    | false =>
      simp only [Bool.false_eq_true, if_false] at h
      unfold expandLine
      by_cases h1 : lineMax - 10 < out.length
      · rw [if_pos h1]; exact h
      · rw [if_neg h1]
        unfold lineMax at h1
        by_cases h2 : c ≠ '\\'
        · rw [if_pos h2]; exact ih _ _ (by simp; omega)
        · rw [if_neg h2]; exact ih _ _ (by simp; omega)
    | true =>
      simp only [if_true] at h
      unfold expandLine
      by_cases h1 : c = '#'
      · rw [if_pos h1]; exact ih _ _ (by simp; omega)
      rw [if_neg h1]
      by_cases h2 : c = '*'
      · rw [if_pos h2]; exact ih _ _ (appendArg_length _ _ (by omega))
      rw [if_neg h2]
      by_cases h3 : '1' ≤ c ∧ c ≤ '9'
      · rw [if_pos h3]; exact ih _ _ (appendArg_length _ _ (by omega))
      rw [if_neg h3]
      dsimp only
      by_cases h4 : lineMax - 10 < ('\\' :: out).length
      · rw [if_pos h4]; simp; omega
      rw [if_neg h4]
      unfold lineMax at h4
      simp only [List.length_cons] at h4
      by_cases h5 : c ≠ '\\'
      · rw [if_pos h5]; exact ih _ _ (by simp; omega)
      · rw [if_neg h5]; exact ih _ _ (by simp; omega)

theorem takeLine_curline {raw : Str} {s s' : St} {u : Unit} (h : takeLine raw s = .ok u s') :
    s'.curline.length ≤ raw.length := by
  rw [(takeLine_pass h).2]
  exact kept_length raw

/-- A line that has been read has at most 249 characters. -/
theorem linegets_length {s s' : St} {u : Unit} (h : linegets s = .ok u s') : s'.curline.length ≤ 249 := by
  unfold linegets at h
  rw [modS_bind_run, getS_bind_run] at h
  generalize popEnds s.stack s = s1 at h
  revert h
  cases s1.stack with
  | nil =>
    intro h
    dsimp only at h
    obtain ⟨u1, s2, h1, h2⟩ := bind_ok h
    cases h2
    have h2 := takeLine_curline h1
    have h3 := fgets_length (lineMax - 1) s1.main
    show s2.curline.length ≤ _
    unfold lineMax at h2 h3
    omega
  | cons src rest =>
    dsimp only
    cases src.kind with
    | file t e =>
      intro h
      dsimp only at h
      obtain ⟨u1, s2, h1, h2⟩ := bind_ok h
      cases h2
      have h2 := takeLine_curline h1
      have h3 := fgets_length (lineMax - 1) t
      show s2.curline.length ≤ _
      unfold lineMax at h2 h3
      omega
    | «macro» args all lines =>
      cases lines with
      | nil => intro h; cases h
      | cons l ls =>
        intro h
        dsimp only at h
        rw [modS_bind_run, modS_bind_run] at h
        have hl := expandLine_length args all l false [] (by simp)
        have : s'.curline = (expandLine args all false [] l).1.reverse := by
          revert h
          cases (expandLine args all false [] l).2 with
          | true => exact fun h => quiet_curline (m := warning c!"Too long line") h
          | false => intro h; cases h; rfl
        rw [this, List.length_reverse]
        omega

end Crasm

import Verif.Model.State
import Verif.Spec.Balanced

/-! Facts about `filter`. -/

namespace Crasm

/-- The quote state after a text. -/
def Quote.run (q : Quote) (s : Str) : Quote := s.foldl Quote.step q

@[simp] theorem Quote.run_nil (q : Quote) : q.run [] = q := rfl
@[simp] theorem Quote.run_cons (q : Quote) (c : Char) (s : Str) : q.run (c :: s) = (q.step c).run s := rfl
theorem Quote.run_append (q : Quote) (a b : Str) : q.run (a ++ b) = (q.run a).run b := List.foldl_append

/-- All blanks. -/
def Blank (s : Str) : Prop := ∀ c ∈ s, isblank c = true

theorem Blank.nil : Blank [] := by intro c h; cases h
theorem Blank.cons {c : Char} {s : Str} (h : Blank (c :: s)) : isblank c = true ∧ Blank s :=
  ⟨h c List.mem_cons_self, fun x hx => h x (List.mem_cons_of_mem _ hx)⟩

theorem isblank_eq {c : Char} (h : isblank c = true) : c = ' ' ∨ c = '\t' := by
  unfold isblank at h
  simp only [Bool.or_eq_true, beq_iff_eq] at h
  rcases h with h | h
  · exact .inl (Char.ext (UInt32.toNat.inj h))
  · exact .inr (Char.ext (UInt32.toNat.inj h))

theorem step_blank {c : Char} (h : isblank c = true) : Quote.zero.step c = Quote.zero := by
  rcases isblank_eq h with rfl | rfl <;> rfl

theorem run_blank {s : Str} (h : Blank s) : Quote.zero.run s = Quote.zero := by
  induction s with
  | nil => rfl
  | cons c s ih => rw [Quote.run_cons, step_blank h.cons.1, ih h.cons.2]

/-- `skipBlanks` takes off the blanks in front. -/
theorem skipBlanks_spec (s : Str) : ∃ b, s = b ++ skipBlanks s ∧ Blank b ∧
    ∀ c r, skipBlanks s = c :: r → isblank c = false := by
  induction s with
  | nil => exact ⟨[], rfl, .nil, by simp [skipBlanks]⟩
  | cons c s ih =>
    obtain ⟨b, h1, h2, h3⟩ := ih
    unfold skipBlanks
    by_cases hc : isblank c = true
    · simp only [hc, if_true]
      refine ⟨c :: b, by rw [List.cons_append, ← h1], ?_, h3⟩
      intro x hx
      rcases List.mem_cons.1 hx with rfl | hx
      · exact hc
      · exact h2 x hx
    · simp only [hc]
      refine ⟨[], rfl, .nil, ?_⟩
      intro x r h
      cases h
      simpa using hc

theorem skipBlanks_append {b s : Str} (hb : Blank b) : skipBlanks (b ++ s) = skipBlanks s := by
  induction b with
  | nil => rfl
  | cons c b ih =>
    rw [List.cons_append, skipBlanks, hb.cons.1, if_pos rfl, ih hb.cons.2]
theorem skipBlanks_cons {c : Char} {s : Str} (h : isblank c = false) : skipBlanks (c :: s) = c :: s := by
  rw [skipBlanks, h]; rfl
/-- A text that starts with something else than a blank (or is empty). -/
def Lead (s : Str) : Prop := ∀ c r, s = c :: r → isblank c = false
theorem Lead.skip {s : Str} (h : Lead s) : skipBlanks s = s := by
  cases s with
  | nil => rfl
  | cons c s => exact skipBlanks_cons (h c s rfl)
/-- A text that does not end in a blank. -/
def Trail (s : Str) : Prop := ∀ c r, s = r ++ [c] → isblank c = false

theorem Trail.tail {c : Char} {s : Str} (h : Trail (c :: s)) : Trail s :=
  fun x r e => h x (c :: r) (by rw [e]; rfl)
theorem Trail.nil : Trail [] := by intro c r h; simp at h
theorem Trail.append {a b : Str} (hb : Trail b) (hne : b ≠ []) : Trail (a ++ b) := by
  intro c r h
  obtain ⟨r', rfl⟩ : ∃ r', b = r' ++ [c] := by
    have h1 : (a ++ b).getLast? = some c := by rw [h]; simp
    rw [List.getLast?_append] at h1
    cases hb' : b.getLast? with
    | none => exact absurd (List.getLast?_eq_none_iff.1 hb') hne
    | some d =>
      rw [hb'] at h1
      simp at h1
      subst h1
      have hg := List.dropLast_concat_getLast hne
      rw [List.getLast?_eq_some_getLast hne] at hb'
      cases hb'
      exact ⟨b.dropLast, hg.symm⟩
  exact hb c r' rfl
/-- A text that does not end in a blank and is not empty contains something else. -/
theorem Trail.not_blank {s : Str} (h : Trail s) (hne : s ≠ []) : ∃ b c r, s = b ++ c :: r ∧ Blank b ∧ isblank c = false := by
  obtain ⟨b, h1, h2, h3⟩ := skipBlanks_spec s
  cases hs : skipBlanks s with
  | nil =>
    rw [hs, List.append_nil] at h1
    subst h1
    have hl := List.dropLast_concat_getLast hne
    have := h _ _ hl.symm
    rw [h2 _ (List.getLast_mem hne)] at this
    cases this
  | cons c r => exact ⟨b, c, r, by rw [← hs]; exact h1, h2, h3 c r hs⟩

/-! ### One part of a pattern -/

theorem matchSeg_blank (q : Quote) (e : Bool) (seg s : Str) :
    matchSeg q e ('_' :: seg) s = matchSeg q e seg (skipBlanks s) := by
  rw [matchSeg]
theorem matchSeg_end (q : Quote) (e : Bool) {p : Char} (hp : p ≠ '_') (seg : Str) :
    matchSeg q e (p :: seg) [] = .bad true := by
  rw [matchSeg]; exact hp
theorem matchSeg_lit (q : Quote) (e : Bool) {p : Char} (hp : p ≠ '_') (seg : Str) (c : Char) (s : Str) :
    matchSeg q e (p :: seg) (c :: s) =
      if q = Quote.zero ∧ litMatch p c then matchSeg q e seg s else .bad false := by
  rw [matchSeg]; exact hp

/-- In the state `q`, the text `s` has no character `c` outside quotes and parentheses. -/
def NoTop (c : Char) (q : Quote) (s : Str) : Prop :=
  ∀ p x r, s = p ++ x :: r → litMatch c x = true → q.run p ≠ Quote.zero

theorem NoTop.tail {c d : Char} {q : Quote} {s : Str} (h : NoTop c q (d :: s)) : NoTop c (q.step d) s :=
  fun p x r e hx => h (d :: p) x r (by rw [e]; rfl) hx
theorem NoTop.append {c : Char} {q : Quote} {a b : Str} (ha : NoTop c q a) (hb : NoTop c (q.run a) b) :
    NoTop c q (a ++ b) := by
  induction a generalizing q with
  | nil => exact hb
  | cons d a ih =>
    intro p x r e hx
    cases p with
    | nil =>
      simp only [List.cons_append, List.nil_append, List.cons.injEq] at e
      exact ha [] x a (by rw [e.1]; rfl) hx
    | cons d' p =>
      simp only [List.cons_append, List.cons.injEq] at e
      rw [Quote.run_cons, ← e.1]
      exact ih ha.tail (by rw [Quote.run_cons] at hb; exact hb) p x r e.2 hx
/-- Texts without the character at all. -/
theorem NoTop.of_not {c : Char} {q : Quote} {s : Str} (h : ∀ x ∈ s, litMatch c x = false) : NoTop c q s := by
  intro p x r e hx
  rw [h x (by rw [e]; simp)] at hx
  cases hx

theorem toupper_toNat {c : Char} (h : 97 ≤ c.toNat ∧ c.toNat ≤ 122) : (toupper c).toNat = c.toNat - 32 := by
  have : ∀ k < 123, (Char.ofNat (k - 32)).toNat = k - 32 := by decide
  unfold toupper
  rw [if_pos h]
  exact this _ (by omega)

theorem litMatch_blank {c x : Char} (hc : isblank c = false) (hx : isblank x = true) : litMatch c x = false := by
  have h1 : c ≠ ' ' := by rintro rfl; cases hc
  have h2 : toupper x = x := by rcases isblank_eq hx with rfl | rfl <;> rfl
  have h3 : toupper c ≠ x := by
    intro h
    by_cases hr : 97 ≤ c.toNat ∧ c.toNat ≤ 122
    · have := toupper_toNat hr
      rw [h] at this
      rcases isblank_eq hx with rfl | rfl <;> (simp at this; omega)
    · unfold toupper at h
      rw [if_neg hr] at h
      subst h
      rw [hx] at hc
      cases hc
  unfold litMatch
  rw [h2]
  simp [h1, h3]

theorem NoTop.blank {c : Char} {q : Quote} {b : Str} (hc : isblank c = false) (hb : Blank b) : NoTop c q b :=
  .of_not fun x hx => litMatch_blank hc (hb x hx)

/-- A separator, possibly after blanks, is not where the part `_c…` is tried. -/
theorem matchSeg_sep_bad {c : Char} {q : Quote} {e : Bool} {tail s : Str} (hc : c ≠ '_') (h : NoTop c q s) :
    ∃ b, matchSeg q e ('_' :: c :: tail) s = .bad b := by
  rw [matchSeg_blank]
  obtain ⟨b, h1, h2, h3⟩ := skipBlanks_spec s
  cases hs : skipBlanks s with
  | nil => exact ⟨true, matchSeg_end _ _ hc _⟩
  | cons x r =>
    rw [matchSeg_lit _ _ hc, if_neg]
    · exact ⟨false, rfl⟩
    · rintro ⟨rfl, hx⟩
      rw [hs] at h1
      exact h b x r h1 hx (run_blank h2)

theorem seek_sep_none {c : Char} {e : Bool} {tail : Str} (hc : c ≠ '_') {s : Str} :
    ∀ {q : Quote}, NoTop c q s → ∃ n, n ≤ s.length ∧ seek e ('_' :: c :: tail) q s = .error n := by
  induction s with
  | nil =>
    intro q h
    obtain ⟨b, hb⟩ := matchSeg_sep_bad (e := e) (tail := tail) hc h
    exact ⟨0, by simp, by rw [seek, hb]⟩
  | cons x s ih =>
    intro q h
    obtain ⟨b, hb⟩ := matchSeg_sep_bad (e := e) (tail := tail) hc h
    cases b with
    | true => exact ⟨0, by simp, by rw [seek, hb]⟩
    | false =>
      obtain ⟨n, hn, h1⟩ := ih h.tail
      exact ⟨n + 1, by simp; omega, by rw [seek, hb]; simp only; rw [h1]⟩

/-- A wildcard followed by blanks, a separator `c` and `tail` stops at the first such place. -/
theorem seek_sep {c x : Char} {e : Bool} {tail bl r rest : Str} (hc : c ≠ '_') (hcb : isblank c = false)
    (hbl : Blank bl) (hx : litMatch c x = true) (ht : matchSeg Quote.zero e tail r = .ok rest) {a : Str} :
    ∀ {q : Quote}, NoTop c q a → q.run a = Quote.zero → Trail a →
      seek e ('_' :: c :: tail) q (a ++ (bl ++ x :: r)) = .ok (a, rest, Quote.zero) := by
  have hxb : isblank x = false := by
    cases h : isblank x with
    | false => rfl
    | true => rw [litMatch_blank hcb h] at hx; cases hx
  induction a with
  | nil =>
    intro q _ hz _
    simp only [Quote.run_nil] at hz
    subst hz
    have hm : matchSeg Quote.zero e ('_' :: c :: tail) (bl ++ x :: r) = .ok rest := by
      rw [matchSeg_blank, skipBlanks_append hbl, skipBlanks_cons hxb, matchSeg_lit _ _ hc, if_pos ⟨rfl, hx⟩, ht]
    rw [List.nil_append]
    cases hs : bl ++ x :: r with
    | nil => simp at hs
    | cons y s => rw [hs] at hm; rw [seek, hm]
  | cons y a ih =>
    intro q hn hz hl
    have hm : matchSeg q e ('_' :: c :: tail) (y :: a ++ (bl ++ x :: r)) = .bad false := by
      obtain ⟨b, z, r', h1, h2, h3⟩ := hl.not_blank (by simp)
      rw [matchSeg_blank, h1, List.append_assoc, skipBlanks_append h2, List.cons_append, skipBlanks_cons h3,
        matchSeg_lit _ _ hc, if_neg]
      rintro ⟨rfl, hzm⟩
      exact hn b z r' h1 hzm (run_blank h2)
    rw [List.cons_append] at hm ⊢
    rw [seek, hm]
    simp only
    rw [ih hn.tail hz hl.tail]

/-! ### Whole patterns -/

/-- What a wildcard swallows, in general. -/
theorem seek_ok {e : Bool} {seg : Str} {s : Str} : ∀ {q q' : Quote} {cap rest : Str},
    seek e seg q s = .ok (cap, rest, q') →
    ∃ s', s = cap ++ s' ∧ q' = q.run cap ∧ matchSeg q' e seg s' = .ok rest := by
  induction s with
  | nil =>
    intro q q' cap rest h
    rw [seek] at h
    split at h
    · rename_i r hm
      cases h
      exact ⟨[], rfl, rfl, hm⟩
    · cases h
  | cons c s ih =>
    intro q q' cap rest h
    rw [seek] at h
    split at h
    · rename_i r hm
      cases h
      exact ⟨c :: s, rfl, rfl, hm⟩
    · cases h
    · split at h
      · rename_i cap' rest' q'' hs
        cases h
        obtain ⟨s', e1, e2, e3⟩ := ih hs
        exact ⟨s', by rw [e1]; rfl, by rw [e2]; rfl, e3⟩
      · cases h

/-- A pattern character that is neither a letter nor a space stands for itself only. -/
theorem litMatch_eq {c x : Char} (hc : isalpha c = false) (hs : c ≠ ' ') (h : litMatch c x = true) : x = c := by
  unfold isalpha at hc
  simp only [Bool.or_eq_false_iff, Bool.and_eq_false_iff, decide_eq_false_iff_not] at hc
  unfold litMatch at h
  simp only [Bool.or_eq_true, decide_eq_true_eq, Bool.and_eq_true] at h
  rcases h with h | h
  · have h1 : toupper c = c := by unfold toupper; rw [if_neg (by omega)]
    rw [h1] at h
    by_cases hr : 97 ≤ x.toNat ∧ x.toNat ≤ 122
    · have h2 := toupper_toNat hr
      rw [← h] at h2
      omega
    · unfold toupper at h
      rw [if_neg hr] at h
      exact h.symm
  · exact absurd h.1 hs

/-- Either the character does not occur at top level, or there is a first occurrence. -/
theorem first_top (c : Char) (s : Str) : ∀ q : Quote, NoTop c q s ∨
    ∃ a x r, s = a ++ x :: r ∧ NoTop c q a ∧ q.run a = Quote.zero ∧ litMatch c x = true := by
  induction s with
  | nil => intro q; exact .inl (by intro p x r e; simp at e)
  | cons d s ih =>
    intro q
    by_cases hd : q = Quote.zero ∧ litMatch c d = true
    · exact .inr ⟨[], d, s, rfl, by intro p x r e; simp at e, hd.1, hd.2⟩
    · have hcons : ∀ s', NoTop c (q.step d) s' → NoTop c q (d :: s') := by
        intro s' h p x r e hx
        cases p with
        | nil =>
          simp only [List.nil_append, List.cons.injEq] at e
          exact fun hz => hd ⟨hz, by rw [e.1]; exact hx⟩
        | cons y p =>
          simp only [List.cons_append, List.cons.injEq] at e
          rw [Quote.run_cons, ← e.1]
          exact h p x r e.2 hx
      rcases ih (q.step d) with h | ⟨a, x, r, e, h1, h2, h3⟩
      · exact .inl (hcons s h)
      · exact .inr ⟨d :: a, x, r, by rw [e]; rfl, hcons a h1, h2, h3⟩

/-- Cut off the blanks at the end. -/
theorem trail_split (a : Str) : ∃ a0 bl, a = a0 ++ bl ∧ Trail a0 ∧ Blank bl := by
  induction a with
  | nil => exact ⟨[], [], rfl, .nil, .nil⟩
  | cons c a ih =>
    obtain ⟨a0, bl, rfl, h1, h2⟩ := ih
    by_cases h : a0 = []
    · subst h
      by_cases hc : isblank c = true
      · refine ⟨[], c :: bl, rfl, .nil, ?_⟩
        intro x hx
        rcases List.mem_cons.1 hx with rfl | hx
        · exact hc
        · exact h2 x hx
      · refine ⟨[c], bl, rfl, ?_, h2⟩
        intro x r e
        have := congrArg List.getLast? e
        simp at this
        subst this
        simpa using hc
    · exact ⟨c :: a0, bl, rfl, Trail.append (a := [c]) h1 h, h2⟩

/-- A pending escape only occurs inside quotes. -/
def Quote.Good (q : Quote) : Prop := q.esc = true → q.sq = true ∨ q.dq = true
theorem Quote.Good.step {q : Quote} (h : q.Good) (c : Char) : (q.step c).Good := by
  obtain ⟨sq, dq, esc, d⟩ := q
  unfold Quote.step
  intro he
  simp only at he ⊢
  split at he
  · simp at he
  · split at he
    · split at he
      · simp_all
      · simp_all
    · split at he
      · split at he <;> simp_all
      · split at he
        · split at he <;> simp_all
        · split at he
          · split at he <;> simp_all
          · split at he
            · split at he <;> simp_all
            · simp_all
theorem Quote.Good.run {q : Quote} (h : q.Good) (s : Str) : (q.run s).Good := by
  induction s generalizing q with
  | nil => exact h
  | cons c s ih => exact ih (h.step c)
theorem Quote.Good.zero : Quote.zero.Good := by intro h; cases h
/-- Blanks do not close quotes or parentheses. -/
theorem Quote.Good.blank {q : Quote} (h : q.Good) {b : Str} (hb : Blank b) (hz : q.run b = Quote.zero) :
    q = Quote.zero := by
  induction b generalizing q with
  | nil => exact hz
  | cons c b ih =>
    have h1 := ih (h.step c) hb.cons.2 hz
    obtain ⟨sq, dq, esc, d⟩ := q
    rcases isblank_eq hb.cons.1 with rfl | rfl <;>
    · cases esc with
      | false => simpa [Quote.step] using h1
      | true =>
        simp only [Quote.step, if_true, Quote.zero, Quote.mk.injEq] at h1
        have := h rfl
        simp only at this
        rw [h1.1, h1.2.1] at this
        simp at this

/-- The first top-level occurrence, without the blanks before it. -/
theorem first_sep (c : Char) (s : Str) : NoTop c Quote.zero s ∨
    ∃ a bl x r, s = a ++ (bl ++ x :: r) ∧ NoTop c Quote.zero a ∧ Quote.zero.run a = Quote.zero ∧ Trail a ∧
      Blank bl ∧ litMatch c x = true := by
  rcases first_top c s Quote.zero with h | ⟨a, x, r, e, h1, h2, h3⟩
  · exact .inl h
  · obtain ⟨a0, bl, rfl, g1, g2⟩ := trail_split a
    refine .inr ⟨a0, bl, x, r, by rw [e, List.append_assoc], ?_, ?_, g1, g2, h3⟩
    · intro p y r' e' hy
      exact h1 p y (r' ++ bl) (by rw [e']; simp) hy
    · rw [Quote.run_append] at h2
      exact (Quote.Good.zero.run a0).blank g2 h2

/-! ### Balanced texts -/

theorem isblank_iff {c : Char} : isblank c = true ↔ Spec.IsBlank c :=
  ⟨isblank_eq, by rintro (rfl | rfl) <;> rfl⟩
theorem Blank.of {s : Str} (h : ∀ c ∈ s, Spec.IsBlank c) : Blank s := fun c hc => isblank_iff.2 (h c hc)
theorem Lead.of {s : Str} (h : ∀ c r, s = c :: r → ¬ Spec.IsBlank c) : Lead s := fun c r e => by
  cases hb : isblank c with
  | false => rfl
  | true => exact absurd (isblank_iff.1 hb) (h c r e)
theorem Trail.of {s : Str} (h : ∀ c r, s = r ++ [c] → ¬ Spec.IsBlank c) : Trail s := fun c r e => by
  cases hb : isblank c with
  | false => rfl
  | true => exact absurd (isblank_iff.1 hb) (h c r e)

/-- Outside quotes, at parenthesis depth `d`. -/
def Quote.at (d : Int) : Quote := { depth := d }
theorem Quote.at_zero : Quote.at 0 = Quote.zero := rfl
/-- Inside a quoted text at depth `d`. -/
def Quote.inside (q : Char) (d : Int) : Quote := { sq := q = '\'', dq := q = '"', depth := d }
def Quote.escd (q : Char) (d : Int) : Quote := { sq := q = '\'', dq := q = '"', esc := true, depth := d }

theorem quoted_run {q : Char} (hq : q = '\'' ∨ q = '"') {d : Int} {t : Str} (h : Spec.Quoted q t) :
    (Quote.inside q d).run t = Quote.inside q d := by
  induction h with
  | nil => rfl
  | plain c s h1 h2 _ ih =>
    rw [Quote.run_cons]
    have : (Quote.inside q d).step c = Quote.inside q d := by
      rcases hq with rfl | rfl <;> simp [Quote.step, Quote.inside, h1, h2]
    rw [this, ih]
  | escaped c s _ ih =>
    rw [Quote.run_cons, Quote.run_cons]
    have : ((Quote.inside q d).step '\\').step c = Quote.inside q d := by
      rcases hq with rfl | rfl <;> simp [Quote.step, Quote.inside]
    rw [this, ih]

theorem quoted_nz {q : Char} (hq : q = '\'' ∨ q = '"') {d : Int} {t : Str} (h : Spec.Quoted q t) :
    ∀ p r, t = p ++ r → (Quote.inside q d).run p ≠ Quote.zero := by
  induction h with
  | nil =>
    intro p r e
    obtain ⟨rfl, _⟩ := List.append_eq_nil_iff.1 e.symm
    rcases hq with rfl | rfl <;> simp [Quote.inside, Quote.zero]
  | plain c s h1 h2 _ ih =>
    intro p r e
    cases p with
    | nil => rcases hq with rfl | rfl <;> simp [Quote.inside, Quote.zero]
    | cons x p =>
      simp only [List.cons_append, List.cons.injEq] at e
      rw [Quote.run_cons, ← e.1]
      have : (Quote.inside q d).step c = Quote.inside q d := by
        rcases hq with rfl | rfl <;> simp [Quote.step, Quote.inside, h1, h2]
      rw [this]
      exact ih p r e.2
  | escaped c s _ ih =>
    intro p r e
    cases p with
    | nil => rcases hq with rfl | rfl <;> simp [Quote.inside, Quote.zero]
    | cons x p =>
      simp only [List.cons_append, List.cons.injEq] at e
      cases p with
      | nil => rw [← e.1]; rcases hq with rfl | rfl <;> simp [Quote.step, Quote.inside, Quote.zero]
      | cons y p =>
        simp only [List.cons_append, List.cons.injEq] at e
        rw [Quote.run_cons, Quote.run_cons, ← e.1, ← e.2.1]
        have : ((Quote.inside q d).step '\\').step c = Quote.inside q d := by
          rcases hq with rfl | rfl <;> simp [Quote.step, Quote.inside]
        rw [this]
        exact ih p r e.2.2

theorem at_plain {d : Int} {c : Char} (h1 : c ≠ '\'') (h2 : c ≠ '"') (h3 : c ≠ '(') (h4 : c ≠ ')') :
    (Quote.at d).step c = Quote.at d := by
  simp [Quote.step, Quote.at, h1, h2, h3, h4]
theorem at_open {d : Int} : (Quote.at d).step '(' = Quote.at (d + 1) := by simp [Quote.step, Quote.at]
theorem at_close {d : Int} : (Quote.at d).step ')' = Quote.at (d - 1) := by simp [Quote.step, Quote.at]
theorem at_quote {d : Int} {q : Char} (hq : q = '\'' ∨ q = '"') : (Quote.at d).step q = Quote.inside q d := by
  rcases hq with rfl | rfl <;> simp [Quote.step, Quote.at, Quote.inside]
theorem inside_quote {d : Int} {q : Char} (hq : q = '\'' ∨ q = '"') : (Quote.inside q d).step q = Quote.at d := by
  rcases hq with rfl | rfl <;> simp [Quote.step, Quote.at, Quote.inside]

theorem Bal.run {allow : Char → Bool} {s : Str} (h : Spec.Bal allow s) :
    ∀ d, (Quote.at d).run s = Quote.at d := by
  induction h with
  | nil => intro d; rfl
  | plain allow c s h1 h2 h3 h4 _ _ ih => intro d; rw [Quote.run_cons, at_plain h1 h2 h3 h4, ih]
  | paren allow t s _ _ ih1 ih2 =>
    intro d
    rw [Quote.run_cons, at_open, Quote.run_append, ih1, Quote.run_cons, at_close, Int.add_sub_cancel, ih2]
  | quoted allow q t s hq ht _ ih =>
    intro d
    rw [Quote.run_cons, at_quote hq, Quote.run_append, quoted_run hq ht, Quote.run_cons, inside_quote hq, ih]

/-- Where a split point of `a ++ b` lies. -/
theorem append_split {a b p r : Str} (h : a ++ b = p ++ r) :
    (∃ r', a = p ++ r' ∧ r = r' ++ b) ∨ (∃ p', b = p' ++ r ∧ p = a ++ p') := by
  rcases List.append_eq_append_iff.1 h with ⟨x, h1, h2⟩ | ⟨x, h1, h2⟩
  · exact .inr ⟨x, h2, h1⟩
  · exact .inl ⟨x, h1, h2⟩

theorem Bal.nz {allow : Char → Bool} {s : Str} (h : Spec.Bal allow s) :
    ∀ d : Int, 1 ≤ d → ∀ p r, s = p ++ r → (Quote.at d).run p ≠ Quote.zero := by
  induction h with
  | nil =>
    intro d hd p r e
    obtain ⟨rfl, _⟩ := List.append_eq_nil_iff.1 e.symm
    simp [Quote.at, Quote.zero]; omega
  | plain allow c s h1 h2 h3 h4 _ _ ih =>
    intro d hd p r e
    cases p with
    | nil => simp [Quote.at, Quote.zero]; omega
    | cons x p =>
      simp only [List.cons_append, List.cons.injEq] at e
      rw [Quote.run_cons, ← e.1, at_plain h1 h2 h3 h4]
      exact ih d hd p r e.2
  | paren allow t s ht _ ih1 ih2 =>
    intro d hd p r e
    cases p with
    | nil => simp [Quote.at, Quote.zero]; omega
    | cons x p =>
      simp only [List.cons_append, List.cons.injEq] at e
      rw [Quote.run_cons, ← e.1, at_open]
      rcases append_split e.2 with ⟨r', e1, _⟩ | ⟨p', e1, rfl⟩
      · exact ih1 (d + 1) (by omega) p r' e1
      · rw [Quote.run_append, Bal.run ht]
        cases p' with
        | nil => simp [Quote.at, Quote.zero]; omega
        | cons y p' =>
          simp only [List.cons_append, List.cons.injEq] at e1
          rw [Quote.run_cons, ← e1.1, at_close, Int.add_sub_cancel]
          exact ih2 d hd p' r e1.2
  | quoted allow q t s hq ht _ ih =>
    intro d hd p r e
    cases p with
    | nil => simp [Quote.at, Quote.zero]; omega
    | cons x p =>
      simp only [List.cons_append, List.cons.injEq] at e
      rw [Quote.run_cons, ← e.1, at_quote hq]
      rcases append_split e.2 with ⟨r', e1, _⟩ | ⟨p', e1, rfl⟩
      · exact quoted_nz hq ht p r' e1
      · rw [Quote.run_append, quoted_run hq ht]
        cases p' with
        | nil => exact quoted_nz hq .nil [] [] rfl
        | cons y p' =>
          simp only [List.cons_append, List.cons.injEq] at e1
          rw [Quote.run_cons, ← e1.1, inside_quote hq]
          exact ih d hd p' r e1.2

/-- A separator that is neither quote nor parenthesis and is not accepted by `allow` does not occur at top
    level. -/
theorem Bal.noTop {allow : Char → Bool} {s : Str} (h : Spec.Bal allow s) (c : Char)
    (hc : ∀ x, litMatch c x = true → allow x = false ∧ x ≠ '\'' ∧ x ≠ '"' ∧ x ≠ '(' ∧ x ≠ ')') :
    NoTop c Quote.zero s := by
  rw [← Quote.at_zero]
  induction h with
  | nil => intro p x r e; simp at e
  | plain allow d s h1 h2 h3 h4 ha _ ih =>
    intro p x r e hx
    cases p with
    | nil =>
      simp only [List.nil_append, List.cons.injEq] at e
      rw [← e.1] at hx
      rw [(hc d hx).1] at ha
      cases ha
    | cons y p =>
      simp only [List.cons_append, List.cons.injEq] at e
      rw [Quote.run_cons, ← e.1, at_plain h1 h2 h3 h4]
      exact ih hc p x r e.2 hx
  | paren allow t s ht _ ih1 ih2 =>
    intro p x r e hx
    cases p with
    | nil =>
      simp only [List.nil_append, List.cons.injEq] at e
      rw [← e.1] at hx
      exact absurd rfl (hc _ hx).2.2.2.1
    | cons y p =>
      simp only [List.cons_append, List.cons.injEq] at e
      rw [Quote.run_cons, ← e.1, at_open]
      rcases append_split e.2 with ⟨r', e1, _⟩ | ⟨p', e1, rfl⟩
      · exact Bal.nz ht _ (by omega) p r' e1
      · rw [Quote.run_append, Bal.run ht]
        cases p' with
        | nil => simp [Quote.at, Quote.zero]
        | cons y p' =>
          simp only [List.cons_append, List.cons.injEq] at e1
          rw [Quote.run_cons, ← e1.1, at_close, Int.add_sub_cancel]
          exact ih2 hc p' x r e1.2 hx
  | quoted allow q t s hq ht _ ih =>
    intro p x r e hx
    cases p with
    | nil =>
      simp only [List.nil_append, List.cons.injEq] at e
      rw [← e.1] at hx
      have := (hc _ hx).2
      rcases hq with rfl | rfl
      · exact absurd rfl this.1
      · exact absurd rfl this.2.1
    | cons y p =>
      simp only [List.cons_append, List.cons.injEq] at e
      rw [Quote.run_cons, ← e.1, at_quote hq]
      rcases append_split e.2 with ⟨r', e1, _⟩ | ⟨p', e1, rfl⟩
      · exact quoted_nz hq ht p r' e1
      · rw [Quote.run_append, quoted_run hq ht]
        cases p' with
        | nil => exact quoted_nz hq .nil [] [] rfl
        | cons y p' =>
          simp only [List.cons_append, List.cons.injEq] at e1
          rw [Quote.run_cons, ← e1.1, inside_quote hq]
          exact ih hc p' x r e1.2 hx

/-! ### `?_c_?` -/

theorem splitPat_sep {c : Char} (hc : c ≠ '?') : splitPat ['?', '_', c, '_', '?'] = ([], [['_', c, '_'], []]) := by
  simp [splitPat, hc]

theorem matchSeg_nil (q : Quote) (s : Str) : matchSeg q false [] s = .ok s := by simp [matchSeg]

/-- `?_c_?` on a text with a separator at top level. -/
theorem filter_sep {c x : Char} {a bl r : Str} (hq : c ≠ '?') (hu : c ≠ '_') (hcb : isblank c = false)
    (ha : NoTop c Quote.zero a) (hz : Quote.zero.run a = Quote.zero) (hl : Trail a) (hbl : Blank bl)
    (hx : litMatch c x = true) :
    ∃ w k, filter (a ++ (bl ++ x :: r)) ['?', '_', c, '_', '?'] = ⟨true, [a, skipBlanks r], w, k⟩ ∧
      w = 2 + a.length + (skipBlanks r).length := by
  unfold filter
  rw [splitPat_sep hq]
  simp only [List.isEmpty_cons, matchSeg_nil]
  rw [filterWild]
  · simp only [List.isEmpty_cons]
    rw [seek_sep (rest := skipBlanks r) hu hcb hbl hx (by rw [matchSeg_blank, matchSeg_nil]) ha hz hl]
    simp only [filterWild]
    exact ⟨_, _, rfl, by omega⟩
  · intro h; cases h
theorem filter_sep_none {c : Char} {s : Str} (hq : c ≠ '?') (hu : c ≠ '_') (h : NoTop c Quote.zero s) :
    (filter s ['?', '_', c, '_', '?']).ok = false ∧ (filter s ['?', '_', c, '_', '?']).wrote ≤ 1 + s.length := by
  unfold filter
  rw [splitPat_sep hq]
  simp only [List.isEmpty_cons, matchSeg_nil]
  rw [filterWild]
  · simp only [List.isEmpty_cons]
    obtain ⟨n, hn, h1⟩ := seek_sep_none (e := false) (tail := ['_']) hu h
    rw [h1]
    simp only
    exact ⟨trivial, by omega⟩
  · intro h; cases h

/-! ### Running `filter` -/

/-- The result of a computation is that of the pattern buffer overflowing. -/
def noRoom (s : St) : Res α := .stop (.ub .filterBuffer) s

theorem filterC_run (s pat : Str) (st : St) : filterC s pat st =
    if bufSize ≤ st.bufpos + (filter s pat).wrote then noRoom st
    else if (filter s pat).ok then
      .ok (some ((filter s pat).caps, (filter s pat).consumed)) { st with bufpos := st.bufpos + (filter s pat).wrote }
    else .ok none st := by
  unfold filterC
  change (if bufSize ≤ st.bufpos + (filter s pat).wrote then (ubM .filterBuffer : M (Option (List Str × Nat)))
    else _) st = _
  split
  · rfl
  · split <;> rfl

theorem run_ok {m : M α} {f : α → M β} {s s' : St} {a : α} (h : m s = .ok a s') : (m >>= f) s = f a s' := by
  change M.bind m f s = _
  unfold M.bind; rw [h]
theorem run_err {m : M α} {f : α → M β} {s s' : St} (h : m s = .err s') : (m >>= f) s = .err s' := by
  change M.bind m f s = _
  unfold M.bind; rw [h]
theorem run_stop {m : M α} {f : α → M β} {s s' : St} {w : Stop} (h : m s = .stop w s') :
    (m >>= f) s = .stop w s' := by
  change M.bind m f s = _
  unfold M.bind; rw [h]

theorem filter2_hit {s pat a b : Str} {w k : Nat} (h : filter s pat = ⟨true, [a, b], w, k⟩) (st : St) :
    filter2 s pat st = if bufSize ≤ st.bufpos + w then noRoom st
      else .ok (some (a, b)) { st with bufpos := st.bufpos + w } := by
  unfold filter2
  have hr := filterC_run s pat st
  rw [h] at hr
  split
  · rename_i hb; rw [if_pos hb] at hr; exact run_stop hr
  · rename_i hb; rw [if_neg hb, if_pos rfl] at hr; exact (run_ok hr).trans rfl
theorem filter2_miss {s pat : Str} (h : (filter s pat).ok = false) (st : St) :
    filter2 s pat st = if bufSize ≤ st.bufpos + (filter s pat).wrote then noRoom st else .ok none st := by
  unfold filter2
  have hr := filterC_run s pat st
  rw [h] at hr
  split
  · rename_i hb; rw [if_pos hb] at hr; exact run_stop hr
  · rename_i hb; rw [if_neg hb, if_neg (by simp)] at hr; exact (run_ok hr).trans rfl
theorem filter1_hit {s pat a : Str} {w k : Nat} (h : filter s pat = ⟨true, [a], w, k⟩) (st : St) :
    filter1 s pat st = if bufSize ≤ st.bufpos + w then noRoom st
      else .ok (some a) { st with bufpos := st.bufpos + w } := by
  unfold filter1
  have hr := filterC_run s pat st
  rw [h] at hr
  split
  · rename_i hb; rw [if_pos hb] at hr; exact run_stop hr
  · rename_i hb; rw [if_neg hb, if_pos rfl] at hr; exact (run_ok hr).trans rfl
theorem filter1_miss {s pat : Str} (h : (filter s pat).ok = false) (st : St) :
    filter1 s pat st = if bufSize ≤ st.bufpos + (filter s pat).wrote then noRoom st else .ok none st := by
  unfold filter1
  have hr := filterC_run s pat st
  rw [h] at hr
  split
  · rename_i hb; rw [if_pos hb] at hr; exact run_stop hr
  · rename_i hb; rw [if_neg hb, if_neg (by simp)] at hr; exact (run_ok hr).trans rfl
theorem filter0_run (s pat : Str) (st : St) : filter0 s pat st =
    if bufSize ≤ st.bufpos + (filter s pat).wrote then noRoom st
    else if (filter s pat).ok then .ok true { st with bufpos := st.bufpos + (filter s pat).wrote }
    else .ok false st := by
  unfold filter0
  have hr := filterC_run s pat st
  split
  · rename_i hb; rw [if_pos hb] at hr; exact run_stop hr
  · rename_i hb
    rw [if_neg hb] at hr
    split
    · rename_i ho; rw [if_pos ho] at hr; exact (run_ok hr).trans rfl
    · rename_i ho; rw [if_neg ho] at hr; exact (run_ok hr).trans rfl

end Crasm

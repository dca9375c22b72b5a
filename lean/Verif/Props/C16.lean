import Verif.Proof.FilterL
import Verif.Props.C14
import Verif.Model.Main

/-! # C16: symbol names are case-insensitive -/

namespace Spec

/-- The names differ only in letter case. -/
def SameName (a b : List Char) : Prop := a.map Char.toUpper = b.map Char.toUpper

end Spec

namespace Crasm

/-- Characters equal up to case are equal, or both letters. -/
theorem toupper_cases {c d : Char} (h : toupper c = toupper d) :
    c = d ∨ (isalpha c = true ∧ isalpha d = true) := by
  by_cases h1 : 97 ≤ c.toNat ∧ c.toNat ≤ 122 <;> by_cases h2 : 97 ≤ d.toNat ∧ d.toNat ≤ 122
  · right
    simp [isalpha, h1, h2]
  · right
    have e := toupper_toNat h1
    rw [h] at e
    unfold toupper at e
    rw [if_neg h2] at e
    unfold isalpha
    simp only [Bool.or_eq_true, Bool.and_eq_true, decide_eq_true_eq]
    omega
  · right
    have e := toupper_toNat h2
    rw [← h] at e
    unfold toupper at e
    rw [if_neg h1] at e
    unfold isalpha
    simp only [Bool.or_eq_true, Bool.and_eq_true, decide_eq_true_eq]
    omega
  · left
    unfold toupper at h
    rwa [if_neg h1, if_neg h2] at h

/-- A test that treats all letters alike does not see the case. -/
theorem ci_test {β : Type} (f : Char → β) (v : β) (hf : ∀ c, isalpha c = true → f c = v) {c d : Char}
    (h : toupper c = toupper d) : f c = f d := by
  rcases toupper_cases h with rfl | ⟨h1, h2⟩
  · rfl
  · rw [hf c h1, hf d h2]

theorem alpha_ne {c d : Char} (h : isalpha c = true) (hd : isalpha d = false) : c ≠ d := by
  rintro rfl; rw [h] at hd; cases hd

theorem ci_isblank {c d : Char} (h : toupper c = toupper d) : isblank c = isblank d :=
  ci_test isblank false (fun c hc => by
    cases hb : isblank c with
    | false => rfl
    | true => rcases isblank_eq hb with rfl | rfl <;> exact absurd hc (by decide)) h
theorem ci_step (q : Quote) {c d : Char} (h : toupper c = toupper d) : q.step c = q.step d :=
  ci_test q.step (if q.esc then { q with esc := false } else q) (fun c hc => by
    unfold Quote.step
    simp only [alpha_ne hc (d := '\\') (by decide), alpha_ne hc (d := '\'') (by decide),
      alpha_ne hc (d := '"') (by decide), alpha_ne hc (d := '(') (by decide), alpha_ne hc (d := ')') (by decide),
      if_false]) h
theorem ci_litMatch (p : Char) {c d : Char} (h : toupper c = toupper d) : litMatch p c = litMatch p d := by
  unfold litMatch
  rw [h]
  congr 2
  rcases toupper_cases h with rfl | ⟨h1, h2⟩
  · rfl
  · simp [alpha_ne h1 (d := '\t') (by decide), alpha_ne h2 (d := '\t') (by decide)]

/-- Equal up to case. -/
def CI (a b : Str) : Prop := a.map toupper = b.map toupper

theorem CI.of {a b : Str} (h : Spec.SameName a b) : CI a b := by
  have e : (toupper : Char → Char) = Char.toUpper := funext toupper_eq
  unfold CI
  rw [e]
  exact h
theorem CI.nil_iff {a b : Str} (h : CI a b) : a = [] ↔ b = [] := by
  cases a <;> cases b <;> simp [CI] at h ⊢
theorem CI.len {a b : Str} (h : CI a b) : a.length = b.length := by
  have := congrArg List.length h
  simpa using this
theorem CI.cons_iff {c d : Char} {a b : Str} : CI (c :: a) (d :: b) ↔ toupper c = toupper d ∧ CI a b := by
  simp [CI]

theorem CI.skip {a b : Str} (h : CI a b) : CI (skipBlanks a) (skipBlanks b) := by
  induction a generalizing b with
  | nil => rw [h.nil_iff.1 rfl]; rfl
  | cons c a ih =>
    cases b with
    | nil => simp [CI] at h
    | cons d b =>
      have h' := CI.cons_iff.1 h
      rw [skipBlanks, skipBlanks, ci_isblank h'.1]
      split
      · exact ih h'.2
      · exact h

/-- Equal outcomes up to case. -/
def SegCI : SegRes → SegRes → Prop
  | .ok a, .ok b => CI a b
  | .bad x, .bad y => x = y
  | _, _ => False

theorem ci_matchSeg (q : Quote) (e : Bool) (seg : Str) : ∀ {a b : Str}, CI a b →
    SegCI (matchSeg q e seg a) (matchSeg q e seg b) := by
  induction seg with
  | nil =>
    intro a b h
    rw [matchSeg, matchSeg]
    cases e with
    | false => exact h
    | true =>
      simp only [if_true, h.nil_iff]
      split
      · rfl
      · have : a.isEmpty = b.isEmpty := by
          cases a <;> cases b <;> simp [CI] at h ⊢
        exact this
  | cons p seg ih =>
    intro a b h
    by_cases hp : p = '_'
    · subst hp
      rw [matchSeg_blank, matchSeg_blank]
      exact ih h.skip
    · cases a with
      | nil =>
        rw [h.nil_iff.1 rfl]
        rw [matchSeg_end _ _ hp]
        rfl
      | cons c a =>
        cases b with
        | nil => simp [CI] at h
        | cons d b =>
          have h' := CI.cons_iff.1 h
          rw [matchSeg_lit _ _ hp, matchSeg_lit _ _ hp, ci_litMatch p h'.1]
          split
          · exact ih h'.2
          · rfl

def SeekCI : Except Nat (Str × Str × Quote) → Except Nat (Str × Str × Quote) → Prop
  | .ok (a, r, q), .ok (a', r', q') => CI a a' ∧ CI r r' ∧ q = q'
  | .error x, .error y => x = y
  | _, _ => False

theorem ci_seek (e : Bool) (seg : Str) : ∀ (q : Quote) {a b : Str}, CI a b →
    SeekCI (seek e seg q a) (seek e seg q b) := by
  intro q a
  induction a generalizing q with
  | nil =>
    intro b h
    rw [h.nil_iff.1 rfl]
    cases hs : seek e seg q [] with
    | error n => rfl
    | ok v => exact ⟨rfl, rfl, rfl⟩
  | cons c a ih =>
    intro b h
    cases b with
    | nil => simp [CI] at h
    | cons d b =>
      have h' := CI.cons_iff.1 h
      have hm := ci_matchSeg q e seg h
      rw [seek, seek]
      revert hm
      cases matchSeg q e seg (c :: a) with
      | ok r =>
        cases matchSeg q e seg (d :: b) with
        | ok r' => intro hm; exact ⟨rfl, hm, rfl⟩
        | bad y => intro hm; exact hm.elim
      | bad x =>
        cases matchSeg q e seg (d :: b) with
        | ok r' => intro hm; exact hm.elim
        | bad y =>
          intro hm
          cases (show x = y from hm)
          cases x with
          | true => rfl
          | false =>
            simp only
            have hi := ih (q.step c) h'.2
            rw [ci_step q h'.1] at hi ⊢
            revert hi
            cases seek e seg (q.step d) a with
            | error n =>
              cases seek e seg (q.step d) b with
              | error n' => intro hi; exact congrArg (· + 1) (show n = n' from hi)
              | ok v => intro hi; exact hi.elim
            | ok v =>
              cases seek e seg (q.step d) b with
              | error n' => intro hi; exact hi.elim
              | ok v' =>
                obtain ⟨x1, x2, x3⟩ := v
                obtain ⟨y1, y2, y3⟩ := v'
                intro hi
                exact ⟨CI.cons_iff.2 ⟨h'.1, hi.1⟩, hi.2.1, hi.2.2⟩

def CapsCI : List Str → List Str → Prop
  | [], [] => True
  | a :: as, b :: bs => CI a b ∧ CapsCI as bs
  | _, _ => False

def OutCI (f g : FilterOut) : Prop := f.ok = g.ok ∧ f.wrote = g.wrote ∧ f.consumed = g.consumed ∧ CapsCI f.caps g.caps

theorem ci_filterWild (total : Nat) (segs : List Str) : ∀ (q : Quote) {a b : Str}, CI a b →
    OutCI (filterWild total segs q a) (filterWild total segs q b) := by
  induction segs with
  | nil => intro q a b h; exact ⟨rfl, rfl, rfl, trivial⟩
  | cons seg segs ih =>
    intro q a b h
    by_cases hlast : seg = [] ∧ segs = []
    · obtain ⟨rfl, rfl⟩ := hlast
      simp only [filterWild]
      exact ⟨rfl, by simp only [h.len], by simp only [h.len], h, trivial⟩
    · have hr := fun q s => filterWild.eq_3 total q s seg segs (fun h1 h2 => hlast ⟨h1, h2⟩)
      rw [hr, hr]
      have hs := ci_seek segs.isEmpty seg q h
      revert hs
      cases seek segs.isEmpty seg q a with
      | error n =>
        cases seek segs.isEmpty seg q b with
        | error n' =>
          intro hs
          cases (show n = n' from hs)
          exact ⟨rfl, rfl, by simp only [h.len], trivial⟩
        | ok v => intro hs; exact hs.elim
      | ok v =>
        cases seek segs.isEmpty seg q b with
        | error n' => intro hs; exact hs.elim
        | ok v' =>
          obtain ⟨x1, x2, x3⟩ := v
          obtain ⟨y1, y2, y3⟩ := v'
          rintro ⟨h1, h2, h3⟩
          cases h3
          obtain ⟨i1, i2, i3, i4⟩ := ih x3 h2
          simp only
          exact ⟨i1, by simp only [h1.len, i2], by simp only [h.len, i3], h1, i4⟩

theorem ci_filter (pat : Str) {a b : Str} (h : CI a b) : OutCI (filter a pat) (filter b pat) := by
  unfold filter
  generalize splitPat pat = p
  obtain ⟨seg0, segs⟩ := p
  simp only
  have hm := ci_matchSeg Quote.zero segs.isEmpty seg0 h
  revert hm
  cases matchSeg Quote.zero segs.isEmpty seg0 a with
  | bad x =>
    cases matchSeg Quote.zero segs.isEmpty seg0 b with
    | bad y => intro _; exact ⟨rfl, rfl, rfl, trivial⟩
    | ok r => intro hm; exact hm.elim
  | ok r =>
    cases matchSeg Quote.zero segs.isEmpty seg0 b with
    | bad y => intro hm; exact hm.elim
    | ok r' =>
      intro hm
      simp only
      rw [h.len]
      exact ci_filterWild _ _ _ hm

theorem ci_canon (seg : Nat) {a b : Str} (h : CI a b) : canon seg a = canon seg b := by
  unfold canon
  rw [show a.map toupper = b.map toupper from h]
  congr 2
  cases a with
  | nil => rw [h.nil_iff.1 rfl]
  | cons c a =>
    cases b with
    | nil => simp [CI] at h
    | cons d b =>
      rcases toupper_cases (CI.cons_iff.1 h).1 with rfl | ⟨h1, h2⟩
      · by_cases hc : c = '.'
        · subst hc; rfl
        · simp [hc]
      · simp [alpha_ne h1 (d := '.') (by decide), alpha_ne h2 (d := '.') (by decide)]

theorem ci_star {a b : Str} (h : CI a b) : a = starKey ↔ b = starKey := by
  have : ∀ {a b : Str}, CI a b → a = starKey → b = starKey := by
    intro a b h ha
    subst ha
    cases b with
    | nil => simp [CI, starKey] at h
    | cons d b =>
      have h' := CI.cons_iff.1 h
      rw [h'.2.nil_iff.1 rfl]
      rcases toupper_cases h'.1 with rfl | ⟨h1, -⟩
      · rfl
      · exact absurd h1 (by decide)
  exact ⟨this h, this (show CI b a from Eq.symm h)⟩

theorem ci_all (f : Char → Bool) (hf : ∀ c, isalpha c = true → f c = true) {a b : Str} (h : CI a b) :
    a.all f = b.all f := by
  induction a generalizing b with
  | nil => rw [h.nil_iff.1 rfl]
  | cons c a ih =>
    cases b with
    | nil => simp [CI] at h
    | cons d b =>
      have h' := CI.cons_iff.1 h
      rw [List.all_cons, List.all_cons, ih h'.2, ci_test f true hf h'.1]

theorem ci_checklabel {a b : Str} (h : CI a b) : checklabel a = checklabel b := by
  unfold checklabel
  rw [h.len]
  by_cases hl : LABLEN < b.length
  · simp only [hl, if_true]
  · simp only [hl, if_false]
    have hs : (a = c!"*") = (b = c!"*") := propext (ci_star h)
    simp only [hs]
    split
    · rfl
    · cases a with
      | nil => rw [h.nil_iff.1 rfl]
      | cons c a =>
        cases b with
        | nil => simp [CI] at h
        | cons d b =>
          have h' := CI.cons_iff.1 h
          have e1 : (isalpha c || decide (c = '_') || decide (c = '.')) =
              (isalpha d || decide (d = '_') || decide (d = '.')) :=
            ci_test (fun c => isalpha c || decide (c = '_') || decide (c = '.')) true (fun c hc => by simp [hc]) h'.1
          have e2 : a.all (fun c => isalnum c || decide (c = '_') || decide (c = '.')) =
              b.all (fun c => isalnum c || decide (c = '_') || decide (c = '.')) :=
            ci_all _ (fun c hc => by simp [isalnum, hc]) h'.2
          simp only [e1, e2]

theorem ci_findlabel {a b : Str} (h : CI a b) : findlabel a = findlabel b := by
  unfold findlabel searchlabel
  simp only [fun s : St => ci_canon s.segment h]
theorem ci_deflabel {a b : Str} (h : CI a b) : deflabel a = deflabel b := by
  unfold deflabel
  simp only [fun s : St => ci_canon s.segment h]

theorem CI.take {a b : Str} (h : CI a b) (n : Nat) : CI (a.take n) (b.take n) := by
  unfold CI
  rw [List.map_take, List.map_take, show a.map toupper = b.map toupper from h]

theorem filter2_eq (s pat : Str) (st : St) : filter2 s pat st =
    if bufSize ≤ st.bufpos + (filter s pat).wrote then noRoom st
    else if (filter s pat).ok then
      .ok (match (filter s pat).caps with | [a, b] => some (a, b) | _ => none)
        { st with bufpos := st.bufpos + (filter s pat).wrote }
    else .ok none st := by
  unfold filter2
  have hr := filterC_run s pat st
  split
  · rename_i hb; rw [if_pos hb] at hr; exact run_stop hr
  · rename_i hb
    rw [if_neg hb] at hr
    split
    · rename_i ho
      rw [if_pos ho] at hr
      refine (run_ok hr).trans ?_
      generalize (filter s pat).caps = c
      match c with
      | [] => rfl
      | [a] => rfl
      | [a, b] => rfl
      | a :: b :: d :: e => rfl
    · rename_i ho; rw [if_neg ho] at hr; exact (run_ok hr).trans rfl

/-- The mnemonic is looked up regardless of case. -/
theorem ci_findmnemo {a b : Str} (h : CI a b) : findmnemo a = findmnemo b := by
  unfold findmnemo searchlabel
  funext s
  refine (run_ok (m := getS) (s' := s) rfl).trans (Eq.trans ?_ (run_ok (m := getS) (s' := s) rfl).symm)
  rw [ci_canon s.segment h]
  cases s.tree.find (canon s.segment b) with
  | some l => rfl
  | none =>
    simp only
    obtain ⟨h1, h2, h3, h4⟩ := ci_filter c!"?.?" h
    have ha := filter2_eq a c!"?.?" s
    have hb := filter2_eq b c!"?.?" s
    rw [h1, h2] at ha
    by_cases hfull : bufSize ≤ s.bufpos + (filter b c!"?.?").wrote
    · rw [if_pos hfull] at ha hb
      exact (run_stop ha).trans (run_stop hb).symm
    · rw [if_neg hfull] at ha hb
      by_cases hok : (filter b c!"?.?").ok = true
      · rw [if_pos hok] at ha hb
        refine (run_ok ha).trans (Eq.trans ?_ (run_ok hb).symm)
        revert h4
        generalize (filter a c!"?.?").caps = ca
        generalize (filter b c!"?.?").caps = cb
        intro h4
        match ca, cb, h4 with
        | [], [], _ => rfl
        | [_], [_], _ => rfl
        | [x, _], [y, _], h4 =>
          simp only
          rw [ci_canon s.segment h4.1]
        | _ :: _ :: _ :: _, _ :: _ :: _ :: _, _ => rfl
      · rw [if_neg hok] at ha hb
        refine (run_ok ha).trans (Eq.trans ?_ (run_ok hb).symm)
        rfl

/-- **C16.** Names that differ only in case: the same lookups, references (also in expressions), definitions
    (as labels of lines, by EQU and by MACRO) and mnemonics, in every state. -/
theorem C16_case {a b : Str} (h : Spec.SameName a b) :
    (∀ s, searchlabel s a = searchlabel s b) ∧ findlabel a = findlabel b ∧ deflabel a = deflabel b ∧
    checklabel a = checklabel b ∧ (∀ tgt, cstlabel tgt a = cstlabel tgt b) ∧ herelabel a = herelabel b ∧
    (∀ o, xEqu (some a) o = xEqu (some b) o) ∧
    (∀ n st o, xMacro n st (some a) o = xMacro n st (some b) o) ∧ findmnemo a = findmnemo b := by
  have hc := CI.of h
  refine ⟨fun s => ?_, ci_findlabel hc, ci_deflabel hc, ci_checklabel hc, fun tgt => ?_, ?_, fun o => ?_,
    fun n st o => ?_, ci_findmnemo hc⟩
  · unfold searchlabel; rw [ci_canon _ hc]
  · unfold cstlabel; rw [ci_findlabel hc]
  · unfold herelabel
    rw [ci_deflabel hc]
    by_cases hs : a = starKey
    · rw [if_pos hs, if_pos ((ci_star hc).1 hs)]
    · rw [if_neg hs, if_neg (fun h => hs ((ci_star hc).2 h))]
  · unfold xEqu
    have e : (some a = some starKey) ↔ (some b = some starKey) := by
      simp only [Option.some.injEq]; exact ci_star hc
    simp only [ci_deflabel hc, whenM, e]
  · unfold xMacro
    simp only [ci_deflabel (hc.take LABLEN)]

example : Spec.SameName c!"Loop_1.x" c!"lOOP_1.X" ∧ c!"Loop_1.x" ≠ c!"lOOP_1.X" := by
  refine ⟨?_, by decide⟩
  unfold Spec.SameName
  decide

end Crasm

import Verif.Proof.FilterL

/-! # C14: pattern captures reconstruct the subject -/

namespace Spec

/-- The pattern character `p` stands for the character `x`: the same up to letter case, and a space also
    stands for a tab. -/
def Same (p x : Char) : Prop := p.toUpper = x.toUpper ∨ (p = ' ' ∧ x = '\t')

/-- `s` is what the pattern spells when its wildcards `?` are replaced by `caps` in order, each `_` by some
    blanks and each other character by itself. -/
def Fits : List Char → List (List Char) → List Char → Prop
  | [], [], s => s = []
  | [], _ :: _, _ => False
  | p :: pat, caps, s =>
    if p = '?' then
      match caps with
      | [] => False
      | c :: caps => ∃ s', s = c ++ s' ∧ Fits pat caps s'
    else if p = '_' then ∃ b s', s = b ++ s' ∧ (∀ c ∈ b, IsBlank c) ∧ Fits pat caps s'
    else ∃ x s', s = x :: s' ∧ Same p x ∧ Fits pat caps s'

end Spec

namespace Crasm

theorem toupper_eq (c : Char) : toupper c = c.toUpper := by
  have h : ∀ k < 123, toupper (Char.ofNat k) = (Char.ofNat k).toUpper := by decide
  by_cases hc : c.toNat < 123
  · have := h c.toNat hc
    rwa [Char.ofNat_toNat] at this
  · unfold toupper
    rw [if_neg (by omega)]
    unfold Char.toUpper
    rw [dif_neg]
    intro hh
    apply hc
    have h2 := hh.2
    change c.val.toNat ≤ 122 at h2
    change c.val.toNat < 123
    omega

theorem litMatch_same {p x : Char} (h : litMatch p x = true) : Spec.Same p x := by
  unfold litMatch at h
  simp only [Bool.or_eq_true, decide_eq_true_eq, Bool.and_eq_true] at h
  rw [toupper_eq, toupper_eq] at h
  exact h

/-- The pattern with the given parts. -/
def joinPat (seg : Str) : List Str → Str
  | [] => seg
  | s :: segs => seg ++ '?' :: joinPat s segs

theorem splitPat_join (p : Str) : joinPat (splitPat p).1 (splitPat p).2 = p ∧ '?' ∉ (splitPat p).1 ∧
    ∀ s ∈ (splitPat p).2, '?' ∉ s := by
  induction p with
  | nil => exact ⟨rfl, by simp [splitPat], by simp [splitPat]⟩
  | cons c p ih =>
    obtain ⟨h1, h2, h3⟩ := ih
    rw [splitPat]
    by_cases hc : c = '?'
    · simp only [hc, if_true]
      refine ⟨by simp [joinPat, h1], by simp, ?_⟩
      intro s hs
      rcases List.mem_cons.1 hs with rfl | hs
      · exact h2
      · exact h3 s hs
    · simp only [hc, if_false]
      refine ⟨?_, by simp [h2, Ne.symm hc], h3⟩
      cases hs : (splitPat p).2 with
      | nil => rw [hs] at h1; simp only [joinPat] at h1 ⊢; rw [h1]
      | cons a b => rw [hs] at h1; simp only [joinPat, List.cons_append] at h1 ⊢; rw [h1]

theorem fits_cons_blank {pat : Str} {caps : List Str} {s : Str} :
    Spec.Fits ('_' :: pat) caps s ↔ ∃ b s', s = b ++ s' ∧ (∀ c ∈ b, Spec.IsBlank c) ∧ Spec.Fits pat caps s' := by
  rw [Spec.Fits.eq_def]
  simp
theorem fits_cons_lit {p : Char} (h1 : p ≠ '?') (h2 : p ≠ '_') {pat : Str} {caps : List Str} {s : Str} :
    Spec.Fits (p :: pat) caps s ↔ ∃ x s', s = x :: s' ∧ Spec.Same p x ∧ Spec.Fits pat caps s' := by
  rw [Spec.Fits.eq_def]
  simp [h1, h2]
theorem fits_cons_wild {pat c : Str} {caps : List Str} {s : Str} :
    Spec.Fits ('?' :: pat) (c :: caps) s ↔ ∃ s', s = c ++ s' ∧ Spec.Fits pat caps s' := by
  rw [Spec.Fits.eq_def]
  simp

theorem matchSeg_fits {q : Quote} {e : Bool} {seg : Str} (hq : '?' ∉ seg) :
    ∀ {s rest : Str}, matchSeg q e seg s = .ok rest → (e = true → rest = []) ∧
      ∀ pat caps, Spec.Fits pat caps rest → Spec.Fits (seg ++ pat) caps s := by
  induction seg with
  | nil =>
    intro s rest h
    rw [matchSeg] at h
    cases e with
    | false => simp at h; subst h; exact ⟨by simp, fun _ _ h => h⟩
    | true =>
      simp only [if_true] at h
      split at h
      · rename_i hs
        cases h
        rw [hs.2]
        exact ⟨fun _ => rfl, fun _ _ h => h⟩
      · cases h
  | cons p seg ih =>
    intro s rest h
    have hq' : '?' ∉ seg := fun h => hq (List.mem_cons_of_mem _ h)
    have hp : p ≠ '?' := fun h => hq (by rw [h]; simp)
    by_cases hu : p = '_'
    · subst hu
      rw [matchSeg_blank] at h
      obtain ⟨h1, h2⟩ := ih hq' h
      refine ⟨h1, fun pat caps hf => ?_⟩
      obtain ⟨b, hb1, hb2, -⟩ := skipBlanks_spec s
      exact fits_cons_blank.2 ⟨b, _, hb1, fun c hc => isblank_iff.1 (hb2 c hc), h2 pat caps hf⟩
    · cases s with
      | nil => rw [matchSeg_end _ _ hu] at h; cases h
      | cons c s =>
        rw [matchSeg_lit _ _ hu] at h
        split at h
        · rename_i hm
          obtain ⟨h1, h2⟩ := ih hq' h
          exact ⟨h1, fun pat caps hf => (fits_cons_lit hp hu).2 ⟨c, s, rfl, litMatch_same hm.2, h2 pat caps hf⟩⟩
        · cases h

theorem filterWild_fits (total : Nat) (segs : List Str) (hq : ∀ s ∈ segs, '?' ∉ s) (hne : segs ≠ []) :
    ∀ (q : Quote) (s : Str), (filterWild total segs q s).ok = true →
      Spec.Fits (joinPat [] segs) (filterWild total segs q s).caps s := by
  induction segs with
  | nil => exact absurd rfl hne
  | cons seg segs ih =>
    intro q s hok
    by_cases hlast : seg = [] ∧ segs = []
    · obtain ⟨rfl, rfl⟩ := hlast
      simp only [filterWild, joinPat]
      exact fits_cons_wild.2 ⟨[], by simp, rfl⟩
    · rw [filterWild] at hok ⊢
      · cases hs : seek segs.isEmpty seg q s with
        | error n => rw [hs] at hok; cases hok
        | ok v =>
          obtain ⟨cap, rest, q'⟩ := v
          rw [hs] at hok
          simp only at hok ⊢
          obtain ⟨s', e1, e2, e3⟩ := seek_ok hs
          obtain ⟨h1, h2⟩ := matchSeg_fits (hq seg (by simp)) e3
          simp only [joinPat, List.nil_append]
          refine fits_cons_wild.2 ⟨s', e1, ?_⟩
          cases segs with
          | nil =>
            have hr := h1 rfl
            have := h2 [] [] hr
            simpa [joinPat, filterWild] using this
          | cons seg' segs =>
            have := ih (fun s h => hq s (by simp [h])) (by simp) q' rest hok
            exact h2 _ _ this
      all_goals exact fun h1 h2 => hlast ⟨h1, h2⟩

/-- **C14.** When a pattern matches, the captures put in place of its wildcards give back the subject. -/
theorem C14_captures (s pat : Str) (h : (filter s pat).ok = true) :
    Spec.Fits pat (filter s pat).caps s := by
  obtain ⟨h1, h2, h3⟩ := splitPat_join pat
  unfold filter at h ⊢
  generalize hp : splitPat pat = p at h h1 h2 h3
  obtain ⟨seg0, segs⟩ := p
  simp only at h h1 h2 h3 ⊢
  cases hm : matchSeg Quote.zero segs.isEmpty seg0 s with
  | bad b => rw [hm] at h; cases h
  | ok rest =>
    rw [hm] at h
    simp only at h ⊢
    obtain ⟨g1, g2⟩ := matchSeg_fits h2 hm
    rw [← h1]
    cases segs with
    | nil => simpa [joinPat, filterWild] using g2 [] [] (g1 rfl)
    | cons seg segs =>
      have := g2 _ _ (filterWild_fits s.length (seg :: segs) h3 (by simp) Quote.zero rest h)
      simpa [joinPat] using this

example : (filter c!"(IX + 5 ) , A" c!"(_ix_+_?_)_,_?").ok = true ∧
    (filter c!"(IX + 5 ) , A" c!"(_ix_+_?_)_,_?").caps = [c!"5", c!"A"] := by decide

end Crasm

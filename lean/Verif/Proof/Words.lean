import Verif.Proof.FilterL

/-! Patterns that are plain words. -/

namespace Crasm

/-- No special pattern characters. -/
def Word1 (q : Str) : Prop := ∀ c ∈ q, c ≠ '?' ∧ c ≠ '_' ∧ c ≠ ' '
instance (q : Str) : Decidable (Word1 q) := inferInstanceAs (Decidable (∀ c ∈ q, _))

theorem splitPat_word {q : Str} (h : ∀ c ∈ q, c ≠ '?') : splitPat q = (q, []) := by
  induction q with
  | nil => rfl
  | cons c q ih =>
    unfold splitPat
    rw [ih fun x hx => h x (by simp [hx])]
    simp [h c (by simp)]

theorem matchSeg_word {q : Str} (h : Word1 q) : ∀ s : Str,
    (s.map toupper = q.map toupper → matchSeg Quote.zero true q s = .ok []) ∧
    (s.map toupper ≠ q.map toupper → ∃ b, matchSeg Quote.zero true q s = .bad b) := by
  induction q with
  | nil => intro s; cases s <;> simp [matchSeg]
  | cons p q ih =>
    have hp := h p (by simp)
    intro s
    cases s with
    | nil => simp [matchSeg_end _ _ hp.2.1]
    | cons c s =>
      have ih := ih (fun x hx => h x (by simp [hx])) s
      rw [matchSeg_lit _ _ hp.2.1]
      have hl : litMatch p c = true ↔ toupper c = toupper p := by
        simp [litMatch, hp.2.2]
        exact eq_comm
      by_cases hc : toupper c = toupper p
      · simp [hl.2 hc, hc]
        simpa using ih
      · have : ¬ litMatch p c = true := fun h => hc (hl.1 h)
        simp [this, hc]

theorem filter_word {q : Str} (h : Word1 q) (s : Str) :
    filter s q = ⟨decide (s.map toupper = q.map toupper), [], 0, 0⟩ := by
  unfold filter
  rw [splitPat_word fun c hc => (h c hc).1]
  simp only [List.isEmpty_nil]
  by_cases hs : s.map toupper = q.map toupper
  · rw [(matchSeg_word h s).1 hs]
    simp [hs, filterWild]
  · obtain ⟨b, hb⟩ := (matchSeg_word h s).2 hs
    rw [hb]
    simp [hs]

theorem filter0_word {q : Str} (h : Word1 q) (s : Str) (st : St) :
    filter0 s q st = if bufSize ≤ st.bufpos then noRoom st
      else .ok (decide (s.map toupper = q.map toupper)) st := by
  rw [filter0_run, filter_word h]
  simp only [Nat.add_zero]
  split
  · rfl
  · by_cases hs : s.map toupper = q.map toupper <;> simp [hs]

theorem toupper_idem (c : Char) : toupper (toupper c) = toupper c := by
  by_cases h : 97 ≤ c.toNat ∧ c.toNat ≤ 122
  · have := toupper_toNat h
    rw [toupper.eq_def (toupper c), if_neg (by omega)]
  · have : toupper c = c := by unfold toupper; rw [if_neg h]
    rw [this, this]

theorem alpha_of_upper {c : Char} (h : isalpha (toupper c) = true) : isalpha c = true := by
  by_cases hc : 97 ≤ c.toNat ∧ c.toNat ≤ 122
  · simp [isalpha, hc]
  · have : toupper c = c := by unfold toupper; rw [if_neg hc]
    rwa [this] at h

theorem alpha_ne {c d : Char} (h : isalpha c = true) (hd : isalpha d = false) : c ≠ d := by
  rintro rfl; rw [h] at hd; cases hd

theorem operand_word {w : Str} (h : ∀ c ∈ w, isalpha c = true) (hne : w ≠ []) : Spec.Operand w := by
  refine ⟨?_, hne, ?_, ?_⟩
  · clear hne
    induction w with
    | nil => exact .nil _
    | cons c w ih =>
      have hc := h c (by simp)
      refine .plain _ c w (alpha_ne hc (by decide)) (alpha_ne hc (by decide)) (alpha_ne hc (by decide))
        (alpha_ne hc (by decide)) ?_ (ih fun x hx => h x (by simp [hx]))
      simpa using alpha_ne hc (by decide)
  · rintro c r rfl (rfl | rfl)
    · have := h ' ' (by simp); revert this; decide
    · have := h '\t' (by simp); revert this; decide
  · rintro c r rfl (rfl | rfl)
    · have := h ' ' (by simp); revert this; decide
    · have := h '\t' (by simp); revert this; decide

end Crasm

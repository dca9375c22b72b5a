import Verif.Spec.Number
import Verif.Proof.Parse
import Verif.Props.C14

/-! # C09: numeric constants -/

namespace Crasm

theorem char_toNat_inj {a b : Char} (h : a.toNat = b.toNat) : a = b := by
  exact Char.ext (UInt32.toNat_inj.1 h)

theorem char_range {c : Char} {n m : Nat} (h1 : n ≤ c.toNat) (h2 : c.toNat ≤ m) :
    ∃ k, k ≤ m - n ∧ c = Char.ofNat (n + k) := by
  refine ⟨c.toNat - n, by omega, ?_⟩
  rw [Nat.add_sub_cancel' h1]
  exact (Char.ofNat_toNat c).symm

/-- The digits of the specification in the ranges of the code. -/
theorem digit_dec (c : Char) (h : isdigit c = true) (b : Nat) : 
    Spec.digit b c = if c.toNat - 48 < b then some (c.toNat - 48) else none := by
  simp only [isdigit, Bool.and_eq_true, decide_eq_true_eq] at h
  obtain ⟨k, hk, rfl⟩ := char_range h.1 h.2
  have : k = 0 ∨ k = 1 ∨ k = 2 ∨ k = 3 ∨ k = 4 ∨ k = 5 ∨ k = 6 ∨ k = 7 ∨ k = 8 ∨ k = 9 := by omega
  rcases this with rfl|rfl|rfl|rfl|rfl|rfl|rfl|rfl|rfl|rfl <;> rfl
theorem digit_hex (c : Char) (h : isxdigit c = true) (b : Nat) : 
    Spec.digit b c = if hexVal c < b then some (hexVal c) else none := by
  by_cases hd : isdigit c = true
  · rw [digit_dec c hd]
    have : hexVal c = c.toNat - 48 := by
      simp only [isdigit, Bool.and_eq_true, decide_eq_true_eq] at hd
      unfold hexVal
      rw [if_neg (by omega), if_neg (by omega)]
    rw [this]
  · simp only [isxdigit, hd, Bool.false_or, Bool.or_eq_true, Bool.and_eq_true, decide_eq_true_eq] at h
    rcases h with h | h <;> obtain ⟨k, hk, rfl⟩ := char_range h.1 h.2 <;>
    · have : k = 0 ∨ k = 1 ∨ k = 2 ∨ k = 3 ∨ k = 4 ∨ k = 5 := by omega
      rcases this with rfl|rfl|rfl|rfl|rfl|rfl <;> rfl
theorem digit_not (c : Char) (h : isxdigit c = false) (b : Nat) : Spec.digit b c = none := by
  have : ("0123456789abcdef".toList.findIdx? (· = c.toLower)) = none := by
    have hk : ∀ k < 123, isxdigit (Char.ofNat k) = false →
        ("0123456789abcdef".toList.findIdx? (· = (Char.ofNat k).toLower)) = none := by decide +kernel
    by_cases hc : c.toNat < 123
    · have := hk c.toNat hc
      rw [Char.ofNat_toNat] at this
      exact this h
    · have hl : c.toLower = c := by
        unfold Char.toLower
        rw [dif_neg]
        intro hh
        apply hc
        have h2 := hh.2
        change c.val.toNat ≤ 90 at h2
        change c.val.toNat < 123
        omega
      rw [hl, List.findIdx?_eq_none_iff]
      intro x hx
      simp only [decide_eq_false_iff_not]
      rintro rfl
      have : ∀ y ∈ "0123456789abcdef".toList, y.toNat < 123 := by decide +kernel
      exact hc (this x hx)
  unfold Spec.digit
  rw [this]

/-- A loop that reads digits one by one and refuses numbers of `lim` or more. -/
theorem loop_spec {L : Nat → Str → Except Str Nat} {b lim : Nat} (hb : 1 ≤ b) (hnil : ∀ v, L v [] = .ok v)
    (hbad : ∀ v c s, Spec.digit b c = none → ∃ m, L v (c :: s) = .error m)
    (hok : ∀ v c d s, Spec.digit b c = some d → v < lim →
      L v (c :: s) = if v * b + d < lim then L (v * b + d) s else .error overflowMsg) :
    ∀ (s : Str) (v : Nat), v < lim →
      (∀ n, Spec.numberFrom b v s = some n → L v s = if n < lim then .ok n else .error overflowMsg) ∧
      (Spec.numberFrom b v s = none → ∃ m, L v s = .error m) := by
  have mono : ∀ (s : Str) (v n : Nat), Spec.numberFrom b v s = some n → v ≤ n := by
    intro s
    induction s with
    | nil => intro v n h; cases h; exact Nat.le_refl _
    | cons c s ih =>
      intro v n h
      unfold Spec.numberFrom at h
      cases hd : Spec.digit b c with
      | none => rw [hd] at h; cases h
      | some d =>
        rw [hd] at h
        have := ih _ _ h
        have : v * 1 ≤ v * b := Nat.mul_le_mul_left _ hb
        omega
  intro s
  induction s with
  | nil =>
    intro v hv
    refine ⟨fun n h => ?_, fun h => by cases h⟩
    cases h
    rw [hnil, if_pos hv]
  | cons c s ih =>
    intro v hv
    unfold Spec.numberFrom
    cases hd : Spec.digit b c with
    | none => exact ⟨fun n h => (by cases h), fun _ => hbad v c s hd⟩
    | some d =>
      rw [hok v c d s hd hv]
      by_cases hl : v * b + d < lim
      · rw [if_pos hl]; exact ih _ hl
      · rw [if_neg hl]
        refine ⟨fun n h => ?_, fun _ => ⟨_, rfl⟩⟩
        have := mono _ _ _ h
        rw [if_neg (by omega)]

theorem digit_some {b : Nat} {c : Char} {d : Nat} (h : Spec.digit b c = some d) :
    isxdigit c = true ∧ d = hexVal c ∧ d < b := by
  cases hx : isxdigit c with
  | false => rw [digit_not c hx] at h; cases h
  | true =>
    rw [digit_hex c hx] at h
    by_cases hl : hexVal c < b
    · rw [if_pos hl] at h; cases h; exact ⟨rfl, rfl, hl⟩
    · rw [if_neg hl] at h; cases h
theorem digit_none {b : Nat} {c : Char} (h : Spec.digit b c = none) : isxdigit c = false ∨ b ≤ hexVal c := by
  cases hx : isxdigit c with
  | false => exact .inl rfl
  | true =>
    rw [digit_hex c hx] at h
    by_cases hl : hexVal c < b
    · rw [if_pos hl] at h; cases h
    · exact .inr (by omega)

/-- Below ten the hexadecimal digits are the decimal ones. -/
theorem hexVal_dec {c : Char} (h : isxdigit c = true) (hl : hexVal c < 10) :
    isdigit c = true ∧ hexVal c = c.toNat - 48 := by
  simp only [isxdigit, isdigit, Bool.or_eq_true, Bool.and_eq_true, decide_eq_true_eq] at h
  unfold hexVal at hl ⊢
  simp only [isdigit, Bool.and_eq_true, decide_eq_true_eq]
  by_cases h1 : 97 ≤ c.toNat
  · rw [if_pos h1] at hl; omega
  · rw [if_neg h1] at hl ⊢
    by_cases h2 : 65 ≤ c.toNat
    · rw [if_pos h2] at hl; omega
    · rw [if_neg h2] at hl ⊢; omega
theorem hexVal_lt {c : Char} (h : isxdigit c = true) : hexVal c < 16 := by
  simp only [isxdigit, isdigit, Bool.or_eq_true, Bool.and_eq_true, decide_eq_true_eq] at h
  unfold hexVal
  split <;> (try split) <;> omega
theorem isdigit_hex {c : Char} (h : isdigit c = true) : isxdigit c = true ∧ hexVal c = c.toNat - 48 ∧ hexVal c < 10 := by
  have h' := h
  simp only [isdigit, Bool.and_eq_true, decide_eq_true_eq] at h'
  refine ⟨by simp [isxdigit, h], ?_, ?_⟩ <;> unfold hexVal <;> rw [if_neg (by omega), if_neg (by omega)]; omega

theorem decLoop_spec (s : Str) :
    (∀ n, Spec.number 10 s = some n → decLoop 0 s = if n < 2 ^ 32 then .ok n else .error overflowMsg) ∧
    (Spec.number 10 s = none → ∃ m, decLoop 0 s = .error m) := by
  refine loop_spec (by omega) (fun v => by rw [decLoop]) ?_ ?_ s 0 (by decide)
  · intro v c s hd
    refine ⟨badDecimal, ?_⟩
    rw [decLoop]
    have : isdigit c = false := by
      cases hc : isdigit c with
      | false => rfl
      | true =>
        have := isdigit_hex hc
        rcases digit_none hd with h | h
        · rw [this.1] at h; cases h
        · omega
    rw [this]
    rfl
  · intro v c d s hd hv
    obtain ⟨h1, rfl, h3⟩ := digit_some hd
    obtain ⟨h4, h5⟩ := hexVal_dec h1 h3
    rw [decLoop, h4, h5]
    rw [h5] at h3
    simp only [Bool.not_true, Bool.false_eq_true, if_false]
    by_cases hl : v * 10 + (c.toNat - 48) < 2 ^ 32
    · rw [if_pos hl, if_neg (by omega), if_neg (by omega)]
    · rw [if_neg hl]
      by_cases hl2 : 0xffffffff / 10 < v
      · rw [if_pos hl2]
      · rw [if_neg hl2, if_pos (by omega)]

theorem hexLoop_spec (s : Str) :
    (∀ n, Spec.number 16 s = some n → hexLoop 0 s = if n < 2 ^ 32 then .ok n else .error overflowMsg) ∧
    (Spec.number 16 s = none → ∃ m, hexLoop 0 s = .error m) := by
  refine loop_spec (by omega) (fun v => by rw [hexLoop]) ?_ ?_ s 0 (by decide)
  · intro v c s hd
    refine ⟨c!"bad hexadecimal number", ?_⟩
    rw [hexLoop]
    have : isxdigit c = false := by
      rcases digit_none hd with h | h
      · exact h
      · cases hc : isxdigit c with
        | false => rfl
        | true => have := hexVal_lt hc; omega
    rw [this]
    rfl
  · intro v c d s hd hv
    obtain ⟨h1, rfl, h3⟩ := digit_some hd
    rw [hexLoop, h1]
    simp only [Bool.not_true, Bool.false_eq_true, if_false]
    by_cases hl : v * 16 + hexVal c < 2 ^ 32
    · rw [if_pos hl, if_neg (by omega)]
    · rw [if_neg hl, if_pos (by omega)]

theorem octLoop_spec (s : Str) :
    (∀ n, Spec.number 8 s = some n → octLoop 0 s = if n < 2 ^ 32 then .ok n else .error overflowMsg) ∧
    (Spec.number 8 s = none → ∃ m, octLoop 0 s = .error m) := by
  refine loop_spec (by omega) (fun v => by rw [octLoop]) ?_ ?_ s 0 (by decide)
  · intro v c s hd
    refine ⟨c!"bad octal number", ?_⟩
    rw [octLoop, if_pos]
    by_cases hc : isdigit c = true
    · have := isdigit_hex hc
      rcases digit_none hd with h | h
      · rw [this.1] at h; cases h
      · omega
    · simp only [isdigit, Bool.and_eq_true, decide_eq_true_eq] at hc
      omega
  · intro v c d s hd hv
    obtain ⟨h1, rfl, h3⟩ := digit_some hd
    obtain ⟨h4, h5⟩ := hexVal_dec h1 (by omega)
    simp only [isdigit, Bool.and_eq_true, decide_eq_true_eq] at h4
    rw [octLoop, if_neg (by omega), h5]
    by_cases hl : v * 8 + (c.toNat - 48) < 2 ^ 32
    · rw [if_pos hl, if_neg (by omega)]
    · rw [if_neg hl, if_pos (by omega)]

/-- Binary constants are refused only from 0x1E0000000 on. -/
theorem binLoop_spec (s : Str) :
    (∀ n, Spec.number 2 s = some n → binLoop 0 s = if n < 0x1E0000000 then .ok n else .error overflowMsg) ∧
    (Spec.number 2 s = none → ∃ m, binLoop 0 s = .error m) := by
  refine loop_spec (by omega) (fun v => by rw [binLoop]) ?_ ?_ s 0 (by decide)
  · intro v c s hd
    refine ⟨c!"bad binary number", ?_⟩
    rw [binLoop, if_pos]
    constructor <;> rintro rfl <;> revert hd <;> decide +kernel
  · intro v c d s hd hv
    obtain ⟨h1, rfl, h3⟩ := digit_some hd
    obtain ⟨h4, h5⟩ := hexVal_dec h1 (by omega)
    simp only [isdigit, Bool.and_eq_true, decide_eq_true_eq] at h4
    have hc : c = '0' ∨ c = '1' := by
      have : c.toNat = 48 ∨ c.toNat = 49 := by omega
      rcases this with h | h
      · exact .inl (char_toNat_inj h)
      · exact .inr (char_toNat_inj h)
    rw [binLoop, if_neg (fun h => hc.elim h.2 h.1), h5]
    by_cases hl : v * 2 + (c.toNat - 48) < 0x1E0000000
    · rw [if_pos hl, if_neg (by omega)]
    · rw [if_neg hl, if_pos (by omega)]

/-! ## Patterns of the constants -/

theorem pre1_hit {p a : Char} (h1 : p ≠ '?') (h2 : p ≠ '_') (h : litMatch p a = true) (r : Str) :
    ∃ k, filter (a :: r) [p, '?'] = ⟨true, [r], 1 + r.length, k⟩ := by
  unfold filter splitPat splitPat splitPat
  simp only [if_neg h1, if_true, List.isEmpty_cons]
  rw [matchSeg_lit _ _ h2, if_pos ⟨rfl, h⟩, matchSeg_nil]
  exact ⟨_, rfl⟩

theorem pre2_hit {p q a b : Char} (h1 : p ≠ '?') (h2 : p ≠ '_') (h3 : q ≠ '?') (h4 : q ≠ '_')
    (h : litMatch p a = true) (h' : litMatch q b = true) (r : Str) :
    ∃ k, filter (a :: b :: r) [p, q, '?'] = ⟨true, [r], 1 + r.length, k⟩ := by
  unfold filter splitPat splitPat splitPat splitPat
  simp only [if_neg h1, if_neg h3, if_true, List.isEmpty_cons]
  rw [matchSeg_lit _ _ h2, if_pos ⟨rfl, h⟩, matchSeg_lit _ _ h4, if_pos ⟨rfl, h'⟩, matchSeg_nil]
  exact ⟨_, rfl⟩

theorem pre2_miss {p q : Char} {e : Str} (h1 : p ≠ '?') (h2 : p ≠ '_') (h3 : q ≠ '?') (h4 : q ≠ '_')
    (h : ∀ a b r, e = a :: b :: r → litMatch p a = true → litMatch q b = false) :
    (filter e [p, q, '?']).ok = false := by
  unfold filter splitPat splitPat splitPat splitPat
  simp only [if_neg h1, if_neg h3, if_true, List.isEmpty_cons]
  cases e with
  | nil => rw [matchSeg_end _ _ h2]
  | cons a e =>
    rw [matchSeg_lit _ _ h2]
    by_cases ha : litMatch p a = true
    · rw [if_pos ⟨rfl, ha⟩]
      cases e with
      | nil => rw [matchSeg_end _ _ h4]
      | cons b e => rw [matchSeg_lit _ _ h4, if_neg (fun hh => by rw [h a b e rfl ha] at hh; exact absurd hh.2 (by simp))]
    · rw [if_neg (fun hh => ha hh.2)]

/-- The pattern `?p`: the text ends with `p`. -/
theorem suf_hit {p x : Char} (h1 : p ≠ '?') (h2 : p ≠ '_') (hx : litMatch p x = true) {a : Str}
    (hz : ∀ b r, a = b ++ r → Quote.zero.run b = Quote.zero) :
    ∃ k, filter (a ++ [x]) ['?', p] = ⟨true, [a], 1 + a.length, k⟩ := by
  have key : ∀ a : Str, (∀ b r, a = b ++ r → Quote.zero.run b = Quote.zero) →
      seek true [p] Quote.zero (a ++ [x]) = .ok (a, [], Quote.zero) := by
    intro a
    induction a with
    | nil =>
      intro _
      simp only [List.nil_append, seek]
      rw [matchSeg_lit _ _ h2, if_pos ⟨rfl, hx⟩]
      simp [matchSeg]
    | cons c a ih =>
      intro hz
      simp only [List.cons_append, seek]
      have hs : Quote.zero.step c = Quote.zero := hz [c] a rfl
      have := ih (fun b r e => by
        have := hz (c :: b) r (by rw [e]; rfl)
        rw [Quote.run_cons, hs] at this
        exact this)
      rw [hs, this]
      rw [matchSeg_lit _ _ h2]
      by_cases hc : litMatch p c = true
      · have he : (a ++ [x]).isEmpty = false := by cases a <;> rfl
        rw [if_pos ⟨rfl, hc⟩]
        simp [matchSeg]
        rw [he]
      · rw [if_neg (fun hh => hc hh.2)]
  unfold filter splitPat splitPat splitPat
  simp only [if_neg h1, if_true, List.isEmpty_cons, matchSeg_nil]
  rw [filterWild]
  · rw [show ([] : List Str).isEmpty = true from rfl, key a hz]
    exact ⟨_, by simp [filterWild]; rfl⟩
  · intro h; cases h

theorem suf_miss {p : Char} (h1 : p ≠ '?') (h2 : p ≠ '_') {e : Str}
    (hx : ∀ a x, e = a ++ [x] → litMatch p x = false) : (filter e ['?', p]).ok = false := by
  have key : ∀ (e : Str) (q : Quote), (∀ a x, e = a ++ [x] → litMatch p x = false) →
      ∃ n, seek true [p] q e = .error n := by
    intro e
    induction e with
    | nil => intro q _; exact ⟨0, by simp [seek, matchSeg_end _ _ h2]⟩
    | cons c e ih =>
      intro q hx
      obtain ⟨n, hn⟩ := ih (q.step c) (fun a x e' => hx (c :: a) x (by rw [e']; rfl))
      simp only [seek]
      rw [hn, matchSeg_lit _ _ h2]
      by_cases hc : q = Quote.zero ∧ litMatch p c = true
      · rw [if_pos hc]
        cases e with
        | nil => rw [hx [] c rfl] at hc; exact absurd hc.2 (by simp)
        | cons d e => exact ⟨n + 1, by simp [matchSeg]⟩
      · rw [if_neg hc]
        exact ⟨n + 1, rfl⟩
  unfold filter splitPat splitPat splitPat
  simp only [if_neg h1, if_true, List.isEmpty_cons, matchSeg_nil]
  rw [filterWild]
  · obtain ⟨n, hn⟩ := key e Quote.zero hx
    rw [show ([] : List Str).isEmpty = true from rfl, hn]
  · intro h; cases h

theorem const_skip {tgt : Bool} {e pat : Str} {b : Base} {rows : List (Str × Base)}
    (h : (filter e pat).ok = false) (s : St) :
    Toward (parseConst tgt e ((pat, b) :: rows) s) (parseConst tgt e rows s) := by
  rw [parseConst]
  exact Toward.bind (toward_miss1 h s) (.refl _)

theorem const_hit {tgt : Bool} {e pat a : Str} {b : Base} {rows : List (Str × Base)} (hne : a ≠ [])
    (h : ∃ k, filter e pat = ⟨true, [a], 1 + a.length, k⟩) (s : St) :
    Toward (parseConst tgt e ((pat, b) :: rows) s)
      (cstE tgt (baseLoop b a) { s with bufpos := s.bufpos + (1 + a.length) }) := by
  obtain ⟨k, h⟩ := h
  rw [parseConst]
  refine Toward.bind (toward_filter1 h s) ?_
  cases a with
  | nil => exact absurd rfl hne
  | cons c a => exact .refl _

theorem plain_zero {a : Str} (h : ∀ c ∈ a, plainChar c = true) :
    ∀ b r, a = b ++ r → Quote.zero.run b = Quote.zero := by
  intro b
  induction b generalizing a with
  | nil => intro r _; rfl
  | cons c b ih =>
    intro r e
    subst e
    rw [Quote.run_cons]
    have hc := h c (by simp)
    have : Quote.zero.step c = Quote.zero := by
      rw [← Quote.at_zero]
      refine at_plain ?_ ?_ ?_ ?_ <;> rintro rfl <;> revert hc <;> decide
    rw [this]
    exact ih (a := b ++ r) (fun x hx => h x (by simp at hx ⊢; exact .inr hx)) r rfl

/-! ## The constants -/

theorem lit_x {c : Char} (h : isxdigit c = true) (p : Char) (hp : p ∈ ['$', '%', 'H', 'X', 'Q']) :
    litMatch p c = false := by
  have hk : ∀ k < 123, isxdigit (Char.ofNat k) = true → ∀ p ∈ ['$', '%', 'H', 'X', 'Q'],
      litMatch p (Char.ofNat k) = false := by decide +kernel
  have hc : c.toNat < 123 := by
    simp only [isxdigit, isdigit, Bool.or_eq_true, Bool.and_eq_true, decide_eq_true_eq] at h
    omega
  have := hk c.toNat hc
  rw [Char.ofNat_toNat] at this
  exact this h p hp
theorem lit_d {c : Char} (h : isdigit c = true) : litMatch 'B' c = false := by
  have hk : ∀ k < 123, isdigit (Char.ofNat k) = true → litMatch 'B' (Char.ofNat k) = false := by decide +kernel
  have hc : c.toNat < 123 := by
    simp only [isdigit, Bool.and_eq_true, decide_eq_true_eq] at h
    omega
  have := hk c.toNat hc
  rw [Char.ofNat_toNat] at this
  exact this h
theorem plain_x {c : Char} (h : isxdigit c = true) : plainChar c = true := by
  have hk : ∀ k < 123, isxdigit (Char.ofNat k) = true → plainChar (Char.ofNat k) = true := by decide +kernel
  have hc : c.toNat < 123 := by
    simp only [isxdigit, isdigit, Bool.or_eq_true, Bool.and_eq_true, decide_eq_true_eq] at h
    omega
  have := hk c.toNat hc
  rw [Char.ofNat_toNat] at this
  exact this h

theorem number_digits {b : Nat} {ds : Str} {n : Nat} (h : Spec.number b ds = some n) :
    ∀ c ∈ ds, isxdigit c = true ∧ hexVal c < b := by
  have : ∀ (ds : Str) (acc : Nat), Spec.numberFrom b acc ds = some n → ∀ c ∈ ds, isxdigit c = true ∧ hexVal c < b := by
    intro ds
    induction ds with
    | nil => intro _ _ c hc; cases hc
    | cons d ds ih =>
      intro acc h c hc
      unfold Spec.numberFrom at h
      cases hd : Spec.digit b d with
      | none => rw [hd] at h; cases h
      | some v =>
        rw [hd] at h
        cases hc with
        | head => obtain ⟨h1, rfl, h3⟩ := digit_some hd; exact ⟨h1, h3⟩
        | tail _ hc => exact ih _ h c hc
  exact this ds 0 h

/-- The first number that a constant of the base cannot have. -/
def Spec.limit (b : Nat) : Nat := if b = 2 then 0x1E0000000 else 2 ^ 32

theorem not_label {c : Char} {t : Str} (h : isdigit c = true ∨ c = '$' ∨ c = '%') : checklabel (c :: t) = false := by
  unfold checklabel
  split
  · rfl
  · have h1 : isalpha c = false ∧ c ≠ '_' ∧ c ≠ '.' ∧ c ≠ '*' := by
      rcases h with h | rfl | rfl
      · simp only [isdigit, Bool.and_eq_true, decide_eq_true_eq] at h
        refine ⟨?_, ?_, ?_, ?_⟩
        · simp only [isalpha, Bool.or_eq_false_iff, Bool.and_eq_false_iff, decide_eq_false_iff_not]
          omega
        all_goals (rintro rfl; revert h; decide)
      · decide
      · decide
    rw [if_neg (by rintro h; injection h with h; exact h1.2.2.2 h)]
    simp [h1]

theorem isdigit_lit {c : Char} (h : isdigit c = true) (p : Char) (hp : p ∈ ['$', '%', 'H', 'X', 'Q', 'B']) :
    litMatch p c = false := by
  by_cases hb : p = 'B'
  · subst hb; exact lit_d h
  · refine lit_x (isdigit_hex h).1 p ?_
    simp at hp ⊢
    simp [hb] at hp
    exact hp

theorem last_mem {pre ds a : Str} {y : Char} (h : pre ++ ds = a ++ [y]) (hne : ds ≠ []) : y ∈ ds := by
  rcases List.eq_nil_or_concat ds with rfl | ⟨d, z, rfl⟩
  · exact absurd rfl hne
  · rw [List.concat_eq_append] at h ⊢
    rw [← List.append_assoc] at h
    have := (List.append_inj' h rfl).2
    injection this with this
    simp [this]
theorem last_eq {ds a : Str} {x y : Char} (h : ds ++ [x] = a ++ [y]) : y = x := by
  have := (List.append_inj' h rfl).2
  injection this with this
  exact this.symm

/-- A constant in any form: its digits go to the loop of its base. -/
theorem const_leaf {b : Nat} {ds text : Str} {n : Nat} (hw : Spec.Writes b ds text) (hne : ds ≠ [])
    (hn : Spec.number b ds = some n) (tgt : Bool) (s : St) :
    ∃ k, Toward (parseLeaf tgt text s)
      (cstE tgt (if n < Spec.limit b then .ok n else .error overflowMsg) { s with bufpos := k }) := by
  have hx := number_digits hn
  have hp : ∀ c ∈ ds, plainChar c = true := fun c hc => plain_x (hx c hc).1
  have first : ∀ p ∈ ['$', '%'], ∀ {t : Str} (pat : Str), (∀ c ∈ t, isxdigit c = true) → (filter t (p :: pat)).ok = false := by
    intro p hp t pat ht
    refine filter_first ?_ ?_ fun c r he => lit_x (ht c (by rw [he]; simp)) p ?_
    · rintro rfl; revert hp; decide
    · rintro rfl; revert hp; decide
    · revert hp; revert p; decide
  have last : ∀ p ∈ ['H', 'Q', 'B'], ∀ {t : Str}, (∀ a x, t = a ++ [x] → litMatch p x = false) → (filter t ['?', p]).ok = false := by
    intro p hp t ht
    refine suf_miss ?_ ?_ ht
    · rintro rfl; revert hp; decide
    · rintro rfl; revert hp; decide
  unfold parseLeaf
  cases hw with
  | decimal =>
    have hd : ∀ c ∈ ds, isdigit c = true := fun c hc => (hexVal_dec (hx c hc).1 (hx c hc).2).1
    obtain ⟨c, t, rfl⟩ : ∃ c t, ds = c :: t := by cases ds with | nil => exact absurd rfl hne | cons c t => exact ⟨c, t, rfl⟩
    rw [if_neg (by rw [not_label (.inl (hd c (by simp)))]; simp)]
    refine ⟨s.bufpos, ?_⟩
    have hlast : ∀ p ∈ ['H', 'Q', 'B'], ∀ a x, c :: t = a ++ [x] → litMatch p x = false := by
      intro p hp a x e
      refine isdigit_lit (hd x (by rw [e]; simp)) p ?_
      revert hp; revert p; decide
    refine (const_skip (first _ (by decide) _ fun c hc => (hx c hc).1) s).trans ?_
    refine (const_skip (last _ (by decide) (hlast _ (by decide))) s).trans ?_
    refine (const_skip (pre2_miss (by decide) (by decide) (by decide) (by decide) fun a b r e _ => isdigit_lit (hd b (by rw [e]; simp)) _ (by decide)) s).trans ?_
    refine (const_skip (first _ (by decide) _ fun c hc => (hx c hc).1) s).trans ?_
    refine (const_skip (last _ (by decide) (hlast _ (by decide))) s).trans ?_
    refine (const_skip (pre2_miss (by decide) (by decide) (by decide) (by decide) fun a b r e _ => isdigit_lit (hd b (by rw [e]; simp)) _ (by decide)) s).trans ?_
    refine (const_skip (last _ (by decide) (hlast _ (by decide))) s).trans ?_
    rw [parseConst]
    simp only [hd c (by simp), if_true]
    rw [(decLoop_spec _).1 n hn]
    exact .refl _
  | dollar =>
    rw [if_neg (by rw [not_label (.inr (.inl rfl))]; simp)]
    refine ⟨s.bufpos + (1 + ds.length), (const_hit hne (pre1_hit (by decide) (by decide) (by decide) ds) s).trans ?_⟩
    rw [baseLoop, (hexLoop_spec _).1 n hn]
    exact .refl _
  | zeroX _ x h =>
    rw [if_neg (by rw [not_label (.inl (by decide))]; simp)]
    refine ⟨s.bufpos + (1 + ds.length), (const_skip (filter_first (by decide) (by decide) fun c r he => ?_) s).trans ?_⟩
    · injection he with he; subst he; decide
    refine (const_skip (last _ (by decide) ?_) s).trans ?_
    · intro a y e
      exact lit_x (hx y (last_mem (pre := ['0', x]) e hne)).1 _ (by decide)
    refine (const_hit hne (pre2_hit (by decide) (by decide) (by decide) (by decide) (by decide) ?_ ds) s).trans ?_
    · rcases h with rfl | rfl <;> decide
    rw [baseLoop, (hexLoop_spec _).1 n hn]
    exact .refl _
  | suffixH ds c h x hx' =>
    rw [List.cons_append]
    rw [if_neg (by rw [not_label (.inl (by rcases h with h|h|h|h|h|h|h|h|h|h <;> subst h <;> decide))]; simp)]
    refine ⟨s.bufpos + (1 + (c :: ds).length), (const_skip (filter_first (by decide) (by decide) fun d r he => ?_) s).trans ?_⟩
    · injection he with he; subst he; exact lit_x (hx c (by simp)).1 _ (by decide)
    rw [← List.cons_append]
    refine (const_hit (by simp) (suf_hit (by decide) (by decide) ?_ (plain_zero hp)) s).trans ?_
    · rcases hx' with rfl | rfl <;> decide
    rw [baseLoop, (hexLoop_spec _).1 n hn]
    exact .refl _
  | octal _ x h =>
    have hd : ∀ c ∈ ds, isdigit c = true := fun c hc => (hexVal_dec (hx c hc).1 (Nat.lt_trans (hx c hc).2 (by decide))).1
    obtain ⟨c, t, rfl⟩ : ∃ c t, ds = c :: t := by cases ds with | nil => exact absurd rfl hne | cons c t => exact ⟨c, t, rfl⟩
    rw [List.cons_append, if_neg (by rw [not_label (.inl (hd c (by simp)))]; simp), ← List.cons_append]
    refine ⟨s.bufpos + (1 + (c :: t).length), ?_⟩
    have hf : ∀ p ∈ ['$', '%'], ∀ pat, (filter (c :: t ++ [x]) (p :: pat)).ok = false := by
      intro p hp pat
      refine filter_first ?_ ?_ fun d r he => ?_
      · rintro rfl; revert hp; decide
      · rintro rfl; revert hp; decide
      · injection he with he
        subst he
        refine isdigit_lit (hd c (by simp)) _ ?_
        revert hp; revert p; decide
    have hl : ∀ p ∈ ['H', 'B'], (filter (c :: t ++ [x]) ['?', p]).ok = false := by
      intro p hp
      refine last p (by revert hp; revert p; decide) fun a y e => ?_
      rw [last_eq e]
      rcases h with rfl | rfl <;> (revert hp; revert p; decide)
    have hz : ∀ p ∈ ['X', 'B'], (filter (c :: t ++ [x]) ['0', p, '?']).ok = false := by
      intro p hp
      refine pre2_miss (by decide) (by decide) ?_ ?_ fun a b r e _ => ?_
      · rintro rfl; revert hp; decide
      · rintro rfl; revert hp; decide
      · have : b ∈ t ++ [x] := by
          injection e with _ e
          have e : t ++ [x] = b :: r := e
          rw [e]; simp
        rw [List.mem_append] at this
        rcases this with hb | hb
        · exact isdigit_lit (hd b (by simp [hb])) p (by revert hp; revert p; decide)
        · rw [List.mem_singleton] at hb
          subst hb
          rcases h with rfl | rfl <;> (revert hp; revert p; decide)
    refine (const_skip (hf _ (by decide) _) s).trans ?_
    refine (const_skip (hl _ (by decide)) s).trans ?_
    refine (const_skip (hz _ (by decide)) s).trans ?_
    refine (const_skip (hf _ (by decide) _) s).trans ?_
    refine (const_skip (hl _ (by decide)) s).trans ?_
    refine (const_skip (hz _ (by decide)) s).trans ?_
    refine (const_hit (by simp) (suf_hit (by decide) (by decide) ?_ (plain_zero hp)) s).trans ?_
    · rcases h with rfl | rfl <;> decide
    rw [baseLoop, (octLoop_spec _).1 n hn]
    exact .refl _
  | percent =>
    rw [if_neg (by rw [not_label (.inr (.inr rfl))]; simp)]
    refine ⟨s.bufpos + (1 + ds.length), (const_skip (filter_first (by decide) (by decide) fun c r he => ?_) s).trans ?_⟩
    · injection he with he; subst he; decide
    refine (const_skip (last _ (by decide) ?_) s).trans ?_
    · intro a y e
      exact lit_x (hx y (last_mem (pre := ['%']) e hne)).1 _ (by decide)
    refine (const_skip (filter_first (by decide) (by decide) fun c r he => ?_) s).trans ?_
    · injection he with he; subst he; decide
    refine (const_hit hne (pre1_hit (by decide) (by decide) (by decide) ds) s).trans ?_
    rw [baseLoop, (binLoop_spec _).1 n hn]
    exact .refl _
  | zeroB _ x h =>
    have hd : ∀ c ∈ ds, isdigit c = true := fun c hc => (hexVal_dec (hx c hc).1 (Nat.lt_trans (hx c hc).2 (by decide))).1
    rw [if_neg (by rw [not_label (.inl (by decide))]; simp)]
    refine ⟨s.bufpos + (1 + ds.length), (const_skip (filter_first (by decide) (by decide) fun c r he => ?_) s).trans ?_⟩
    · injection he with he; subst he; decide
    refine (const_skip (last _ (by decide) ?_) s).trans ?_
    · intro a y e
      exact lit_x (hx y (last_mem (pre := ['0', x]) e hne)).1 _ (by decide)
    refine (const_skip (pre2_miss (by decide) (by decide) (by decide) (by decide) fun a b r e _ => ?_) s).trans ?_
    · injection e with _ e; injection e with e
      subst e
      rcases h with rfl | rfl <;> decide
    refine (const_skip (filter_first (by decide) (by decide) fun c r he => ?_) s).trans ?_
    · injection he with he; subst he; decide
    refine (const_skip (last _ (by decide) ?_) s).trans ?_
    · intro a y e
      exact isdigit_lit (hd y (last_mem (pre := ['0', x]) e hne)) _ (by decide)
    refine (const_hit hne (pre2_hit (by decide) (by decide) (by decide) (by decide) (by decide) ?_ ds) s).trans ?_
    · rcases h with rfl | rfl <;> decide
    rw [baseLoop, (binLoop_spec _).1 n hn]
    exact .refl _
  | suffixB _ x h =>
    have hd : ∀ c ∈ ds, isdigit c = true := fun c hc => (hexVal_dec (hx c hc).1 (Nat.lt_trans (hx c hc).2 (by decide))).1
    obtain ⟨c, t, rfl⟩ : ∃ c t, ds = c :: t := by cases ds with | nil => exact absurd rfl hne | cons c t => exact ⟨c, t, rfl⟩
    rw [List.cons_append, if_neg (by rw [not_label (.inl (hd c (by simp)))]; simp), ← List.cons_append]
    refine ⟨s.bufpos + (1 + (c :: t).length), ?_⟩
    have hf : ∀ p ∈ ['$', '%'], ∀ pat, (filter (c :: t ++ [x]) (p :: pat)).ok = false := by
      intro p hp pat
      refine filter_first ?_ ?_ fun d r he => ?_
      · rintro rfl; revert hp; decide
      · rintro rfl; revert hp; decide
      · injection he with he
        subst he
        refine isdigit_lit (hd c (by simp)) _ ?_
        revert hp; revert p; decide
    refine (const_skip (hf _ (by decide) _) s).trans ?_
    refine (const_skip (last _ (by decide) ?_) s).trans ?_
    · intro a y e
      rw [last_eq e]
      rcases h with rfl | rfl <;> decide
    refine (const_skip (pre2_miss (by decide) (by decide) (by decide) (by decide) fun a b r e _ => ?_) s).trans ?_
    · have : b ∈ t ++ [x] := by
        injection e with _ e
        have e : t ++ [x] = b :: r := e
        rw [e]; simp
      rw [List.mem_append] at this
      rcases this with hb | hb
      · exact isdigit_lit (hd b (by simp [hb])) _ (by decide)
      · rw [List.mem_singleton] at hb
        subst hb
        rcases h with rfl | rfl <;> decide
    refine (const_skip (hf _ (by decide) _) s).trans ?_
    refine (const_hit (by simp) (suf_hit (by decide) (by decide) ?_ (plain_zero hp)) s).trans ?_
    · rcases h with rfl | rfl <;> decide
    rw [baseLoop, (binLoop_spec _).1 n hn]
    exact .refl _

theorem writes_plain {b : Nat} {ds text : Str} (hw : Spec.Writes b ds text) (hne : ds ≠ [])
    (hp : ∀ c ∈ ds, plainChar c = true) : text ≠ [] ∧ ∀ c ∈ text, plainChar c = true := by
  cases hw with
  | decimal => exact ⟨hne, hp⟩
  | dollar =>
    refine ⟨by simp, fun c hc => ?_⟩
    rcases List.mem_cons.1 hc with rfl | hc
    · decide
    · exact hp c hc
  | percent =>
    refine ⟨by simp, fun c hc => ?_⟩
    rcases List.mem_cons.1 hc with rfl | hc
    · decide
    · exact hp c hc
  | zeroX _ x h | zeroB _ x h =>
    refine ⟨by simp, fun c hc => ?_⟩
    rcases List.mem_cons.1 hc with rfl | hc
    · decide
    · rcases List.mem_cons.1 hc with rfl | hc
      · rcases h with rfl | rfl <;> decide
      · exact hp c hc
  | octal _ x h | suffixB _ x h =>
    refine ⟨by simp, fun c hc => ?_⟩
    rcases List.mem_append.1 hc with hc | hc
    · exact hp c hc
    · rw [List.mem_singleton] at hc
      subst hc
      rcases h with rfl | rfl <;> decide
  | suffixH _ y _ x h =>
    refine ⟨by simp, fun c hc => ?_⟩
    rcases List.mem_append.1 hc with hc | hc
    · exact hp c hc
    · rw [List.mem_singleton] at hc
      subst hc
      rcases h with rfl | rfl <;> decide

theorem cst_run (tgt : Bool) (n : Nat) (s : St) : ∃ r, cst tgt n s = .ok r { s with calcR := if tgt then r else s.calcR } ∧
    r.type = .absolute ∧ r.value = BitVec.ofNat 64 n ∧ r.flags = {} ∧ r.modifier = (if tgt then s.calcR.modifier else 0) := by
  cases tgt
  · exact ⟨_, rfl, rfl, rfl, rfl, rfl⟩
  · exact ⟨_, rfl, rfl, rfl, rfl, rfl⟩

/-! ## The property -/

/-- **C09** (value). A constant written in any of the forms has the number that its digits spell, when that is
    below 2^32 (unless the pattern matcher has used up its work buffer). -/
theorem C09_value {b : Nat} {ds text : Str} {n : Nat} (hw : Spec.Writes b ds text) (hne : ds ≠ [])
    (hn : Spec.number b ds = some n) (hlt : n < 2 ^ 32) (s : St) :
    (∃ r s', parse (some text) s = .ok r s' ∧ r.type = .absolute ∧ r.value.toNat = n) ∨
    (∃ t, parse (some text) s = .stop (.ub .filterBuffer) t) := by
  obtain ⟨h1, h2⟩ := writes_plain hw hne fun c hc => plain_x (number_digits hn c hc).1
  obtain ⟨k, h3⟩ := const_leaf hw hne hn true s
  have hl : n < Spec.limit b := by unfold Spec.limit; split <;> omega
  rw [if_pos hl] at h3
  rcases (parse_leaf h1 h2 s).trans h3 with h | h
  · obtain ⟨r, e, h4, h5, -⟩ := cst_run true n { s with bufpos := k }
    refine .inl ⟨r, _, h.trans e, h4, ?_⟩
    rw [h5, BitVec.toNat_ofNat]
    omega
  · exact .inr h

/-- **C09** (overflow). Decimal, octal and hexadecimal constants of 2^32 and more are refused, and the error is
    `overflow`.  For binary constants this only holds from 0x1E0000000 on (see `C09_binary_false`). -/
theorem C09_overflow_partial {b : Nat} {ds text : Str} {n : Nat} (hw : Spec.Writes b ds text) (hne : ds ≠ [])
    (hn : Spec.number b ds = some n) (hge : 2 ^ 32 ≤ n) (hb : b = 2 → 0x1E0000000 ≤ n) (s : St) :
    (∃ k, parse (some text) s = error c!"overflow" { s with bufpos := k }) ∨
    (∃ t, parse (some text) s = .stop (.ub .filterBuffer) t) := by
  obtain ⟨h1, h2⟩ := writes_plain hw hne fun c hc => plain_x (number_digits hn c hc).1
  obtain ⟨k, h3⟩ := const_leaf hw hne hn true s
  have hl : ¬ n < Spec.limit b := by
    unfold Spec.limit
    split
    · rename_i h; have := hb h; omega
    · omega
  rw [if_neg hl] at h3
  rcases (parse_leaf h1 h2 s).trans h3 with h | h
  · exact .inl ⟨k, h⟩
  · exact .inr h

/-- The value of a parsed expression. -/
def Res.value : Res Result → Option Nat
  | .ok r _ => some r.value.toNat
  | _ => none
/-- Was the expression refused? -/
def Res.refused : Res Result → Bool
  | .err _ => true
  | _ => false

/-- The negation for binary constants: `%` with a one and thirty-two zeros is accepted, as 2^32. -/
theorem C09_binary_false : Spec.Writes 2 ('1' :: List.replicate 32 '0') ('%' :: '1' :: List.replicate 32 '0') ∧
    Spec.number 2 ('1' :: List.replicate 32 '0') = some (2 ^ 32) ∧
    (parse (some ('%' :: '1' :: List.replicate 32 '0')) (initSt { fs := fun _ => none } [])).value = some (2 ^ 32) := by
  refine ⟨.percent _, ?_, ?_⟩ <;> decide +kernel

/-! A text that is no number. -/

theorem filter1_cases (e pat : Str) (s : St) : (∃ t, filter1 e pat s = .stop (.ub .filterBuffer) t) ∨
    (∃ k, filter1 e pat s = .ok none { s with bufpos := k }) ∨
    (∃ a k, filter1 e pat s = .ok (some a) { s with bufpos := k } ∧ Spec.Fits pat [a] e) := by
  by_cases hb : bufSize ≤ s.bufpos + (filter e pat).wrote
  · have hr := filterC_run e pat s
    rw [if_pos hb] at hr
    exact .inl ⟨s, run_stop hr⟩
  · have hr := filterC_run e pat s
    rw [if_neg hb] at hr
    cases ho : (filter e pat).ok with
    | false =>
      rw [ho, if_neg (by simp)] at hr
      exact .inr (.inl ⟨s.bufpos, (run_ok hr).trans rfl⟩)
    | true =>
      have hf := C14_captures e pat ho
      rw [ho, if_pos rfl] at hr
      unfold filter1
      rw [run_ok hr]
      generalize (filter e pat).caps = cs at hf
      match cs, hf with
      | [], _ => exact .inr (.inl ⟨_, rfl⟩)
      | [a], hf => exact .inr (.inr ⟨a, _, rfl, hf⟩)
      | _ :: _ :: _, _ => exact .inr (.inl ⟨_, rfl⟩)

theorem row_rejected {tgt : Bool} {e pat : Str} {b : Base} {rows : List (Str × Base)}
    (hit : ∀ a, a ≠ [] → Spec.Fits pat [a] e → ∃ m, baseLoop b a = .error m)
    (rest : ∀ s : St, ∃ m k, Toward (parseConst tgt e rows s) (error m { s with bufpos := k })) (s : St) :
    ∃ m k, Toward (parseConst tgt e ((pat, b) :: rows) s) (error m { s with bufpos := k }) := by
  rw [parseConst]
  rcases filter1_cases e pat s with ⟨t, h⟩ | ⟨k, h⟩ | ⟨a, k, h, hf⟩
  · exact ⟨[], 0, .inr ⟨t, run_stop h⟩⟩
  · obtain ⟨m, k', h'⟩ := rest { s with bufpos := k }
    exact ⟨m, k', Toward.bind (.inl h) h'⟩
  · cases a with
    | nil =>
      obtain ⟨m, k', h'⟩ := rest { s with bufpos := k }
      exact ⟨m, k', Toward.bind (.inl h) h'⟩
    | cons c a =>
      obtain ⟨m, hm⟩ := hit (c :: a) (by simp) hf
      refine ⟨m, k, Toward.bind (.inl h) ?_⟩
      change Toward (cstE tgt (baseLoop b (c :: a)) _) _
      rw [hm]
      exact .refl _

theorem fits_pre1 {p : Char} (h1 : p ≠ '?') (h2 : p ≠ '_') {a e : Str} (h : Spec.Fits [p, '?'] [a] e) :
    ∃ x, e = x :: a ∧ Spec.Same p x := by
  simp only [Spec.Fits, if_neg h1, if_neg h2, if_true] at h
  obtain ⟨x, s', rfl, hs, s'', rfl, rfl⟩ := h
  exact ⟨x, by simp, hs⟩
theorem fits_pre2 {p q : Char} (h1 : p ≠ '?') (h2 : p ≠ '_') (h3 : q ≠ '?') (h4 : q ≠ '_') {a e : Str}
    (h : Spec.Fits [p, q, '?'] [a] e) : ∃ x y, e = x :: y :: a ∧ Spec.Same p x ∧ Spec.Same q y := by
  simp only [Spec.Fits, if_neg h1, if_neg h2, if_neg h3, if_neg h4, if_true] at h
  obtain ⟨x, s', rfl, hs, y, s'', rfl, hs', s3, rfl, rfl⟩ := h
  exact ⟨x, y, by simp, hs, hs'⟩
theorem fits_suf {p : Char} (h1 : p ≠ '?') (h2 : p ≠ '_') {a e : Str} (h : Spec.Fits ['?', p] [a] e) :
    ∃ x, e = a ++ [x] ∧ Spec.Same p x := by
  simp only [Spec.Fits, if_neg h1, if_neg h2, if_true] at h
  obtain ⟨s', rfl, x, s'', rfl, hs, rfl⟩ := h
  exact ⟨x, rfl, hs⟩

/-- The letters that a letter of a pattern accepts. -/
theorem same_two {p x : Char} (ha : isalpha p = true) (hu : toupper p = p) (h : Spec.Same p x) :
    x = p ∨ x = Char.ofNat (p.toNat + 32) := by
  rcases h with h | ⟨rfl, _⟩
  · rw [← toupper_eq, ← toupper_eq, hu] at h
    unfold toupper at h
    split at h
    · rename_i hx
      right
      apply char_toNat_inj
      have : ∀ k < 123, 97 ≤ k → (Char.ofNat (k - 32)).toNat + 32 = k ∧ (Char.ofNat ((Char.ofNat (k - 32)).toNat + 32)).toNat = k := by decide +kernel
      have := this x.toNat (by omega) (by omega)
      rw [h, this.2]
    · exact .inl h.symm
  · cases ha
theorem same_one {p x : Char} (ha : isalpha p = false) (hs : p ≠ ' ') (h : Spec.Same p x) : x = p := by
  refine litMatch_eq ha hs ?_
  unfold Spec.Same at h
  rw [← toupper_eq, ← toupper_eq] at h
  simpa [litMatch] using h

/-- **C09** (rejection). A text that starts like a number and has no other special character, but does not
    spell a number in any of the forms (some digit does not belong to the base), is refused. -/
theorem C09_rejected {c : Char} {t : Str} (hc : isdigit c = true ∨ c = '$' ∨ c = '%')
    (hp : ∀ x ∈ c :: t, plainChar x = true)
    (hno : ∀ b ds, Spec.Writes b ds (c :: t) → ds ≠ [] → Spec.number b ds = none) (s : St) :
    (∃ m k, parse (some (c :: t)) s = error m { s with bufpos := k }) ∨
    (∃ u, parse (some (c :: t)) s = .stop (.ub .filterBuffer) u) := by
  have key : ∃ m k, Toward (parseLeaf true (c :: t) s) (error m { s with bufpos := k }) := by
    unfold parseLeaf
    rw [if_neg (by rw [not_label hc]; simp)]
    refine row_rejected (fun a hne hf => ?_) (row_rejected (fun a hne hf => ?_) (row_rejected (fun a hne hf => ?_)
      (row_rejected (fun a hne hf => ?_) (row_rejected (fun a hne hf => ?_) (row_rejected (fun a hne hf => ?_)
      (row_rejected (fun a hne hf => ?_) (fun s => ?_))))))) s
    · obtain ⟨x, e, hs⟩ := fits_pre1 (by decide) (by decide) hf
      obtain rfl := same_one (by decide) (by decide) hs
      rw [e] at hno
      exact (hexLoop_spec a).2 (hno _ _ (.dollar a) hne)
    · obtain ⟨x, e, hs⟩ := fits_suf (by decide) (by decide) hf
      obtain ⟨y, a, rfl⟩ : ∃ y b, a = y :: b := by cases a with | nil => exact absurd rfl hne | cons y b => exact ⟨y, b, rfl⟩
      have hy : y = c := by injection e with e; exact e.symm
      subst hy
      by_cases hd : isdigit y = true
      · rw [e] at hno
        refine (hexLoop_spec _).2 (hno _ _ (.suffixH a y ?_ x ?_) hne)
        · simp only [isdigit, Bool.and_eq_true, decide_eq_true_eq] at hd
          obtain ⟨k, hk, rfl⟩ := char_range hd.1 hd.2
          have : k = 0 ∨ k = 1 ∨ k = 2 ∨ k = 3 ∨ k = 4 ∨ k = 5 ∨ k = 6 ∨ k = 7 ∨ k = 8 ∨ k = 9 := by omega
          rcases this with rfl|rfl|rfl|rfl|rfl|rfl|rfl|rfl|rfl|rfl <;> decide
        · rcases same_two (by decide) (by decide) hs with h | h
          · exact .inr h
          · exact .inl h
      · refine ⟨c!"bad hexadecimal number", ?_⟩
        rcases hc with hc | rfl | rfl
        · exact absurd hc hd
        · rfl
        · rfl
    · obtain ⟨x, y, e, hs, hs'⟩ := fits_pre2 (by decide) (by decide) (by decide) (by decide) hf
      obtain rfl := same_one (by decide) (by decide) hs
      rw [e] at hno
      refine (hexLoop_spec a).2 (hno _ _ (.zeroX a y ?_) hne)
      rcases same_two (by decide) (by decide) hs' with h | h
      · exact .inr h
      · exact .inl h
    · obtain ⟨x, e, hs⟩ := fits_pre1 (by decide) (by decide) hf
      obtain rfl := same_one (by decide) (by decide) hs
      rw [e] at hno
      exact (binLoop_spec a).2 (hno _ _ (.percent a) hne)
    · obtain ⟨x, e, hs⟩ := fits_suf (by decide) (by decide) hf
      rw [e] at hno
      refine (binLoop_spec _).2 (hno _ _ (.suffixB a x ?_) hne)
      rcases same_two (by decide) (by decide) hs with h | h
      · exact .inr h
      · exact .inl h
    · obtain ⟨x, y, e, hs, hs'⟩ := fits_pre2 (by decide) (by decide) (by decide) (by decide) hf
      obtain rfl := same_one (by decide) (by decide) hs
      rw [e] at hno
      refine (binLoop_spec a).2 (hno _ _ (.zeroB a y ?_) hne)
      rcases same_two (by decide) (by decide) hs' with h | h
      · exact .inr h
      · exact .inl h
    · obtain ⟨x, e, hs⟩ := fits_suf (by decide) (by decide) hf
      rw [e] at hno
      refine (octLoop_spec _).2 (hno _ _ (.octal a x ?_) hne)
      rcases same_two (by decide) (by decide) hs with h | h
      · exact .inr h
      · exact .inl h
    · rw [parseConst]
      by_cases hd : isdigit c = true
      · simp only [hd, if_true]
        obtain ⟨m, hm⟩ := (decLoop_spec (c :: t)).2 (hno _ _ (.decimal _) (by simp))
        rw [hm]
        exact ⟨m, s.bufpos, .refl _⟩
      · refine ⟨c!"syntax error in an expression", s.bufpos, ?_⟩
        rcases hc with hc | rfl | rfl
        · exact absurd hc hd
        · exact .refl _
        · exact .refl _
  obtain ⟨m, k, hk⟩ := key
  rcases (parse_leaf (by simp) hp s).trans hk with h | h
  · exact .inl ⟨m, k, h⟩
  · exact .inr h

/-! Cases that meet the hypotheses. -/

example : Spec.Writes 10 c!"4294967295" c!"4294967295" ∧ Spec.number 10 c!"4294967295" = some (2 ^ 32 - 1) :=
  ⟨.decimal _, by decide +kernel⟩
example : Spec.Writes 16 c!"FFff" c!"0xFFff" ∧ Spec.number 16 c!"FFff" = some 65535 :=
  ⟨.zeroX _ _ (.inl rfl), by decide +kernel⟩
example : Spec.Writes 8 c!"777" c!"777Q" ∧ Spec.number 8 c!"777" = some 511 :=
  ⟨.octal _ _ (.inr rfl), by decide +kernel⟩
example : Spec.Writes 10 c!"4294967296" c!"4294967296" ∧ Spec.number 10 c!"4294967296" = some (2 ^ 32) :=
  ⟨.decimal _, by decide +kernel⟩
/-- `12a` spells no number. -/
example : ∀ b ds, Spec.Writes b ds c!"12a" → ds ≠ [] → Spec.number b ds = none := by
  intro b ds h hne
  generalize ht : c!"12a" = t at h
  cases h with
  | decimal => subst ht; decide +kernel
  | dollar | percent => cases ht
  | zeroX | zeroB => cases ht
  | suffixH ds c _ x h =>
    have := last_eq (ds := c!"12") (x := 'a') ht
    subst this; exact absurd h (by decide)
  | octal ds x h | suffixB ds x h =>
    have := last_eq (ds := c!"12") (x := 'a') ht
    subst this; exact absurd h (by decide)
/-- The first outcome of the theorems is the one met in a fresh state. -/
example : (parse (some c!"0x12aB") (initSt { fs := fun _ => none } [])).value = some 0x12ab := by decide +kernel
example : (parse (some c!"12a") (initSt { fs := fun _ => none } [])).refused = true := by decide +kernel

end Crasm

import Verif.Props.C21
/-! # Instructions: bytes generated, or an error -/

namespace Crasm

/-- The three ways a command may end. -/
theorem res_cases (r : Res α) : (∃ a s, r = .ok a s) ∨ (∃ s, r = .err s) ∨ (∃ w s, r = .stop w s) := by
  cases r with
  | ok a s => exact .inl ⟨a, s, rfl⟩
  | err s => exact .inr (.inl ⟨s, rfl⟩)
  | stop w s => exact .inr (.inr ⟨w, s, rfl⟩)

theorem error_cases (msg : Str) (s : St) :
    (∃ s', (error msg : M α) s = .err s') ∨ (∃ w s', (error msg : M α) s = .stop w s') := by
  rcases error_run (α := α) msg s with ⟨w, s', h, -⟩ | ⟨s1, s', h, -⟩
  · exact .inr ⟨w, s', h⟩
  · exact .inl ⟨s', h⟩

theorem insert16_no_err {x : BitVec 16} {s : St} (ho : s.flags.orgGv = true) :
    (∃ s', insert16 x s = .ok () s' ∧ Gen (if s.flags.lohi then [x.setWidth 8, (x >>> 8).setWidth 8]
      else [(x >>> 8).setWidth 8, x.setWidth 8]) s s') ∨ (∃ w s', insert16 x s = .stop w s') := by
  have two : ∀ x y : Byte, (∃ s', (do insert8 x; insert8 y : M Unit) s = .ok () s' ∧ Gen [x, y] s s') ∨
      (∃ w s', (do insert8 x; insert8 y : M Unit) s = .stop w s') := by
    intro x y
    rcases insert8_no_err (x := x) ho with ⟨s1, e1, g1⟩ | ⟨w, s1, e1⟩
    · obtain ⟨f, hf⟩ := g1.flags
      rw [run_ok e1]
      rcases insert8_no_err (x := y) (s := s1) (by rw [hf]; exact ho) with ⟨s2, e2, g2⟩ | ⟨w, s2, e2⟩
      · exact .inl ⟨s2, e2, g1.trans g2⟩
      · exact .inr ⟨w, s2, e2⟩
    · exact .inr ⟨w, s1, run_stop e1⟩
  unfold insert16
  rw [getS_bind_run]
  cases hl : s.flags.lohi <;> simp only [Bool.false_eq_true, if_false, if_true]
  · exact two _ _
  · exact two _ _

/-- A command generates `bs` (if `want` is `some bs`) or is refused with an error message (if there is nothing it can
    generate); or the program stops altogether. -/
def Makes (want : Option (List Byte)) (s : St) (r : Res α) : Prop :=
  match r with
  | .ok _ s' => ∃ bs, want = some bs ∧ Gen bs s s'
  | .err _ => want = none
  | .stop _ _ => True

theorem Makes.stop {want : Option (List Byte)} {s : St} {r : Res α} (h : ∃ w s', r = .stop w s') : Makes want s r := by
  obtain ⟨w, s', rfl⟩ := h
  trivial
theorem Makes.bad {msg : Str} {s s' : St} : Makes none s ((error msg : M α) s') := by
  rcases error_cases (α := α) msg s' with ⟨s1, h⟩ | ⟨w, s1, h⟩ <;> rw [h] <;> trivial
theorem Makes.bad_bind {msg : Str} {f : α → M β} {s s' : St} : Makes none s (((error msg : M α) >>= f) s') := by
  rcases error_cases (α := α) msg s' with ⟨s1, h⟩ | ⟨w, s1, h⟩
  · rw [run_err h]; exact rfl
  · rw [run_stop h]; trivial
theorem Makes.before {want : Option (List Byte)} {s s1 : St} {r : Res α} (g : Gen [] s s1) (h : Makes want s1 r) : Makes want s r := by
  cases r with
  | ok a s2 =>
    obtain ⟨bs, h1, h2⟩ := h
    exact ⟨bs, h1, by simpa using g.trans h2⟩
  | err s2 => exact h
  | stop w s2 => trivial
theorem Makes.then {want : Option (List Byte)} {s : St} {m : M α} {f : α → M β}
    (h : Makes want s (m s)) (hf : ∀ {a s1}, m s = .ok a s1 → Makes (some []) s1 (f a s1)) : Makes want s ((m >>= f) s) := by
  cases hm : m s with
  | ok a s1 =>
    rw [hm] at h
    rw [run_ok hm]
    obtain ⟨bs, h1, h2⟩ := h
    have h3 := hf hm
    cases hr : f a s1 with
    | ok b s2 =>
      rw [hr] at h3
      obtain ⟨cs, h4, h5⟩ := h3
      cases h4
      exact ⟨bs, h1, by simpa using h2.trans h5⟩
    | err s2 => rw [hr] at h3; cases h3
    | stop w s2 => trivial
  | err s1 => rw [hm] at h; rw [run_err hm]; exact h
  | stop w s1 => rw [run_stop hm]; trivial

theorem gen_bufpos (s : St) (b : Nat) : Gen [] s { s with bufpos := b } :=
  ⟨by simp [byteEvents], by simp, by simp, ⟨s.flags.listOn, rfl⟩, rfl, rfl, .refl _, .refl _ _⟩

theorem Gen.orgGv {bs : List Byte} {s s' : St} (g : Gen bs s s') : s'.flags.orgGv = s.flags.orgGv := by
  obtain ⟨f, hf⟩ := g.flags
  rw [hf]
theorem Gen.lohi {bs : List Byte} {s s' : St} (g : Gen bs s s') : s'.flags.lohi = s.flags.lohi := by
  obtain ⟨f, hf⟩ := g.flags
  rw [hf]

/-- How an instruction whose operand contains the expression `t` may end: its operand is evaluated, and it makes the
    bytes that `enc` tells for what the value means; or it is refused. Nothing is claimed for an odd meaning. -/
def Does (meaning : Result → μ) (t : Str) (enc : μ → Option (List Byte)) (odd : μ → Prop) (s : St) (r : Res RC) : Prop :=
  match r with
  | .ok rc s' => rc = .cont ∧ ∃ b v s1, parse (some t) { s with bufpos := b } = .ok v s1 ∧
      (odd (meaning v) ∨ ∃ bs, enc (meaning v) = some bs ∧ Gen bs s s')
  | .err _ => (∀ m, enc m = none) ∨
      (∃ b s1, parse (some t) { s with bufpos := b } = .err s1) ∨
      (∃ b v s1, parse (some t) { s with bufpos := b } = .ok v s1 ∧ (odd (meaning v) ∨ enc (meaning v) = none))
  | .stop _ _ => True

theorem big_iff (v : Word) : ((v.setWidth 32 : BitVec 32) &&& 0xff00 ≠ 0) ↔ 256 ≤ v.toNat % 65536 := by
  have h : (v.setWidth 32 : BitVec 32) &&& (0xff00 : BitVec 32) = (((v.setWidth 32 : BitVec 32) >>> 8).setWidth 8).setWidth 32 <<< 8 := by
    have hk : ∀ i < 32, (0xff00 : BitVec 32).getLsbD i = decide (8 ≤ i ∧ i < 16) := by decide
    apply BitVec.eq_of_getLsbD_eq
    intro i hi
    rw [BitVec.getLsbD_and, hk i hi]
    simp only [BitVec.getLsbD_shiftLeft, BitVec.getLsbD_setWidth, BitVec.getLsbD_ushiftRight]
    by_cases h8 : i < 8
    · have : ¬ (8 ≤ i ∧ i < 16) := by omega
      simp [h8, this]
    · by_cases h16 : i < 16
      · have h1 : 8 ≤ i ∧ i < 16 := by omega
        have h2 : i - 8 < 8 := by omega
        have h3 : 8 + (i - 8) = i := by omega
        have h4 : i - 8 < 32 := by omega
        simp [h1, h8, h2, h3, h4, hi]
      · have h1 : ¬ (8 ≤ i ∧ i < 16) := by omega
        have h2 : ¬ i - 8 < 8 := by omega
        simp [h1, h2]
  rw [h]
  have hv := v.isLt
  constructor
  · intro h1
    apply Classical.byContradiction
    intro h2
    apply h1
    apply BitVec.eq_of_toNat_eq
    rw [show (0 : BitVec 32).toNat = 0 from rfl]
    simp only [BitVec.toNat_setWidth, BitVec.toNat_ushiftRight, Nat.shiftRight_eq_div_pow,
      BitVec.toNat_shiftLeft, Nat.shiftLeft_eq]
    omega
  · intro h1 h2
    have h2 := congrArg BitVec.toNat h2
    rw [show (0 : BitVec 32).toNat = 0 from rfl] at h2
    simp only [BitVec.toNat_setWidth, BitVec.toNat_ushiftRight, Nat.shiftRight_eq_div_pow,
      BitVec.toNat_shiftLeft, Nat.shiftLeft_eq] at h2
    omega

/-- How such an instruction comes about. -/
theorem does_of {meaning : Result → μ} {t : Str} {enc : μ → Option (List Byte)} {odd : μ → Prop} {s : St} {m : M Unit}
    (key : (∃ w s', m s = .stop w s') ∨
      ((∃ s', m s = .err s') ∧ ∀ m, enc m = none) ∨
      (∃ b, (∃ s1, parse (some t) { s with bufpos := b } = .err s1) ∧ ∃ s', m s = .err s') ∨
      (∃ b v s1, parse (some t) { s with bufpos := b } = .ok v s1 ∧ (odd (meaning v) ∨ Makes (enc (meaning v)) s (m s)))) :
    Does meaning t enc odd s ((do m; pure RC.cont : M RC) s) := by
  rcases key with ⟨w, s', h⟩ | ⟨⟨s', h⟩, hn⟩ | ⟨b, hp, s', h⟩ | ⟨b, v, s1, hp, h⟩
  · rw [run_stop h]; trivial
  · rw [run_err h]; exact .inl hn
  · rw [run_err h]; exact .inr (.inl ⟨b, hp⟩)
  · rcases res_cases (m s) with ⟨u, s', h'⟩ | ⟨s', h'⟩ | ⟨w, s', h'⟩
    · rw [run_ok h']
      rw [h'] at h
      exact ⟨rfl, b, v, s1, hp, h⟩
    · rw [run_err h']
      rw [h'] at h
      exact .inr (.inr ⟨b, v, s1, hp, h⟩)
    · rw [run_stop h']; trivial

end Crasm

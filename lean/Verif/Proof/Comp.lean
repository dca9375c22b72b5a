import Verif.Proof.TextE
import Verif.Proof.ProgUnique

/-! Programs that stand for something are not refused: what is to be known about the instructions of a processor. -/

namespace Crasm.C42
open Spec.Program (Isa)

/-- How an instruction of `n` bytes fares, in either pass: the names in it are entered, and an error is found only after
    `n` bytes, and only if `Q`. -/
def Comes (Q : Prop) (names : List Str) (n : Nat) (s : St) : Res RC → Prop
  | .ok _ s' => ∀ x ∈ names, Has s' (canon s.segment x)
  | .err s' => Q ∧ ∃ bs s2 msg, Gen bs s s2 ∧ bs.length = n ∧ (∀ x ∈ names, Has s2 (canon s.segment x)) ∧
      (error msg : M Unit) s2 = .err s'
  | .stop _ _ => True

/-- The assembler takes the instructions of the processor.  In pass 1 the values of names (`ρ1`) may differ from those
    they will have (`ρ`) if they are defined further below. -/
structure Complete (isa : Isa) (voc : List Entry) (cf : Option Int) : Prop where
  ins : ∀ {i m o}, isa.writes i m o → ∃ e ∈ pseudos ++ voc, e.name.map toupper = m ∧ ∃ h, e.label.ptr = .handler h ∧
    ∀ {keys : Str → Prop} {ρ ρ1 : Str → Int} {φ : Str → Bool} {bs self fuel label s}, Ready isa voc cf s → Able keys s →
      (∀ n ∈ isa.uses i, ¬ keys (canon 0 n)) → Outside (Worded isa) s (isa.uses i) → Values True s ρ1 φ (isa.uses i) →
      isa.code i ρ φ s.code.pc.toInt bs → (∀ n ∈ isa.uses i, φ n = false → ρ n = ρ1 n) →
      Comes (¬ ∀ n ∈ isa.uses i, ρ n = ρ1 n) (isa.uses i) bs.length s (callHandler self fuel h e.label.modifier label o s)

/-- The same for the instructions alone. -/
structure Takes (isa : Isa) (voc : List Entry) (cf : Option Int) : Prop where
  ins : ∀ {i m o}, isa.writes i m o → ∃ e ∈ voc, e.name.map toupper = m ∧ ∃ h, e.label.ptr = .handler h ∧
    ∀ {keys : Str → Prop} {ρ ρ1 : Str → Int} {φ : Str → Bool} {bs self fuel label s}, Ready isa voc cf s → Able keys s →
      (∀ n ∈ isa.uses i, ¬ keys (canon 0 n)) → Outside (Worded isa) s (isa.uses i) → Values True s ρ1 φ (isa.uses i) →
      isa.code i ρ φ s.code.pc.toInt bs → (∀ n ∈ isa.uses i, φ n = false → ρ n = ρ1 n) →
      Comes (¬ ∀ n ∈ isa.uses i, ρ n = ρ1 n) (isa.uses i) bs.length s (callHandler self fuel h e.label.modifier label o s)

theorem put_has {t : Tree} {k k' : Str} {l : Label} (h : (t.find k).isSome) : ((t.put k' l).find k).isSome := by
  by_cases e : k = k'
  · subst e; rw [Tree.find_put_self]; rfl
  · rw [Tree.find_put_ne _ _ e]; exact h

theorem chip_has {k : Str} {a b : Cfg} (h : ChipStep a b) (hk : Has a.1 k) : Has b.1 k := by
  unfold Has at *
  cases h with
  | n h =>
    cases h with
    | use s k' => exact put_has hk
    | error1 s t ha hb =>
      obtain ⟨v, -, rfl⟩ := hb
      exact put_has hk
    | _ => exact hk
  | _ => exact hk

theorem walk_has {m : M α} (w : Walk ChipStep m) {s s' : St} {a : α} (e : m s = .ok a s') {k : Str} (hk : Has s k) : Has s' k := by
  have := w s
  rw [e] at this
  have h : ∀ {a b : Cfg}, Star ChipStep a b → Has a.1 k → Has b.1 k := by
    intro a b h hk
    induction h with
    | refl => exact hk
    | tail _ r ih => exact chip_has r ih
  exact h (show Star ChipStep (s, .live) (s', .live) from this) hk

theorem Comes.not {Q : Prop} {names : List Str} {n : Nat} {s : St} {r : Res RC} (h : ∀ s', r ≠ .err s')
    (h' : ∀ a s', r = .ok a s' → ∀ x ∈ names, Has s' (canon s.segment x)) : Comes Q names n s r := by
  cases r with
  | ok a s' => exact h' a s' rfl
  | err s' => exact absurd rfl (h s')
  | stop w s' => trivial

theorem cont_err {m : M α} {s s' : St} (h : (do let _ ← m; pure RC.cont : M RC) s = .err s') : m s = .err s' := by
  rw [bind_run] at h
  cases e : m s with
  | ok a s1 => rw [e] at h; cases h
  | err s1 => rw [e] at h; cases h; rfl
  | stop w s1 => rw [e] at h; cases h

/-- A relative branch. -/
theorem rel_comes {Q : Prop} {names : List Str} {code : BitVec 32} {o : Option Str} {s : St} (ho : s.flags.orgGv = true)
    (hs : ∀ s', parse o s ≠ .err s')
    (hr : ∀ r s1, parse o s = .ok r s1 → r.type = .absolute ∧ (∀ x ∈ names, Has s1 (canon s.segment x)) ∧
      ((∀ d : Byte, (s.code.pc.toInt + 2 + d.toInt - r.value.toInt) % 2 ^ 32 ≠ 0) → Q)) :
    Comes Q names 2 s ((do relBranch code o; pure RC.cont : M RC) s) := by
  cases e0 : parse o s with
  | err s' => exact absurd e0 (hs s')
  | stop w s' =>
    have : (do relBranch code o; pure RC.cont : M RC) s = .stop w s' := by
      unfold relBranch parseAbs
      rw [bind_assoc, bind_assoc, run_stop e0]
    rw [this]
    trivial
  | ok r s1 =>
  obtain ⟨hty, hnames, hQ⟩ := hr r s1 e0
  have hp : parseAbs o s = .ok r s1 := by
    unfold parseAbs
    rw [run_ok e0]
    unfold checktype
    rw [if_pos hty]
    rfl
  have g0 : Gen [] s s1 := nwalk_gen W.walk hp
  unfold relBranch
  rw [bind_assoc]
  rw [run_ok hp, bind_assoc, getS_bind_run]
  have hpc : s1.code.pc = s.code.pc := by simpa using g0.pc
  rw [hpc]
  generalize hd : (BitVec.setWidth 32 (r.value - s.code.pc - 2) : BitVec 32) = dd
  dsimp only
  obtain ⟨f0, hf0⟩ := g0.flags
  rw [bind_assoc]
  rcases insert8_no_err (x := lowByte code) (s := s1) (by rw [hf0]; exact ho) with ⟨s2, e2, g2⟩ | ⟨w, s2, e⟩
  rotate_left
  · rw [run_stop e]; trivial
  rw [run_ok e2, bind_assoc]
  obtain ⟨f2, hf2⟩ := g2.flags
  rcases insert8_no_err (x := lowByte dd) (s := s2) (by rw [hf2, hf0]; exact ho) with ⟨s3, e3, g3⟩ | ⟨w, s3, e⟩
  rotate_left
  · rw [run_stop e]; trivial
  rw [run_ok e3]
  have g := (g0.trans g2).trans g3
  simp only [List.nil_append, List.cons_append] at g
  have h3 : ∀ x ∈ names, Has s3 (canon s.segment x) := fun x hx => ((hnames x hx).alike g2.tree).alike g3.tree
  unfold whenM
  by_cases hc : (lowByte dd).signExtend 32 = dd
  · rw [if_neg (by simpa using hc)]
    exact h3
  · rw [if_pos hc]
    rcases error_run (α := Unit) c!"too long branch" s3 with ⟨w, s4, e, -⟩ | ⟨s4, s5, e, -, -⟩
    · rw [run_stop e]; trivial
    · rw [run_err e]
      refine ⟨hQ fun d h => ?_, _, s3, _, g, rfl, h3, e⟩
      rw [← reach_iff, hd] at h
      rw [← h, low_sign] at hc
      exact hc rfl

end Crasm.C42

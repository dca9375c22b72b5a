import Verif.Spec.Rank
import Verif.Props.C11

/-!
  **C54** Expressions without parentheses: which operator takes which operands.
-/

namespace Crasm

namespace C54

/-! ## Chains -/

theorem reads_mono {l x : Bool} {r r' : Nat} {e : Spec.Expr} {t : Str} (h : Spec.Text ⟨l, r, x⟩ e t) (hr : r' ≤ r) : Spec.Text ⟨l, r', x⟩ e t := by
  cases h with
  | num h1 h2 h3 h4 => exact .num h1 h2 h3 h4
  | label h => exact .label h
  | here h => exact .here (Nat.le_trans hr h)
  | bin h1 h2 h3 h4 h5 h6 => exact .bin (Nat.le_trans hr h1) h2 h3 h4 h5 h6
  | neg h1 h2 h3 h4 => exact .neg h1 (Nat.le_trans hr h2) h3 h4
  | not h1 h2 h3 => exact .not (Nat.le_trans hr h1) h2 h3
  | lo h1 h2 h3 h4 h5 h6 => exact .lo h1 h2 h3 h4 h5 h6
  | hi h1 h2 h3 h4 h5 h6 => exact .hi h1 h2 h3 h4 h5 h6
  | paren h1 h2 h3 => exact .paren h1 h2 h3

theorem chain_append (ks : List Spec.Link) : ∀ a b : Str, Spec.chain (a ++ b) ks = a ++ Spec.chain b ks := by
  induction ks with
  | nil => intro a b; rfl
  | cons k ks ih => intro a b; simp only [Spec.chain]; rw [List.append_assoc, ih]

theorem chain_split (k : Spec.Link) (k2 : List Spec.Link) : ∀ (k1 : List Spec.Link) (a : Str), Spec.chain a (k1 ++ k :: k2) =
    Spec.chain a k1 ++ (k.before ++ (k.op.sym ++ (k.after ++ Spec.chain k.operand k2))) := by
  intro k1
  induction k1 with
  | nil => intro a; simp only [List.nil_append, Spec.chain]; rw [chain_append, chain_append, chain_append, chain_append]
  | cons x k1 ih => intro a; exact ih _

/-- The last of the weakest operators. -/
theorem weakest : ∀ ks : List Spec.Link, ks ≠ [] → ∃ k1 k k2, ks = k1 ++ k :: k2 ∧ (∀ x ∈ k1, k.op.rank ≤ x.op.rank) ∧
    ∀ x ∈ k2, k.op.rank < x.op.rank := by
  intro ks
  induction ks with
  | nil => intro h; exact absurd rfl h
  | cons x ks ih =>
    intro _
    cases ks with
    | nil => exact ⟨[], x, [], rfl, by simp, by simp⟩
    | cons y ks =>
      obtain ⟨k1, k, k2, h1, h2, h3⟩ := ih (by simp)
      rw [h1]
      by_cases h : k.op.rank ≤ x.op.rank
      · refine ⟨x :: k1, k, k2, rfl, fun z hz => ?_, h3⟩
        rcases List.mem_cons.1 hz with rfl | hz
        · exact h
        · exact h2 z hz
      · refine ⟨[], x, k1 ++ k :: k2, rfl, by simp, fun z hz => ?_⟩
        rcases List.mem_append.1 hz with hz | hz
        · have := h2 z hz; omega
        · rcases List.mem_cons.1 hz with rfl | hz
          · omega
          · have := h3 z hz; omega

theorem chain_reads : ∀ (n : Nat) (ks : List Spec.Link), ks.length < n → (∀ k ∈ ks, k.Good) → ∀ {l : Bool} {r : Nat} {e : Spec.Expr} {t : Str},
    r ≤ 9 → Spec.Text ⟨l, 9, true⟩ e t → (∀ k ∈ ks, r ≤ k.op.rank) → ∃ e', Spec.Text ⟨l, r, true⟩ e' (Spec.chain t ks) := by
  intro n
  induction n with
  | zero => intro ks h; omega
  | succ n ih =>
    intro ks hl hg l r e t hr ht hk
    by_cases hne : ks = []
    · subst hne; exact ⟨e, reads_mono ht hr⟩
    · obtain ⟨k1, k, k2, rfl, h1, h2⟩ := weakest ks hne
      simp only [List.length_append, List.length_cons] at hl
      obtain ⟨g1, g2, e2, g3⟩ := hg k (by simp)
      have hk8 : k.op.rank ≤ 8 := by cases k.op <;> decide
      obtain ⟨ea, ha⟩ := ih k1 (by omega) (fun x hx => hg x (by simp [hx])) (r := k.op.rank) (by omega) ht h1
      obtain ⟨eb, hb⟩ := ih k2 (by omega) (fun x hx => hg x (by simp [hx])) (r := k.op.rank + 1) (by omega) g3 h2
      rw [chain_split]
      exact ⟨_, .bin (k := ⟨l, r, true⟩) (hk k (by simp)) (fun _ => rfl) ha hb g1 g2⟩

end C54

/-- **C54**. An operand read by the ranks of its operators - the tighter ones first, equal ones from left to right -
    has the value of that expression when the labels in it are defined; or the assembler stops because that value
    does not exist (overflow, shift count out of range) or because the pattern matcher has used up its work buffer. -/
theorem C54_value {e : Spec.Expr} {t : Str} (h : Spec.Text .free e t) (ρ : Str → Int) (s : St)
    (hk : ∀ x ∈ e.names, ∃ l, searchlabel s x = some l ∧ l.flags.undef = false ∧ l.type = .absolute ∧ l.value.toInt = ρ x) :
    match e.eval ρ with
    | .ok v => (∃ r s', parse (some t) s = .ok r s' ∧ r.type = .absolute ∧ r.value.toInt = v) ∨
        ∃ t', parse (some t) s = .stop (.ub .filterBuffer) t'
    | .error .overflow => (∃ t', parse (some t) s = .stop (.ub .signedOverflow) t') ∨
        ∃ t', parse (some t) s = .stop (.ub .filterBuffer) t'
    | .error .shift => (∃ t', parse (some t) s = .stop (.ub .shiftCount) t') ∨
        ∃ t', parse (some t) s = .stop (.ub .filterBuffer) t' :=
  C11_value h ρ s hk

/-- **C54**. Every chain of operands joined by operators can be read so. -/
theorem C54_chain {e : Spec.Expr} {t : Str} (h : Spec.Text ⟨true, 9, true⟩ e t) {ks : List Spec.Link} (hg : ∀ k ∈ ks, k.Good) :
    ∃ e', Spec.Text .free e' (Spec.chain t ks) :=
  C54.chain_reads _ ks (Nat.lt_succ_self _) hg (by decide) h (fun _ _ => Nat.zero_le _)

namespace C54
theorem digit {k : Spec.Level} (c : Char) (n : Nat) (h1 : Spec.number 10 [c] = some n) (h2 : n < 2 ^ 32) : Spec.Text k (.num n) [c] :=
  .num (b := 10) (ds := [c]) (.decimal _) (by simp) h1 h2
end C54

/-- The hypotheses are met: `-2+3 *4<<1|~5` is `(-2) + (3 * ((4 << 1) | (~5)))` ... -/
example : Spec.Text .free (.bin .add (.un .neg (.num 2)) (.bin .mul (.num 3) (.bin .or (.bin .shl (.num 4) (.num 1)) (.un .not (.num 5)))))
    c!"-2+3 *4<<1|~5" := by
  have h2 := Spec.Text.neg (k := ⟨true, 0, true⟩) (b1 := []) rfl (by decide) (C54.digit '2' 2 rfl (by decide)) (by simp)
  have h5 := Spec.Text.not (k := ⟨false, 5, true⟩) (b1 := []) (by decide) (C54.digit '5' 5 rfl (by decide)) (by simp)
  have h4 := Spec.Text.bin (op := .shl) (k := ⟨false, 4, true⟩) (b1 := []) (b2 := []) (by decide) (fun _ => rfl) (C54.digit '4' 4 rfl (by decide)) (C54.digit '1' 1 rfl (by decide)) (by simp) (by simp)
  have h6 := Spec.Text.bin (op := .or) (k := ⟨false, 3, true⟩) (b1 := []) (b2 := []) (by decide) (fun _ => rfl) h4 h5 (by simp) (by simp)
  have h7 := Spec.Text.bin (op := .mul) (k := ⟨false, 1, true⟩) (b1 := [' ']) (b2 := []) (by decide) (fun _ => rfl) (C54.digit '3' 3 rfl (by decide)) h6 (by simp [Spec.IsBlank]) (by simp)
  exact Spec.Text.bin (op := .add) (k := .free) (b1 := []) (b2 := []) (by decide) (fun _ => rfl) h2 h7 (by simp) (by simp)

/-- ... worth -2 + 3 * -6 = -20, and this is what the assembler makes of it. -/
example : (parse (some c!"-2+3 *4<<1|~5") (initSt { fs := fun _ => none } [])).value = some (2 ^ 64 - 20) := by decide +kernel

/-- The location counter can be a term of a sum and the first factor of a product. -/
example : Spec.Text .free (.bin .add (.bin .mul (.label c!"*") (.num 2)) (.label c!"*")) c!"**2+*" := by
  have h1 := Spec.Text.bin (op := .mul) (k := ⟨true, 0, true⟩) (b1 := []) (b2 := []) (by decide) (fun _ => rfl) (.here (by decide)) (C54.digit '2' 2 rfl (by decide)) (by simp) (by simp)
  exact Spec.Text.bin (op := .add) (k := .free) (b1 := []) (b2 := []) (by decide) (fun _ => rfl) h1 (.here (by decide)) (by simp) (by simp)

/-- With the counter at 5, the assembler makes 15 of it; it makes nothing of `2**`, where the counter is the second factor. -/
example : ((passInit 1 >>= fun _ => xEqu (some c!"*") (some c!"5") >>= fun _ => parse (some c!"**2+*")) (initSt { fs := fun _ => none } [])).value = some 15 ∧
    ((passInit 1 >>= fun _ => xEqu (some c!"*") (some c!"5") >>= fun _ => parse (some c!"2**")) (initSt { fs := fun _ => none } [])).value = none := by
  decide +kernel

end Crasm

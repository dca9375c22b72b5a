import Verif.Props.C54

/-!
  **C55** The precedence of operators is that of the manual.
-/

namespace Crasm
namespace C55

/-- Reading by the groups of the manual amounts to reading by ranks where the weaker operator of a group never
    comes first. -/
theorem reads {o : Option Spec.BinOp} {g : Nat} {e : Spec.Expr} {t : Str}
    (h : Spec.Manual (fun q p => p.rank ≤ q.rank) o g e t) :
    ∀ l r, (∀ q, o = some q → r ≤ q.rank) → Spec.Text ⟨l, r, true⟩ e t := by
  have gr : ∀ {q p : Spec.BinOp}, p.group < q.group → p.rank < q.rank := by
    intro q p; cases q <;> cases p <;> decide
  induction h with
  | num h1 h2 h3 h4 => exact fun l r _ => .num h1 h2 h3 h4
  | label h => exact fun l r _ => .label h
  | @bin g o o' p a b ta tb b1 b2 hg ha hb hok h1 h2 iha ihb =>
    intro l r hr
    have root : ∀ {o : Option Spec.BinOp} {g : Nat} {e : Spec.Expr} {t : Str}, Spec.Manual (fun q p => p.rank ≤ q.rank) o g e t →
        ∀ q, o = some q → g ≤ q.group := by
      intro o g e t h
      cases h with
      | num => intro q h; cases h
      | label => intro q h; cases h
      | bin h => intro q h'; cases h'; exact h
      | paren => intro q h; cases h
    refine .bin (k := ⟨l, r, true⟩) (hr p rfl) (fun _ => rfl) (iha l p.rank fun q hq => ?_) (ihb false (p.rank + 1) fun q hq => ?_) h1 h2
    · have h3 := root ha q hq
      by_cases h4 : q.group = p.group
      · exact hok q hq h4
      · exact Nat.le_of_lt (gr (by omega))
    · have h3 := root hb q hq
      exact gr (by omega)
  | paren _ h1 h2 ih => exact fun l r _ => .paren (ih true 0 (fun _ _ => Nat.zero_le _)) h1 h2

end C55

/-- **C55**, in part. Read by the groups of the manual, and from left to right within a group, an operand has the
    value of that expression, provided that where two different operators of a group follow each other the weaker (by C54)
    is the later: `+` after `-`, `*` after `/`, `|` after `&` after `^`, `<<` after `>>`. In the other order the claim is false
    (below). -/
theorem C55_value_partial {o : Option Spec.BinOp} {e : Spec.Expr} {t : Str} (h : Spec.Manual (fun q p => p.rank ≤ q.rank) o 0 e t) (ρ : Str → Int) (s : St)
    (hk : ∀ x ∈ e.names, ∃ l, searchlabel s x = some l ∧ l.flags.undef = false ∧ l.type = .absolute ∧ l.value.toInt = ρ x) :
    match e.eval ρ with
    | .ok v => (∃ r s', parse (some t) s = .ok r s' ∧ r.type = .absolute ∧ r.value.toInt = v) ∨
        ∃ t', parse (some t) s = .stop (.ub .filterBuffer) t'
    | .error .overflow => (∃ t', parse (some t) s = .stop (.ub .signedOverflow) t') ∨
        ∃ t', parse (some t) s = .stop (.ub .filterBuffer) t'
    | .error .shift => (∃ t', parse (some t) s = .stop (.ub .shiftCount) t') ∨
        ∃ t', parse (some t) s = .stop (.ub .filterBuffer) t' :=
  C54_value (C55.reads h true 0 fun _ _ => Nat.zero_le _) ρ s hk

namespace C55
theorem digit {ok : Spec.BinOp → Spec.BinOp → Prop} {g : Nat} (c : Char) (n : Nat) (h1 : Spec.number 10 [c] = some n) (h2 : n < 2 ^ 32) :
    Spec.Manual ok none g (.num n) [c] :=
  .num (b := 10) (ds := [c]) (.decimal _) (by simp) h1 h2
end C55

/-- **C55** without the condition is false: by the manual `3*5/2` is `(3 * 5) / 2`, that is 7, but the assembler
    makes it `3 * (5 / 2)`, that is 6 (parse.c:130-143 prefers the first pattern of a group, whatever comes last in the text). -/
theorem C55_order_false : Spec.Manual (fun _ _ => True) (some .div) 0 (.bin .div (.bin .mul (.num 3) (.num 5)) (.num 2)) c!"3*5/2" ∧
    (Spec.Expr.bin .div (.bin .mul (.num 3) (.num 5)) (.num 2)).eval (fun _ => 0) = .ok 7 ∧
    (parse (some c!"3*5/2") (initSt { fs := fun _ => none } [])).value = some 6 := by
  refine ⟨?_, rfl, by decide +kernel⟩
  have h := Spec.Manual.bin (ok := fun _ _ => True) (p := .mul) (g := 1) (b1 := []) (b2 := []) (by decide)
    (C55.digit '3' 3 rfl (by decide)) (C55.digit '5' 5 rfl (by decide)) (by simp) (by simp) (by simp)
  exact .bin (p := .div) (b1 := []) (b2 := []) (by decide) h (C55.digit '2' 2 rfl (by decide)) (fun _ _ _ => trivial) (by simp) (by simp)

/-- By the manual a minus sign binds tighter than the dyadic operators, so `2*-3` should be -6. It is an error: the sign
    is taken for a subtraction from `2*`. -/
theorem C55_sign_false : ∃ s, parse (some c!"2*-3") (initSt { fs := fun _ => none } []) = .err s := by
  have h : (match parse (some c!"2*-3") (initSt { fs := fun _ => none } []) with | .err _ => true | _ => false) = true := by decide +kernel
  revert h
  cases parse (some c!"2*-3") (initSt { fs := fun _ => none } []) with
  | err s => exact fun _ => ⟨s, rfl⟩
  | ok => intro h; cases h
  | stop => intro h; cases h

/-- The hypothesis of the partial theorem is met by `6/2*3` (worth 9 to the manual and to the assembler). -/
example : Spec.Manual (fun q p => p.rank ≤ q.rank) (some .mul) 0 (.bin .mul (.bin .div (.num 6) (.num 2)) (.num 3)) c!"6/2*3" := by
  have h := Spec.Manual.bin (ok := fun q p => p.rank ≤ q.rank) (p := .div) (g := 1) (b1 := []) (b2 := []) (by decide)
    (C55.digit '6' 6 rfl (by decide)) (C55.digit '2' 2 rfl (by decide)) (by simp) (by simp) (by simp)
  exact .bin (p := .mul) (b1 := []) (b2 := []) (by decide) h (C55.digit '3' 3 rfl (by decide)) (by rintro q ⟨⟩ _; decide) (by simp) (by simp)

end Crasm

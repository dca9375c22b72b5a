import Verif.Model.Text
/-
  How conditionals nest in text that is skipped. `kind` says what a line is (nothing is said here about how that is
  told), `ends` which lines end a macro definition.
-/

namespace Spec
open Crasm (Str)

inductive Kind | plain | if_ | else_ | endc | macro
deriving DecidableEq, Repr

/-- Lines in which every IF has its ENDC, with at most one ELSE between, and every macro definition its end;
    IF, ELSE and ENDC in a macro definition do not count. -/
inductive Nested (kind : Str → Kind → Prop) (ends : Str → Prop) : List Str → Prop
  | nil : Nested kind ends []
  | plain {l ls} (h : kind l .plain) (hr : Nested kind ends ls) : Nested kind ends (l :: ls)
  | ifEndc {i b e ls} (hi : kind i .if_) (hb : Nested kind ends b) (he : kind e .endc) (hr : Nested kind ends ls) :
      Nested kind ends (i :: (b ++ e :: ls))
  | ifElse {i b m c e ls} (hi : kind i .if_) (hb : Nested kind ends b) (hm : kind m .else_) (hc : Nested kind ends c)
      (he : kind e .endc) (hr : Nested kind ends ls) : Nested kind ends (i :: (b ++ m :: (c ++ e :: ls)))
  | def_ {i b e ls} (hi : kind i .macro) (hb : ∀ l ∈ b, ¬ ends l) (he : ends e) (hr : Nested kind ends ls) :
      Nested kind ends (i :: (b ++ e :: ls))

theorem Nested.append {kind : Str → Kind → Prop} {ends : Str → Prop} {a b : List Str} (ha : Nested kind ends a)
    (hb : Nested kind ends b) : Nested kind ends (a ++ b) := by
  induction ha with
  | nil => exact hb
  | plain h _ ih => exact .plain h ih
  | ifEndc hi hb' he _ _ ih =>
    simp only [List.cons_append, List.append_assoc]
    exact .ifEndc hi hb' he ih
  | ifElse hi hb' hm hc he _ _ _ ih =>
    simp only [List.cons_append, List.append_assoc]
    exact .ifElse hi hb' hm hc he ih
  | def_ hi hb' he _ ih =>
    simp only [List.cons_append, List.append_assoc]
    exact .def_ hi hb' he ih

end Spec

import Verif.Proof.CompSecond
import Verif.Proof.Comp6800
import Verif.Props.C43

/-! C46: programs for the 6800 family are accepted if and only if they stand for something. -/

namespace Crasm.C46
open _root_.Spec.M6800 (Chip full Named)
open Spec.Program (Source Proper State Lines Line late labels)

/-- What is asked of a run: the source is written as the program `p`, and the run comes to its end (with or without
    errors). -/
structure Ends (c : Chip) (cpu : Str) (fuel : Nat) (o : Opts) (env : Env) (src : Str) (p : Lines (full c)) (s : St) : Prop where
  named : Named c cpu
  written : Source (full c) cpu src p
  tame : Spec.Tame src
  proper : Proper p
  ends : assemble fuel o (initSt env src) = .ok () s

/-- **C46.**  A program of the class of C43 that stands for something, that is, to which the reference semantics gives
    an image under some assignment of addresses to its labels, is assembled without an error, and to this image. -/
theorem C46_accepted {c : Chip} {cpu : Str} {fuel : Nat} {o : Opts} {env : Env} {src : Str} {p : Lines (full c)} {s : St}
    (h : Ends c cpu fuel o env src p s) {addr : Str → Int} {img : List (Int × BitVec 8)} {σ' : State}
    (hr : Spec.Program.Run (full c) addr (late p) {} p img σ') : s.errnumber = 0 ∧ C42.image s.log = img := by
  obtain ⟨n, h1, h2, h3⟩ := C43.named h.named
  obtain ⟨h1, h2, -⟩ := C42.program_complete (C43.machine c) (C43.complete c) (C43.whole c) (C43.chosen h1) h2 h3 h.ends h.written h.tame h.proper hr
  exact ⟨h1, h2⟩

/-- With C43: errors are reported for exactly those programs that stand for nothing. -/
theorem C46_exact {c : Chip} {cpu : Str} {fuel : Nat} {o : Opts} {env : Env} {src : Str} {p : Lines (full c)} {s : St}
    (h : Ends c cpu fuel o env src p s) :
    s.errnumber = 0 ↔ ∃ addr img σ', Spec.Program.Run (full c) addr (late p) {} p img σ' := by
  constructor
  · intro he
    obtain ⟨addr, σ', hr⟩ := C43.C43_program ⟨h.named, h.written, h.tame, h.proper, h.ends, he⟩
    exact ⟨addr, _, σ', hr⟩
  · rintro ⟨addr, img, σ', hr⟩
    exact (C46_accepted h hr).1

/-! ### Non-vacuity -/

/-- A program that stands for something. -/
example : ∃ s addr img σ', Ends .m6801 c!"6803" 60 {} { fs := fun _ => none } C43.small C43.smallLines s ∧
    Spec.Program.Run (full .m6801) addr (late C43.smallLines) {} C43.smallLines img σ' ∧
    img = [(0xC0, 0xFC), (0xC1, 0), (0xC2, 0xC3), (0xC3, 0), (0xC4, 5)] := by
  obtain ⟨s, h, e⟩ := C43.small_holds
  obtain ⟨addr, σ', hr⟩ := C43.C43_program h
  exact ⟨s, addr, _, σ', ⟨h.named, h.written, h.tame, h.proper, h.assembles.1⟩, hr, e⟩

/-- One whose indexed operand is out of range in pass 1, where the name in it has no value yet, but not in pass 2. -/
def near : Str := c!" cpu 6800\n*=5\nl ldaa n-1,x\nn db 5"
def nearLines : Lines (full .m6800) :=
  [(none, .org (.num 5)), (some c!"l", .ins (.inl (.oper c!"LDAA" .index (.bin .sub (.label c!"n") (.num 1))))), (some c!"n", .data 1 false [.num 5])]
/-- One whose indexed operand is out of range. -/
def far : Str := c!" cpu 6800\n*=$500\nl ldaa n-1,x\nn db 5"
def farLines : Lines (full .m6800) :=
  [(none, .org (.num 0x500)), (some c!"l", .ins (.inl (.oper c!"LDAA" .index (.bin .sub (.label c!"n") (.num 1))))), (some c!"n", .data 1 false [.num 5])]

open C42 in
theorem near_written : Source (full .m6800) c!"6800" near nearLines := by
  refine ⟨c!" cpu 6800", [c!"*=5", c!"l ldaa n-1,x", c!"n db 5"], c!"cpu", c!" ", c!"6800", by decide, ?_, ⟨by decide, by decide⟩, by decide, by decide, ?_⟩
  · exact .plain (b := c!" ") (b' := []) (by decide) (by decide)
  · refine .cons ?_ (.cons ?_ (.cons ?_ .nil))
    · refine .org (t := c!"*=5") (m := c!"equ") (o := c!"5") (k := .free) (.plain (b := []) (b' := []) (by decide) (by decide)) ?_ (by decide) ?_
      · exact .equate (l := c!"*") (b := []) (b' := []) (word_of (by decide)) (.inl rfl) (by decide) (by decide) (.inr (field_of (by decide)))
      · exact .num (b := 10) (ds := c!"5") (.decimal _) (by decide) (by decide) (by decide)
    · refine .ins (t := c!"l ldaa n-1,x") (m := c!"ldaa") (o := some c!"n-1,x") (.plain (b := []) (b' := []) (by decide) (by decide)) ?_ ?_ ?_
      · refine .both (l := c!"l") (b := c!" ") (m := c!"ldaa") (b' := c!" ") (o := c!"n-1,x") (word_of (by decide)) (.inr (by decide)) ⟨by decide, by decide⟩ (word_of (by decide))
          ⟨by decide, by decide⟩ (field_of (by decide)) (by decide)
      · refine .oper (k := .free) ⟨true, true, by decide⟩ (.index (e := c!"n-1") (b1 := []) (b2 := []) (operand_of (by decide)) (by rintro c r ⟨⟩; decide) (by unfold _root_.Spec.M6800.Bl; decide) (by unfold _root_.Spec.M6800.Bl; decide) (.inr rfl)) ?_
        exact .bin (k := .free) (op := .sub) (b1 := []) (b2 := []) (by decide) (by decide) (.label (t := c!"n") (by decide)) (.num (b := 10) (ds := c!"1") (.decimal _) (by decide) (by decide) (by decide)) (by decide) (by decide)
      · rintro x ⟨⟩
        exact ⟨by decide, by decide, by decide⟩
    · refine .data (t := c!"n db 5") (m := c!"db") (o := c!"5") (os := [c!"5"]) (.plain (b := []) (b' := []) (by decide) (by decide)) ?_ (by decide) ?_ (.one _) ?_
      · refine .both (l := c!"n") (b := c!" ") (m := c!"db") (b' := c!" ") (o := c!"5") (word_of (by decide)) (.inr (by decide)) ⟨by decide, by decide⟩ (word_of (by decide))
          ⟨by decide, by decide⟩ (field_of (by decide)) (by decide)
      · rintro x ⟨⟩
        exact ⟨by decide, by decide, by decide⟩
      · exact .cons ⟨operand_of (by decide), .free, .num (b := 10) (ds := c!"5") (.decimal _) (by decide) (by decide) (by decide)⟩ .nil

open C42 in
theorem far_written : Source (full .m6800) c!"6800" far farLines := by
  refine ⟨c!" cpu 6800", [c!"*=$500", c!"l ldaa n-1,x", c!"n db 5"], c!"cpu", c!" ", c!"6800", by decide, ?_, ⟨by decide, by decide⟩, by decide, by decide, ?_⟩
  · exact .plain (b := c!" ") (b' := []) (by decide) (by decide)
  · refine .cons ?_ (.cons ?_ (.cons ?_ .nil))
    · refine .org (t := c!"*=$500") (m := c!"equ") (o := c!"$500") (k := .free) (.plain (b := []) (b' := []) (by decide) (by decide)) ?_ (by decide) ?_
      · exact .equate (l := c!"*") (b := []) (b' := []) (word_of (by decide)) (.inl rfl) (by decide) (by decide) (.inr (field_of (by decide)))
      · exact .num (b := 16) (ds := c!"500") (.dollar _) (by decide) (by decide) (by decide)
    · refine .ins (t := c!"l ldaa n-1,x") (m := c!"ldaa") (o := some c!"n-1,x") (.plain (b := []) (b' := []) (by decide) (by decide)) ?_ ?_ ?_
      · refine .both (l := c!"l") (b := c!" ") (m := c!"ldaa") (b' := c!" ") (o := c!"n-1,x") (word_of (by decide)) (.inr (by decide)) ⟨by decide, by decide⟩ (word_of (by decide))
          ⟨by decide, by decide⟩ (field_of (by decide)) (by decide)
      · refine .oper (k := .free) ⟨true, true, by decide⟩ (.index (e := c!"n-1") (b1 := []) (b2 := []) (operand_of (by decide)) (by rintro c r ⟨⟩; decide) (by unfold _root_.Spec.M6800.Bl; decide) (by unfold _root_.Spec.M6800.Bl; decide) (.inr rfl)) ?_
        exact .bin (k := .free) (op := .sub) (b1 := []) (b2 := []) (by decide) (by decide) (.label (t := c!"n") (by decide)) (.num (b := 10) (ds := c!"1") (.decimal _) (by decide) (by decide) (by decide)) (by decide) (by decide)
      · rintro x ⟨⟩
        exact ⟨by decide, by decide, by decide⟩
    · refine .data (t := c!"n db 5") (m := c!"db") (o := c!"5") (os := [c!"5"]) (.plain (b := []) (b' := []) (by decide) (by decide)) ?_ (by decide) ?_ (.one _) ?_
      · refine .both (l := c!"n") (b := c!" ") (m := c!"db") (b' := c!" ") (o := c!"5") (word_of (by decide)) (.inr (by decide)) ⟨by decide, by decide⟩ (word_of (by decide))
          ⟨by decide, by decide⟩ (field_of (by decide)) (by decide)
      · rintro x ⟨⟩
        exact ⟨by decide, by decide, by decide⟩
      · exact .cons ⟨operand_of (by decide), .free, .num (b := 10) (ds := c!"5") (.decimal _) (by decide) (by decide) (by decide)⟩ .nil

theorem near_proper : Proper nearLines :=
  C42.proper_of ⟨⟨by decide, by decide, by decide⟩, ⟨by decide, by decide, by decide⟩, ⟨by decide, by decide, by decide⟩, trivial⟩ (by decide) (by decide)
theorem far_proper : Proper farLines :=
  C42.proper_of ⟨⟨by decide, by decide, by decide⟩, ⟨by decide, by decide, by decide⟩, ⟨by decide, by decide, by decide⟩, trivial⟩ (by decide) (by decide)
theorem near_tame : Spec.Tame near := by
  unfold Spec.Tame Spec.Plain
  decide +kernel
theorem far_tame : Spec.Tame far := by
  unfold Spec.Tame Spec.Plain
  decide +kernel

theorem near_ends : ∃ s, Ends .m6800 c!"6800" 60 {} { fs := fun _ => none } near nearLines s ∧ s.errnumber = 0 := by
  have hl : (match assemble 60 {} (initSt { fs := fun _ => none } near) with | .ok _ s => some s.errnumber | _ => none) = some 0 := by decide +kernel
  cases ha : assemble 60 {} (initSt { fs := fun _ => none } near) with
  | err s => rw [ha] at hl; cases hl
  | stop w s => rw [ha] at hl; cases hl
  | ok u s =>
    rw [ha] at hl
    injection hl with hl
    exact ⟨s, ⟨.m6800, near_written, near_tame, near_proper, ha⟩, hl⟩
theorem far_ends : ∃ s, Ends .m6800 c!"6800" 60 {} { fs := fun _ => none } far farLines s ∧ s.errnumber = 1 := by
  have hl : (match assemble 60 {} (initSt { fs := fun _ => none } far) with | .ok _ s => some s.errnumber | _ => none) = some 1 := by decide +kernel
  cases ha : assemble 60 {} (initSt { fs := fun _ => none } far) with
  | err s => rw [ha] at hl; cases hl
  | stop w s => rw [ha] at hl; cases hl
  | ok u s =>
    rw [ha] at hl
    injection hl with hl
    exact ⟨s, ⟨.m6800, far_written, far_tame, far_proper, ha⟩, hl⟩

/-- So the semantics gives an image to the one, and none to the other. -/
example : (∃ addr img σ', Spec.Program.Run (full .m6800) addr (late nearLines) {} nearLines img σ') ∧
    ¬ ∃ addr img σ', Spec.Program.Run (full .m6800) addr (late farLines) {} farLines img σ' := by
  obtain ⟨s, h, e⟩ := near_ends
  obtain ⟨s', h', e'⟩ := far_ends
  rw [← C46_exact h, ← C46_exact h', e, e']
  decide

end Crasm.C46

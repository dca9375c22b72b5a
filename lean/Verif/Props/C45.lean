import Verif.Proof.CompSecond
import Verif.Proof.Comp6502
import Verif.Props.C42

/-! C45: programs for the 6502 family are accepted if and only if they stand for something. -/

namespace Crasm.C45
open _root_.Spec.M6502 (Chip full)
open Spec.Program (Source Proper State Lines Line late labels)

/-- What is asked of a run: the source is written as the program `p`, and the run comes to its end (with or without
    errors). -/
structure Ends (c : Chip) (fuel : Nat) (o : Opts) (env : Env) (src : Str) (p : Lines (full c)) (s : St) : Prop where
  written : Source (full c) c.name src p
  tame : Spec.Tame src
  proper : Proper p
  ends : assemble fuel o (initSt env src) = .ok () s

/-- **C45.**  A program of the class of C42 that stands for something, that is, to which the reference semantics gives
    an image under some assignment of addresses to its labels, is assembled without an error, and to this image. -/
theorem C45_accepted {c : Chip} {fuel : Nat} {o : Opts} {env : Env} {src : Str} {p : Lines (full c)} {s : St}
    (h : Ends c fuel o env src p s) {addr : Str → Int} {img : List (Int × BitVec 8)} {σ' : State}
    (hr : Spec.Program.Run (full c) addr (late p) {} p img σ') : s.errnumber = 0 ∧ C42.image s.log = img := by
  obtain ⟨h1, h2, -⟩ := C42.program_complete (C42.machine c) (C42.complete c) (C42.definite c) (C42.chosen6502 c) (C42.cpuOf6502 c) (C42.mild6502 c)
    h.ends h.written h.tame h.proper hr
  exact ⟨h1, h2⟩

/-- With C42: errors are reported for exactly those programs that stand for nothing. -/
theorem C45_exact {c : Chip} {fuel : Nat} {o : Opts} {env : Env} {src : Str} {p : Lines (full c)} {s : St}
    (h : Ends c fuel o env src p s) :
    s.errnumber = 0 ↔ ∃ addr img σ', Spec.Program.Run (full c) addr (late p) {} p img σ' := by
  constructor
  · intro he
    obtain ⟨addr, σ', hr⟩ := C42.C42_program (c := c) ⟨h.written, h.tame, h.proper, h.ends, he⟩
    exact ⟨addr, _, σ', hr⟩
  · rintro ⟨addr, img, σ', hr⟩
    exact (C45_accepted h hr).1

/-! ### Non-vacuity -/

/-- A program that stands for something (it refers to a label further down). -/
example : ∃ s addr img σ', Ends .m6502 60 {} { fs := fun _ => none } C42.small C42.smallLines s ∧
    Spec.Program.Run (full .m6502) addr (late C42.smallLines) {} C42.smallLines img σ' ∧ img = [(0xC0, 0xAD), (0xC1, 0xC3), (0xC2, 0), (0xC3, 5)] := by
  obtain ⟨s, h, e⟩ := C42.small_holds
  obtain ⟨addr, σ', hr⟩ := C42.C42_program h
  exact ⟨s, addr, _, σ', ⟨h.written, h.tame, h.proper, h.assembles.1⟩, hr, e⟩

/-- A program that stands for nothing: the branch is too far from its target. -/
def far : Str := c!" cpu 6502\n*=0\nl bne n\n*=$200\nn db 5"
def farLines : Lines (full .m6502) :=
  [(none, .org (.num 0)), (some c!"l", .ins (.inl (.branch c!"BNE" (.label c!"n")))), (none, .org (.num 0x200)), (some c!"n", .data 1 false [.num 5])]

open C42 in
theorem far_written : Source (full .m6502) c!"6502" far farLines := by
  refine ⟨c!" cpu 6502", [c!"*=0", c!"l bne n", c!"*=$200", c!"n db 5"], c!"cpu", c!" ", c!"6502", by decide, ?_, ⟨by decide, by decide⟩, by decide, by decide, ?_⟩
  · exact .plain (b := c!" ") (b' := []) (by decide) (by decide)
  · refine .cons ?_ (.cons ?_ (.cons ?_ (.cons ?_ .nil)))
    · refine .org (t := c!"*=0") (m := c!"equ") (o := c!"0") (k := .free) (.plain (b := []) (b' := []) (by decide) (by decide)) ?_ (by decide) ?_
      · exact .equate (l := c!"*") (b := []) (b' := []) (word_of (by decide)) (.inl rfl) (by decide) (by decide) (.inr (field_of (by decide)))
      · exact .num (b := 10) (ds := c!"0") (.decimal _) (by decide) (by decide) (by decide)
    · refine .ins (t := c!"l bne n") (m := c!"bne") (o := some c!"n") (.plain (b := []) (b' := []) (by decide) (by decide)) ?_ ?_ ?_
      · refine .both (l := c!"l") (b := c!" ") (m := c!"bne") (b' := c!" ") (o := c!"n") (word_of (by decide)) (.inr (by decide)) ⟨by decide, by decide⟩ (word_of (by decide))
          ⟨by decide, by decide⟩ (field_of (by decide)) (by decide)
      · exact .branch (k := .free) (by decide) (.label (by decide))
      · rintro x ⟨⟩
        exact ⟨by decide, by decide, by decide⟩
    · refine .org (t := c!"*=$200") (m := c!"equ") (o := c!"$200") (k := .free) (.plain (b := []) (b' := []) (by decide) (by decide)) ?_ (by decide) ?_
      · exact .equate (l := c!"*") (b := []) (b' := []) (word_of (by decide)) (.inl rfl) (by decide) (by decide) (.inr (field_of (by decide)))
      · exact .num (b := 16) (ds := c!"200") (.dollar _) (by decide) (by decide) (by decide)
    · refine .data (t := c!"n db 5") (m := c!"db") (o := c!"5") (os := [c!"5"]) (.plain (b := []) (b' := []) (by decide) (by decide)) ?_ (by decide) ?_ (.one _) ?_
      · refine .both (l := c!"n") (b := c!" ") (m := c!"db") (b' := c!" ") (o := c!"5") (word_of (by decide)) (.inr (by decide)) ⟨by decide, by decide⟩ (word_of (by decide))
          ⟨by decide, by decide⟩ (field_of (by decide)) (by decide)
      · rintro x ⟨⟩
        exact ⟨by decide, by decide, by decide⟩
      · exact .cons ⟨operand_of (by decide), .free, .num (b := 10) (ds := c!"5") (.decimal _) (by decide) (by decide) (by decide)⟩ .nil
theorem far_proper : Proper farLines :=
  C42.proper_of ⟨⟨by decide, by decide, by decide⟩, ⟨by decide, by decide, by decide⟩, ⟨by decide, by decide, by decide⟩, ⟨by decide, by decide, by decide⟩, trivial⟩
    (by decide) (by decide)
theorem far_tame : Spec.Tame far := by
  unfold Spec.Tame Spec.Plain
  decide +kernel

theorem far_ends : ∃ s, Ends .m6502 60 {} { fs := fun _ => none } far farLines s ∧ s.errnumber = 1 := by
  have hl : (match assemble 60 {} (initSt { fs := fun _ => none } far) with | .ok _ s => some s.errnumber | _ => none) = some 1 := by decide +kernel
  cases ha : assemble 60 {} (initSt { fs := fun _ => none } far) with
  | err s => rw [ha] at hl; cases hl
  | stop w s => rw [ha] at hl; cases hl
  | ok u s =>
    rw [ha] at hl
    injection hl with hl
    exact ⟨s, ⟨far_written, far_tame, far_proper, ha⟩, hl⟩

/-- So the semantics gives no image to it. -/
example : ¬ ∃ addr img σ', Spec.Program.Run (full .m6502) addr (late farLines) {} farLines img σ' := by
  obtain ⟨s, h, e⟩ := far_ends
  rw [← C45_exact h, e]
  decide

end Crasm.C45

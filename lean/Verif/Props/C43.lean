import Verif.Proof.CompSecond
import Verif.Proof.Comp6800
import Verif.Proof.Prog6800
import Verif.Props.C42

/-! C43: programs for the 6800 family stand for the bytes that the assembler generates. -/

namespace Crasm.C43
open _root_.Spec.M6800 (Chip full Named)
open Spec.Program (Source Proper State Lines Line Free Body key All2 labels late)
open C42 (image loads word_of field_of operand_of proper_of Checks)

/-- What is asked of a run: the source is written as the program `p` for the processor `cpu`, and it is assembled without
    error. -/
structure Holds (c : Chip) (cpu : Str) (fuel : Nat) (o : Opts) (env : Env) (src : Str) (p : Lines (full c)) (s : St) : Prop where
  named : Named c cpu
  written : Source (full c) cpu src p
  tame : Spec.Tame src
  proper : Proper p
  assembles : C40.Assembles fuel o env src s

/-- **C43.**  Take a program made of labels, origins, equates, data directives, ASC, DS and ALIGN, and instructions of the 6800, 6801 or 6803,
    written in any of the ways that the assembler reads.  If it is assembled without error, then there is an assignment of
    addresses to its labels under which the reference semantics of the program, line after line, meets every label at
    the address assigned to it and produces exactly the bytes, at exactly the addresses, that pass 2 generates. -/
theorem C43_program {c : Chip} {cpu : Str} {fuel : Nat} {o : Opts} {env : Env} {src : Str} {p : Lines (full c)} {s : St}
    (h : Holds c cpu fuel o env src p s) :
    ∃ addr σ', Spec.Program.Run (full c) addr (late p) {} p (image s.log) σ' := by
  obtain ⟨n, h1, h2, h3⟩ := named h.named
  exact C42.program_full (machine c) (chosen h1) h2 h3 h.assembles h.written h.tame h.proper

/-- There is only one such image, and one such assignment: the bytes are determined by the program. -/
theorem C43_unique {c : Chip} {p : Lines (full c)} (hp : Proper p) {addr addr' : Str → Int} {σ σ' : State} {img img' : List (Int × BitVec 8)}
    (r : Spec.Program.Run (full c) addr (late p) {} p img σ) (r' : Spec.Program.Run (full c) addr' (late p) {} p img' σ') :
    img = img' ∧ ∀ k ∈ labels p, addr k = addr' k :=
  C42.run_unique (whole c) hp r r'

/-- And a loader that reads the code file stores these bytes at these addresses unless the first
    byte comes directly behind the last one (this is the mistake shown in `C04_false_passes`). -/
theorem C43_code_file {c : Chip} {cpu : Str} {fuel : Nat} {o : Opts} {env : Env} {src : Str} {p : Lines (full c)} {s : St}
    (h : Holds c cpu fuel o env src p s) {f : Str} (hf : s.code.file = some f) {addr : Str → Int} {img : List (Int × BitVec 8)} {σ' : State}
    (hr : Spec.Program.Run (full c) addr (late p) {} p img σ') (hc : ∀ x ∈ img.head?, ∀ y ∈ img.getLast?, x.1 ≠ y.1 + 1) :
    ∃ recs, Spec.readFile f = some recs ∧ Spec.storesOf (Spec.dataOf recs) = img.map fun x => ((x.1 % 2 ^ 32).toNat, x.2.toNat) := by
  obtain ⟨n, n1, n2, n3⟩ := named h.named
  have hcl := C42.program_clean (machine c) (complete c) (whole c) (chosen n1) n2 n3 h.assembles.1 h.written h.tame h.proper hr hc
  obtain ⟨recs, h1, h2⟩ := loads h.assembles.1 hf hcl
  obtain ⟨addr', σ'', h3⟩ := C43_program h
  rw [(C43_unique h.proper hr h3).1]
  exact ⟨recs, h1, h2⟩

/-! ### Non-vacuity -/

/-- A forward reference, to a label with an address below 256; the number has its high byte first. -/
def small : Str := c!" cpu 6803\n*=$C0\nl ldd n;x\nn dw 5"
def smallLines : Lines (full .m6801) :=
  [(none, .org (.num 0xC0)), (some c!"l", .ins (.inl (.oper c!"LDD" .addr (.label c!"n")))), (some c!"n", .data 2 false [.num 5])]

theorem small_written : Source (full .m6801) c!"6803" small smallLines := by
  refine ⟨c!" cpu 6803", [c!"*=$C0", c!"l ldd n;x", c!"n dw 5"], c!"cpu", c!" ", c!"6803", by decide, ?_, ⟨by decide, by decide⟩, by decide, by decide, ?_⟩
  · exact .plain (b := c!" ") (b' := []) (by decide) (by decide)
  · refine .cons ?_ (.cons ?_ (.cons ?_ .nil))
    · refine .org (t := c!"*=$C0") (m := c!"equ") (o := c!"$C0") (k := .free) (.plain (b := []) (b' := []) (by decide) (by decide)) ?_ (by decide) ?_
      · exact .equate (l := c!"*") (b := []) (b' := []) (word_of (by decide)) (.inl rfl) (by decide) (by decide) (.inr (field_of (by decide)))
      · exact .num (b := 16) (ds := c!"C0") (.dollar _) (by decide) (by decide) (by decide)
    · refine .ins (t := c!"l ldd n") (m := c!"ldd") (o := some c!"n") (.comment (b := []) (b' := []) (text := c!"x") (by decide) (by decide)) ?_ ?_ ?_
      · refine .both (l := c!"l") (b := c!" ") (m := c!"ldd") (b' := c!" ") (o := c!"n") (word_of (by decide)) (.inr (by decide)) ⟨by decide, by decide⟩ (word_of (by decide))
          ⟨by decide, by decide⟩ (field_of (by decide)) (by decide)
      · exact .oper (k := .free) ⟨true, true, by decide⟩ (.addr (operand_of (by decide)) (by rintro c r ⟨⟩; decide)) (.label (by decide))
      · rintro x ⟨⟩
        exact ⟨by decide, by decide, by decide⟩
    · refine .data (t := c!"n dw 5") (m := c!"dw") (o := c!"5") (os := [c!"5"]) (.plain (b := []) (b' := []) (by decide) (by decide)) ?_ (by decide) ?_ (.one _) ?_
      · refine .both (l := c!"n") (b := c!" ") (m := c!"dw") (b' := c!" ") (o := c!"5") (word_of (by decide)) (.inr (by decide)) ⟨by decide, by decide⟩ (word_of (by decide))
          ⟨by decide, by decide⟩ (field_of (by decide)) (by decide)
      · rintro x ⟨⟩
        exact ⟨by decide, by decide, by decide⟩
      · exact .cons ⟨operand_of (by decide), .free, .num (b := 10) (ds := c!"5") (.decimal _) (by decide) (by decide) (by decide)⟩ .nil

theorem small_proper : Proper smallLines := by
  refine proper_of ⟨⟨by decide, by decide, by decide⟩, ⟨by decide, by decide, by decide⟩, ⟨by decide, by decide, by decide⟩, trivial⟩ (by decide) (by decide)
theorem small_tame : Spec.Tame small := by
  unfold Spec.Tame Spec.Plain
  decide +kernel

theorem small_holds : ∃ s, Holds .m6801 c!"6803" 60 {} { fs := fun _ => none } small smallLines s ∧
    image s.log = [(0xC0, 0xFC), (0xC1, 0), (0xC2, 0xC3), (0xC3, 0), (0xC4, 5)] := by
  have hl : (match assemble 60 {} (initSt { fs := fun _ => none } small) with
    | .ok _ s => some (s.errnumber, image s.log) | _ => none) = some (0, [(0xC0, 0xFC), (0xC1, 0), (0xC2, 0xC3), (0xC3, 0), (0xC4, 5)]) := by decide +kernel
  cases ha : assemble 60 {} (initSt { fs := fun _ => none } small) with
  | err s => rw [ha] at hl; cases hl
  | stop w s => rw [ha] at hl; cases hl
  | ok u s =>
    rw [ha] at hl
    injection hl with hl
    exact ⟨s, ⟨.m6803, small_written, small_tame, small_proper, ⟨ha, congrArg Prod.fst hl⟩⟩, congrArg Prod.snd hl⟩

/-- And the code file is read as these bytes. -/
example : ∃ s f recs, Holds .m6801 c!"6803" 60 { scode := some c!"o" } { fs := fun _ => none } small smallLines s ∧ s.code.file = some f ∧
    Spec.readFile f = some recs ∧ Spec.storesOf (Spec.dataOf recs) = [(0xC0, 0xFC), (0xC1, 0), (0xC2, 0xC3), (0xC3, 0), (0xC4, 5)] := by
  have hl : (match assemble 60 { scode := some c!"o" } (initSt { fs := fun _ => none } small) with
    | .ok _ s => some (s.errnumber, image s.log, s.code.file.isSome) | _ => none) = some (0, [(0xC0, 0xFC), (0xC1, 0), (0xC2, 0xC3), (0xC3, 0), (0xC4, 5)], true) := by decide +kernel
  cases ha : assemble 60 { scode := some c!"o" } (initSt { fs := fun _ => none } small) with
  | err s => rw [ha] at hl; cases hl
  | stop w s => rw [ha] at hl; cases hl
  | ok u s =>
    rw [ha] at hl
    injection hl with hl
    have h : Holds .m6801 c!"6803" 60 { scode := some c!"o" } { fs := fun _ => none } small smallLines s :=
      ⟨.m6803, small_written, small_tame, small_proper, ⟨ha, congrArg Prod.fst hl⟩⟩
    obtain ⟨f, hf⟩ := Option.isSome_iff_exists.1 (congrArg (fun x => x.2.2) hl)
    have hi : image s.log = _ := congrArg (fun x => x.2.1) hl
    obtain ⟨addr, σ', hr⟩ := C43_program h
    rw [hi] at hr
    obtain ⟨recs, h1, h2⟩ := C43_code_file h hf hr (by decide)
    exact ⟨s, f, recs, h, hf, h1, h2⟩

/-- So the semantics holds of the program and its bytes. -/
example : ∃ addr σ', Spec.Program.Run (full .m6801) addr (late smallLines) {} smallLines
    [(0xC0, 0xFC), (0xC1, 0), (0xC2, 0xC3), (0xC3, 0), (0xC4, 5)] σ' := by
  obtain ⟨s, h, hi⟩ := small_holds
  have := C43_program h
  rwa [hi] at this

end Crasm.C43

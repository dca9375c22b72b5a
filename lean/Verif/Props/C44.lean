import Verif.Proof.CompSecond
import Verif.Proof.CompZ80
import Verif.Proof.ProgZ80M
import Verif.Props.C42

/-! C44: programs for the Z80 stand for the bytes that the assembler generates. -/

namespace Crasm.C44
open _root_.Spec.Z80 (full)
open Spec.Program (Source Proper State Lines Line Free Body key All2 labels late)
open C42 (image loads word_of field_of operand_of proper_of Checks)

/-- What is asked of a run: the source is written as the program `p` for the Z80, and it is assembled without error. -/
structure Holds (fuel : Nat) (o : Opts) (env : Env) (src : Str) (p : Lines full) (s : St) : Prop where
  written : Source full c!"Z80" src p
  tame : Spec.Tame src
  proper : Proper p
  assembles : C40.Assembles fuel o env src s

/-- **C44.**  Take a program made of labels, origins, equates, data directives, ASC, DS and ALIGN, and instructions of the Z80, written in any
    of the ways that the assembler reads.  If it is assembled without error, then there is an assignment of addresses to
    its labels under which the reference semantics of the program, line after line, meets every label at the address
    assigned to it and produces exactly the bytes, at exactly the addresses, that pass 2 generates. -/
theorem C44_program {fuel : Nat} {o : Opts} {env : Env} {src : Str} {p : Lines full} {s : St} (h : Holds fuel o env src p s) :
    ∃ addr σ', Spec.Program.Run full addr (late p) {} p (image s.log) σ' :=
  C42.program_full machine chosen named.1 named.2 h.assembles h.written h.tame h.proper

/-- There is only one such image, and one such assignment: the bytes are determined by the program. -/
theorem C44_unique {p : Lines full} (hp : Proper p) {addr addr' : Str → Int} {σ σ' : State} {img img' : List (Int × BitVec 8)}
    (r : Spec.Program.Run full addr (late p) {} p img σ) (r' : Spec.Program.Run full addr' (late p) {} p img' σ') :
    img = img' ∧ ∀ k ∈ labels p, addr k = addr' k :=
  C42.run_unique whole hp r r'

/-- And a loader that reads the code file stores these bytes at these addresses unless the first
    byte comes directly behind the last one (this is the mistake shown in `C04_false_passes`). -/
theorem C44_code_file {fuel : Nat} {o : Opts} {env : Env} {src : Str} {p : Lines full} {s : St}
    (h : Holds fuel o env src p s) {f : Str} (hf : s.code.file = some f) {addr : Str → Int} {img : List (Int × BitVec 8)} {σ' : State}
    (hr : Spec.Program.Run full addr (late p) {} p img σ') (hc : ∀ x ∈ img.head?, ∀ y ∈ img.getLast?, x.1 ≠ y.1 + 1) :
    ∃ recs, Spec.readFile f = some recs ∧ Spec.storesOf (Spec.dataOf recs) = img.map fun x => ((x.1 % 2 ^ 32).toNat, x.2.toNat) := by
  have hcl := C42.program_clean machine complete whole chosen named.1 named.2 h.assembles.1 h.written h.tame h.proper hr hc
  obtain ⟨recs, h1, h2⟩ := loads h.assembles.1 hf hcl
  obtain ⟨addr', σ'', h3⟩ := C44_program h
  rw [(C44_unique h.proper hr h3).1]
  exact ⟨recs, h1, h2⟩

/-! ### Non-vacuity -/

/-- A forward and a backward reference; the numbers have their low byte first. -/
def small : Str := c!" cpu Z80\n*=$C0\nk ld Hl , n;x\n jr nZ,k\nn dw 5"
def smallLines : Lines full :=
  [(none, .org (.num 0xC0)), (some c!"k", .ins (.inl (.two c!"LD" (.reg (.r16 .hl)) (.form .expr (.label c!"n"))))),
   (none, .ins (.inl (.jrIf c!"NZ" (.label c!"k")))), (some c!"n", .data 2 false [.num 5])]

theorem bl_nil : _root_.Spec.Z80.Bl [] := fun _ h => by cases h
theorem bl_one : _root_.Spec.Z80.Bl c!" " := fun c h => by cases List.mem_singleton.1 h; decide

theorem small_written : Source full c!"Z80" small smallLines := by
  refine ⟨c!" cpu Z80", [c!"*=$C0", c!"k ld Hl , n;x", c!" jr nZ,k", c!"n dw 5"], c!"cpu", c!" ", c!"Z80", by decide, ?_, ⟨by decide, by decide⟩, by decide, by decide, ?_⟩
  · exact .plain (b := c!" ") (b' := []) (by decide) (by decide)
  · refine .cons ?_ (.cons ?_ (.cons ?_ (.cons ?_ .nil)))
    · refine .org (t := c!"*=$C0") (m := c!"equ") (o := c!"$C0") (k := .free) (.plain (b := []) (b' := []) (by decide) (by decide)) ?_ (by decide) ?_
      · exact .equate (l := c!"*") (b := []) (b' := []) (word_of (by decide)) (.inl rfl) (by decide) (by decide) (.inr (field_of (by decide)))
      · exact .num (b := 16) (ds := c!"C0") (.dollar _) (by decide) (by decide) (by decide)
    · refine .ins (t := c!"k ld Hl , n") (m := c!"ld") (o := some c!"Hl , n") (.comment (b := []) (b' := []) (text := c!"x") (by decide) (by decide)) ?_ ?_ ?_
      · refine .both (l := c!"k") (b := c!" ") (m := c!"ld") (b' := c!" ") (o := c!"Hl , n") (word_of (by decide)) (.inr (by decide)) ⟨by decide, by decide⟩ (word_of (by decide))
          ⟨by decide, by decide⟩ (field_of (by decide)) (by decide)
      · exact .two (o1 := c!"Hl") (o2 := c!"n") (by decide) (.reg (w := c!"HL") (by decide) (show _ = _ by decide))
          (.form (k := .free) (t := c!"n") (.expr (operand_of (by decide)) (by rintro c r ⟨⟩; decide)) (.label (by decide))) ⟨c!" ", c!" ", bl_one, bl_one, by decide⟩
      · rintro x ⟨⟩
        exact ⟨by decide, by decide, by decide⟩
    · refine .ins (t := c!"jr nZ,k") (m := c!"jr") (o := some c!"nZ,k") (.plain (b := c!" ") (b' := []) (by decide) (by decide)) ?_ ?_ ?_
      · refine .oper (m := c!"jr") (b := c!" ") (o := c!"nZ,k") (word_of (by decide)) ⟨by decide, by decide⟩ (field_of (by decide)) (by decide) (by decide)
      · exact .jrIf (i := 0) (x := c!"nZ") (o := c!"k") (by decide) (show _ = _ by decide) ⟨operand_of (by decide), .free, .label (by decide)⟩ ⟨[], [], bl_nil, bl_nil, by decide⟩
      · rintro x ⟨⟩
    · refine .data (t := c!"n dw 5") (m := c!"dw") (o := c!"5") (os := [c!"5"]) (.plain (b := []) (b' := []) (by decide) (by decide)) ?_ (by decide) ?_ (.one _) ?_
      · refine .both (l := c!"n") (b := c!" ") (m := c!"dw") (b' := c!" ") (o := c!"5") (word_of (by decide)) (.inr (by decide)) ⟨by decide, by decide⟩ (word_of (by decide))
          ⟨by decide, by decide⟩ (field_of (by decide)) (by decide)
      · rintro x ⟨⟩
        exact ⟨by decide, by decide, by decide⟩
      · exact .cons ⟨operand_of (by decide), .free, .num (b := 10) (ds := c!"5") (.decimal _) (by decide) (by decide) (by decide)⟩ .nil

theorem small_proper : Proper smallLines := by
  refine proper_of ⟨⟨by decide, by decide, by decide⟩, ⟨by decide, by decide, by decide⟩, ⟨by decide, by decide, by decide⟩, ⟨by decide, by decide, by decide⟩, trivial⟩ (by decide) (by decide)
theorem small_tame : Spec.Tame small := by
  unfold Spec.Tame Spec.Plain
  decide +kernel

theorem small_holds : ∃ s, Holds 60 {} { fs := fun _ => none } small smallLines s ∧
    image s.log = [(0xC0, 0x21), (0xC1, 0xC5), (0xC2, 0), (0xC3, 0x20), (0xC4, 0xFB), (0xC5, 5), (0xC6, 0)] := by
  have hl : (match assemble 60 {} (initSt { fs := fun _ => none } small) with
    | .ok _ s => some (s.errnumber, image s.log) | _ => none) =
      some (0, [(0xC0, 0x21), (0xC1, 0xC5), (0xC2, 0), (0xC3, 0x20), (0xC4, 0xFB), (0xC5, 5), (0xC6, 0)]) := by decide +kernel
  cases ha : assemble 60 {} (initSt { fs := fun _ => none } small) with
  | err s => rw [ha] at hl; cases hl
  | stop w s => rw [ha] at hl; cases hl
  | ok u s =>
    rw [ha] at hl
    injection hl with hl
    exact ⟨s, ⟨small_written, small_tame, small_proper, ⟨ha, congrArg Prod.fst hl⟩⟩, congrArg Prod.snd hl⟩

/-- And the code file is read as these bytes. -/
example : ∃ s f recs, Holds  60 { scode := some c!"o" } { fs := fun _ => none } small smallLines s ∧ s.code.file = some f ∧
    Spec.readFile f = some recs ∧ Spec.storesOf (Spec.dataOf recs) = [(0xC0, 0x21), (0xC1, 0xC5), (0xC2, 0), (0xC3, 0x20), (0xC4, 0xFB), (0xC5, 5), (0xC6, 0)] := by
  have hl : (match assemble 60 { scode := some c!"o" } (initSt { fs := fun _ => none } small) with
    | .ok _ s => some (s.errnumber, image s.log, s.code.file.isSome) | _ => none) = some (0, [(0xC0, 0x21), (0xC1, 0xC5), (0xC2, 0), (0xC3, 0x20), (0xC4, 0xFB), (0xC5, 5), (0xC6, 0)], true) := by decide +kernel
  cases ha : assemble 60 { scode := some c!"o" } (initSt { fs := fun _ => none } small) with
  | err s => rw [ha] at hl; cases hl
  | stop w s => rw [ha] at hl; cases hl
  | ok u s =>
    rw [ha] at hl
    injection hl with hl
    have h : Holds  60 { scode := some c!"o" } { fs := fun _ => none } small smallLines s :=
      ⟨small_written, small_tame, small_proper, ⟨ha, congrArg Prod.fst hl⟩⟩
    obtain ⟨f, hf⟩ := Option.isSome_iff_exists.1 (congrArg (fun x => x.2.2) hl)
    have hi : image s.log = _ := congrArg (fun x => x.2.1) hl
    obtain ⟨addr, σ', hr⟩ := C44_program h
    rw [hi] at hr
    obtain ⟨recs, h1, h2⟩ := C44_code_file h hf hr (by decide)
    exact ⟨s, f, recs, h, hf, h1, h2⟩

/-- So the semantics holds of the program and its bytes. -/
example : ∃ addr σ', Spec.Program.Run full addr (late smallLines) {} smallLines
    [(0xC0, 0x21), (0xC1, 0xC5), (0xC2, 0), (0xC3, 0x20), (0xC4, 0xFB), (0xC5, 5), (0xC6, 0)] σ' := by
  obtain ⟨s, h, hi⟩ := small_holds
  have := C44_program h
  rwa [hi] at this

end Crasm.C44

import Verif.Proof.CompSecond
import Verif.Proof.Comp6502
import Verif.Proof.ProgWhole
import Verif.Props.C04

/-! C42: programs for the 6502 family stand for the bytes that the assembler generates. -/

namespace Crasm.C42
open _root_.Spec.M6502 (Chip full)
open Spec.Program (Source Proper State Lines Line Free Body key All2 labels late)

/-- What is asked of a run: the source is written as the program `p`, and it is assembled without error. -/
structure Holds (c : Chip) (fuel : Nat) (o : Opts) (env : Env) (src : Str) (p : Lines (full c)) (s : St) : Prop where
  written : Source (full c) c.name src p
  tame : Spec.Tame src
  proper : Proper p
  assembles : C40.Assembles fuel o env src s

/-- **C42.**  Take a program made of labels, origins, equates, the directives DB, DW, DDB, DL, ASC, DS
    and ALIGN, and instructions of the 6500, 6502 or 65C02,
    written in any of the ways that the assembler reads.  If it is assembled without error, then there is an assignment of
    addresses to its labels under which the reference semantics of the program, line after line, meets every label at
    the address assigned to it and produces exactly the bytes, at exactly the addresses, that pass 2 generates. -/
theorem C42_program {c : Chip} {fuel : Nat} {o : Opts} {env : Env} {src : Str} {p : Lines (full c)} {s : St}
    (h : Holds c fuel o env src p s) :
    ∃ addr σ', Spec.Program.Run (full c) addr (late p) {} p (image s.log) σ' :=
  program_full (machine c) (chosen6502 c) (cpuOf6502 c) (mild6502 c) h.assembles h.written h.tame h.proper

/-- There is only one such image, and one such assignment: the bytes are determined by the program. -/
theorem C42_unique {c : Chip} {p : Lines (full c)} (hp : Proper p) {addr addr' : Str → Int} {σ σ' : State} {img img' : List (Int × BitVec 8)}
    (r : Spec.Program.Run (full c) addr (late p) {} p img σ) (r' : Spec.Program.Run (full c) addr' (late p) {} p img' σ') :
    img = img' ∧ ∀ k ∈ labels p, addr k = addr' k :=
  run_unique (definite c) hp r r'

/-- What a loader that reads the code file stores, under the condition of C04. -/
theorem loads {fuel : Nat} {o : Opts} {env : Env} {src : Str} {s : St} (h : assemble fuel o (initSt env src) = .ok () s) {f : Str}
    (hf : s.code.file = some f) (hc : Clean s.log) : ∃ recs, Spec.readFile f = some recs ∧
      Spec.storesOf (Spec.dataOf recs) = (image s.log).map fun x => ((x.1 % 2 ^ 32).toNat, x.2.toNat) := by
  obtain ⟨recs, h1, h2⟩ := C04_stores_partial fuel o env src s h f hf hc
  refine ⟨recs, h1, ?_⟩
  rw [h2]
  unfold image
  rw [List.map_map]
  refine List.map_congr_left fun x _ => ?_
  have : x.1.toNat % 2 ^ 32 = (x.1.toInt % 2 ^ 32).toNat := by
    rw [BitVec.toInt_eq_toNat_cond]
    split <;> omega
  show (_, _) = (_, _)
  rw [this]

/-- And a loader that reads the code file stores these bytes at these addresses unless the first
    byte comes directly behind the last one (this is the mistake shown in `C04_false_passes`). -/
theorem C42_code_file {c : Chip} {fuel : Nat} {o : Opts} {env : Env} {src : Str} {p : Lines (full c)} {s : St}
    (h : Holds c fuel o env src p s) {f : Str} (hf : s.code.file = some f) {addr : Str → Int} {img : List (Int × BitVec 8)} {σ' : State}
    (hr : Spec.Program.Run (full c) addr (late p) {} p img σ') (hc : ∀ x ∈ img.head?, ∀ y ∈ img.getLast?, x.1 ≠ y.1 + 1) :
    ∃ recs, Spec.readFile f = some recs ∧ Spec.storesOf (Spec.dataOf recs) = img.map fun x => ((x.1 % 2 ^ 32).toNat, x.2.toNat) := by
  have hcl := C42.program_clean (machine c) (complete c) (definite c) (chosen6502 c) (cpuOf6502 c) (mild6502 c) h.assembles.1 h.written h.tame h.proper hr hc
  obtain ⟨recs, h1, h2⟩ := loads h.assembles.1 hf hcl
  obtain ⟨addr', σ'', h3⟩ := C42_program h
  rw [(C42_unique h.proper hr h3).1]
  exact ⟨recs, h1, h2⟩

/-! ### Non-vacuity -/

/-- A forward reference, to a label with an address below 256. -/
def small : Str := c!" cpu 6502\n*=$C0\nl lda n;x\nn db 5"
def smallLines : Lines (full .m6502) :=
  [(none, .org (.num 0xC0)), (some c!"l", .ins (.inl (.oper c!"LDA" .dir (.label c!"n")))), (some c!"n", .data 1 false [.num 5])]

theorem last_ok {o : Str} (h : ∀ c ∈ o.getLast?, ¬ Spec.IsBlank c) : ∀ c r, o = r ++ [c] → ¬ Spec.IsBlank c := by
  rintro c r rfl
  exact h c (by simp)
theorem word_of {w : Str} (h : w ≠ [] ∧ ∀ c ∈ w, c ∉ [' ', '\t', '\'', '"', '(', ')', ';', '=']) : Spec.Word w := ⟨h.1, h.2⟩
theorem field_of {o : Str} (h : o ≠ [] ∧ (∀ c ∈ o, c ∉ ['\'', '"', '(', ')'] ∧ (c != ';') = true) ∧ (∀ c ∈ o.head?, ¬ Spec.IsBlank c) ∧
    ∀ c ∈ o.getLast?, ¬ Spec.IsBlank c) : Spec.Field o :=
  ⟨bal_flat h.2.1, h.1, by rintro c r rfl; exact h.2.2.1 c rfl, last_ok h.2.2.2⟩
theorem operand_of {o : Str} (h : o ≠ [] ∧ (∀ c ∈ o, c ∉ ['\'', '"', '(', ')'] ∧ (c != ',') = true) ∧ (∀ c ∈ o.head?, ¬ Spec.IsBlank c) ∧
    ∀ c ∈ o.getLast?, ¬ Spec.IsBlank c) : Spec.Operand o :=
  ⟨bal_flat h.2.1, h.1, by rintro c r rfl; exact h.2.2.1 c rfl, last_ok h.2.2.2⟩
instance (w : Str) : Decidable (Spec.IsName w) := by
  unfold Spec.IsName
  cases w <;> infer_instance

theorem small_written : Source (full .m6502) c!"6502" small smallLines := by
  refine ⟨c!" cpu 6502", [c!"*=$C0", c!"l lda n;x", c!"n db 5"], c!"cpu", c!" ", c!"6502", by decide, ?_, ⟨by decide, by decide⟩, by decide, by decide, ?_⟩
  · exact .plain (b := c!" ") (b' := []) (by decide) (by decide)
  · refine .cons ?_ (.cons ?_ (.cons ?_ .nil))
    · refine .org (t := c!"*=$C0") (m := c!"equ") (o := c!"$C0") (k := .free) (.plain (b := []) (b' := []) (by decide) (by decide)) ?_ (by decide) ?_
      · exact .equate (l := c!"*") (b := []) (b' := []) (word_of (by decide)) (.inl rfl) (by decide) (by decide) (.inr (field_of (by decide)))
      · exact .num (b := 16) (ds := c!"C0") (.dollar _) (by decide) (by decide) (by decide)
    · refine .ins (t := c!"l lda n") (m := c!"lda") (o := some c!"n") (.comment (b := []) (b' := []) (text := c!"x") (by decide) (by decide)) ?_ ?_ ?_
      · refine .both (l := c!"l") (b := c!" ") (m := c!"lda") (b' := c!" ") (o := c!"n") (word_of (by decide)) (.inr (by decide)) ⟨by decide, by decide⟩ (word_of (by decide))
          ⟨by decide, by decide⟩ (field_of (by decide)) (by decide)
      · exact .oper (k := .free) ⟨true, true, by decide⟩ (.dir (operand_of (by decide)) (by rintro c r ⟨⟩; decide)) (.label (by decide))
      · rintro x ⟨⟩
        exact ⟨by decide, by decide, by decide⟩
    · refine .data (t := c!"n db 5") (m := c!"db") (o := c!"5") (os := [c!"5"]) (.plain (b := []) (b' := []) (by decide) (by decide)) ?_ (by decide) ?_ (.one _) ?_
      · refine .both (l := c!"n") (b := c!" ") (m := c!"db") (b' := c!" ") (o := c!"5") (word_of (by decide)) (.inr (by decide)) ⟨by decide, by decide⟩ (word_of (by decide))
          ⟨by decide, by decide⟩ (field_of (by decide)) (by decide)
      · rintro x ⟨⟩
        exact ⟨by decide, by decide, by decide⟩
      · exact .cons ⟨operand_of (by decide), .free, .num (b := 10) (ds := c!"5") (.decimal _) (by decide) (by decide) (by decide)⟩ .nil

/-- `Proper`, line by line. -/
def Checks {i : Spec.Program.Isa} (p a : Lines i) : Lines i → Prop
  | [] => True
  | x :: b => ((∀ n ∈ x.2.uses, (key n ∈ labels p ∨ key n ∈ Spec.Program.equates a) ∨ (key n = ['*'] ∧ Spec.Program.hasOrg a = true)) ∧
      (x.2.generates = true ∨ labels [x] ≠ [] → Spec.Program.hasOrg a = true) ∧
      (∀ n ∈ x.2.fixed, Spec.Program.marks (late p) a (key n) = false)) ∧ Checks p (a ++ [x]) b
theorem checks_all {i : Spec.Program.Isa} {p : Lines i} : ∀ (b a : Lines i), Checks p a b → ∀ a' x b', b = a' ++ x :: b' →
    (∀ n ∈ x.2.uses, (key n ∈ labels p ∨ key n ∈ Spec.Program.equates (a ++ a')) ∨ (key n = ['*'] ∧ Spec.Program.hasOrg (a ++ a') = true)) ∧
      (x.2.generates = true ∨ labels [x] ≠ [] → Spec.Program.hasOrg (a ++ a') = true) ∧
      (∀ n ∈ x.2.fixed, Spec.Program.marks (late p) (a ++ a') (key n) = false)
  | [], _, _, a', x, b', e => by cases a' <;> cases e
  | y :: b, a, h, [], x, b', e => by cases e; rw [List.append_nil]; exact h.1
  | y :: b, a, h, z :: a', x, b', e => by
    cases e
    have := checks_all _ _ h.2 a' x b' rfl
    rwa [List.append_assoc] at this
theorem proper_of {i : Spec.Program.Isa} {p : Lines i} (h : Checks p [] p) (h1 : (labels p).Nodup) (h2 : ∀ n ∈ Spec.Program.equates p, n ∉ labels p) :
    Proper p :=
  ⟨fun a x b e => (checks_all p [] h a x b e).1, h1, h2, fun a x b e => (checks_all p [] h a x b e).2.1, fun a x b e => (checks_all p [] h a x b e).2.2⟩

theorem small_proper : Proper smallLines := by
  refine proper_of ⟨⟨by decide, by decide, by decide⟩, ⟨by decide, by decide, by decide⟩, ⟨by decide, by decide, by decide⟩, trivial⟩ (by decide) (by decide)
theorem small_tame : Spec.Tame small := by
  unfold Spec.Tame Spec.Plain
  decide +kernel

theorem small_holds : ∃ s, Holds .m6502 60 {} { fs := fun _ => none } small smallLines s ∧
    image s.log = [(0xC0, 0xAD), (0xC1, 0xC3), (0xC2, 0), (0xC3, 5)] := by
  have hl : (match assemble 60 {} (initSt { fs := fun _ => none } small) with
    | .ok _ s => some (s.errnumber, image s.log) | _ => none) = some (0, [(0xC0, 0xAD), (0xC1, 0xC3), (0xC2, 0), (0xC3, 5)]) := by decide +kernel
  cases ha : assemble 60 {} (initSt { fs := fun _ => none } small) with
  | err s => rw [ha] at hl; cases hl
  | stop w s => rw [ha] at hl; cases hl
  | ok u s =>
    rw [ha] at hl
    injection hl with hl
    exact ⟨s, ⟨small_written, small_tame, small_proper, ⟨ha, congrArg Prod.fst hl⟩⟩, congrArg Prod.snd hl⟩

/-- And the code file is read as these bytes. -/
example : ∃ s f recs, Holds .m6502 60 { scode := some c!"o" } { fs := fun _ => none } small smallLines s ∧ s.code.file = some f ∧
    Spec.readFile f = some recs ∧ Spec.storesOf (Spec.dataOf recs) = [(0xC0, 0xAD), (0xC1, 0xC3), (0xC2, 0), (0xC3, 5)] := by
  have hl : (match assemble 60 { scode := some c!"o" } (initSt { fs := fun _ => none } small) with
    | .ok _ s => some (s.errnumber, image s.log, s.code.file.isSome) | _ => none) = some (0, [(0xC0, 0xAD), (0xC1, 0xC3), (0xC2, 0), (0xC3, 5)], true) := by decide +kernel
  cases ha : assemble 60 { scode := some c!"o" } (initSt { fs := fun _ => none } small) with
  | err s => rw [ha] at hl; cases hl
  | stop w s => rw [ha] at hl; cases hl
  | ok u s =>
    rw [ha] at hl
    injection hl with hl
    have h : Holds .m6502 60 { scode := some c!"o" } { fs := fun _ => none } small smallLines s :=
      ⟨small_written, small_tame, small_proper, ⟨ha, congrArg Prod.fst hl⟩⟩
    obtain ⟨f, hf⟩ := Option.isSome_iff_exists.1 (congrArg (fun x => x.2.2) hl)
    have hi : image s.log = _ := congrArg (fun x => x.2.1) hl
    obtain ⟨addr, σ', hr⟩ := C42_program h
    rw [hi] at hr
    obtain ⟨recs, h1, h2⟩ := C42_code_file h hf hr (by decide)
    exact ⟨s, f, recs, h, hf, h1, h2⟩

/-- So the semantics holds of the program and its bytes. -/
example : ∃ addr σ', Spec.Program.Run (full .m6502) addr (late smallLines) {} smallLines [(0xC0, 0xAD), (0xC1, 0xC3), (0xC2, 0), (0xC3, 5)] σ' := by
  obtain ⟨s, h, hi⟩ := small_holds
  have := C42_program h
  rwa [hi] at this

/-- The other directives: characters, an area, an alignment. -/
def wide : Str := c!" cpu 6502\nk=3\n*=$C0\n asc 'a\\'b'\n align Even\n ds k*2-4 , n\nn ds 1"
def wideLines : Lines (full .m6502) :=
  [(some c!"k", .equ (.num 3)), (none, .org (.num 0xC0)), (none, .ins (.inr (.text [97, 39, 98]))), (none, .ins (.inr (.parity false))),
   (none, .ins (.inr (.area (.bin .sub (.bin .mul (.label c!"k") (.num 2)) (.num 4)) (some (.label c!"n"))))), (some c!"n", .ins (.inr (.area (.num 1) none)))]

theorem wide_written : Source (full .m6502) c!"6502" wide wideLines := by
  refine ⟨c!" cpu 6502", [c!"k=3", c!"*=$C0", c!" asc 'a\\'b'", c!" align Even", c!" ds k*2-4 , n", c!"n ds 1"], c!"cpu", c!" ", c!"6502", by decide, ?_, ⟨by decide, by decide⟩, by decide, by decide, ?_⟩
  · exact .plain (b := c!" ") (b' := []) (by decide) (by decide)
  · refine .cons ?_ (.cons ?_ (.cons ?_ (.cons ?_ (.cons ?_ (.cons ?_ .nil)))))
    · refine .equ (t := c!"k=3") (l := c!"k") (m := c!"equ") (o := c!"3") (k := .free) (.plain (b := []) (b' := []) (by decide) (by decide)) ?_ (by decide) ⟨by decide, by decide, by decide⟩ ?_
      · exact .equate (l := c!"k") (b := []) (b' := []) (word_of (by decide)) (.inr (by decide)) (by decide) (by decide) (.inr (field_of (by decide)))
      · exact .num (b := 10) (ds := c!"3") (.decimal _) (by decide) (by decide) (by decide)
    · refine .org (t := c!"*=$C0") (m := c!"equ") (o := c!"$C0") (k := .free) (.plain (b := []) (b' := []) (by decide) (by decide)) ?_ (by decide) ?_
      · exact .equate (l := c!"*") (b := []) (b' := []) (word_of (by decide)) (.inl rfl) (by decide) (by decide) (.inr (field_of (by decide)))
      · exact .num (b := 16) (ds := c!"C0") (.dollar _) (by decide) (by decide) (by decide)
    · refine .ins (t := c!"asc 'a\\'b'") (m := c!"asc") (o := some c!"'a\\'b'") (.plain (b := c!" ") (b' := []) (by decide) (by decide)) ?_ ?_ (by rintro x ⟨⟩)
      · refine .oper (m := c!"asc") (b := c!" ") (o := c!"'a\\'b'") (word_of (by decide)) ⟨by decide, by decide⟩ ⟨?_, by decide, ?_, ?_⟩ (by decide) (by decide)
        · exact .quoted _ '\'' c!"a\\'b" [] (.inl rfl) (.plain _ _ (by decide) (by decide) (.escaped _ _ (.plain _ _ (by decide) (by decide) .nil))) (.nil _)
        · rintro c r ⟨⟩; decide
        · exact last_ok (by decide)
      · exact .text (d := '\'') (t := c!"a\\'b") (.inl rfl) (.plain (by decide) (by decide) (.esc (by decide) (.plain (by decide) (by decide) .nil)))
    · refine .ins (t := c!"align Even") (m := c!"align") (o := some c!"Even") (.plain (b := c!" ") (b' := []) (by decide) (by decide)) ?_ ?_ (by rintro x ⟨⟩)
      · exact .oper (m := c!"align") (b := c!" ") (o := c!"Even") (word_of (by decide)) ⟨by decide, by decide⟩ (field_of (by decide)) (by decide) (by decide)
      · exact .parity (by decide)
    · refine .ins (t := c!"ds k*2-4 , n") (m := c!"ds") (o := some c!"k*2-4 , n") (.plain (b := c!" ") (b' := []) (by decide) (by decide)) ?_ ?_ (by rintro x ⟨⟩)
      · exact .oper (m := c!"ds") (b := c!" ") (o := c!"k*2-4 , n") (word_of (by decide)) ⟨by decide, by decide⟩ (field_of (by decide)) (by decide) (by decide)
      · refine .filled (t := c!"k*2-4") (f := c!"n") ⟨operand_of (by decide), .free, ?_⟩ ⟨operand_of (by decide), .free, .label (by decide)⟩
          (.more c!"k*2-4" c!" " c!" " c!"n" _ (by decide) (by decide) (.one _))
        exact .bin (k := .free) (op := .sub) (b1 := []) (b2 := []) (by decide) (by decide)
          (.bin (op := .mul) (b1 := []) (b2 := []) (by decide) (by decide) (.label (t := c!"k") (by decide)) (.num (b := 10) (ds := c!"2") (.decimal _) (by decide) (by decide) (by decide)) (by decide) (by decide))
          (.num (b := 10) (ds := c!"4") (.decimal _) (by decide) (by decide) (by decide)) (by decide) (by decide)
    · refine .ins (t := c!"n ds 1") (m := c!"ds") (o := some c!"1") (.plain (b := []) (b' := []) (by decide) (by decide)) ?_ ?_ ?_
      · refine .both (l := c!"n") (b := c!" ") (m := c!"ds") (b' := c!" ") (o := c!"1") (word_of (by decide)) (.inr (by decide)) ⟨by decide, by decide⟩ (word_of (by decide))
          ⟨by decide, by decide⟩ (field_of (by decide)) (by decide)
      · exact .area ⟨operand_of (by decide), .free, .num (b := 10) (ds := c!"1") (.decimal _) (by decide) (by decide) (by decide)⟩
      · rintro x ⟨⟩
        exact ⟨by decide, by decide, by decide⟩

theorem wide_proper : Proper wideLines := by
  refine proper_of ⟨⟨by decide, by decide, by decide⟩, ⟨by decide, by decide, by decide⟩, ⟨by decide, by decide, by decide⟩, ⟨by decide, by decide, by decide⟩,
    ⟨by decide, by decide, by decide⟩, ⟨by decide, by decide, by decide⟩, trivial⟩ (by decide) (by decide)

example : ∃ s, Holds .m6502 60 {} { fs := fun _ => none } wide wideLines s ∧
    image s.log = [(0xC0, 97), (0xC1, 39), (0xC2, 98), (0xC3, 0), (0xC4, 0xC6), (0xC5, 0xC6), (0xC6, 0)] := by
  have hl : (match assemble 60 {} (initSt { fs := fun _ => none } wide) with
    | .ok _ s => some (s.errnumber, image s.log) | _ => none) =
      some (0, [(0xC0, 97), (0xC1, 39), (0xC2, 98), (0xC3, 0), (0xC4, 0xC6), (0xC5, 0xC6), (0xC6, 0)]) := by decide +kernel
  cases ha : assemble 60 {} (initSt { fs := fun _ => none } wide) with
  | err s => rw [ha] at hl; cases hl
  | stop w s => rw [ha] at hl; cases hl
  | ok u s =>
    rw [ha] at hl
    injection hl with hl
    exact ⟨s, ⟨wide_written, by unfold Spec.Tame Spec.Plain; decide +kernel, wide_proper, ⟨ha, congrArg Prod.fst hl⟩⟩, congrArg Prod.snd hl⟩

/-- The location counter in expressions: a branch, an equate, data, an origin. -/
def here : Str := c!" cpu 6502\n*=$C0\nl bne *-2\nt=*+1\n dw *,t\n*=*+2\n db 7"
def hereLines : Lines (full .m6502) :=
  [(none, .org (.num 0xC0)), (some c!"l", .ins (.inl (.branch c!"BNE" (.bin .sub (.label c!"*") (.num 2))))),
   (some c!"t", .equ (.bin .add (.label c!"*") (.num 1))), (none, .data 2 false [.label c!"*", .label c!"t"]),
   (none, .org (.bin .add (.label c!"*") (.num 2))), (none, .data 1 false [.num 7])]

theorem here_written : Source (full .m6502) c!"6502" here hereLines := by
  refine ⟨c!" cpu 6502", [c!"*=$C0", c!"l bne *-2", c!"t=*+1", c!" dw *,t", c!"*=*+2", c!" db 7"], c!"cpu", c!" ", c!"6502", by decide, ?_, ⟨by decide, by decide⟩, by decide, by decide, ?_⟩
  · exact .plain (b := c!" ") (b' := []) (by decide) (by decide)
  · refine .cons ?_ (.cons ?_ (.cons ?_ (.cons ?_ (.cons ?_ (.cons ?_ .nil)))))
    · refine .org (t := c!"*=$C0") (m := c!"equ") (o := c!"$C0") (k := .free) (.plain (b := []) (b' := []) (by decide) (by decide)) ?_ (by decide) ?_
      · exact .equate (l := c!"*") (b := []) (b' := []) (word_of (by decide)) (.inl rfl) (by decide) (by decide) (.inr (field_of (by decide)))
      · exact .num (b := 16) (ds := c!"C0") (.dollar _) (by decide) (by decide) (by decide)
    · refine .ins (t := c!"l bne *-2") (m := c!"bne") (o := some c!"*-2") (.plain (b := []) (b' := []) (by decide) (by decide)) ?_ ?_ ?_
      · refine .both (l := c!"l") (b := c!" ") (m := c!"bne") (b' := c!" ") (o := c!"*-2") (word_of (by decide)) (.inr (by decide)) ⟨by decide, by decide⟩ (word_of (by decide))
          ⟨by decide, by decide⟩ (field_of (by decide)) (by decide)
      · exact .branch (k := .free) (by decide) (.bin (op := .sub) (b1 := []) (b2 := []) (by decide) (by decide) (.here (by decide))
          (.num (b := 10) (ds := c!"2") (.decimal _) (by decide) (by decide) (by decide)) (by decide) (by decide))
      · rintro x ⟨⟩
        exact ⟨by decide, by decide, by decide⟩
    · refine .equ (t := c!"t=*+1") (l := c!"t") (m := c!"equ") (o := c!"*+1") (k := .free) (.plain (b := []) (b' := []) (by decide) (by decide)) ?_ (by decide) ⟨by decide, by decide, by decide⟩ ?_
      · exact .equate (l := c!"t") (b := []) (b' := []) (word_of (by decide)) (.inr (by decide)) (by decide) (by decide) (.inr (field_of (by decide)))
      · exact .bin (op := .add) (b1 := []) (b2 := []) (by decide) (by decide) (.here (by decide))
          (.num (b := 10) (ds := c!"1") (.decimal _) (by decide) (by decide) (by decide)) (by decide) (by decide)
    · refine .data (t := c!"dw *,t") (m := c!"dw") (o := c!"*,t") (os := [c!"*", c!"t"]) (.plain (b := c!" ") (b' := []) (by decide) (by decide)) ?_ (by decide) (by rintro x ⟨⟩)
        (.more c!"*" [] [] c!"t" _ (by decide) (by decide) (.one _)) ?_
      · exact .oper (m := c!"dw") (b := c!" ") (o := c!"*,t") (word_of (by decide)) ⟨by decide, by decide⟩ (field_of (by decide)) (by decide) (by decide)
      · exact .cons ⟨operand_of (by decide), .free, .here (by decide)⟩ (.cons ⟨operand_of (by decide), .free, .label (by decide)⟩ .nil)
    · refine .org (t := c!"*=*+2") (m := c!"equ") (o := c!"*+2") (k := .free) (.plain (b := []) (b' := []) (by decide) (by decide)) ?_ (by decide) ?_
      · exact .equate (l := c!"*") (b := []) (b' := []) (word_of (by decide)) (.inl rfl) (by decide) (by decide) (.inr (field_of (by decide)))
      · exact .bin (op := .add) (b1 := []) (b2 := []) (by decide) (by decide) (.here (by decide))
          (.num (b := 10) (ds := c!"2") (.decimal _) (by decide) (by decide) (by decide)) (by decide) (by decide)
    · refine .data (t := c!"db 7") (m := c!"db") (o := c!"7") (os := [c!"7"]) (.plain (b := c!" ") (b' := []) (by decide) (by decide)) ?_ (by decide) (by rintro x ⟨⟩) (.one _) ?_
      · exact .oper (m := c!"db") (b := c!" ") (o := c!"7") (word_of (by decide)) ⟨by decide, by decide⟩ (field_of (by decide)) (by decide) (by decide)
      · exact .cons ⟨operand_of (by decide), .free, .num (b := 10) (ds := c!"7") (.decimal _) (by decide) (by decide) (by decide)⟩ .nil

theorem here_proper : Proper hereLines := by
  refine proper_of ⟨⟨by decide, by decide, by decide⟩, ⟨by decide, by decide, by decide⟩, ⟨by decide, by decide, by decide⟩, ⟨by decide, by decide, by decide⟩,
    ⟨by decide, by decide, by decide⟩, ⟨by decide, by decide, by decide⟩, trivial⟩ (by decide) (by decide)

example : ∃ s, Holds .m6502 60 {} { fs := fun _ => none } here hereLines s ∧
    image s.log = [(0xC0, 0xD0), (0xC1, 0xFC), (0xC2, 0xC2), (0xC3, 0), (0xC4, 0xC3), (0xC5, 0), (0xC8, 7)] := by
  have hl : (match assemble 60 {} (initSt { fs := fun _ => none } here) with
    | .ok _ s => some (s.errnumber, image s.log) | _ => none) =
      some (0, [(0xC0, 0xD0), (0xC1, 0xFC), (0xC2, 0xC2), (0xC3, 0), (0xC4, 0xC3), (0xC5, 0), (0xC8, 7)]) := by decide +kernel
  cases ha : assemble 60 {} (initSt { fs := fun _ => none } here) with
  | err s => rw [ha] at hl; cases hl
  | stop w s => rw [ha] at hl; cases hl
  | ok u s =>
    rw [ha] at hl
    injection hl with hl
    exact ⟨s, ⟨here_written, by unfold Spec.Tame Spec.Plain; decide +kernel, here_proper, ⟨ha, congrArg Prod.fst hl⟩⟩, congrArg Prod.snd hl⟩

end Crasm.C42

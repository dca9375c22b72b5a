import Verif.Proof.ProgList
import Verif.Props.C43
import Verif.Props.C44

/-! C51: the listing of a program shows every line with the bytes it stands for and the addresses of these. -/

namespace Crasm.C51
open Spec.Program (Source Proper State Lines late Printed)
open _root_.Spec.Listing (sourceLine tag)
open C42 (image)

/-- Every line of the source has room in the lines of the listing, which are 76 characters long. -/
def Fits (src : Str) : Prop := ∀ i t, (Spec.lines src)[i]? = some t → (sourceLine [] (tag none 0 (i + 1)) t).length ≤ 76

/-- The listing `text` of a source for the program `p` that stands for the bytes `img`: the line naming the processor,
    then every line with what the semantics of the program says about it. -/
def Listed (isa : Spec.Program.Isa) (src : Str) (p : Lines isa) (img : List (Int × BitVec 8)) (text : Str) : Prop :=
  ∃ addr σ' x bl rest out, Spec.lines src = (x ++ bl) :: rest ∧ (∀ c ∈ bl, Spec.IsBlank c) ∧
    Printed isa addr (late p) 2 {} rest p img out σ' ∧ _root_.Spec.Program.Shows text (sourceLine [] (tag none 0 1) x :: out)

theorem listed_of {isa : Spec.Program.Isa} {src : Str} {p : Lines isa} {img : List (Int × BitVec 8)} {text : Str} {P : Str → List Str → Prop}
    (h : ∃ addr σ' x bl rest out, Spec.lines src = (x ++ bl) :: rest ∧ (∀ c ∈ bl, Spec.IsBlank c) ∧
      Printed isa addr (late p) 2 {} rest p img out σ' ∧ _root_.Spec.Program.Shows text (sourceLine [] (tag none 0 1) x :: out) ∧ P x out) : Listed isa src p img text := by
  obtain ⟨addr, σ', x, bl, rest, out, h1, h2, h3, h4, -⟩ := h
  exact ⟨addr, σ', x, bl, rest, out, h1, h2, h3, h4⟩

/-- **C51.**  When a program for the 6500, 6502 or 65C02 is assembled without error and a listing is wanted (option -l),
    the text printed is a listing in numbered pages of 66 lines; the lines on them are, apart from warnings, the lines of the source
    in order, each with its number, and before it what it stands for according to the semantics of the program: the address
    and the bytes, or the value of an origin or equate.  The bytes shown are those generated, one line after the other. -/
theorem C51_6502 {c : _root_.Spec.M6502.Chip} {fuel : Nat} {o : Opts} {env : Env} {src : Str} {p : Lines (_root_.Spec.M6502.full c)} {s : St}
    (h : C42.Holds c fuel o env src p s) (hl : o.list = true) (hf : Fits src) : Listed _ src p (image s.log) (stdoutOf s) :=
  listed_of <| program_listed (C42.machine c) (coded6502 c) (C42.chosen6502 c) (fun _ => ⟨rfl, rfl, rfl⟩) (C42.cpuOf6502 c) (C42.mild6502 c) h.assembles h.written h.tame h.proper hl hf

/-- The same for the 6800, 6801 and 6803. -/
theorem C51_6800 {c : _root_.Spec.M6800.Chip} {cpu : Str} {fuel : Nat} {o : Opts} {env : Env} {src : Str} {p : Lines (_root_.Spec.M6800.full c)} {s : St}
    (h : C43.Holds c cpu fuel o env src p s) (hl : o.list = true) (hf : Fits src) : Listed _ src p (image s.log) (stdoutOf s) := by
  obtain ⟨n, h1, h2, h3⟩ := C43.named h.named
  exact listed_of <| program_listed (C43.machine c) (coded6800 c) (C43.chosen h1) (fun _ => ⟨rfl, rfl, rfl⟩) h2 h3 h.assembles h.written h.tame h.proper hl hf

/-- The same for the Z80. -/
theorem C51_Z80 {fuel : Nat} {o : Opts} {env : Env} {src : Str} {p : Lines _root_.Spec.Z80.full} {s : St}
    (h : C44.Holds fuel o env src p s) (hl : o.list = true) (hf : Fits src) : Listed _ src p (image s.log) (stdoutOf s) :=
  listed_of <| program_listed C44.machine codedZ80 C44.chosen (fun _ => ⟨rfl, rfl, rfl⟩) C44.named.1 C44.named.2 h.assembles h.written h.tame h.proper hl hf

theorem fits_of {src : Str} (h : ((Spec.lines src).zipIdx 1).all (fun x => (sourceLine [] (tag none 0 x.2) x.1).length ≤ 76) = true) : Fits src := by
  intro i t ht
  have := List.all_eq_true.1 h (t, i + 1) (by
    rw [List.mem_iff_getElem?]
    exact ⟨i, by rw [List.getElem?_zipIdx, ht]; simp [Nat.add_comm]⟩)
  simpa using this

/-- The small program of C42: it meets the hypotheses, so its listing is as described. -/
example : ∃ s, C42.Holds .m6502 60 { list := true } { fs := fun _ => none } C42.small C42.smallLines s ∧
    Listed _ C42.small C42.smallLines (image s.log) (stdoutOf s) := by
  have hl : (match assemble 60 { list := true } (initSt { fs := fun _ => none } C42.small) with
    | .ok _ s => some s.errnumber | _ => none) = some 0 := by decide +kernel
  cases ha : assemble 60 { list := true } (initSt { fs := fun _ => none } C42.small) with
  | err s => rw [ha] at hl; cases hl
  | stop w s => rw [ha] at hl; cases hl
  | ok u s =>
    rw [ha] at hl
    injection hl with hl
    have h : C42.Holds .m6502 60 { list := true } { fs := fun _ => none } C42.small C42.smallLines s :=
      ⟨C42.small_written, C42.small_tame, C42.small_proper, ⟨ha, hl⟩⟩
    exact ⟨s, h, C51_6502 h rfl (fits_of (by decide +kernel))⟩

/-- What is printed for it. -/
example : (match assemble 60 { list := true } (initSt { fs := fun _ => none } C42.small) with
    | .ok _ s => s.lst.lines.reverse | _ => []) =
    [c!"                         1   cpu 6502",
     c!"  00C0                   2  *=$C0",
     c!"00C0 ADC300              3  l lda n;x",
     c!"00C3 05                  4  n db 5"] := by decide +kernel

end Crasm.C51

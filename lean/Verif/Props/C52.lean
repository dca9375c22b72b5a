import Verif.Props.C51
import Verif.Props.C45
import Verif.Props.C46
import Verif.Props.C47

/-! C52: what a run prints and leaves behind is decided by the program. -/

namespace Crasm.C52
open Spec.Program (Isa Source Proper State Lines late Printed)
open _root_.Spec.Listing (sourceLine tag)
open C42 (image)

/-- What becomes of the code file when the program stands for `img`: nothing is written if no name is given, and there need not
    be a file if there are no bytes; otherwise the file holds the bytes in order, and a loader stores them at their addresses,
    unless the first byte comes directly behind the last one. -/
def Saved (wanted : Bool) (img : List (Int × BitVec 8)) (file : CodeFile) : Prop :=
  if wanted = false then file = .untouched
  else (img = [] ∧ file = .untouched) ∨ ∃ f recs, file = .written f ∧ Spec.readFile f = some recs ∧
    (Spec.storesOf (Spec.dataOf recs)).map Prod.snd = img.map (fun x => x.2.toNat) ∧
    ((∀ x ∈ img.head?, ∀ y ∈ img.getLast?, x.1 ≠ y.1 + 1) →
      Spec.storesOf (Spec.dataOf recs) = img.map fun x => ((x.1 % 2 ^ 32).toNat, x.2.toNat))

/-- The listing of the program stands at the beginning of what is printed. -/
def Begins (isa : Isa) (src : Str) (p : Lines isa) (img : List (Int × BitVec 8)) (out : Str) : Prop :=
  ∃ addr σ' x bl rest rows, Spec.lines src = (x ++ bl) :: rest ∧ (∀ c ∈ bl, Spec.IsBlank c) ∧
    Printed isa addr (late p) 2 {} rest p img rows σ' ∧ _root_.Spec.Program.Opens out (sourceLine [] (tag none 0 1) x :: rows)

/-- What a run prints and does to the code file: it succeeds if and only if the program stands for something. -/
inductive Outcome (isa : Isa) (o : Opts) (src : Str) (p : Lines isa) (out : Str) (file : CodeFile) : Prop
  | success (addr img σ') (run : Spec.Program.Run isa addr (late p) {} p img σ') (errors : c!"ERRORS:       0\n" <:+: out)
      (message : c!"Successful assembly...\n" <:+: out) (saved : Saved o.scode.isSome img file)
      (listing : o.list = true → C51.Fits src → Begins isa src p img out)
  | failure (nothing : ¬ ∃ addr img σ', Spec.Program.Run isa addr (late p) {} p img σ') (message : c!"No code generated...\n" <:+: out)
      (removed : file = if o.scode.isSome then .removed else .untouched)

/-! ### The code file -/

theorem nocode_step {a b : Cfg} (h : Step a b) : b.1.flags.nocode = a.1.flags.nocode := by
  cases h with
  | p h =>
    cases h with
    | h h => cases h with
      | n h => cases h <;> rfl
      | _ => rfl
    | flags s f c hf => exact hf.2.2.2.2.2.1
    | _ => rfl
  | _ => rfl

theorem nocode_star {a b : Cfg} (h : Star Step a b) : b.1.flags.nocode = a.1.flags.nocode := by
  induction h with
  | refl => rfl
  | tail _ h3 ih => exact (nocode_step h3).trans ih

theorem nocode_end {fuel : Nat} {o : Opts} {env : Env} {src : Str} {s : St} (h : assemble fuel o (initSt env src) = .ok () s) :
    s.flags.nocode = o.scode.isNone := by
  obtain ⟨sC, hr, rfl⟩ := assemble_ok h
  show sC.flags.nocode = _
  cases hr with
  | pass2 hB hs =>
    rw [nocode_star hs]
    have hq := (codeInv_reach hB (by simp)).quiet (Nat.le_refl _)
    show ((_ : Flags).nocode && o.scode.isNone) = _
    rw [hq]
    simp

theorem no_file {fuel : Nat} {o : Opts} {env : Env} {src : Str} {s : St} (h : assemble fuel o (initSt env src) = .ok () s)
    (ho : o.scode = none) : s.code.file = none := by
  have hn := nocode_end h
  obtain ⟨sC, hr, rfl⟩ := assemble_ok h
  have hi := (codeInv_reach hr (by simp)).never (by rw [ho] at hn; exact hn)
  unfold afterPasses
  rw [hi]
  exact hi

/-! ### The listing goes on -/

theorem lines_star {n : Nat} {a b : Lst} (h : LStar n a b) : ∃ x, b.lines = x ++ a.lines := by
  induction h with
  | refl => exact ⟨[], rfl⟩
  | tail _ r ih =>
    obtain ⟨x, ih⟩ := ih
    cases r with
    | print s h =>
      rename_i l _
      have : (printed s l).lines = s :: l.lines := by
        unfold printed
        dsimp only
        split <;> split <;> rfl
      exact ⟨s :: x, by rw [this, ih]; rfl⟩
    | eject h =>
      dsimp only
      split
      · exact ⟨x, ih⟩
      · exact ⟨[] :: [] :: [] :: x, by rw [ih]; rfl⟩
    | _ => exact ⟨x, ih⟩

instance tidy_eolLoop (n : Nat) : Tidy (eolLoop n) := by
  induction n with
  | zero => unfold eolLoop; tidy
  | succ n ih => unfold eolLoop; tidy
instance : Tidy eject := by unfold eject; exact tidy_lst fun _ => rfl
instance : Tidy outputEOP := by unfold outputEOP; tidy
instance (t : Str) : Tidy (resultLine t) := by unfold resultLine; tidy
instance (k : Str) (l : Label) : Tidy (printlabel k l) := by unfold printlabel; tidy
instance tidy_printlabels (ls : List (Str × Label)) : Tidy (printlabels ls) := by
  induction ls with
  | nil => exact Tidy.pure _
  | cons x ls ih => obtain ⟨k, l⟩ := x; unfold printlabels; tidy
instance : Tidy result := by unfold result; tidy
instance : Tidy xref := by unfold xref; tidy

/-- The summary and the list of symbols come after the lines of the passes, on pages of the same length. -/
theorem last_from {fuel : Nat} {o : Opts} {env : Env} {src : Str} {s : St} {out : Str} {file : CodeFile}
    (ha : assemble fuel o (initSt env src) = .ok () s) (h : finish fuel o (initSt env src) = .exit 0 out file) :
    (∃ x, (lastState fuel o (initSt env src)).lst.lines = x ++ s.lst.lines) ∧ (lastState fuel o (initSt env src)).lst.pages = s.lst.pages := by
  unfold lastState
  unfold finish at h
  rw [ha] at h ⊢
  dsimp only at h ⊢
  have l1 := ((inferInstance : Lay result).run s).1
  have t1 := (inferInstance : Tidy result).run s
  cases hr : result s with
  | err s1 => rw [hr] at h; cases h
  | stop w s1 => rw [hr] at h; cases w <;> cases h
  | ok u s1 =>
    rw [hr] at h l1 t1
    dsimp only at h ⊢
    obtain ⟨x, l1⟩ := lines_star l1
    have l1 : s1.lst.lines = x ++ s.lst.lines := l1
    split at h
    · rename_i hx
      rw [if_pos hx]
      have l2 := ((inferInstance : Lay xref).run s1).1
      have t2 := (inferInstance : Tidy xref).run s1
      cases hz : xref s1 with
      | err s2 => rw [hz] at h; cases h
      | stop w s2 => rw [hz] at h; cases w <;> cases h
      | ok u s2 =>
        rw [hz] at l2 t2
        obtain ⟨y, l2⟩ := lines_star l2
        have l2 : s2.lst.lines = y ++ s1.lst.lines := l2
        exact ⟨⟨y ++ x, by show s2.lst.lines = _; rw [l2, l1, List.append_assoc]⟩, t2.1.trans t1.1⟩
    · rename_i hx
      rw [if_neg hx]
      exact ⟨⟨x, l1⟩, t1.1⟩

/-! ### Runs -/

theorem outcome {isa : Isa} {p : Lines isa} {fuel : Nat} {o : Opts} {env : Env} {src nm out : Str} {file : CodeFile}
    (hs : env.fs nm = some src) (h : crasm fuel env o nm = .exit 0 out file)
    (hexact : ∀ s, assemble fuel o (initSt env src) = .ok () s → (s.errnumber = 0 ↔ ∃ addr img σ', Spec.Program.Run isa addr (late p) {} p img σ'))
    (hprog : ∀ s, C40.Assembles fuel o env src s → ∃ addr σ', Spec.Program.Run isa addr (late p) {} p (image s.log) σ')
    (hcode : ∀ s f, C40.Assembles fuel o env src s → s.code.file = some f → ∀ addr img σ', Spec.Program.Run isa addr (late p) {} p img σ' →
      (∀ x ∈ img.head?, ∀ y ∈ img.getLast?, x.1 ≠ y.1 + 1) → ∃ recs, Spec.readFile f = some recs ∧
        Spec.storesOf (Spec.dataOf recs) = img.map fun x => ((x.1 % 2 ^ 32).toNat, x.2.toNat))
    (hlist : ∀ s, C40.Assembles fuel o env src s → o.list = true → C51.Fits src → ∃ addr σ' x bl rest rows, Spec.lines src = (x ++ bl) :: rest ∧
      (∀ c ∈ bl, Spec.IsBlank c) ∧ Printed isa addr (late p) 2 {} rest p (image s.log) rows σ' ∧
      _root_.Spec.Program.Shows (stdoutOf s) (sourceLine [] (tag none 0 1) x :: rows) ∧ s.lst.pages = [] ∧
      ∃ ts : List (Bool × Str), s.lst.lines = (ts.map Prod.snd).reverse ∧ (∀ t ∈ ts, t.1 = true → _root_.Spec.Listing.Remark t.2) ∧
        (ts.filter fun t => !t.1).map Prod.snd = sourceLine [] (tag none 0 1) x :: rows) : Outcome isa o src p out file := by
  have hout : out = stdoutOf (lastState fuel o (initSt env src)) := by
    rcases C49_stdout hs h with ⟨-, h⟩ | ⟨h, -⟩
    · exact h
    · cases h
  obtain ⟨src', hs', hfin⟩ := crasm_exit0 h
  rw [hs] at hs'
  cases hs'
  obtain ⟨s, ha, hf, t1, t2, t3⟩ := finish_exit0 (inv_initSt env src) rfl hfin
  have hnone : o.scode = none → fileOf s = .untouched := by
    intro ho
    unfold fileOf
    rw [no_file ha ho]
  by_cases he : s.errnumber = 0
  · have hA : C40.Assembles fuel o env src s := ⟨ha, he⟩
    obtain ⟨addr, σ', hr⟩ := hprog s hA
    rw [he] at t1
    rw [if_neg (fun h => h.1 he)] at hf
    refine .success addr _ σ' hr t1 (t2 he) ?_ ?_
    · unfold Saved
      split
      · rename_i hw
        rw [hf]
        exact hnone (Option.isSome_eq_false_iff.1 hw |> Option.isNone_iff_eq_none.1)
      · rename_i hw
        cases hc : s.code.file with
        | none =>
          refine .inl ⟨?_, by rw [hf]; unfold fileOf; rw [hc]⟩
          have := C04_no_file fuel o env src s ha (by rw [nocode_end ha]; cases hz : o.scode <;> simp_all) hc
          unfold image
          rw [this]
          rfl
        | some f =>
          obtain ⟨recs, r1, r2⟩ := C04_values_partial fuel o env src s ha f hc
          refine .inr ⟨f, recs, by rw [hf]; unfold fileOf; rw [hc], r1, ?_, fun hcl => ?_⟩
          · rw [r2]
            unfold image
            rw [List.map_map]
            rfl
          · obtain ⟨recs', r3, r4⟩ := hcode s f hA hc addr _ σ' hr hcl
            rw [r1] at r3
            cases r3
            exact r4
    · intro hl hfit
      obtain ⟨addr, σ', x, bl, rest, rows, l1, l2, l3, -, l5, ts, l6, l7, l8⟩ := hlist s hA hl hfit
      obtain ⟨⟨more, m1⟩, m2⟩ := last_from ha hfin
      refine ⟨addr, σ', x, bl, rest, rows, l1, l2, l3, ?_⟩
      obtain ⟨closed, last, gap, hS⟩ := (laid_last fuel o env src).1.sheets
      rw [m2, l5] at hS
      refine ⟨closed, last, gap, ts, more.reverse, by rw [hout]; exact hS.list, ?_, l7, l8⟩
      rw [hS.lines, m1, l6, List.reverse_append, List.reverse_reverse]
  · refine .failure (fun hx => he ((hexact s ha).2 hx)) (t3 he) ?_
    rw [hf]
    cases hsc : o.scode with
    | none => rw [if_neg (by simp), if_neg (by simp)]; exact hnone hsc
    | some x => rw [if_pos ⟨he, rfl⟩]; rfl

/-- **C52.**  Take a program for the 6500, 6502 or 65C02 in a file.  If crasm, called with this file and any options, comes to its
    end, then all that can be observed is decided by the semantics of the program.  Either the program stands for bytes: then no
    errors are reported, the code file asked for holds these bytes at their addresses, and a listing asked for shows every line with
    its bytes.  Or it stands for nothing: then this is reported and no code file is left. -/
theorem C52_6502 {c : _root_.Spec.M6502.Chip} {fuel : Nat} {o : Opts} {env : Env} {src nm out : Str} {file : CodeFile} {p : Lines (_root_.Spec.M6502.full c)}
    (hs : env.fs nm = some src) (hw : Source (_root_.Spec.M6502.full c) c.name src p) (ht : Spec.Tame src) (hp : Proper p)
    (h : crasm fuel env o nm = .exit 0 out file) : Outcome _ o src p out file :=
  outcome hs h (fun _ ha => C45.C45_exact ⟨hw, ht, hp, ha⟩) (fun _ hA => C42.C42_program ⟨hw, ht, hp, hA⟩)
    (fun _ _ hA hf _ _ _ hr hc => C42.C42_code_file ⟨hw, ht, hp, hA⟩ hf hr hc)
    (fun _ hA hl hfit => C51.program_listed (C42.machine c) (C51.coded6502 c) (C42.chosen6502 c) (fun _ => ⟨rfl, rfl, rfl⟩) (C42.cpuOf6502 c) (C42.mild6502 c) hA hw ht hp hl hfit)

/-- The same for the 6800, 6801 and 6803. -/
theorem C52_6800 {c : _root_.Spec.M6800.Chip} {cpu : Str} {fuel : Nat} {o : Opts} {env : Env} {src nm out : Str} {file : CodeFile} {p : Lines (_root_.Spec.M6800.full c)}
    (hn : _root_.Spec.M6800.Named c cpu) (hs : env.fs nm = some src) (hw : Source (_root_.Spec.M6800.full c) cpu src p) (ht : Spec.Tame src) (hp : Proper p)
    (h : crasm fuel env o nm = .exit 0 out file) : Outcome _ o src p out file :=
  outcome hs h (fun _ ha => C46.C46_exact ⟨hn, hw, ht, hp, ha⟩) (fun _ hA => C43.C43_program ⟨hn, hw, ht, hp, hA⟩)
    (fun _ _ hA hf _ _ _ hr hc => C43.C43_code_file ⟨hn, hw, ht, hp, hA⟩ hf hr hc)
    (fun _ hA hl hfit => by
      obtain ⟨n, h1, h2, h3⟩ := C43.named hn
      exact C51.program_listed (C43.machine c) (C51.coded6800 c) (C43.chosen h1) (fun _ => ⟨rfl, rfl, rfl⟩) h2 h3 hA hw ht hp hl hfit)

/-- The same for the Z80. -/
theorem C52_Z80 {fuel : Nat} {o : Opts} {env : Env} {src nm out : Str} {file : CodeFile} {p : Lines _root_.Spec.Z80.full}
    (hs : env.fs nm = some src) (hw : Source _root_.Spec.Z80.full c!"Z80" src p) (ht : Spec.Tame src) (hp : Proper p)
    (h : crasm fuel env o nm = .exit 0 out file) : Outcome _ o src p out file :=
  outcome hs h (fun _ ha => C47.C47_exact ⟨hw, ht, hp, ha⟩) (fun _ hA => C44.C44_program ⟨hw, ht, hp, hA⟩)
    (fun _ _ hA hf _ _ _ hr hc => C44.C44_code_file ⟨hw, ht, hp, hA⟩ hf hr hc)
    (fun _ hA hl hfit => C51.program_listed C44.machine C51.codedZ80 C44.chosen (fun _ => ⟨rfl, rfl, rfl⟩) C44.named.1 C44.named.2 hA hw ht hp hl hfit)

/-! ### Non-vacuity -/

def smallEnv : Env := { fs := fun n => if n = c!"small.asm" then some C42.small else none }

/-- The code file left by a run. -/
def codeOfRun : Run → Option Str
  | .exit 0 _ (.written f) => some f
  | _ => none

theorem exits_of {r : Run} {f : Str} (h : codeOfRun r = some f) : ∃ out, r = .exit 0 out (.written f) := by
  unfold codeOfRun at h
  split at h
  · cases h; exact ⟨_, rfl⟩
  · cases h

/-- A run with a code file and a listing. -/
theorem small_exits : codeOfRun (crasm 60 smallEnv { list := true, scode := some c!"o" } c!"small.asm") = some c!"S10700C0ADC30005C3\nS9030000FC\n" := by decide +kernel

example : ∃ out file, crasm 60 smallEnv { list := true, scode := some c!"o" } c!"small.asm" = .exit 0 out file ∧
    Outcome (_root_.Spec.M6502.full .m6502) { list := true, scode := some c!"o" } C42.small C42.smallLines out file := by
  obtain ⟨out, h⟩ := exits_of small_exits
  exact ⟨out, _, h, C52_6502 rfl C42.small_written C42.small_tame C42.small_proper h⟩

/-- A run in which a branch does not reach its target: the code file is removed. -/
def farEnv : Env := { fs := fun n => if n = c!"far.asm" then some C45.far else none }
def lostRun : Run → Bool
  | .exit 0 _ .removed => true
  | _ => false
theorem lost_of {r : Run} (h : lostRun r = true) : ∃ out, r = .exit 0 out .removed := by
  unfold lostRun at h
  split at h
  · exact ⟨_, rfl⟩
  · cases h
theorem far_exits : lostRun (crasm 60 farEnv { list := true, scode := some c!"o" } c!"far.asm") = true := by decide +kernel

example : ∃ out file, crasm 60 farEnv { list := true, scode := some c!"o" } c!"far.asm" = .exit 0 out file ∧
    Outcome (_root_.Spec.M6502.full .m6502) { list := true, scode := some c!"o" } C45.far C45.farLines out file := by
  obtain ⟨out, h⟩ := lost_of far_exits
  exact ⟨out, _, h, C52_6502 rfl C45.far_written C45.far_tame C45.far_proper h⟩

end Crasm.C52

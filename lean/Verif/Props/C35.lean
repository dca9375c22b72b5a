import Verif.Proof.Whole
import Verif.Props.C34

/-! C35: the options -l, -s, -x change the listing, not the code. -/

namespace Crasm

/-- Two runs on the same input, with the same output name and any listing options, that both complete (exit
    status 0) leave the same code file behind (or none, or none any more), and print the same number of errors.
    The fuel is that of the model and of no importance. -/
theorem C35_listing_options (f f' : Nat) (env : Env) (o o' : Opts) (name out out' : Str) (file file' : CodeFile)
    (ho : o.scode = o'.scode) (h : crasm f env o name = .exit 0 out file)
    (h' : crasm f' env o' name = .exit 0 out' file') :
    file = file' ∧ ∃ n, (c!"ERRORS:    " ++ padLeft 4 (digits n) ++ ['\n']) <:+: out ∧
      (c!"ERRORS:    " ++ padLeft 4 (digits n) ++ ['\n']) <:+: out' := by
  have h1 : crasm (max f f') env o name = .exit 0 out file := by
    rw [← h]; exact crasm_fuel (Nat.le_max_left _ _) (by rw [h]; simp)
  have h2 : crasm (max f f') env o' name = .exit 0 out' file' := by
    rw [← h']; exact crasm_fuel (Nat.le_max_right _ _) (by rw [h']; simp)
  obtain ⟨src, hs, h1⟩ := crasm_exit0 h1
  obtain ⟨src', hs', h2⟩ := crasm_exit0 h2
  rw [hs] at hs'; cases hs'
  obtain ⟨s1, a1, e1, t1, -, -⟩ := finish_exit0 (inv_initSt env src) rfl h1
  obtain ⟨s2, a2, e2, t2, -, -⟩ := finish_exit0 (inv_initSt env src) rfl h2
  obtain ⟨c, e, -, -⟩ := assemble_agree (inv_initSt env src) rfl ho a1 a2
  refine ⟨?_, s1.errnumber, t1, by rw [e]; exact t2⟩
  rw [e1, e2, e, ho]
  unfold fileOf
  rw [c]

/-- The same inside the assembler, where nothing about the printing of the summary intervenes: equal code
    buffers, error counts, symbol tables, and the same bytes, errors and lines in the same order. -/
theorem C35_same_history (f : Nat) (env : Env) (src : Str) (o o' : Opts) (s s' : St) (ho : o.scode = o'.scode)
    (h : assemble f o (initSt env src) = .ok () s) (h' : assemble f o' (initSt env src) = .ok () s') :
    s.code = s'.code ∧ s.errnumber = s'.errnumber ∧ s.tree = s'.tree ∧ s.log = s'.log :=
  assemble_agree (inv_initSt env src) rfl ho h h'

/-- Listing directives, a warning and a macro; with and without listing. -/
def listedText : Str :=
  c!" cpu 6502\n *= $100\nm MACRO\n lda #\\1\n ENDM\n mlist on\n page 60,80\n m 3\n list off\n db 400\n list on\n db 1\n"
def listed : Env := { fs := fun n => if n = c!"a" then some listedText else none }
def fileOfRun : Run → Option CodeFile
  | .exit 0 _ f => some f
  | _ => none
example : (fileOfRun (crasm 60 listed { scode := some c!"o" } c!"a"),
    fileOfRun (crasm 60 listed { scode := some c!"o", list := false, warn := false, xref := true } c!"a")) =
    (some (.written c!"S1070100A9039001BA\nS9030000FC\n"), some (.written c!"S1070100A9039001BA\nS9030000FC\n")) := by
  decide +kernel

end Crasm

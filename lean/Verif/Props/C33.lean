import Verif.Proof.Whole
import Verif.Props.C34

/-! C33: no code file survives a failed assembly. -/

namespace Crasm

/-- A run that completes (exit status 0) with an output name: if error() was called in pass 2 the file is removed
    and the summary says that no code was generated; otherwise the file is left as the assembly wrote it, and the
    summary announces success. `errorsIn 2` counts the calls of error() in pass 2. -/
theorem C33_failed_assembly (f : Nat) (env : Env) (o : Opts) (name out outname : Str) (file : CodeFile)
    (ho : o.scode = some outname) (h : crasm f env o name = .exit 0 out file) :
    ∃ src s, env.fs name = some src ∧ assemble f o (initSt env src) = .ok () s ∧
      (0 < errorsIn 2 s.log → file = .removed ∧ c!"No code generated...\n" <:+: out) ∧
      (errorsIn 2 s.log = 0 → file = fileOf s ∧ file ≠ .removed ∧ c!"Successful assembly...\n" <:+: out) := by
  obtain ⟨src, hs, h⟩ := crasm_exit0 h
  obtain ⟨s, ha, hf, -, t2, t3⟩ := finish_exit0 (inv_initSt env src) rfl h
  have he := (C34_error_count f o env src s ha).1
  refine ⟨src, s, hs, ha, fun hp => ⟨?_, t3 (by omega)⟩, fun hz => ?_⟩
  · rw [hf, if_pos ⟨by omega, by rw [ho]; rfl⟩]
  · have hn : ¬ (s.errnumber ≠ 0 ∧ o.scode.isSome) := fun h => h.1 (by omega)
    rw [if_neg hn] at hf
    refine ⟨hf, ?_, t2 (by omega)⟩
    rw [hf]
    unfold fileOf
    split <;> simp

/-- Without output name, nothing is removed. -/
theorem C33_no_output_name (f : Nat) (env : Env) (o : Opts) (name out : Str) (file : CodeFile)
    (ho : o.scode = none) (h : crasm f env o name = .exit 0 out file) : file ≠ .removed := by
  obtain ⟨src, hs, h⟩ := crasm_exit0 h
  obtain ⟨s, ha, hf, -, -, -⟩ := finish_exit0 (inv_initSt env src) rfl h
  rw [if_neg (by simp [ho])] at hf
  rw [hf]
  unfold fileOf
  split <;> simp

def goodBad : Env := { fs := fun n =>
  if n = c!"good" then some c!" cpu 6502\n *= $100\n db 1\n"
  else if n = c!"bad" then some c!" cpu 6502\n *= $100\n db 1\n foo\n" else none }
def fileOfRun0 : Run → Option CodeFile
  | .exit 0 _ f => some f
  | _ => none
example : fileOfRun0 (crasm 60 goodBad { scode := some c!"o", list := false } c!"good") =
    some (.written c!"S104010001F9\nS9030000FC\n") := by decide +kernel
example : fileOfRun0 (crasm 60 goodBad { scode := some c!"o", list := false } c!"bad") = some .removed := by
  decide +kernel

end Crasm

import Verif.Proof.Order
import Verif.Props.C34

/-! C38: the cross-reference is sorted and complete. -/

namespace Crasm

/-- After a run that gets to its end, the symbols visited by `xref` (those of `tree.toList`, in that order) have
    strictly increasing names (by character codes), and are precisely the symbols that a lookup finds. -/
theorem C38_sorted_complete (fuel : Nat) (o : Opts) (env : Env) (src : Str) (s : St)
    (h : assemble fuel o (initSt env src) = .ok () s) :
    (s.tree.toList.map (·.1)).Pairwise (· < ·) ∧
    ∀ k l, (k, l) ∈ s.tree.toList ↔ s.tree.find k = some l := by
  obtain ⟨sC, hr, rfl⟩ := assemble_ok h
  have := ordered_reach hr
  exact ⟨Tree.toList_sorted _ this, Tree.mem_toList _ this⟩

/-- No symbol is visited twice. -/
theorem C38_once (fuel : Nat) (o : Opts) (env : Env) (src : Str) (s : St)
    (h : assemble fuel o (initSt env src) = .ok () s) : (s.tree.toList.map (·.1)).Nodup :=
  (C38_sorted_complete fuel o env src s h).1.imp fun h => by
    rintro rfl
    exact List.lt_irrefl _ h

/-- The list is printed from the tree left by the passes: neither `result` nor the page feed before the list
    changes it. -/
theorem C38_printed_from_tree (s s1 s2 : St) (h1 : result s = .ok () s1) (h2 : outputEOP s1 = .ok () s2) :
    xref s1 = (do printlabels s.tree.toList; outputEOL; outputEOP) s2 := by
  have e1 := (inferInstance : Quiet result).run s
  rw [h1] at e1
  have e2 := (inferInstance : Quiet outputEOP).run s1
  rw [h2] at e2
  unfold xref
  rw [bind_run, h2]
  simp only [getS_bind_run, SameBut.tree e2, SameBut.tree e1]

/-- Printing a list of symbols calls `printlabel` for each of them, in order. -/
theorem C38_each (ls : List (Str × Label)) :
    printlabels ls = ls.foldr (fun x (m : M Unit) => do printlabel x.1 x.2; m) (pure ()) := by
  induction ls with
  | nil => rfl
  | cons x ls ih => rw [List.foldr_cons, ← ih]; rfl

/-- When the list is printed: with -x always, otherwise if there were no errors and the listing was not switched off
    with -l. `s1` is the state after the summary; what is printed last is the list, or else nothing more. -/
theorem C38_when (f : Nat) (env : Env) (o : Opts) (name out : Str) (file : CodeFile)
    (h : crasm f env o name = .exit 0 out file) :
    ∃ src s s1, env.fs name = some src ∧ assemble f o (initSt env src) = .ok () s ∧ result s = .ok () s1 ∧
      ((o.xref = true ∨ (errorsIn 2 s.log = 0 ∧ o.list = true)) → ∃ s2, xref s1 = .ok () s2 ∧ out = stdoutOf s2) ∧
      (¬ (o.xref = true ∨ (errorsIn 2 s.log = 0 ∧ o.list = true)) → out = stdoutOf s1) := by
  obtain ⟨src, hs, h⟩ := crasm_exit0 h
  unfold finish at h
  cases ha : assemble f o (initSt env src) with
  | err s => rw [ha] at h; cases h
  | stop w s => rw [ha] at h; cases w <;> cases h
  | ok u s =>
    have he := (C34_error_count f o env src s ha).1
    rw [ha] at h
    simp only at h
    cases hr : result s with
    | err s => rw [hr] at h; cases h
    | stop w s => rw [hr] at h; cases w <;> cases h
    | ok u s1 =>
      rw [hr] at h
      simp only at h
      refine ⟨src, s, s1, hs, ha, hr, fun hc => ?_, fun hc => ?_⟩
      · rw [if_pos (by rcases hc with hc | ⟨hc, hd⟩ <;> simp_all)] at h
        cases hx : xref s1 with
        | err s => rw [hx] at h; cases h
        | stop w s => rw [hx] at h; cases w <;> cases h
        | ok u s2 =>
          rw [hx] at h
          cases h
          exact ⟨s2, rfl, rfl⟩
      · rw [if_neg (by rw [he]; simpa using hc)] at h
        cases h
        rfl

/-- Labels entered in descending order with a forward reference in between. -/
def someSymbols : Str := c!" cpu 6502\n *= $100\nzz lda b\nmm nop\nb nop\n"
example : (match assemble 60 {} (initSt { fs := fun _ => none } someSymbols) with
    | .ok _ s => ((s.tree.toList.map (·.1)).filter fun k => k ∈ [c!"ZZ", c!"B", c!"MM", c!"LDA", c!"EQU"])
    | _ => []) = [c!"B", c!"EQU", c!"LDA", c!"MM", c!"ZZ"] := by decide +kernel

/-- With errors the list is printed on demand only. -/
example : (match crasm 60 { fs := fun _ => some c!"lab foo 1\n" } { list := false } c!"a",
      crasm 60 { fs := fun _ => some c!"lab foo 1\n" } { list := false, xref := true } c!"a" with
    | .exit 0 out _, .exit 0 out' _ => decide (out.length < out'.length)
    | _, _ => false) = true := by decide +kernel

end Crasm

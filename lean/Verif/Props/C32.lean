import Verif.Proof.Ends

/-! C32: assembly terminates. -/

namespace Crasm

namespace C32

instance : Tame undeflabels := Tame.modS _
instance (n : Nat) : Tame (passInit n) := by unfold passInit; tame
instance (t : Str) : Tame (resultLine t) := by unfold resultLine; tame
instance : Tame result := by unfold result; tame
instance (k : Str) (l : Label) : Tame (printlabel k l) := by unfold printlabel; tame
instance tame_printlabels (ls : List (Str × Label)) : Tame (printlabels ls) := by
  induction ls with
  | nil => unfold printlabels; tame
  | cons x ls ih => obtain ⟨k, l⟩ := x; unfold printlabels; tame
instance : Tame xref := by unfold xref; tame

/-- What is known of the two passes: they do not run out of fuel, and where they hang a line with a minus sign was
    read. -/
def AsmEnd : Res Unit → Prop
  | .stop w s' => w ≠ .fuel ∧ (w = .hang → Minus s')
  | _ => True

/-- A pass, from any state a pass can start in. -/
theorem pass_ends {s : St} (hs : s.stack.length ≤ 9) (i : Nat) :
    ∃ N r, (∀ fuel, N ≤ fuel → pass fuel i s = r) ∧ PassEnd r := by
  have hf : Fit (passStart i s) := ⟨hs, fun h => by cases h⟩
  obtain ⟨N, r, h1, h2⟩ := passes_all _ hf true
  refine ⟨N, r, fun fuel h => ?_, h2⟩
  unfold pass
  rw [bind_run, passInit_run]
  exact h1 fuel fuel h h

/-- The passes, one after the other. -/
theorem assemble_ends (o : Opts) {s0 : St} (hf : Fit s0) :
    ∃ N r, (∀ fuel, N ≤ fuel → assemble fuel o s0 = r) ∧ AsmEnd r := by
  have ht := (inferInstance : Tame (initLabelList .pseudos pseudos)).run s0
  have hb := (inferInstance : B Mv (initLabelList .pseudos pseudos)).run s0
  unfold assemble
  cases e : initLabelList .pseudos pseudos s0 with
  | ok u sA =>
    rw [e] at hb
    obtain ⟨N, r, h1, h2⟩ := pass_ends (hb.1 hf).1 1
    cases r with
    | ok u sB =>
      obtain ⟨N', r', h3, h4⟩ := pass_ends (s := betweenPasses o sB) h2.1 2
      refine ⟨max N N', assemble (max N N') o s0, fun fuel h => ?_, ?_⟩
      · unfold assemble
        rw [bind_run, e, bind_run, e]
        show (pass fuel 1 >>= _) sA = (pass (max N N') 1 >>= _) sA
        rw [bind_run, h1 fuel (by omega), bind_run, h1 _ (by omega)]
        show (pass fuel 2 >>= _) (betweenPasses o sB) = (pass (max N N') 2 >>= _) (betweenPasses o sB)
        rw [bind_run, h3 fuel (by omega), bind_run, h3 _ (by omega)]
      · have : AsmEnd ((pass (max N N') 2 >>= fun _ => (modS fun s =>
            if s.code.file.isSome then { s with code := s.code.close s.flags.codeHex } else s) >>= fun _ =>
            modFlags fun f => { f with listOn := true }) (betweenPasses o sB)) := by
          rw [bind_run, h3 _ (by omega)]
          cases r' with
          | ok u sC => trivial
          | err sC => trivial
          | stop w sC => exact h4
        unfold assemble
        rw [bind_run, e]
        show AsmEnd ((pass (max N N') 1 >>= _) sA)
        rw [bind_run, h1 _ (by omega)]
        exact this
    | err sB => exact h2.elim
    | stop w sB =>
      refine ⟨N, .stop w sB, fun fuel h => ?_, h2⟩
      rw [bind_run, e]
      show (pass fuel 1 >>= _) sA = _
      rw [bind_run, h1 fuel h]
  | err sA => exact ⟨0, .err sA, fun fuel _ => by rw [bind_run, e], trivial⟩
  | stop w sA =>
    rw [e] at ht
    exact ⟨0, .stop w sA, fun fuel _ => by rw [bind_run, e], ht.1, fun h => absurd (ht.2 h) (by simp)⟩

theorem tame_stop {m : M α} [h : Tame m] {s s' : St} {w : Stop} (e : m s = .stop w s') : w ≠ .fuel ∧ w ≠ .hang := by
  have := h.run s
  rw [e] at this
  exact ⟨this.1, fun h => absurd (this.2 h) (by simp)⟩

theorem index_from {v : Word} (f i k : Nat) (h : regIndexFrom v f i = some k) :
    v = (BitVec.ofNat 32 (2 ^ k)).signExtend 64 ∧ k < i + f := by
  induction f generalizing i with
  | zero => cases h
  | succ f ih =>
    unfold regIndexFrom at h
    split at h
    · rename_i e
      cases h
      exact ⟨e.symm, by omega⟩
    · have := ih _ h
      exact ⟨this.1, by omega⟩
theorem index_spec {v : Word} {k : Nat} (h : regIndex v = some k) :
    v = (BitVec.ofNat 32 (2 ^ k)).signExtend 64 ∧ k < 32 := by
  have := index_from _ _ _ h
  simpa using this

end C32

open C32

/-- **C32.** Every run comes to an end: with enough fuel the outcome is always the same one, and it is not "out of
    fuel". The loops of the model without fuel of their own are structural recursions over texts and tables. What is
    left is an exit, undefined behaviour, or the loop of operator.c:344 (see `C32_hang`). -/
theorem C32 (env : Env) (o : Opts) (name : Str) :
    ∃ r, r ≠ Run.fuel ∧ ∃ N, ∀ fuel, N ≤ fuel → crasm fuel env o name = r := by
  unfold crasm
  cases env.fs name with
  | none => exact ⟨_, by simp, 0, fun _ _ => rfl⟩
  | some src =>
    obtain ⟨N, r, h1, h2⟩ := assemble_ends o (s0 := initSt env src) ⟨Nat.zero_le _, fun h => by cases h⟩
    refine ⟨finish N o (initSt env src), ?_, N, fun fuel h => ?_⟩
    · unfold finish
      rw [h1 N (Nat.le_refl _)]
      cases r with
      | err s1 => simp
      | stop w s1 => cases w <;> first | exact absurd rfl h2.1 | simp
      | ok u s1 =>
        simp only
        cases e : result s1 with
        | err s2 => simp
        | stop w s2 => have := (tame_stop e).1; cases w <;> first | exact absurd rfl this | simp
        | ok u s2 =>
          simp only
          split
          · cases e3 : xref s2 with
            | err s3 => simp
            | stop w s3 => have := (tame_stop e3).1; cases w <;> first | exact absurd rfl this | simp
            | ok u s3 => simp
          · simp
    · show finish fuel o _ = _
      unfold finish
      rw [h1 fuel h, h1 N (Nat.le_refl _)]

/-- **C32**, the exception. A run hangs only in one of the passes, and only after a line with a minus sign has been
    read ... -/
theorem C32_hang {fuel : Nat} {env : Env} {o : Opts} {name : Str} (h : crasm fuel env o name = .hang) :
    ∃ src s, env.fs name = some src ∧ assemble fuel o (initSt env src) = .stop .hang s ∧
      ∃ p d line, .line p d line ∈ s.log ∧ '-' ∈ line := by
  unfold crasm at h
  cases hs : env.fs name with
  | none => rw [hs] at h; cases h
  | some src =>
    rw [hs] at h
    have h : finish fuel o (initSt env src) = .hang := h
    obtain ⟨N, r, h1, h2⟩ := assemble_ends o (s0 := initSt env src) ⟨Nat.zero_le _, fun h => by cases h⟩
    have hf : finish fuel o (initSt env src) ≠ .fuel := by rw [h]; simp
    have hle := le_assemble (Nat.le_max_left fuel N) o (initSt env src)
    rw [h1 _ (Nat.le_max_right fuel N)] at hle
    refine ⟨src, ?_⟩
    unfold finish at h
    cases e : assemble fuel o (initSt env src) with
    | err s1 => rw [e] at h; cases h
    | stop w s1 =>
      rw [e] at h hle
      have hw : w = .hang := by cases w <;> first | rfl | cases h
      subst hw
      rcases hle with h' | h'
      · exact h'.elim
      · subst h'
        exact ⟨s1, rfl, rfl, h2.2 rfl⟩
    | ok u s1 =>
      rw [e] at h
      simp only at h
      cases e : result s1 with
      | err s2 => rw [e] at h; cases h
      | stop w s2 => rw [e] at h; have := (tame_stop e).2; cases w <;> first | exact absurd rfl this | cases h
      | ok u s2 =>
        rw [e] at h
        simp only at h
        split at h
        · cases e3 : xref s2 with
          | err s3 => rw [e3] at h; cases h
          | stop w s3 => rw [e3] at h; have := (tame_stop e3).2; cases w <;> first | exact absurd rfl this | cases h
          | ok u s3 => rw [e3] at h; cases h
        · cases h

/-- ... and the only operator that does not come to an end is the subtraction of a register from a register, neither
    of them a list. -/
theorem C32_operator {op : Op2} {p a : Result} (h : applyOp2 op p a = .hang) :
    op = .sub ∧ p.type = .regs ∧ a.type = .regs ∧
      ∃ lo hi, lo ≤ hi ∧ hi < 32 ∧ p.value = (BitVec.ofNat 32 (2 ^ lo)).signExtend 64 ∧
        a.value = (BitVec.ofNat 32 (2 ^ hi)).signExtend 64 := by
  obtain rfl := applyOp2_hang h
  have ho : ∀ r v, ofOpt r v ≠ .hang := by intro r v; cases v <;> simp [ofOpt]
  unfold applyOp2 at h
  simp only at h
  split at h
  · exact absurd h (ho _ _)
  · split at h
    · exact absurd h (ho _ _)
    · split at h
      · rename_i ht
        refine ⟨rfl, ht.1, ht.2, ?_⟩
        unfold regRange at h
        simp only at h
        cases h1 : regIndex p.value with
        | none => rw [h1] at h; cases h
        | some lo =>
          cases h2 : regIndex a.value with
          | none => rw [h1, h2] at h; cases h
          | some hi =>
            rw [h1, h2] at h
            simp only at h
            split at h
            · cases h
            · rename_i hlt
              obtain ⟨e1, -⟩ := index_spec h1
              obtain ⟨e2, b2⟩ := index_spec h2
              exact ⟨lo, hi, by omega, b2, e1, e2⟩
      · cases h

/-- The exception exists: a range of registers, and the run never ends. -/
theorem C32_false : ∃ src : Str, ∀ fuel, 60 ≤ fuel →
    crasm fuel { fs := fun _ => some src } {} c!"x" = .hang := by
  refine ⟨c!" cpu 6502\n db x-y\n", fun fuel h => ?_⟩
  have h1 : crasm 60 { fs := fun _ => some c!" cpu 6502\n db x-y\n" } {} c!"x" = .hang := by decide +kernel
  rw [crasm_fuel h (by rw [h1]; simp)]
  exact h1

/-- The loop `while (ppos) outputEOL();` of output.c:143 ends too: the rounds the model makes are enough. -/
theorem C32_page {s : St} (hl : s.flags.listOn = true) (hp : s.lst.plen ≠ 0) :
    ∃ s', outputEOP s = .ok () s' ∧ s'.lst.ppos = 0 := by
  unfold outputEOP
  rw [getS_bind_run, if_pos hl, if_pos hp]
  have key : ∀ n, 1 ≤ n → ∀ s : St, s.flags.listOn = true → s.lst.plen ≠ 0 → s.lst.plen ≤ s.lst.ppos + n →
      ∃ s', eolLoop n s = .ok () s' ∧ s'.lst.ppos = 0 := by
    intro n
    induction n with
    | zero => intro h; omega
    | succ n ih =>
      intro _ s hl hp hle
      by_cases h0 : s.lst.ppos = 0
      · exact ⟨s, by unfold eolLoop; rw [getS_bind_run, if_pos h0]; rfl, h0⟩
      · have step : ∃ s1, outputEOL s = .ok () s1 ∧ s1.flags = s.flags ∧ s1.lst.plen = s.lst.plen ∧
            (s1.lst.ppos = 0 ∨ (s1.lst.ppos = s.lst.ppos + 1 ∧ s.lst.ppos + 3 < s.lst.plen)) := by
          unfold outputEOL outputraw
          rw [getS_bind_run, bind_run, getS_bind_run, if_pos hl]
          refine ⟨_, rfl, rfl, ?_, ?_⟩
          · simp only [if_neg h0]
            split <;> rfl
          · simp only [if_neg h0]
            split
            · exact .inl rfl
            · rename_i hc
              refine .inr ⟨rfl, ?_⟩
              omega
        obtain ⟨s1, e1, e2, e3, e4⟩ := step
        have run : eolLoop (n + 1) s = eolLoop n s1 := by
          rw [eolLoop, getS_bind_run, if_neg h0, bind_run, e1]
        rw [run]
        rcases e4 with e4 | ⟨e4, e5⟩
        · cases n with
          | zero => exact ⟨s1, rfl, e4⟩
          | succ n => exact ⟨s1, by unfold eolLoop; rw [getS_bind_run, if_pos e4]; rfl, e4⟩
        · exact ih (by omega) s1 (by rw [e2]; exact hl) (by rw [e3]; exact hp) (by rw [e3]; omega)
  exact key _ (by omega) s hl hp (by omega)

/-! ### Examples -/

/-- A file that includes itself and a macro that calls itself end with a fatal error. -/
example : crasm 60 { fs := fun _ => some c!" include x\n" } {} c!"x" =
    .exit 10 c!"FATAL ERROR: too many nested INCLUDEs and MACROs\n" .untouched := by decide +kernel
example : crasm 60 { fs := fun _ => some c!"m macro\n m\n endm\n m\n" } {} c!"x" =
    .exit 10 c!"FATAL ERROR: too many nested INCLUDEs and MACROs\n" .untouched := by decide +kernel

/-- A conditional that is never closed ends at the end of the source. -/
example : (match crasm 60 { fs := fun _ => some c!" if 1\n if 0\n" } { list := false } c!"x" with
    | .exit 0 _ _ => true
    | _ => false) = true := by decide +kernel

/-- A difference of numbers does not hang. -/
example : (match crasm 60 { fs := fun _ => some c!" cpu 6502\n* = 5-1\n db 7-4\n" } { list := false } c!"x" with
    | .exit 0 _ _ => true
    | _ => false) = true := by decide +kernel

end Crasm

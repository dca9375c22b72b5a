import Verif.Proof.Meek
import Verif.Props.C03

/-!
# C48: what crasm calls and indexes is always there

A statement is executed by a call through a pointer kept in the symbol table, where EQU may put copies of any entry
under new names. Undefined behaviour of the program is an outcome of the model (`Run.ub`) together with its cause.
Three causes never occur, whatever the source, the options and the files: a call through something that is no
function, the use of a label that was not given, and an index outside the opcode table of the 6502. All others do
occur, each with a program of a few lines.
-/

namespace Crasm

theorem Fine.ne {u : UB} (h : Fine (.ub u)) : u ≠ .nullHandler ∧ u ≠ .nullLabel ∧ u ≠ .tableIndex := by
  revert h; cases u <;> simp [Fine, wild]

/-- The symbol table is good in every state of a run. -/
theorem good_reach {o : Opts} {env : Env} {src : Str} {n : Nat} {c : Cfg} (h : Reach o (initSt env src) n c) :
    GoodTree c.1.tree :=
  h.inv (P := fun _ c => GoodTree c.1.tree) (fun k l hl => by simp [initSt, Tree.find] at hl)
    (fun n a b hs ha => good_step hs ha) (fun s ha => passStart_good ha)
    (fun s ha => passStart_good fun k l hl => by
        simp only [betweenPasses, Tree.find_map] at hl
        cases hf : s.tree.find k with
        | none => rw [hf] at hl; cases hl
        | some x =>
          rw [hf] at hl
          cases hl
          exact ha k x hf)

/-- **C48** (the vocabulary). In every state of a run, a name that stands for a mnemonic, whether it was put into the
    symbol table by CPU or defined by EQU, has the function and the argument of one of the mnemonics of the static
    tables, and asks for a label exactly if that mnemonic does. -/
theorem C48_vocabulary {o : Opts} {env : Env} {src : Str} {n : Nat} {c : Cfg} (h : Reach o (initSt env src) n c)
    {k : Str} {l : Label} (hl : c.1.tree.find k = some l) (ht : l.type = .mnemo) :
    ∃ t, ∃ e ∈ tableOf t, e.label.type = .mnemo ∧ (∃ f, e.label.ptr = .handler f ∧ l.ptr = .handler f) ∧
      l.modifier = e.label.modifier ∧ l.flags.deflabel = e.label.flags.deflabel := by
  have hg := (good_reach h k l hl).2 ht
  obtain ⟨x, hx, -⟩ := listed_apt hg
  obtain ⟨t, e, he, h1, h2, h3, h4⟩ := hg
  exact ⟨t, e, he, h1, ⟨x, h2.trans hx, hx⟩, h3.symm, h4.symm⟩

theorem assemble_fine {fuel : Nat} {o : Opts} {env : Env} {src : Str} {w : Stop} {s : St}
    (h : assemble fuel o (initSt env src) = .stop w s) : Fine w := by
  have passes : ∀ n s, GoodTree s.tree → ∀ w s', pass fuel n s = .stop w s' → Fine w := by
    intro n s hs w s' h
    unfold pass at h
    rw [bind_run, passInit_run] at h
    exact okay_passLoop fuel fuel true _ (passStart_good hs) w s' h
  have good : ∀ n c, Reach o (initSt env src) n c → GoodTree c.1.tree := fun _ _ => good_reach
  generalize initSt env src = s0 at h good
  unfold assemble at h
  have hi := (inferInstance : Meek (initLabelList .pseudos pseudos)).run s0
  have hp := init_out s0
  rw [bind_run] at h
  revert h hi hp
  generalize initLabelList .pseudos pseudos s0 = r0
  cases r0 with
  | stop w1 s1 => intro h hi _; cases h; exact hi _ _ rfl
  | err s1 => intro h; cases h
  | ok u sA =>
  intro h _ hp
  have rA : Reach o s0 0 (sA, .live) := .init hp
  have h1 := passes 1 sA (good _ _ rA)
  dsimp only at h
  rw [bind_run] at h
  revert h h1
  cases hB : pass fuel 1 sA with
  | stop w1 s1 => intro h h1; cases h; exact h1 _ _ rfl
  | err s1 => intro h; cases h
  | ok u sB =>
    intro h _
    have rB : Reach o s0 1 (sB, .live) := .pass1 rA (walk_pass hB)
    have gB : GoodTree (betweenPasses o sB).tree := by
      intro k l hl
      simp only [betweenPasses, Tree.find_map] at hl
      cases hf : sB.tree.find k with
      | none => rw [hf] at hl; cases hl
      | some x => rw [hf] at hl; cases hl; exact good _ _ rB k x hf
    have h2 := passes 2 (betweenPasses o sB) gB
    change (pass fuel 2 >>= _) (betweenPasses o sB) = _ at h
    rw [bind_run] at h
    revert h h2
    cases pass fuel 2 (betweenPasses o sB) with
    | stop w1 s1 => intro h1 h; cases h; exact h1 _ _ rfl
    | err s1 => intro _ h; cases h
    | ok u sC => intro _ h; cases h

/-- **C48** (a run). Whatever the command line, the files and the source: a run of crasm never calls through something
    that is no function, never uses a label that was not given, and never leaves its opcode table. -/
theorem C48_confined {fuel : Nat} {env : Env} {args : List Str} {u : UB} (h : mainC fuel env args = .ub u) :
    u ≠ .nullHandler ∧ u ≠ .nullLabel ∧ u ≠ .tableIndex := by
  refine Fine.ne ?_
  have fin : ∀ o src, finish fuel o (initSt env src) = .ub u → Fine (.ub u) := by
    intro o src h
    unfold finish at h
    revert h
    cases hA : assemble fuel o (initSt env src) with
    | stop w s => cases w <;> (intro h; cases h); exact assemble_fine hA
    | err s => exact absurd hA (assemble_not_err _ _)
    | ok _ s1 =>
      dsimp only
      have hr := (inferInstance : Meek result).run s1
      have hn := (Quiet.noErr (m := result) inferInstance) s1
      revert hr hn
      cases result s1 with
      | stop w s => intro hr _; cases w <;> (intro h; cases h); exact hr _ _ rfl
      | err s => intro _ hn; exact absurd rfl (hn s)
      | ok _ s2 =>
        intro _ _
        dsimp only
        split
        · have hr := (inferInstance : Meek xref).run s2
          have hn := (Quiet.noErr (m := xref) inferInstance) s2
          revert hr hn
          cases xref s2 with
          | stop w s => intro hr _; cases w <;> (intro h; cases h); exact hr _ _ rfl
          | err s => intro _ hn; exact absurd rfl (hn s)
          | ok _ s3 => intro _ _ h; cases h
        · intro h; cases h
  unfold mainC at h
  revert h
  split
  · intro h; cases h
  · split
    · intro h; cases h
    · unfold crasm
      split
      · intro h; cases h
      · exact fin _ _

/-! ## The causes that remain -/

/-- A run on the source `t` with no options. -/
def runOn (t : Str) : Run := mainC 60 { fs := fun n => if n = c!"a" then some t else none } [c!"a"]

/-- A processor and an origin. -/
def preamble : Str := c!" cpu 6502\n * = 0\n"

/-- Parentheses nested too deeply for the buffer of filter.c. -/
theorem C48_filterBuffer : runOn (preamble ++ c!" db " ++ List.replicate 60 '(' ++ c!"1" ++ List.replicate 60 ')' ++ c!"\n") = .ub .filterBuffer := by
  decide +kernel
/-- PAGE accepts the line length 1000, which is one more than the buffer of output.c can hold. -/
theorem C48_lineBuffer : runOn (preamble ++ c!" page 60,1000\n" ++ List.replicate 125 '\t' ++ c!";x\n") = .ub .lineBuffer := by
  decide +kernel
/-- FAIL with a long text. -/
theorem C48_errorBuffer : runOn (preamble ++ c!" fail " ++ List.replicate 90 'x' ++ c!"\n") = .ub .errorBuffer := by
  decide +kernel
/-- An origin of more than twelve hexadecimal digits. -/
theorem C48_resultBuffer : runOn c!" cpu 6502\n * = 1<<48\n nop\n" = .ub .resultBuffer := by decide +kernel
theorem C48_signedOverflow : runOn (preamble ++ c!" db (1<<62)*4\n") = .ub .signedOverflow := by decide +kernel
theorem C48_shiftCount : runOn (preamble ++ c!" db 1<<64\n") = .ub .shiftCount := by decide +kernel
/-- A text without its closing delimiter. -/
theorem C48_ascOverread : runOn (preamble ++ c!" asc \"abc\n") = .ub .ascOverread := by decide +kernel
theorem C48_dsNegative : runOn (preamble ++ c!" ds 0-1\n") = .ub .dsNegative := by decide +kernel
/-- A macro whose definition was refused is called. -/
theorem C48_nullMacro : runOn (preamble ++ c!"m macro\n nop endm\n m\n") = .ub .nullMacro := by decide +kernel
/-- A condition left open in a macro takes the ENDM for part of the text that is not assembled. -/
theorem C48_openMacro : runOn (preamble ++ c!"m macro\n if 0\n endm\n m\n") = .ub .nullMacro := by decide +kernel

/-- **C48** (exactly these). A cause of undefined behaviour occurs in some run exactly if it is none of the three. -/
theorem C48_exact (u : UB) : (∃ fuel env args, mainC fuel env args = .ub u) ↔
    u ≠ .nullHandler ∧ u ≠ .nullLabel ∧ u ≠ .tableIndex := by
  refine ⟨fun ⟨_, _, _, h⟩ => C48_confined h, fun ⟨h1, h2, h3⟩ => ?_⟩
  have key : ∀ {t u}, runOn t = .ub u → ∃ fuel env args, mainC fuel env args = .ub u := fun h => ⟨_, _, _, h⟩
  cases u with
  | filterBuffer => exact key C48_filterBuffer
  | lineBuffer => exact key C48_lineBuffer
  | errorBuffer => exact key C48_errorBuffer
  | resultBuffer => exact key C48_resultBuffer
  | signedOverflow => exact key C48_signedOverflow
  | shiftCount => exact key C48_shiftCount
  | ascOverread => exact key C48_ascOverread
  | dsNegative => exact key C48_dsNegative
  | nullMacro => exact key C48_nullMacro
  | nullHandler => exact absurd rfl h1
  | nullLabel => exact absurd rfl h2
  | tableIndex => exact absurd rfl h3

/-! ## Non-vacuity -/

/-- A mnemonic under a new name, an EQU under a new name, and a statement that lacks its label
    (the bytes are listed in reverse order). -/
example : secondPass c!" cpu 6502\n * = 0\nrest equ nop\nis equ equ\nk is 7\n rest\n lda #k\n is 5\n" = some [7, 0xa9, 0xea] := by
  decide +kernel

end Crasm

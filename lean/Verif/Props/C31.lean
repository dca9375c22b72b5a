import Verif.Proof.Run

/-! C31: nesting of sources is bounded. -/

namespace Crasm

/-- Levels in use: the main file and what is open above it. -/
def levels (s : St) : Nat := s.stack.length + 1

/-- The levels in use after each include or macro call so far. -/
def openedLevels (s : St) : List Nat :=
  s.log.filterMap fun
    | .opened _ d _ => some (d + 1)
    | _ => none

def Bounded (s : St) : Prop := levels s ≤ 10 ∧ ∀ d ∈ openedLevels s, d ≤ 10

theorem nstep_bounded {a b : Cfg} (h : NStep a b) (ha : Bounded a.1) : Bounded b.1 := by
  cases h <;> exact ha

theorem step_bounded {a b : Cfg} (h : Step a b) (ha : Bounded a.1) : Bounded b.1 := by
  cases h with
  | p h =>
    cases h with
    | h h =>
      cases h with
      | n h => exact nstep_bounded h ha
      | emit => exact ha
      | lohi => exact ha
      | note => exact ha
    | push s src hd =>
      obtain ⟨h1, h2⟩ := ha
      simp only [maxSourceDeep] at hd
      refine ⟨by simp only [levels, List.length_cons]; omega, ?_⟩
      intro d hm
      simp only [openedLevels, List.filterMap_cons, List.mem_cons] at hm
      rcases hm with rfl | hm
      · omega
      · exact h2 d hm
    | _ => exact ha
  | call s src hd =>
    obtain ⟨h1, h2⟩ := ha
    simp only [maxSourceDeep] at hd
    refine ⟨by simp only [levels, List.length_cons]; omega, ?_⟩
    intro d hm
    simp only [openedLevels, List.filterMap_cons, List.mem_cons] at hm
    rcases hm with rfl | hm
    · omega
    · exact h2 d hm
  | readFile s src rest t e hk hs =>
    obtain ⟨h1, h2⟩ := ha
    refine ⟨?_, h2⟩
    simp only [levels, hs, List.length_cons] at h1 ⊢
    omega
  | readMacro s src rest args all l ls hk hs =>
    obtain ⟨h1, h2⟩ := ha
    refine ⟨?_, h2⟩
    simp only [levels, hs, List.length_cons] at h1 ⊢
    omega
  | drop s n =>
    obtain ⟨h1, h2⟩ := ha
    refine ⟨?_, h2⟩
    simp only [levels, List.length_drop] at h1 ⊢
    omega
  | _ => exact ha

/-- Whatever the source, the files and the options, and however the run ends (even in the middle, because of a
    fatal error, undefined behaviour or for lack of fuel): at the end, and right after every INCLUDE and macro
    call of the run, at most 10 levels are open. -/
theorem C31_levels_bounded (fuel : Nat) (o : Opts) (env : Env) (src : Str) :
    levels (assemble fuel o (initSt env src)).state ≤ 10 ∧
    ∀ d ∈ openedLevels (assemble fuel o (initSt env src)).state, d ≤ 10 := by
  have key : ∀ n c, Reach o (initSt env src) n c → Bounded c.1 := fun n c h =>
    h.inv (P := fun _ c => Bounded c.1)
      ⟨by simp [levels, initSt], by simp [openedLevels, initSt]⟩
      (fun _ _ _ h ha => step_bounded h ha) (fun _ h => h) (fun _ h => h)
  cases h : assemble fuel o (initSt env src) with
  | ok u s =>
    obtain ⟨sC, hr, rfl⟩ := assemble_ok h
    exact key _ _ hr
  | err s => exact absurd h (assemble_not_err _ _)
  | stop w s =>
    obtain ⟨n, hr⟩ := assemble_stop h
    exact key _ _ hr

/-- With 10 levels open, a macro call is a fatal error. -/
theorem C31_macro_too_deep (self : Status → M RC) (fuel : Nat) (key : Str) (lab : Label) (st : Status)
    (oper : Option Str) (s : St) (h : 10 ≤ levels s) :
    ∃ s', macrocall self fuel key lab st oper s =
      .stop (.fatal c!"too many nested INCLUDEs and MACROs") s' := by
  have hs : ∀ s' : St, s'.stack = s.stack → checkDepth s' =
      .stop (.fatal c!"too many nested INCLUDEs and MACROs") s' := by
    intro s' e
    have h9 : 9 ≤ s.stack.length := by simp only [levels] at h; omega
    simp [checkDepth, whenM, maxSourceDeep, e, h9]
  unfold macrocall
  have hm : ∃ s1, markUsed key s = .ok () s1 ∧ s1.stack = s.stack := by
    unfold markUsed
    rw [modS_run]
    refine ⟨_, rfl, ?_⟩
    split <;> rfl
  obtain ⟨s1, h1, h2⟩ := hm
  refine ⟨s1, ?_⟩
  rw [bind_run, h1]
  simp only
  rw [bind_run, hs s1 h2]

/-- With 10 levels open, INCLUDE of an existing file is a fatal error. -/
theorem C31_include_too_deep (name text : Str) (s : St) (hf : s.env.fs name = some text)
    (h : 10 ≤ levels s) :
    xInclude (some name) s = .stop (.fatal c!"too many nested INCLUDEs and MACROs") s := by
  have h9 : 9 ≤ s.stack.length := by simp only [levels] at h; omega
  simp [xInclude, hf, checkDepth, whenM, maxSourceDeep, h9, bind_run]

/-- A program whose macro calls itself: it opens 9 expansions (10 levels), then stops with the fatal error. -/
def recursiveMacro : Str := c!"m macro\n m\n endm\n m\n"
example : openedLevels (assemble 60 {} (initSt { fs := fun _ => none } recursiveMacro)).state
    = [10, 9, 8, 7, 6, 5, 4, 3, 2] := by decide +kernel
example : crasm 60 { fs := fun _ => some recursiveMacro } { list := false } c!"a"
    = .exit 10 c!"FATAL ERROR: too many nested INCLUDEs and MACROs\n" .untouched := by decide +kernel
/-- A file that includes itself. -/
example : crasm 60 { fs := fun _ => some c!" include a\n" } { list := false } c!"a"
    = .exit 10 c!"FATAL ERROR: too many nested INCLUDEs and MACROs\n" .untouched := by decide +kernel

end Crasm

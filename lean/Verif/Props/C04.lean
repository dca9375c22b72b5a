import Verif.Props.C03

/-! # C04: the code file contains every emitted byte at its address

This is false in general; see `C04_false_dummy` and `C04_false_passes`. `C04_values_partial` gives the values
unconditionally, `C04_stores_partial` the addresses for runs in which the two known causes of misplaced code do not
occur. -/

namespace Crasm

theorem stored_values (a : Nat) (l : List Nat) : ∀ k,
    (l.zipIdx k).map (Prod.snd ∘ fun (x, i) => ((a + i) % 2 ^ 32, x)) = l := by
  induction l with
  | nil => intro k; rfl
  | cons x l ih => intro k; rw [List.zipIdx_cons, List.map_cons, ih]; rfl

/-- The loaded bytes are, in order, exactly the bytes that pass 2 generated with CODE in force (nothing is said of
    their addresses). -/
theorem C04_values_partial (fuel : Nat) (o : Opts) (env : Env) (src : Str) (s : St)
    (h : assemble fuel o (initSt env src) = .ok () s) (f : Str) (hf : s.code.file = some f) :
    ∃ recs, Spec.readFile f = some recs ∧
      (Spec.storesOf (Spec.dataOf recs)).map Prod.snd = (codeOf 2 s.log).map (fun x => x.2.toNat) := by
  obtain ⟨recs, h1, -, h2, -⟩ := code_file h hf
  refine ⟨_, h1, ?_⟩
  rw [dataOf_append, ← h2]
  simp only [Spec.dataOf, List.append_nil]
  generalize Spec.dataOf recs = bs
  induction bs with
  | nil => rfl
  | cons b bs ih =>
    unfold Spec.storesOf at ih ⊢
    rw [List.flatMap_cons, List.map_append, ih, List.flatMap_cons, List.map_map, stored_values]

/-- Loading the finished code file yields exactly the bytes that pass 2 generated with CODE in force, each at the
    value of the location counter modulo 2^32, in order of generation — provided no such byte directly follows,
    at the next address, a byte that was generated in DUMMY or the last byte generated in pass 1 (`Clean`).
    The output formats may even be mixed. -/
theorem C04_stores_partial (fuel : Nat) (o : Opts) (env : Env) (src : Str) (s : St)
    (h : assemble fuel o (initSt env src) = .ok () s) (f : Str) (hf : s.code.file = some f) (hc : Clean s.log) :
    ∃ recs, Spec.readFile f = some recs ∧
      Spec.storesOf (Spec.dataOf recs) = (codeOf 2 s.log).map fun x => (x.1.toNat % 2 ^ 32, x.2.toNat) := by
  obtain ⟨recs, h1, -, -, h2⟩ := code_file h hf
  refine ⟨_, h1, ?_⟩
  rw [dataOf_append, storesOf_append, h2 hc]
  exact List.append_nil _

/-- If the file was not opened although an output name was given, pass 2 generated nothing. -/
theorem C04_no_file (fuel : Nat) (o : Opts) (env : Env) (src : Str) (s : St)
    (h : assemble fuel o (initSt env src) = .ok () s) (ho : s.flags.nocode = false) (hf : s.code.file = none) :
    codeOf 2 s.log = [] := by
  obtain ⟨sC, hr, rfl⟩ := assemble_ok h
  have hi := codeInv_reach hr (by simp)
  have hf : sC.code.file = none := by
    cases hC : sC.code.file with
    | none => rfl
    | some f0 =>
      obtain ⟨recs, hh⟩ := hi.opened f0 hC
      obtain ⟨f', -, e1, -⟩ := close_eq hh hC hi.short sC.flags.codeHex
      simp only [afterPasses, hC, Option.isSome_some, if_true, e1] at hf
      cases hf
  have hb := (hi.closed hf).2 ho
  unfold codeOf
  rw [List.filterMap_eq_nil_iff]
  intro e hm
  cases e with
  | byte q a v on =>
    have hq : q ≤ 1 := by
      refine hb q a v on ?_
      unfold bytesOf
      rw [List.mem_filterMap]
      exact ⟨_, List.mem_reverse.1 hm, rfl⟩
    have : q ≠ 2 := by omega
    simp [this]
  | _ => rfl

/-- `Clean` in the usual case: pass 2 never generates bytes outside CODE, and does not start where pass 1 ended. -/
theorem clean_of {log : List Event} (h1 : ∀ q a v on, (q, a, v, on) ∈ bytesOf log → q = 2 → on = true)
    (h2 : ∀ a v a' v' q on, [(2, a, v, true), (q, a', v', on)] <:+: bytesOf log → q = 1 → a ≠ a' + 1)
    (h3 : ∀ q a v on, (q, a, v, on) ∈ bytesOf log → q = 1 ∨ q = 2) : Clean log := by
  intro a v q a' v' on hi hq
  rcases h3 q a' v' on (hi.subset (by simp)) with h | h
  · exact h2 a v a' v' q on hi h
  · rw [h1 q a' v' on (hi.subset (by simp)) h] at hq
    rcases hq with hq | hq
    · omega
    · cases hq

/-! The failures -/

/-- The stores of the code file and those that should be there. -/
def loadCheck (src : Str) : Option (List (Nat × Nat) × List (Nat × Nat) × Nat) :=
  match assemble 60 { scode := some c!"o", list := false } (initSt { fs := fun _ => none } src) with
  | .ok _ s =>
    match s.code.file with
    | some f => (Spec.readFile f).map fun recs => (Spec.storesOf (Spec.dataOf recs),
        (codeOf 2 s.log).map (fun x => (x.1.toNat % 2 ^ 32, x.2.toNat)), s.errnumber)
    | none => none
  | _ => none

/-- A section of DUMMY without a new origin after it: the bytes that follow are appended to the block before it. -/
theorem C04_false_dummy : loadCheck c!" cpu 6502\n *= $100\n db 1\n dummy\n db 2\n code\n db 3\n *= $200\n" =
    some ([(0x100, 1), (0x101, 3)], [(0x100, 1), (0x102, 3)], 0) := by decide +kernel
/-- The first origin of pass 2 is where pass 1 ended: the block gets the address left over from pass 1. -/
theorem C04_false_passes : loadCheck c!" cpu 6502\n *= $100\n db 1\n *= $FF\n db 2\n" =
    some ([(0xFF, 1), (0xFF, 2)], [(0x100, 1), (0xFF, 2)], 0) := by decide +kernel

/-- A program satisfying `Clean`, with DUMMY and several origins. -/
def cleanProgram : Str := c!" cpu 6502\n *= $100\n lda #1\n dummy\n *= $10\n ds 5\n code\n *= $200\n ds 18,7\n"
example : (match assemble 60 { scode := some c!"o", list := false } (initSt { fs := fun _ => none } cleanProgram) with
    | .ok _ s => (bytesOf s.log).zip ((bytesOf s.log).drop 1) | _ => []).all (fun (x, y) =>
      !(x.1 == 2 && x.2.2.2 && (y.1 == 1 || !y.2.2.2) && x.2.1 == y.2.1 + 1)) = true := by decide +kernel
example : ((loadCheck cleanProgram).map fun x => decide (x.1 = x.2.1 ∧ x.1.length = 20 ∧ x.2.2 = 0)) = some true := by
  decide +kernel

end Crasm

import Verif.Proof.CodeInv
import Verif.Proof.Whole

/-! # C03: the code file is a sequence of whole well-formed records -/

namespace Crasm

theorem close_eq {log : List Event} {c : Code} {f : Str} {recs : List Spec.Record} (h : HoldsCode log c f recs)
    (hf : c.file = some f) (hl : c.raw.length ≤ 16) (hex : Bool) :
    ∃ f' recs', (c.close hex).file = some f' ∧ Spec.readFile f' = some (recs' ++ [.eof]) ∧ GoodRecs recs' ∧
      (Spec.dataOf recs').flatMap Prod.snd = (codeOf 2 log).map (fun x => x.2.toNat) ∧
      (Clean log → Spec.storesOf (Spec.dataOf recs') = (codeOf 2 log).map asStore) := by
  obtain ⟨f', recs', e1, e2⟩ := h.flush hf hl hex (c.flush hex) rfl rfl
  refine ⟨f' ++ (if hex then c!":00000001FF\n" else c!"S9030000FC\n"), recs', ?_, ?_, e2.good, ?_, ?_⟩
  · simp [Code.close, Code.write, e1]
  · cases hex with
    | true => exact readFile_append f' _ recs' [.eof] [c!":00000001FF"] e2.reads rfl rfl
    | false => exact readFile_append f' _ recs' [.eof] [c!"S9030000FC"] e2.reads rfl rfl
  · rw [← e2.values]
    have : (c.flush hex).raw = [] := rfl
    simp [blocksOf, this]
  · intro hc
    rw [← e2.stores hc]
    have : (c.flush hex).raw = [] := rfl
    simp [blocksOf, this, storesOf_append, Spec.storesOf]

/-- The finished code file, with everything known about it. -/
theorem code_file {fuel : Nat} {o : Opts} {env : Env} {src : Str} {s : St}
    (h : assemble fuel o (initSt env src) = .ok () s) {f : Str} (hf : s.code.file = some f) :
    ∃ recs, Spec.readFile f = some (recs ++ [.eof]) ∧ GoodRecs recs ∧
      (Spec.dataOf recs).flatMap Prod.snd = (codeOf 2 s.log).map (fun x => x.2.toNat) ∧
      (Clean s.log → Spec.storesOf (Spec.dataOf recs) = (codeOf 2 s.log).map asStore) := by
  obtain ⟨sC, hr, rfl⟩ := assemble_ok h
  have hi := codeInv_reach hr (by simp)
  cases hC : sC.code.file with
  | none => simp [afterPasses, hC] at hf
  | some f0 =>
    obtain ⟨recs, hh⟩ := hi.opened f0 hC
    obtain ⟨f', recs', e1, e2⟩ := close_eq hh hC hi.short sC.flags.codeHex
    simp only [afterPasses, hC, Option.isSome_some, if_true, e1] at hf
    cases hf
    exact ⟨recs', e2⟩

/-- **C03.**  If the assembly runs to completion and the code file was opened, the file consists of whole lines,
    each a well-formed record in one of the two formats (`Spec.readFile` checks syntax, byte counts and
    checksums), every data record holding 1 to 16 bytes, and there is exactly one end record, the last. -/
theorem C03_wellformed (fuel : Nat) (o : Opts) (env : Env) (src : Str) (s : St)
    (h : assemble fuel o (initSt env src) = .ok () s) (f : Str) (hf : s.code.file = some f) :
    ∃ recs, Spec.readFile f = some (recs ++ [.eof]) ∧
      ∀ r ∈ recs, r ≠ .eof ∧ ∀ a d, r = .data a d → 1 ≤ d.length ∧ d.length ≤ 16 := by
  obtain ⟨recs, h1, h2, -⟩ := code_file h hf
  exact ⟨recs, h1, h2⟩

/-- The same for the file a completed run of the program leaves behind. -/
theorem C03_left_behind (fuel : Nat) (env : Env) (o : Opts) (name out f : Str)
    (h : crasm fuel env o name = .exit 0 out (.written f)) :
    ∃ recs, Spec.readFile f = some (recs ++ [.eof]) ∧
      ∀ r ∈ recs, r ≠ .eof ∧ ∀ a d, r = .data a d → 1 ≤ d.length ∧ d.length ≤ 16 := by
  obtain ⟨src, hs, h⟩ := crasm_exit0 h
  obtain ⟨s, ha, hf, -⟩ := finish_exit0 (inv_initSt env src) rfl h
  refine C03_wellformed fuel o env src s ha f ?_
  split at hf
  · cases hf
  · unfold fileOf at hf
    split at hf
    · cases hf; assumption
    · cases hf

/-- A program that changes the format in the middle; its file is well-formed. -/
def mixed : Str := c!" cpu 6502\n *= $100\n db 1\n output hex\n *= $20100\n ds 17,2\n"
def fileAfter (src : Str) : Option Str :=
  match assemble 60 { scode := some c!"o", list := false } (initSt { fs := fun _ => none } src) with
  | .ok _ s => s.code.file
  | _ => none
example : fileAfter mixed = some (c!":0101000001FD\n:020000040002F8\n" ++
    c!":1001000002020202020202020202020202020202CF\n:0101100002EC\n:00000001FF\n") := by decide +kernel
example : fileAfter c!" cpu 6502\n output scode\n *= $100\n db 1\n *= $200\n output hex\n" =
    some c!"S104010001F9\n:00000001FF\n" := by decide +kernel

end Crasm

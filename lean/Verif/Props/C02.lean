import Verif.Proof.Records

/-! C02: Intel HEX lines decode to the bytes they were built from. -/

namespace Crasm

/-- Write one block the way the assembler does: start a block at `b.1`, fill it, flush it. -/
def writeBlock (hex : Bool) (c : Code) (b : Word × List Byte) : Code :=
  ({ c with rawstart := b.1, raw := b.2 } : Code).flush hex

theorem writeBlock_file (hex : Bool) (c : Code) (f : Str) (hf : c.file = some f)
    (b : Word × List Byte) (hb : 1 ≤ b.2.length) :
    (writeBlock hex c b).file = some (f ++ (blockText hex c.rawextended b.1 b.2).1) ∧
    (writeBlock hex c b).rawextended = (blockText hex c.rawextended b.1 b.2).2 := by
  have : b.2 ≠ [] := by intro h; simp [h] at hb
  simp [writeBlock, Code.flush, this, Code.write, hf]

theorem writeBlocks_reads (hex : Bool) (blocks : List (Word × List Byte)) :
    ∀ (c : Code) (f : Str) (rf : List Spec.Record), c.file = some f → Spec.readFile f = some rf →
      upperAfter 0 rf = c.rawextended.toNat / 65536 →
      (∀ b ∈ blocks, 1 ≤ b.2.length ∧ b.2.length ≤ 16) →
    ∃ f' recs, (blocks.foldl (writeBlock hex) c).file = some f' ∧ Spec.readFile f' = some (rf ++ recs) ∧
      Spec.dataOf recs = blocks.map fun b => (b.1.toNat % 2 ^ 32, b.2.map BitVec.toNat) := by
  induction blocks with
  | nil => intro c f rf hf hr _ _; exact ⟨f, [], hf, by simpa using hr, rfl⟩
  | cons b bs ih =>
    intro c f rf hf hr hu hb
    obtain ⟨hb1, hb2⟩ := hb b (by simp)
    obtain ⟨e1, e2⟩ := writeBlock_file hex c f hf b hb1
    obtain ⟨rg, h1, h2, h3⟩ := blockText_reads hex c.rawextended b.1 b.2 hb2 f rf hr hu
    obtain ⟨f', recs, g1, g2, g3⟩ := ih _ _ _ e1 h1 (by rw [e2]; exact h2)
      (fun b' h => hb b' (by simp [h]))
    refine ⟨f', rg ++ recs, g1, by simpa [List.append_assoc] using g2, ?_⟩
    rw [dataOf_append, h3.dataOf, g3]; rfl

/-- Any sequence of blocks written in Intel HEX format to a freshly opened code file (scode.c:56-69) is
    accepted by an Intel HEX reader and loads, in order, exactly the blocks at their 32-bit addresses. -/
theorem C02_ihex_roundtrip (blocks : List (Word × List Byte)) (c : Code)
    (hopen : c.file = some [] ∧ c.rawextended = 0)
    (hb : ∀ b ∈ blocks, 1 ≤ b.2.length ∧ b.2.length ≤ 16) :
    ∃ f recs, (blocks.foldl (writeBlock true) c).file = some f ∧ Spec.readFile f = some recs ∧
      Spec.dataOf recs = blocks.map fun b => (b.1.toNat % 2 ^ 32, b.2.map BitVec.toNat) := by
  simpa using writeBlocks_reads true blocks c [] [] hopen.1 rfl (by simp [hopen.2, upperAfter]) hb

/-- The same for S-records. -/
theorem C02_srecord_sequence (blocks : List (Word × List Byte)) (c : Code)
    (hopen : c.file = some [] ∧ c.rawextended = 0)
    (hb : ∀ b ∈ blocks, 1 ≤ b.2.length ∧ b.2.length ≤ 16) :
    ∃ f recs, (blocks.foldl (writeBlock false) c).file = some f ∧ Spec.readFile f = some recs ∧
      Spec.dataOf recs = blocks.map fun b => (b.1.toNat % 2 ^ 32, b.2.map BitVec.toNat) := by
  simpa using writeBlocks_reads false blocks c [] [] hopen.1 rfl (by simp [hopen.2, upperAfter]) hb

/-- An address record precedes a data record exactly when the upper half differs from the one in force. -/
theorem C02_ext_iff (c : Code) (f : Str) (hf : c.file = some f) (b : Word × List Byte)
    (hb : 1 ≤ b.2.length) :
    (writeBlock true c b).file = some (f ++
      (if b.1.toNat / 65536 % 65536 = c.rawextended.toNat / 65536 then [] else hexExtRecord b.1) ++
      hexDataRecord b.1 b.2) := by
  rw [(writeBlock_file true c f hf b hb).1]
  cases hn : needExt c.rawextended b.1 with
  | false => rw [if_pos (needExt_false _ _ hn)]; simp [blockText, hn]
  | true =>
    rw [if_neg]
    · simp [blockText, hn]
    · intro h
      have hh : needExt c.rawextended b.1 = false := by
        simp only [needExt, decide_eq_false_iff_not, Decidable.not_not]
        rw [and_ffff0000]
        simp only [BitVec.toNat_xor, ← Nat.shiftRight_eq_div_pow, Nat.shiftRight_xor_distrib]
        rw [show (65536 : Nat) = 2 ^ 16 by rfl, Nat.xor_mod_two_pow]
        have hs : (BitVec.signExtend 64 c.rawextended).toNat >>> 16 % 2 ^ 16 = b.1.toNat >>> 16 % 2 ^ 16 := by
          have he := c.rawextended.isLt
          have : ((BitVec.signExtend 64 c.rawextended).setWidth 32) = c.rawextended := by
            apply BitVec.eq_of_getLsbD_eq
            intro i hi
            have h64 : i < 64 := by omega
            rw [BitVec.getLsbD_setWidth, BitVec.getLsbD_signExtend]; simp [hi, h64]
          have := congrArg BitVec.toNat this
          rw [BitVec.toNat_setWidth] at this
          simp only [Nat.shiftRight_eq_div_pow]
          omega
        rw [hs, Nat.xor_self]
      rw [hh] at hn; cases hn

/-- A sequence that crosses a 64K boundary and comes back; its file and what it loads. -/
def c02Blocks : List (Word × List Byte) := [(0x1FFF8#64, [1, 2]), (0x20000#64, [3]), (0x20005#64, [4]), (5#64, [6])]
example : ∀ b ∈ c02Blocks, 1 ≤ b.2.length ∧ b.2.length ≤ 16 := by decide
example : (c02Blocks.foldl (writeBlock true) { file := some [] }).file = some (
    c!":020000040001F9\n:02FFF800010204\n:020000040002F8\n:0100000003FC\n:0100050004F6\n" ++
    c!":020000040000FA\n:0100050006F4\n") := by decide
example : Spec.readFile c!":020000040001F9\n:02FFF800010204\n" =
    some [.upper 1, .data 0x1FFF8 [1, 2]] := by decide
example : Spec.readFile c!":020000040001F9\n:02FFF800010205\n" = none := by decide

end Crasm

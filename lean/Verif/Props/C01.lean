import Verif.Proof.Records

/-! C01: S-record lines decode to the bytes they were built from. -/

namespace Crasm

/-- Flushing a block of 1..16 bytes in S-record format appends to the code file a text that an S-record
    reader accepts and that loads exactly these bytes at the block's address modulo 2^32. -/
theorem C01_srecord_roundtrip (c : Code) (f : Str) (hf : c.file = some f)
    (h1 : 1 ≤ c.raw.length) (h16 : c.raw.length ≤ 16) :
    ∃ line, '\n' ∉ line ∧ (c.flush false).file = some (f ++ line ++ ['\n']) ∧
      Spec.readS line = some (.data (c.rawstart.toNat % 2 ^ 32) (c.raw.map BitVec.toNat)) := by
  obtain ⟨l, e1, e2, -, e4⟩ := readS_sRecord c.rawstart c.raw h16
  refine ⟨l, e2, ?_, e4⟩
  have : c.raw ≠ [] := by intro h; simp [h] at h1
  simp [Code.flush, this, Code.write, hf, blockText, e1]

/-- The record type says how wide the address is: 16, 24 or 32 bits, the shortest that holds the address
    modulo 2^32. -/
theorem C01_srecord_type (start : Word) (data : List Byte) :
    (sRecord start data)[1]? =
      some (if start.toNat % 2 ^ 32 < 2 ^ 16 then '1' else if start.toNat % 2 ^ 32 < 2 ^ 24 then '2'
        else '3') := by
  have hd := start.isLt
  unfold sRecord
  by_cases h3 : start &&& 0xff000000#64 = 0
  · by_cases h2 : start &&& 0xff0000#64 = 0
    · simp only [ne_eq, h3, h2, not_true_eq_false, if_false]
      rw [and_ff000000] at h3
      rw [and_ff0000] at h2
      rw [if_pos (by omega)]; rfl
    · simp only [ne_eq, h3, h2, not_true_eq_false, not_false_eq_true, if_false, if_true]
      rw [and_ff000000] at h3
      rw [and_ff0000] at h2
      rw [if_neg (by omega), if_pos (by omega)]; rfl
  · simp only [ne_eq, h3, not_false_eq_true, if_true]
    rw [and_ff000000] at h3
    rw [if_neg (by omega), if_neg (by omega)]; rfl

/-- The hypotheses are met, with a 3-byte address and an address beyond 2^32. -/
example : let c : Code := { rawstart := 0x7012345#64, raw := [0xA9, 0xFF], file := some [] }
    c.file = some [] ∧ 1 ≤ c.raw.length ∧ c.raw.length ≤ 16 ∧
    (c.flush false).file = some c!"S30707012345A9FFE0\n" := by decide
example : Spec.readS c!"S30707012345A9FFE0" = some (.data 0x7012345 [0xA9, 0xFF]) := by decide
example : Spec.readS c!"S30707012345A9FFE1" = none := by decide

end Crasm

import Verif.Model.Scode
import Verif.Spec.Records

/-! Lemmas on the record writer of scode.c against the readers of `Spec.Records`. -/

namespace Crasm
open Spec

theorem hexVal?_hexDigit (n : Nat) : hexVal? (hexDigit n) = some (n % 16) := by
  have h : n % 16 < 16 := Nat.mod_lt _ (by decide)
  have : hexDigit n = hexDigit (n % 16) := by simp [hexDigit]
  rw [this]
  generalize n % 16 = m at h
  revert m
  decide

def nats (bs : List Byte) : List Nat := bs.map BitVec.toNat

theorem hexPairs?_hexBytes (bs : List Byte) : hexPairs? (hexBytes bs) = some (nats bs) := by
  induction bs with
  | nil => rfl
  | cons b bs ih =>
    have : hexBytes (b :: bs) = hexDigit (b.toNat / 16) :: hexDigit b.toNat :: hexBytes bs := rfl
    rw [this]
    have h1 : b.toNat / 16 % 16 = b.toNat / 16 := by have := b.isLt; omega
    simp [hexPairs?, hexVal?_hexDigit, ih, nats, h1]
    omega

theorem checksum_toNat (c : Byte) (bs : List Byte) :
    (checksum c bs).toNat = (c.toNat + (nats bs).sum) % 256 := by
  induction bs generalizing c with
  | nil => simp [checksum, nats]; have := c.isLt; omega
  | cons b bs ih =>
    have : checksum c (b :: bs) = checksum (c + b) bs := rfl
    rw [this, ih]
    simp [nats, BitVec.toNat_add]
    omega

theorem nats_append (a b : List Byte) : nats (a ++ b) = nats a ++ nats b := by simp [nats]
@[simp] theorem nats_length (a : List Byte) : (nats a).length = a.length := by simp [nats]
@[simp] theorem nats_cons (a : Byte) (b : List Byte) : nats (a :: b) = a.toNat :: nats b := rfl
@[simp] theorem nats_nil : nats [] = [] := rfl

theorem byteOf_toNat (w : Word) (n : Nat) : (byteOf w n).toNat = w.toNat / 256 ^ n % 256 := by
  simp [byteOf, BitVec.toNat_setWidth, Nat.shiftRight_eq_div_pow]
  rw [show (256:Nat) ^ n = 2 ^ (8 * n) by rw [Nat.pow_mul]]

theorem and_mask_eq_zero_iff (w : Word) (lo len : Nat) (h : lo + len ≤ 64) :
    w &&& BitVec.ofNat 64 ((2 ^ len - 1) * 2 ^ lo) = 0 ↔ w.toNat / 2 ^ lo % 2 ^ len = 0 := by
  rw [← BitVec.toNat_inj]
  have hlt : (2 ^ len - 1) * 2 ^ lo < 2 ^ 64 := by
    calc (2 ^ len - 1) * 2 ^ lo < 2 ^ len * 2 ^ lo := by
          apply Nat.mul_lt_mul_of_pos_right
          · have := Nat.two_pow_pos len; omega
          · exact Nat.two_pow_pos lo
      _ = 2 ^ (lo + len) := by rw [← Nat.pow_add, Nat.add_comm]
      _ ≤ 2 ^ 64 := Nat.pow_le_pow_right (by decide) h
  simp only [BitVec.toNat_and, BitVec.toNat_ofNat, Nat.mod_eq_of_lt hlt]
  have e : w.toNat &&& (2 ^ len - 1) * 2 ^ lo = (w.toNat / 2 ^ lo % 2 ^ len) * 2 ^ lo := by
    apply Nat.eq_of_testBit_eq
    intro i
    rw [Nat.testBit_and, Nat.mul_comm, Nat.testBit_two_pow_mul, Nat.testBit_two_pow_sub_one,
      Nat.mul_comm, Nat.testBit_two_pow_mul, Nat.testBit_mod_two_pow, Nat.testBit_div_two_pow]
    by_cases hi : lo ≤ i
    · simp [hi, Bool.and_comm]
    · simp [hi]
  rw [e]
  constructor
  · intro h0
    rcases Nat.mul_eq_zero.mp h0 with h1 | h1
    · exact h1
    · have := Nat.two_pow_pos lo; omega
  · intro h0; simp [h0]

theorem and_ff000000 (w : Word) : w &&& 0xff000000#64 = 0 ↔ w.toNat / 2 ^ 24 % 256 = 0 :=
  and_mask_eq_zero_iff w 24 8 (by decide)
theorem and_ff0000 (w : Word) : w &&& 0xff0000#64 = 0 ↔ w.toNat / 2 ^ 16 % 256 = 0 :=
  and_mask_eq_zero_iff w 16 8 (by decide)
theorem and_ffff0000 (w : Word) : w &&& 0xffff0000#64 = 0 ↔ w.toNat / 2 ^ 16 % 65536 = 0 :=
  and_mask_eq_zero_iff w 16 16 (by decide)

/-! ### Lines -/

theorem hexDigit_ne_nl (n : Nat) : hexDigit n ≠ '\n' := by
  intro h
  have := hexVal?_hexDigit n
  rw [h] at this
  simp [hexVal?] at this

theorem nl_notMem_hexBytes (bs : List Byte) : '\n' ∉ hexBytes bs := by
  induction bs with
  | nil => simp [hexBytes]
  | cons b bs ih =>
    have : hexBytes (b :: bs) = hexDigit (b.toNat / 16) :: hexDigit b.toNat :: hexBytes bs := rfl
    rw [this]
    simp only [List.mem_cons, not_or]
    exact ⟨(hexDigit_ne_nl _).symm, (hexDigit_ne_nl _).symm, ih⟩

theorem lines?_line (l rest : List Char) (h : '\n' ∉ l) :
    lines? (l ++ '\n' :: rest) = (lines? rest).map (l :: ·) := by
  induction l with
  | nil => simp [lines?]
  | cons c l ih =>
    simp only [List.mem_cons, not_or] at h
    have hc : c ≠ '\n' := fun e => h.1 e.symm
    simp only [List.cons_append, lines?, hc, if_false, ih h.2]
    cases lines? rest <;> simp

/-! ### One record -/

theorem sum_compl (b : Byte) : (~~~ b).toNat = 255 - b.toNat := by
  simp [BitVec.toNat_not]

theorem readS_data (t : Char) (w : Nat) (addr data : List Byte) (n : Nat)
    (ht : sAddrLen t = some w) (ha : addr.length = w) (hn : n = w + data.length + 1) (hb : n < 256) :
    readS ('S' :: t :: hexBytes ((BitVec.ofNat 8 n :: addr ++ data) ++
      [~~~ checksum 0 (BitVec.ofNat 8 n :: addr ++ data)])) =
    some (.data (beValue (nats addr)) (nats data)) := by
  have t9 : t ≠ '9' := by rintro rfl; simp [sAddrLen] at ht
  have hcs := checksum_toNat 0 (BitVec.ofNat 8 n :: addr ++ data)
  have hnn : (BitVec.ofNat 8 n).toNat = n := by simp; omega
  simp only [readS, hexPairs?_hexBytes]
  simp only [List.cons_append, nats_cons, nats_append, hnn, List.sum_cons] at hcs ⊢
  simp only [nats_nil, sum_compl, List.length_append, nats_length, List.length_cons, List.length_nil,
    List.sum_append, List.sum_cons, List.sum_nil, hcs, show (0 : Byte).toNat = 0 from rfl]
  rw [if_neg (by omega), if_neg t9, ht]
  simp only
  rw [if_neg (by omega)]
  congr 2
  · rw [List.append_assoc, List.take_left' (by simpa using ha)]
  · rw [List.append_assoc, List.drop_left' (by simpa using ha)]
    simp

theorem readHex_ok (hi n : Nat) (a1 a0 t : Byte) (c0 : Byte) (data : List Byte)
    (hn : n = data.length) (hb : n < 256)
    (hc : (checksum c0 data).toNat =
      (255 + n + a1.toNat + a0.toNat + t.toNat + (nats data).sum) % 256) :
    readHex hi (':' :: hexBytes ([BitVec.ofNat 8 n, a1, a0, t] ++ data ++ [~~~ checksum c0 data])) =
      if t = 0 then some (.data (65536 * hi + 256 * a1.toNat + a0.toNat) (nats data))
      else if t = 1 then (if n = 0 then some .eof else none)
      else if t = 4 then (if n = 2 then some (.upper (beValue (nats data))) else none)
      else none := by
  have hnn : (BitVec.ofNat 8 n).toNat = n := by simp; omega
  have e (k : Nat) (hk : k < 256) : (t.toNat = k) = (t = BitVec.ofNat 8 k) := by
    rw [← BitVec.toNat_inj]; simp; omega
  simp only [readHex, hexPairs?_hexBytes]
  simp only [List.cons_append, List.nil_append, nats_cons, nats_append, hnn, nats_nil, sum_compl,
    List.length_append, nats_length, List.length_cons, List.length_nil, List.sum_append, List.sum_cons,
    List.sum_nil, hc]
  rw [if_neg (by omega)]
  simp only [e 0 (by decide), e 1 (by decide), e 4 (by decide), List.dropLast_concat]
  rfl

/-- The S-record of a block reads back as the block. -/
theorem readS_sRecord (start : Word) (data : List Byte) (h : data.length ≤ 16) :
    ∃ l, sRecord start data = l ++ ['\n'] ∧ '\n' ∉ l ∧ l.head? = some 'S' ∧
      readS l = some (.data (start.toNat % 2 ^ 32) (nats data)) := by
  have hd := start.isLt
  unfold sRecord
  by_cases h3 : start &&& 0xff000000#64 = 0
  · by_cases h2 : start &&& 0xff0000#64 = 0
    · simp only [ne_eq, h3, h2, not_true_eq_false, if_false]
      rw [and_ff000000] at h3
      rw [and_ff0000] at h2
      refine ⟨_, rfl, by simp [nl_notMem_hexBytes], rfl, ?_⟩
      rw [readS_data '1' 2 [byteOf start 1, byteOf start 0] data
        (data.length + 3) rfl rfl (by omega) (by omega)]
      simp only [nats_cons, byteOf_toNat, nats_nil, beValue, List.foldl]
      congr 2
      omega
    · simp only [ne_eq, h3, h2, not_true_eq_false, not_false_eq_true, if_false, if_true]
      rw [and_ff000000] at h3
      refine ⟨_, rfl, by simp [nl_notMem_hexBytes], rfl, ?_⟩
      rw [readS_data '2' 3 [byteOf start 2, byteOf start 1, byteOf start 0] data
        (data.length + 4) rfl rfl (by omega) (by omega)]
      simp only [nats_cons, byteOf_toNat, nats_nil, beValue, List.foldl]
      congr 2
      omega
  · simp only [ne_eq, h3, not_false_eq_true, if_true]
    refine ⟨_, rfl, by simp [nl_notMem_hexBytes], rfl, ?_⟩
    rw [readS_data '3' 4 [byteOf start 3, byteOf start 2, byteOf start 1, byteOf start 0] data
      (data.length + 5) rfl rfl (by omega) (by omega)]
    simp only [nats_cons, byteOf_toNat, nats_nil, beValue, List.foldl]
    congr 2
    omega

theorem byteOf_eq (w : Word) (n : Nat) : byteOf w n = BitVec.ofNat 8 (w.toNat / 256 ^ n) := by
  rw [← BitVec.toNat_inj, byteOf_toNat]; simp

theorem readHex_data (hi : Nat) (start : Word) (data : List Byte) (h : data.length ≤ 16) :
    ∃ l, hexDataRecord start data = l ++ ['\n'] ∧ '\n' ∉ l ∧ l.head? = some ':' ∧
      readHex hi l = some (.data (65536 * hi + start.toNat % 65536) (nats data)) := by
  refine ⟨_, rfl, by simp [nl_notMem_hexBytes], rfl, ?_⟩
  have := readHex_ok hi data.length (byteOf start 1) (byteOf start 0) 0
    (checksum 0xff [BitVec.ofNat 8 data.length, byteOf start 1, byteOf start 0, 0]) data rfl (by omega)
    (by rw [checksum_toNat, checksum_toNat]; simp; omega)
  rw [if_pos rfl] at this
  have e : checksum (checksum 0xff [BitVec.ofNat 8 data.length, byteOf start 1, byteOf start 0, 0]) data
    = checksum 0xff ([BitVec.ofNat 8 data.length, byteOf start 1, byteOf start 0, 0] ++ data) := by
    simp [checksum]
  rw [e] at this
  rw [this]
  congr 2
  simp only [byteOf_toNat]
  omega

theorem readHex_ext (hi : Nat) (start : Word) :
    ∃ l, hexExtRecord start = l ++ ['\n'] ∧ '\n' ∉ l ∧ l.head? = some ':' ∧
      readHex hi l = some (.upper (start.toNat / 65536 % 65536)) := by
  refine ⟨c!":02000004" ++ hexBytes ([byteOf start 3, byteOf start 2] ++
    [~~~ checksum (0xff + 0x02 + 0x04) [byteOf start 3, byteOf start 2]]), rfl, ?_, rfl, ?_⟩
  · simp [nl_notMem_hexBytes]
  have := readHex_ok hi 2 0 0 4 (0xff + 0x02 + 0x04) [byteOf start 3, byteOf start 2] rfl (by omega)
    (by rw [checksum_toNat]; simp; omega)
  rw [if_neg (by decide), if_neg (by decide), if_pos rfl, if_pos rfl] at this
  refine Eq.trans ?_ (this.trans ?_)
  · rfl
  · congr 2
    simp only [nats_cons, byteOf_toNat, nats_nil, beValue, List.foldl]
    omega

theorem needExt_false (ext : BitVec 32) (start : Word) (h : needExt ext start = false) :
    start.toNat / 65536 % 65536 = ext.toNat / 65536 := by
  simp only [needExt, decide_eq_false_iff_not, Decidable.not_not] at h
  have hh : (start >>> 16).setWidth 16 = (ext >>> 16).setWidth 16 := by
    apply BitVec.eq_of_getLsbD_eq
    intro i hi
    have hm : (0xffff0000#64).getLsbD (16 + i) = true := by
      clear h; revert i; decide
    have := congrArg (fun v => v.getLsbD (16 + i)) h
    simp only [BitVec.getLsbD_and, BitVec.getLsbD_xor, hm, BitVec.getLsbD_signExtend, Bool.and_true] at this
    simp only [BitVec.getLsbD_setWidth, BitVec.getLsbD_ushiftRight]
    have h32 : 16 + i < 32 := by omega
    have h64 : 16 + i < 64 := by omega
    simp [h32, h64] at this
    simp [hi, BitVec.getLsbD_eq_getElem h32, BitVec.getLsbD_eq_getElem h64, this]
  have := congrArg BitVec.toNat hh
  simp only [BitVec.toNat_setWidth, BitVec.toNat_ushiftRight, Nat.shiftRight_eq_div_pow] at this
  have := ext.isLt
  omega

/-! ### Whole files -/

theorem lines?_append (f g : List Char) (ls : List (List Char)) (h : lines? f = some ls) :
    lines? (f ++ g) = (lines? g).map (ls ++ ·) := by
  induction f generalizing ls with
  | nil => simp [lines?] at h; subst h; simp
  | cons c f ih =>
    simp only [lines?] at h
    simp only [List.cons_append, lines?]
    split at h
    · cases hf : lines? f with
      | none => simp [hf] at h
      | some l => simp [hf] at h; subst h; rw [if_pos ‹_›, ih l hf]; simp [Function.comp_def]
    · rw [if_neg ‹_›]
      cases hf : lines? f with
      | none => simp [hf] at h
      | some l =>
        cases l with
        | nil => simp [hf] at h
        | cons a l =>
          simp [hf] at h; subst h
          rw [ih _ hf]
          cases lines? g <;> simp

/-- The upper half in force after some records. -/
def upperAfter (hi : Nat) (rs : List Record) : Nat := rs.foldl nextUpper hi

theorem readLines_append (hi : Nat) (a b : List (List Char)) (ra : List Record)
    (h : readLines hi a = some ra) :
    readLines hi (a ++ b) = (readLines (upperAfter hi ra) b).map (ra ++ ·) := by
  induction a generalizing hi ra with
  | nil => simp [readLines] at h; subst h; simp [upperAfter]
  | cons l a ih =>
    simp only [readLines, Option.bind_eq_bind, Option.bind_eq_some_iff, Option.pure_def,
      Option.some.injEq] at h
    obtain ⟨r, hr, rs, hrs, rfl⟩ := h
    simp only [List.cons_append, readLines, hr, ih _ _ hrs, Option.bind_eq_bind, Option.bind_some,
      Option.pure_def, upperAfter, List.foldl]
    cases readLines (List.foldl nextUpper (nextUpper hi r) rs) b <;> simp

/-- `text` is a code file that reads as `recs`. -/
theorem readFile_append (f g : List Char) (rf rg : List Record) (ls : List (List Char))
    (hf : readFile f = some rf) (hg : lines? g = some ls)
    (hg' : readLines (upperAfter 0 rf) ls = some rg) :
    readFile (f ++ g) = some (rf ++ rg) := by
  simp only [readFile, Option.bind_eq_bind, Option.bind_eq_some_iff] at hf ⊢
  obtain ⟨lf, h1, h2⟩ := hf
  refine ⟨lf ++ ls, by rw [lines?_append _ _ _ h1, hg]; rfl, ?_⟩
  rw [readLines_append _ _ _ _ h2, hg']; rfl

theorem readLine_S (hi : Nat) (l : List Char) (h : l.head? = some 'S') : readLine hi l = readS l := by
  simp [readLine, h]
theorem readLine_hex (hi : Nat) (l : List Char) (h : l.head? = some ':') :
    readLine hi l = readHex hi l := by
  simp [readLine, h]

theorem upperAfter_append (hi : Nat) (a b : List Record) :
    upperAfter hi (a ++ b) = upperAfter (upperAfter hi a) b := by simp [upperAfter]

theorem dataOf_append (a b : List Record) : dataOf (a ++ b) = dataOf a ++ dataOf b := by
  induction a with
  | nil => rfl
  | cons r a ih => cases r <;> simp [dataOf, ih]

/-- Records as `flushscoderaw` writes them for one block: maybe an address record, then the data. -/
inductive BlockRecs (start : Word) (data : List Byte) : List Record → Prop
  | plain : BlockRecs start data [.data (start.toNat % 2 ^ 32) (nats data)]
  | ext : BlockRecs start data
      [.upper (start.toNat / 65536 % 65536), .data (start.toNat % 2 ^ 32) (nats data)]

theorem BlockRecs.dataOf {start : Word} {data : List Byte} {rs : List Record}
    (h : BlockRecs start data rs) : Spec.dataOf rs = [(start.toNat % 2 ^ 32, nats data)] := by
  cases h <;> rfl

/-- Appending one block to a readable file. -/
theorem blockText_reads (hex : Bool) (ext : BitVec 32) (start : Word) (data : List Byte)
    (hlen : data.length ≤ 16) (f : Str) (rf : List Record) (hf : readFile f = some rf)
    (hu : upperAfter 0 rf = ext.toNat / 65536) :
    ∃ rg, readFile (f ++ (blockText hex ext start data).1) = some (rf ++ rg) ∧
      upperAfter 0 (rf ++ rg) = (blockText hex ext start data).2.toNat / 65536 ∧
      BlockRecs start data rg := by
  have hs := start.isLt
  have he := ext.isLt
  cases hex with
  | false =>
    obtain ⟨l, h1, h2, h3, h4⟩ := readS_sRecord start data hlen
    refine ⟨_, ?_, ?_, .plain⟩
    · refine readFile_append f _ rf _ [l] hf ?_ ?_
      · simp only [blockText, Bool.false_eq_true, if_false, h1]
        rw [lines?_line l [] h2]; rfl
      · simp [readLines, readLine_S _ _ h3, h4]
    · rw [upperAfter_append, hu]; simp [upperAfter, nextUpper, blockText]
  | true =>
    obtain ⟨l, h1, h2, h3, h4⟩ := readHex_data (upperAfter 0 rf) start data hlen
    cases hn : needExt ext start with
    | false =>
      have := needExt_false ext start hn
      refine ⟨_, ?_, ?_, .plain⟩
      · refine readFile_append f _ rf _ [l] hf ?_ ?_
        · simp only [blockText, if_true, hn, Bool.false_eq_true, if_false, h1]
          rw [lines?_line l [] h2]; rfl
        · simp only [readLines, readLine_hex _ _ h3, h4, Option.bind_eq_bind, Option.bind_some,
            Option.pure_def]
          rw [hu]
          congr 3
          omega
      · rw [upperAfter_append, hu]; simp [upperAfter, nextUpper, blockText, hn]
    | true =>
      obtain ⟨l', h1', h2', h3', h4'⟩ := readHex_ext (upperAfter 0 rf) start
      obtain ⟨l, h1, h2, h3, h4⟩ := readHex_data (start.toNat / 65536 % 65536) start data hlen
      refine ⟨_, ?_, ?_, .ext⟩
      · refine readFile_append f _ rf _ [l', l] hf ?_ ?_
        · simp only [blockText, if_true, hn, h1, h1', List.append_assoc, List.singleton_append]
          rw [lines?_line l' _ h2', lines?_line l [] h2]; rfl
        · simp only [readLines, readLine_hex _ _ h3, readLine_hex _ _ h3', h4', nextUpper, h4,
            Option.bind_eq_bind, Option.bind_some, Option.pure_def]
          congr 4
          omega
      · rw [upperAfter_append, hu]; simp [upperAfter, nextUpper, blockText, hn]; omega

end Crasm

import Verif.Proof.Rows
import Verif.Proof.Gen

/-!
How the bytes of a statement get into the listing.
-/

namespace Crasm
open _root_.Spec.Listing (Text hex row rows rowsN perRow most dots bytes)

/-! ### One more byte in the rows -/

theorem rows_last {d : Nat} (hd : 0 < perRow d) (a : Nat) {bs : List Nat} (h : bs ≠ []) :
    ∃ r l, rows d a bs = r ++ [l] ∧ l.length = d + 1 + 2 * (if bs.length % perRow d = 0 then perRow d else bs.length % perRow d) := by
  rcases rows_snoc hd 0 bs.length a bs (Nat.le_refl _) with ⟨h1, -, h3⟩ | ⟨h1, r, l, h2, -, h4⟩
  · obtain ⟨r, l, h4, h5⟩ := h3 h
    exact ⟨r, l, h4, by rw [if_pos h1]; exact h5⟩
  · exact ⟨r, l, h2, by rw [if_neg h1]; exact h4⟩

theorem bytes_nil (d a : Nat) : bytes d a [] = [] := by
  unfold bytes
  rw [if_pos (by simp), rows_nil]

/-- How the next byte is shown, when `l` is in the margin. -/
theorem bytes_snoc {d : Nat} (hd : d = 4 ∨ d = 6 ∨ d = 8) (a : Nat) (bs : List Nat) (b : Nat) :
    (bs = [] ∧ bytes d a (bs ++ [b]) = [row d a [b]]) ∨
    (∃ r l, bytes d a bs = r ++ [l] ∧ l ≠ [] ∧ (
      (16 < l.length ∧ 20 < bs.length ∧ l.length ≤ 18 ∧ bytes d a (bs ++ [b]) = r ++ [l ++ c!"..."]) ∨
      (16 < l.length ∧ 20 < bs.length ∧ 18 < l.length ∧ bytes d a (bs ++ [b]) = r ++ [l]) ∨
      (bs.length ≤ 20 ∧ 18 < l.length ∧ bytes d a (bs ++ [b]) = r ++ [l, row d (a + bs.length) [b]]) ∨
      (¬ (16 < l.length ∧ 20 < bs.length) ∧ l.length ≤ 18 ∧ bytes d a (bs ++ [b]) = r ++ [l ++ hex 2 b]))) := by
  have hq : 0 < perRow d := by rcases hd with rfl | rfl | rfl <;> decide
  by_cases hn : bs = []
  · left
    refine ⟨hn, ?_⟩
    subst hn
    rcases rows_snoc hq b 0 a [] (Nat.le_refl _) with ⟨-, h2, -⟩ | ⟨h1, -⟩
    · unfold bytes
      rw [if_pos (by show 1 ≤ most d; rcases hd with rfl | rfl | rfl <;> decide), h2]
      rfl
    · simp at h1
  right
  have hl : 0 < bs.length := List.length_pos_iff.2 hn
  by_cases hm : bs.length < most d
  · -- there is room for it
    have eb : bytes d a bs = rows d a bs := by unfold bytes; rw [if_pos (by omega)]
    have eb' : bytes d a (bs ++ [b]) = rows d a (bs ++ [b]) := by
      unfold bytes; rw [if_pos (by rw [List.length_append]; exact hm)]
    rw [eb, eb']
    rcases rows_snoc hq b bs.length a bs (Nat.le_refl _) with ⟨h1, h2, h3⟩ | ⟨h1, r, l, h2, h3, h4⟩
    · obtain ⟨r, l, h4, h5⟩ := h3 hn
      refine ⟨r, l, h4, by rintro rfl; simp at h5; omega, .inr (.inr (.inl ⟨?_, ?_, ?_⟩))⟩
      · rcases hd with rfl | rfl | rfl <;> simp only [perRow, most] at h1 hm <;> simp at h1 hm <;> omega
      · rw [h5]; rcases hd with rfl | rfl | rfl <;> decide
      · rw [h2, h4]; simp
    · refine ⟨r, l, h2, by rintro rfl; simp at h4; omega, .inr (.inr (.inr ⟨?_, ?_, h3⟩))⟩
      · rw [h4]
        rcases hd with rfl | rfl | rfl <;> simp only [perRow, most] at h1 hm ⊢ <;> simp at h1 hm ⊢ <;> omega
      · rw [h4]
        rcases hd with rfl | rfl | rfl <;> simp only [perRow] <;> simp <;> omega
  · -- there is none
    have et : (bs ++ [b]).take (most d) = bs.take (most d) := List.take_append_of_le_length (by omega)
    have ne : bs.take (most d) ≠ [] := by
      intro h
      have := congrArg List.length h
      rw [List.length_take] at this
      rcases hd with rfl | rfl | rfl <;> simp [most] at this hm <;> simp [this] at hn
    have el : (bs.take (most d)).length = most d := by rw [List.length_take]; omega
    obtain ⟨r, l, h1, h2⟩ := rows_last hq a ne
    rw [el] at h2
    have eb' : bytes d a (bs ++ [b]) = r ++ [l ++ dots d] := by
      unfold bytes
      rw [if_neg (by rw [List.length_append]; simp; omega), et, h1]
      simp
    by_cases he : bs.length = most d
    · have eb : bytes d a bs = r ++ [l] := by
        unfold bytes
        rw [if_pos (by omega), ← h1, ← he, List.take_length]
      refine ⟨r, l, eb, by rintro rfl; simp at h2; omega, ?_⟩
      rw [eb', h2]
      rcases hd with rfl | rfl | rfl
      · exact .inr (.inl ⟨by decide, by simp [most] at he; omega, by decide, by simp [dots]⟩)
      · exact .inl ⟨by decide, by simp [most] at he; omega, by decide, by simp [dots]⟩
      · exact .inl ⟨by decide, by simp [most] at he; omega, by decide, by simp [dots]⟩
    · have eb : bytes d a bs = r ++ [l ++ dots d] := by
        unfold bytes
        rw [if_neg (by omega), h1]
        simp
      refine ⟨r, l ++ dots d, eb, by intro h; have := congrArg List.length h; rw [List.length_append, h2] at this; simp at this, .inr (.inl ?_)⟩
      rw [eb', List.length_append, h2]
      rcases hd with rfl | rfl | rfl
      · exact ⟨by decide, by simp [most] at hm; omega, by decide, rfl⟩
      · exact ⟨by decide, by simp [most] at hm; omega, by decide, rfl⟩
      · exact ⟨by decide, by simp [most] at hm; omega, by decide, rfl⟩

/-! ### The margin -/

/-- The flags are left as they are. -/
class Flagged (m : M α) : Prop where
  run : ∀ {s a s'}, m s = .ok a s' → s'.flags = s.flags

theorem Flagged.bind {m : M α} {f : α → M β} (hm : Flagged m) (hf : ∀ a, Flagged (f a)) : Flagged (m >>= f) := ⟨fun h => by
  obtain ⟨a, s1, h1, h2⟩ := bind_ok h
  rw [(hf a).run h2, hm.run h1]⟩
theorem Flagged.pure (a : α) : Flagged (Pure.pure a : M α) := ⟨fun h => by cases h; rfl⟩
theorem Flagged.getS : Flagged Crasm.getS := ⟨fun h => by cases h; rfl⟩
theorem Flagged.same {g : St → St} (h : ∀ s, (g s).flags = s.flags) : Flagged (Crasm.modS g) := ⟨fun {s a s'} hr => by cases hr; exact h s⟩
theorem Flagged.whenM {c : Prop} [Decidable c] {a : M Unit} (ha : Flagged a) : Flagged (whenM c a) := by
  unfold Crasm.whenM; split
  · exact ha
  · exact Flagged.pure _

macro "flagged" : tactic => `(tactic| repeat' (first
  | infer_instance
  | exact Flagged.pure _
  | exact Flagged.getS
  | exact Flagged.same fun _ => rfl
  | with_reducible refine Flagged.bind ?_ (fun _ => ?_)
  | with_reducible refine Flagged.whenM ?_
  | dsimp only
  | split))

instance (u : UB) : Flagged (ubM u : M α) := ⟨fun h => by cases h⟩
instance (m : Str) : Flagged (fatal m : M α) := ⟨fun h => by cases h⟩
instance (w : Stop) : Flagged (stopWith w : M α) := ⟨fun h => by cases h⟩
instance (f : Lst → Lst) : Flagged (modLst f) := Flagged.same fun _ => rfl
instance (s pat : Str) : Flagged (filterC s pat) := by unfold filterC; flagged
instance (t : Str) : Flagged (outputraw t) := by unfold outputraw; flagged
instance : Flagged outputEOL := by unfold outputEOL; flagged
instance (c : Char) : Flagged (putRaw c) := by unfold putRaw; flagged
instance : Flagged putSpace := by unfold putSpace; flagged
instance flat_putSpaces (n : Nat) : Flagged (putSpaces n) := by
  induction n with
  | zero => exact Flagged.pure _
  | succ n ih => unfold putSpaces; flagged
instance (n : Nat) : Flagged (position n) := by unfold position; flagged
instance flat_tryPats (t : Str) (ps : List Str) : Flagged (tryPats t ps) := by
  induction ps with
  | nil => exact Flagged.pure _
  | cons p ps ih => unfold tryPats; flagged
instance (c : Char) : Flagged (wrapLine c) := by unfold wrapLine; flagged
instance (c : Char) : Flagged (outputcar c) := by unfold outputcar; flagged
instance flat_output (t : Str) : Flagged (output t) := by
  induction t with
  | nil => exact Flagged.pure _
  | cons c t ih => unfold output; flagged
instance (a : Word) : Flagged (outputaddr a) := by unfold outputaddr; flagged
instance (b : Byte) : Flagged (outputbyte b) := by unfold outputbyte; flagged
instance : Flagged outputline := by unfold outputline; flagged
instance (m : Str) : Flagged (warning m) := by unfold warning; flagged

theorem printed_view (t : Str) (l : Lst) : (printed t l).lines = t :: l.lines ∧ (printed t l).mypc = l.mypc := by
  unfold printed
  dsimp only
  split <;> split <;> exact ⟨rfl, rfl⟩

theorem raw_shown {t : Str} {s s' : St} {u : Unit} (hl : s.flags.listOn = true) (h : outputraw t s = .ok u s') :
    s' = { s with lst := printed t s.lst } := by
  unfold outputraw at h
  rw [getS_bind_run, if_pos hl] at h
  cases h
  rfl

theorem eol_shown {s s' : St} {u : Unit} (hl : s.flags.listOn = true) (h : outputEOL s = .ok u s') :
    s' = { s with lst := { printed s.lst.line.reverse s.lst with lpos := 0, line := [] } } := by
  unfold outputEOL at h
  rw [getS_bind_run] at h
  obtain ⟨_, s1, h1, h⟩ := bind_ok h
  rw [raw_shown hl h1] at h
  cases h
  rfl

/-- A line of the listing printed by a warning. -/
def Remark (t : Str) : Prop := ∃ n m, t = diagText c!" WARNING: " n m

/-- The lines that are not remarks. -/
def plain (ts : List (Bool × Str)) : List Str := (ts.filter fun t => !t.1).map Prod.snd

theorem plain_append (a b : List (Bool × Str)) : plain (a ++ b) = plain a ++ plain b := by
  unfold plain
  rw [List.filter_append, List.map_append]

def natsOf (bs : List Byte) : List Nat := bs.map BitVec.toNat

/-- The bytes `bs`, from address `a` on, have been listed since the state `base`: those that are not in the
    lines printed are in the line buffer. -/
structure Lined (s : St) (base : St) (a : Word) (bs : List Byte) : Prop where
  on : s.flags.codeOn = true
  list : s.flags.listOn = true
  wide : 39 ≤ s.lst.llen
  llen : s.lst.llen = base.lst.llen
  adv : s.advance = bs.length
  pc : s.code.pc = a + BitVec.ofNat 64 bs.length
  next : bs ≠ [] → s.lst.mypc = s.code.pc ∨ 20 < bs.length ∧ 16 < s.lst.lpos
  pos : s.lst.line.length = s.lst.lpos
  shown : ∃ ts : List (Bool × Str), s.lst.lines = (ts.map Prod.snd).reverse ++ base.lst.lines ∧ (∀ t ∈ ts, t.1 = true → Remark t.2) ∧
    bytes (addrDigits s.flags) a.toNat (natsOf bs) = plain ts ++ (if bs = [] then [] else [s.lst.line.reverse]) ∧
    (bs = [] → s.lst.line = [])

theorem digits_cases (f : Flags) : addrDigits f = 4 ∨ addrDigits f = 6 ∨ addrDigits f = 8 := by
  unfold addrDigits; split <;> (try split) <;> simp

theorem row_word {d : Nat} (hd : d = 4 ∨ d = 6 ∨ d = 8) (a : Word) (n : Nat) (bs : List Nat) :
    row d (a + BitVec.ofNat 64 n).toNat bs = row d (a.toNat + n) bs := by
  refine row_mod ?_ bs
  rw [BitVec.toNat_add, BitVec.toNat_ofNat]
  rcases hd with rfl | rfl | rfl <;> omega

/-- `outputbyte` in the cases that it prints the byte. -/
theorem byte_low {b : Byte} {s s' : St} {u : Unit} (hf : Fits s.lst) (hp : s.lst.lpos ≤ 18) {w : Word}
    (h : (do output (hexField 2 b.toNat); modLst fun l => { l with mypc := w } : M Unit) s = .ok u s') :
    s'.lst = { s.lst with line := (hex 2 b.toNat).reverse ++ s.lst.line, lpos := s.lst.lpos + 2, mypc := w } := by
  obtain ⟨s1, h1, e1⟩ := output_fits (hexField 2 b.toNat) (s := s) hf (by rw [hexField_length]; omega) fun c hc => .inl (hexField_shown _ _ c hc)
  rw [bind_run, h1] at h
  cases h
  show ({ s1.lst with mypc := w } : Lst) = _
  rw [e1, hexField_length, hexField_hex]

theorem Lined.byte {s s' : St} {base : St} {a : Word} {bs : List Byte} {b : Byte} {u : Unit} (h : Lined s base a bs)
    (hr : outputbyte b s = .ok u s') : ∃ ts : List (Bool × Str), s'.lst.lines = (ts.map Prod.snd).reverse ++ base.lst.lines ∧
      (∀ t ∈ ts, t.1 = true → Remark t.2) ∧
      bytes (addrDigits s.flags) a.toNat (natsOf (bs ++ [b])) = plain ts ++ [s'.lst.line.reverse] ∧
      s'.lst.line.length = s'.lst.lpos ∧ s'.lst.llen = s.lst.llen ∧
      (s'.lst.mypc = s.code.pc + 1 ∨ 20 < bs.length ∧ 16 < s'.lst.lpos) := by
  have hd := digits_cases s.flags
  have hdl := addrDigits_le s.flags
  obtain ⟨ts, t1, t2, t3, t4⟩ := h.shown
  have en : natsOf (bs ++ [b]) = natsOf bs ++ [b.toNat] := by simp [natsOf]
  have el : (natsOf bs).length = bs.length := by simp [natsOf]
  have ez : natsOf bs = [] ↔ bs = [] := by simp [natsOf]
  rw [en]
  have fits : Fits s.lst := ⟨h.pos, h.wide⟩
  have adv : (20 < s.advance) ↔ 20 < bs.length := by rw [h.adv]; omega
  -- the byte behind its address at the start of a line
  have first : ∀ {s1 s' : St} {u : Unit}, s1.lst.lpos = 0 → s1.lst.line = [] → 39 ≤ s1.lst.llen → s1.flags = s.flags → s1.code = s.code →
      (do whenM (s1.lst.lpos = 0) (outputaddr s1.code.pc); output (hexField 2 b.toNat); modLst fun l => { l with mypc := s1.code.pc + 1 } : M Unit) s1 = .ok u s' →
      s'.lst.lines = s1.lst.lines ∧ s'.lst.line.reverse = row (addrDigits s.flags) (a.toNat + bs.length) [b.toNat] ∧ s'.lst.line.length = s'.lst.lpos ∧
        s'.lst.llen = s1.lst.llen ∧ s'.lst.mypc = s.code.pc + 1 := by
    intro s1 s' u e0 el1 ew ef ec hr
    unfold whenM at hr
    rw [if_pos e0] at hr
    obtain ⟨u1, s2, h2, hr⟩ := bind_ok hr
    obtain ⟨s2', h2', e2⟩ := addr_fits (a := s1.code.pc) (s := s1) ⟨by rw [e0, el1]; rfl, ew⟩ (by omega)
    rw [h2] at h2'
    cases h2'
    have e3 := byte_low (s := s2) (by rw [e2]; exact ⟨by show (_ ++ s1.lst.line).length = s1.lst.lpos + _; rw [el1, e0]; simp [hexField_length], ew⟩)
      (by rw [e2]; show s1.lst.lpos + _ ≤ 18; rw [e0, ef]; omega) hr
    rw [e2, el1, e0, ef, ec] at e3
    rw [e3]
    refine ⟨rfl, ?_, ?_, rfl, rfl⟩
    · show ((hex 2 b.toNat).reverse ++ ((hexField (addrDigits s.flags) s.code.pc.toNat ++ c!" ").reverse ++ [])).reverse = _
      rw [← row_word hd, ← h.pc, hexField_hex]
      simp [row]
    · show ((hex 2 b.toNat).reverse ++ ((hexField (addrDigits s.flags) s.code.pc.toNat ++ c!" ").reverse ++ [])).length = _
      simp [hexField_length, hex_length]
      omega
  unfold outputbyte at hr
  rw [getS_bind_run] at hr
  rcases bytes_snoc hd a.toNat (natsOf bs) b.toNat with ⟨hn, hb⟩ | ⟨r, l, hb0, hl, hb⟩
  · -- the first byte
    have hn := ez.1 hn
    have l0 := t4 hn
    have p0 : s.lst.lpos = 0 := by rw [← h.pos, l0]; rfl
    rw [if_neg (by rw [adv, hn]; simp)] at hr
    obtain ⟨u1, s1, h1, hr⟩ := bind_ok hr
    unfold whenM at h1
    rw [if_neg (by rw [p0]; simp)] at h1
    cases h1
    rw [getS_bind_run] at hr
    obtain ⟨u1, s1, h1, hr⟩ := bind_ok hr
    unfold whenM at h1
    rw [if_neg (by rw [p0]; simp)] at h1
    cases h1
    rw [getS_bind_run] at hr
    obtain ⟨e1, e2, e3, e4, e5⟩ := first p0 l0 h.wide rfl rfl hr
    rw [if_pos hn, hn] at t3
    rw [show natsOf [] = ([] : List Nat) from rfl, bytes_nil] at t3
    refine ⟨ts, by rw [e1, t1], t2, ?_, e3, e4, .inl e5⟩
    rw [hb, e2, hn]
    rw [show plain ts = [] by simpa using t3.symm]
    rfl
  · have hn : bs ≠ [] := fun e => by rw [e, show natsOf [] = ([] : List Nat) from rfl, bytes_nil] at hb0; simp at hb0
    rw [if_neg hn, hb0] at t3
    obtain ⟨t5, t6⟩ := List.append_inj' t3 rfl
    have t6 : l = s.lst.line.reverse := by simpa using t6
    have pl : l.length = s.lst.lpos := by rw [t6, List.length_reverse, h.pos]
    rw [pl, el] at hb
    rcases hb with ⟨b1, b2, b3, b4⟩ | ⟨b1, b2, b3, b4⟩ | ⟨b2, b3, b4⟩ | ⟨b2, b3, b4⟩
    · rw [if_pos ⟨adv.2 b2, b1⟩] at hr
      unfold whenM at hr
      rw [if_pos (show s.lst.lpos ≤ NMARGIN - 3 from b3)] at hr
      obtain ⟨s1, h1, e1⟩ := output_fits c!"..." (s := s) fits (by show s.lst.lpos + 3 ≤ 39; omega) (by decide)
      rw [h1] at hr
      cases hr
      rw [e1]
      refine ⟨ts, t1, t2, ?_, ?_, rfl, .inr ⟨b2, ?_⟩⟩
      · rw [b4, t5, t6]
        simp
      · show (_ ++ s.lst.line).length = s.lst.lpos + 3
        rw [List.length_append, h.pos]
        simp
        omega
      · show 16 < s.lst.lpos + 3
        omega
    · rw [if_pos ⟨adv.2 b2, b1⟩] at hr
      unfold whenM at hr
      rw [if_neg (show ¬ s.lst.lpos ≤ NMARGIN - 3 by show ¬ s.lst.lpos ≤ 18; omega)] at hr
      cases hr
      exact ⟨ts, t1, t2, by rw [b4, t5, t6], h.pos, rfl, .inr ⟨b2, b1⟩⟩
    · rw [if_neg (by rw [adv]; omega)] at hr
      obtain ⟨u1, s1, h1, hr⟩ := bind_ok hr
      unfold whenM at h1
      rw [if_pos (show NMARGIN - 3 < s.lst.lpos from b3)] at h1
      have e1 := eol_shown h.list h1
      obtain ⟨v1, v2, v3⟩ := printed_line s.lst.line.reverse s.lst
      obtain ⟨v4, v5⟩ := printed_view s.lst.line.reverse s.lst
      rw [getS_bind_run] at hr
      obtain ⟨u1, s2, h2, hr⟩ := bind_ok hr
      unfold whenM at h2
      rw [if_neg (by rw [e1]; simp)] at h2
      cases h2
      rw [getS_bind_run] at hr
      have w0 : s1.lst.lpos = 0 := by rw [e1]
      have w1 : s1.lst.line = [] := by rw [e1]
      have w2 : s1.lst.llen = s.lst.llen := by rw [e1]; exact v3
      have w3 : s1.flags = s.flags := by rw [e1]
      have w4 : s1.code = s.code := by rw [e1]
      have w5 : s1.lst.lines = s.lst.line.reverse :: s.lst.lines := by rw [e1]; exact v4
      obtain ⟨e1, e2, e3, e4, e5⟩ := first w0 w1 (by rw [w2]; exact h.wide) w3 w4 hr
      refine ⟨ts ++ [(false, s.lst.line.reverse)], ?_, ?_, ?_, e3, ?_, .inl e5⟩
      · rw [e1, w5, t1]
        simp
      · intro t ht
        rcases List.mem_append.1 ht with ht | ht
        · exact t2 t ht
        · simp at ht
          simp [ht]
      · rw [b4, plain_append, t5, t6, e2]
        simp [plain]
      · rw [e4, w2]
    · rw [if_neg (by rw [adv]; exact fun h => b2 ⟨h.2, h.1⟩)] at hr
      have hp : s.lst.lpos ≠ 0 := by
        rw [← pl]
        intro e
        exact hl (List.eq_nil_of_length_eq_zero e)
      obtain ⟨u1, s1, h1, hr⟩ := bind_ok hr
      unfold whenM at h1
      rw [if_neg (show ¬ NMARGIN - 3 < s.lst.lpos by show ¬ 18 < s.lst.lpos; omega)] at h1
      cases h1
      rw [getS_bind_run] at hr
      obtain ⟨u1, s1, h1, hr⟩ := bind_ok hr
      unfold whenM at h1
      have hm : s.lst.mypc = s.code.pc := by
        rcases h.next hn with h | h
        · exact h
        · exact absurd ⟨h.2, h.1⟩ b2
      rw [if_neg (by rw [hm]; simp)] at h1
      cases h1
      rw [getS_bind_run] at hr
      obtain ⟨u1, s1, h1, hr⟩ := bind_ok hr
      unfold whenM at h1
      rw [if_neg hp] at h1
      cases h1
      have e3 := byte_low fits b3 hr
      rw [e3]
      refine ⟨ts, t1, t2, ?_, ?_, rfl, .inl rfl⟩
      · rw [b4, t5, t6]
        simp
      · show (_ ++ s.lst.line).length = s.lst.lpos + 2
        rw [List.length_append, h.pos, List.length_reverse, hex_length]
        omega

/-- What is not changed within a statement. -/
structure Stays (s s' : St) : Prop where
  on : s'.flags.codeOn = s.flags.codeOn
  a16 : s'.flags.addr16 = s.flags.addr16
  a24 : s'.flags.addr24 = s.flags.addr24
  num : s'.linenumber = s.linenumber
  line : s'.curline = s.curline
  mark : s'.lineprefix = s.lineprefix
  level : s'.macrolevel = s.macrolevel
  pass : s'.passnumber = s.passnumber

theorem Stays.refl (s : St) : Stays s s := ⟨rfl, rfl, rfl, rfl, rfl, rfl, rfl, rfl⟩
theorem Stays.trans {a b c : St} (h : Stays a b) (h' : Stays b c) : Stays a c :=
  ⟨h'.on.trans h.on, h'.a16.trans h.a16, h'.a24.trans h.a24, h'.num.trans h.num, h'.line.trans h.line, h'.mark.trans h.mark,
    h'.level.trans h.level, h'.pass.trans h.pass⟩
theorem Stays.digits {s s' : St} (h : Stays s s') : addrDigits s'.flags = addrDigits s.flags := by
  unfold addrDigits
  rw [h.a16, h.a24]
theorem SameBut.keep {s s' : St} (h : SameBut s s') : Stays s s' := by
  obtain ⟨_, _, _, rfl⟩ := h
  exact ⟨rfl, rfl, rfl, rfl, rfl, rfl, rfl, rfl⟩

/-- Nothing but a margin is in the line buffer, and only remarks have been printed since the state `base`. -/
structure Marg (s base : St) (m : Str) : Prop where
  list : s.flags.listOn = true
  wide : 39 ≤ s.lst.llen
  llen : s.lst.llen = base.lst.llen
  line : s.lst.line.reverse = m
  pos : s.lst.line.length = s.lst.lpos
  shown : ∃ ts : List (Bool × Str), s.lst.lines = (ts.map Prod.snd).reverse ++ base.lst.lines ∧ ∀ t ∈ ts, t.1 = true ∧ Remark t.2

/-- Bytes are generated, and listed as they should. -/
def Shown (s s' : St) : Prop := Stays s s' ∧ ∃ bs : List Byte,
  s'.log = (byteEvents s.passnumber s.flags.codeOn s.code.pc bs).reverse ++ s.log ∧
  s'.code.pc = s.code.pc + BitVec.ofNat 64 bs.length ∧ s'.advance = s.advance + bs.length ∧
  (∀ base a bs0, Lined s base a bs0 → Lined s' base a (bs0 ++ bs)) ∧
  (s.flags.codeOn = false ∨ bs = [] → ∀ base m, Marg s base m → Marg s' base m)

theorem Shown.trans {a b c : St} (h : Shown a b) (h' : Shown b c) : Shown a c := by
  obtain ⟨k, bs, h1, h2, h3, h4⟩ := h
  obtain ⟨k', cs, g1, g2, g3, g4⟩ := h'
  refine ⟨k.trans k', bs ++ cs, ?_, ?_, ?_, fun base a bs0 r => ?_, fun ho base m r => ?_⟩
  · rw [g1, h1, k.pass, h2, k.on, byteEvents_append]
    simp
  · rw [g2, h2, List.length_append, BitVec.ofNat_add, BitVec.add_assoc]
  · rw [g3, h3, List.length_append]; omega
  · rw [← List.append_assoc]
    exact g4.1 _ _ _ (h4.1 _ _ _ r)
  · have e : bs ++ cs = [] → bs = [] ∧ cs = [] := List.append_eq_nil_iff.1
    exact g4.2 (ho.imp (fun h => k.on.trans h) fun h => (e h).2) _ _ (h4.2 (ho.imp_right fun h => (e h).1) _ _ r)

/-- Nothing is generated. -/
theorem Shown.idle {s s' : St} (h : Shown s s') (ha : s'.advance = s.advance) :
    s'.log = s.log ∧ ∀ base m, Marg s base m → Marg s' base m := by
  obtain ⟨-, bs, h1, -, h3, -, h5⟩ := h
  have e : bs = [] := List.eq_nil_of_length_eq_zero (by omega)
  subst e
  exact ⟨h1, h5 (.inr rfl)⟩

/-- Nothing that matters here is changed. -/
structure Still' (s s' : St) : Prop where
  keep : Stays s s'
  list : s'.flags.listOn = s.flags.listOn
  llen : s'.lst.llen = s.lst.llen
  lines : s'.lst.lines = s.lst.lines
  line : s'.lst.line = s.lst.line
  lpos : s'.lst.lpos = s.lst.lpos
  mypc : s'.lst.mypc = s.lst.mypc
  pc : s'.code.pc = s.code.pc
  adv : s'.advance = s.advance
  log : s'.log = s.log

theorem Still'.marg {s s' base : St} {m : Str} (h : Still' s s') (r : Marg s base m) : Marg s' base m :=
  ⟨h.list.trans r.list, by rw [h.llen]; exact r.wide, h.llen.trans r.llen, by rw [h.line]; exact r.line, by rw [h.line, h.lpos]; exact r.pos,
    by rw [h.lines]; exact r.shown⟩

theorem Still'.shown {s s' : St} (h : Still' s s') : Shown s s' := by
  refine ⟨h.keep, [], by rw [h.log]; rfl, by rw [h.pc]; simp, by rw [h.adv]; simp, fun base a bs0 r => ?_, fun _ _ _ => h.marg⟩
  rw [List.append_nil]
  refine ⟨h.keep.on.trans r.on, h.list.trans r.list, by rw [h.llen]; exact r.wide, h.llen.trans r.llen, h.adv.trans r.adv, h.pc.trans r.pc,
    by rw [h.mypc, h.pc, h.lpos]; exact r.next, by rw [h.line, h.lpos]; exact r.pos, ?_⟩
  rw [h.lines, h.line, h.keep.digits]
  exact r.shown

class Lists (m : M α) : Prop where
  run : ∀ {s a s'}, m s = .ok a s' → Shown s s'

theorem Shown.refl (s : St) : Shown s s :=
  Still'.shown ⟨.refl s, rfl, rfl, rfl, rfl, rfl, rfl, rfl, rfl, rfl⟩
theorem Lists.bind {m : M α} {f : α → M β} (hm : Lists m) (hf : ∀ a, Lists (f a)) : Lists (m >>= f) := ⟨fun h => by
  obtain ⟨a, s1, h1, h2⟩ := bind_ok h
  exact (hm.run h1).trans ((hf a).run h2)⟩
theorem Lists.pure (a : α) : Lists (Pure.pure a : M α) := ⟨fun h => by cases h; exact .refl _⟩
theorem Lists.getS : Lists Crasm.getS := ⟨fun h => by cases h; exact .refl _⟩
theorem Lists.same {g : St → St} (h : ∀ s, Still' s (g s)) : Lists (Crasm.modS g) := ⟨fun {s a s'} hr => by cases hr; exact (h s).shown⟩
theorem Lists.whenM {c : Prop} [Decidable c] {a : M Unit} (ha : Lists a) : Lists (whenM c a) := by
  unfold Crasm.whenM; split
  · exact ha
  · exact Lists.pure _

macro "lists'" : tactic => `(tactic| repeat' (first
  | infer_instance
  | exact Lists.pure _
  | exact Lists.getS
  | exact Lists.same fun _ => ⟨⟨rfl, rfl, rfl, rfl, rfl, rfl, rfl, rfl⟩, rfl, rfl, rfl, rfl, rfl, rfl, rfl, rfl, rfl⟩
  | with_reducible refine Lists.bind ?_ (fun _ => ?_)
  | with_reducible refine Lists.whenM ?_
  | dsimp only
  | split))

instance (u : UB) : Lists (ubM u : M α) := ⟨fun h => by cases h⟩
theorem shows_ub {u : UB} (_ : u ≠ .lineBuffer) : Lists (ubM u : M α) := inferInstance
instance (m : Str) : Lists (fatal m : M α) := ⟨fun h => by cases h⟩
instance (w : Stop) : Lists (stopWith w : M α) := ⟨fun h => by cases h⟩
instance : Lists (throwErr : M α) := ⟨fun h => by cases h⟩
instance : Lists zerobuffer := Lists.same fun _ => ⟨⟨rfl, rfl, rfl, rfl, rfl, rfl, rfl, rfl⟩, rfl, rfl, rfl, rfl, rfl, rfl, rfl, rfl, rfl⟩
instance (m : Str) : Lists (error m : M α) := ⟨fun h => absurd h error_not_ok⟩
instance (m : Str) : Lists (refuse m : M α) := ⟨fun h => absurd h refuse_not_ok⟩
instance (s pat : Str) : Lists (filterC s pat) := by unfold filterC; lists'
instance (s pat : Str) : Lists (filter0 s pat) := by unfold filter0; lists'
instance (s pat : Str) : Lists (filter1 s pat) := by unfold filter1; lists'
instance (s pat : Str) : Lists (filter2 s pat) := by unfold filter2; lists'

theorem warning_marg {m x : Str} {s s' base : St} {u : Unit} (r : Marg s base x) (hr : warning m s = .ok u s') : Marg s' base x := by
  unfold warning at hr
  rw [getS_bind_run] at hr
  unfold whenM at hr
  split at hr
  · rw [raw_shown r.list hr]
    obtain ⟨v1, v2, v3⟩ := printed_line (diagText c!" WARNING: " s.linenumber m) s.lst
    obtain ⟨v4, v5⟩ := printed_view (diagText c!" WARNING: " s.linenumber m) s.lst
    obtain ⟨ts, t1, t2⟩ := r.shown
    refine ⟨r.list, by rw [v3]; exact r.wide, v3.trans r.llen, by rw [v2]; exact r.line, by rw [v2, v1]; exact r.pos,
      ts ++ [(true, diagText c!" WARNING: " s.linenumber m)], ?_, ?_⟩
    · rw [v4, t1]
      simp
    · intro t ht
      rcases List.mem_append.1 ht with ht | ht
      · exact t2 t ht
      · simp at ht
        rw [ht]
        exact ⟨rfl, _, _, rfl⟩
  · cases hr
    exact r

instance (m : Str) : Lists (warning m) := ⟨fun {s a s'} hr => by
  have q := (inferInstance : Quiet (warning m)).run s
  rw [hr] at q
  have q : SameBut s s' := q
  refine ⟨q.keep, [], ?_, ?_, ?_, fun base a bs r => ?_, fun _ _ _ r => warning_marg r hr⟩
  · obtain ⟨_, _, _, rfl⟩ := q
    rfl
  · obtain ⟨_, _, _, rfl⟩ := q
    simp
  · obtain ⟨_, _, _, rfl⟩ := q
    simp
  rw [List.append_nil]
  unfold warning at hr
  rw [getS_bind_run] at hr
  unfold whenM at hr
  split at hr
  · rw [raw_shown r.list hr]
    obtain ⟨v1, v2, v3⟩ := printed_line (diagText c!" WARNING: " s.linenumber m) s.lst
    obtain ⟨v4, v5⟩ := printed_view (diagText c!" WARNING: " s.linenumber m) s.lst
    obtain ⟨ts, t1, t2, t3, t4⟩ := r.shown
    refine ⟨r.on, r.list, by rw [v3]; exact r.wide, v3.trans r.llen, r.adv, r.pc, by rw [v5, v1]; exact r.next, by rw [v2, v1]; exact r.pos,
      ts ++ [(true, diagText c!" WARNING: " s.linenumber m)], ?_, ?_, ?_, by rw [v2]; exact t4⟩
    · rw [v4, t1]
      simp
    · intro t ht
      rcases List.mem_append.1 ht with ht | ht
      · exact t2 t ht
      · simp at ht
        rw [ht]
        exact fun _ => ⟨_, _, rfl⟩
    · rw [plain_append, v2]
      rw [show plain [(true, diagText c!" WARNING: " s.linenumber m)] = [] from rfl, List.append_nil]
      exact t3
  · cases hr
    exact r⟩

instance : Lists openScode := ⟨fun {s a s'} h => by
  unfold openScode at h
  rw [getS_bind_run] at h
  split at h
  · split at h
    · cases h
      exact Still'.shown ⟨⟨rfl, rfl, rfl, rfl, rfl, rfl, rfl, rfl⟩, rfl, rfl, rfl, rfl, rfl, rfl, rfl, rfl, rfl⟩
    · cases h
  · cases h
    exact .refl _⟩

instance (x : Byte) : Lists (insert8 x) := ⟨fun {s u s'} hr => by
  obtain ⟨ho, q⟩ := insert8_ok hr
  refine ⟨?_, [x], ?_, ?_, ?_, fun base a bs0 r => ?_, fun hoff base m r => ?_⟩
  · obtain ⟨_, _, _, rfl⟩ := q
    exact ⟨rfl, rfl, rfl, rfl, rfl, rfl, rfl, rfl⟩
  · obtain ⟨_, _, _, rfl⟩ := q
    rfl
  · obtain ⟨_, _, _, rfl⟩ := q
    exact emitted_pc s x
  · obtain ⟨_, _, _, rfl⟩ := q
    rfl
  · unfold insert8 at hr
    rw [getS_bind_run, if_neg (by rw [ho]; simp)] at hr
    obtain ⟨_, s1, h1, hr⟩ := bind_ok hr
    obtain ⟨k1, cs, g1, g2, g3, g4⟩ := (inferInstance : Lists openScode).run h1
    have hcs : cs = [] := by
      have : s1.advance = s.advance := by
        unfold openScode at h1
        rw [getS_bind_run] at h1
        split at h1
        · split at h1 <;> cases h1; rfl
        · cases h1; rfl
      rw [this] at g3
      exact List.eq_nil_of_length_eq_zero (by omega)
    have r1 := g4.1 base a bs0 r
    rw [hcs, List.append_nil] at r1
    obtain ⟨_, s2, h2, hr⟩ := bind_ok hr
    unfold whenM at h2
    rw [if_pos r.on, modS_bind_run] at h2
    have r2 : Lined { s1 with code := { s1.code.push s1.flags.codeHex x with codelen := s1.code.codelen + 1 } } base a bs0 :=
      ⟨r1.on, r1.list, r1.wide, r1.llen, r1.adv, (push_pc _ _ _).trans r1.pc,
        fun h => (r1.next h).imp (fun h => h.trans (push_pc _ _ _).symm) id, r1.pos, r1.shown⟩
    obtain ⟨ts, t1, t2, t3, t4, t5, t6⟩ := r2.byte h2
    have f2 := (inferInstance : Flagged (outputbyte x)).run h2
    have q2 := (inferInstance : Quiet (outputbyte x)).run { s1 with code := { s1.code.push s1.flags.codeHex x with codelen := s1.code.codelen + 1 } }
    rw [h2] at q2
    have q2 : SameBut _ s2 := q2
    have ec : s2.code = { s1.code.push s1.flags.codeHex x with codelen := s1.code.codelen + 1 } := q2.code
    have ea : s2.advance = s1.advance := by obtain ⟨_, _, _, rfl⟩ := q2; rfl
    cases hr
    refine ⟨by show s2.flags.codeOn = true; rw [f2]; exact r1.on, by show s2.flags.listOn = true; rw [f2]; exact r1.list, by show 39 ≤ s2.lst.llen; rw [t5]; exact r1.wide, t5.trans r1.llen, ?_, ?_, fun _ => ?_, t4,
      ts, t1, t2, ?_, by simp⟩
    · show s2.advance + 1 = _
      rw [ea, r1.adv]
      simp
    · show s2.code.pc + 1 = _
      rw [ec, show ({ s1.code.push s1.flags.codeHex x with codelen := s1.code.codelen + 1 } : Code).pc = s1.code.pc from push_pc _ _ _, r1.pc,
        List.length_append, BitVec.ofNat_add, BitVec.add_assoc]
      rfl
    · show s2.lst.mypc = s2.code.pc + 1 ∨ _
      rw [ec]
      refine t6.imp id fun h => ⟨by rw [List.length_append]; omega, h.2⟩
    · rw [if_neg (by simp)]
      show bytes (addrDigits s2.flags) _ _ = _
      rw [f2]
      exact t3
  · unfold insert8 at hr
    rw [getS_bind_run, if_neg (by rw [ho]; simp)] at hr
    obtain ⟨_, s1, h1, hr⟩ := bind_ok hr
    obtain ⟨k1, cs, g1, g2, g3, g4⟩ := (inferInstance : Lists openScode).run h1
    have hoff : s.flags.codeOn = false := hoff.resolve_right (by simp)
    have r1 := g4.2 (.inl hoff) base m r
    obtain ⟨_, s2, h2, hr⟩ := bind_ok hr
    unfold whenM at h2
    rw [if_neg (by rw [hoff]; decide)] at h2
    cases h2
    cases hr
    exact ⟨r1.list, r1.wide, r1.llen, r1.line, r1.pos, r1.shown⟩⟩

instance : Lists bumpStar := by unfold bumpStar; lists'
instance (n : Note) : Lists (note n) := Lists.same fun _ => ⟨⟨rfl, rfl, rfl, rfl, rfl, rfl, rfl, rfl⟩, rfl, rfl, rfl, rfl, rfl, rfl, rfl, rfl, rfl⟩
instance (k : Str) (l : Label) : Lists (putLabel k l) := Lists.same fun _ => ⟨⟨rfl, rfl, rfl, rfl, rfl, rfl, rfl, rfl⟩, rfl, rfl, rfl, rfl, rfl, rfl, rfl, rfl, rfl⟩
instance (n : Str) : Lists (findlabel n) := by unfold findlabel; lists'
instance (n : Str) (f : LFlags) (t : LType) (v : Word) : Lists (deflabel n f t v) := by unfold deflabel; lists'
instance (r : Result) (t : LType) : Lists (checktype r t) := by unfold checktype; lists'

/-! ### parse.c, operator.c -/

instance (tgt : Bool) (r : Result) : Lists (setRes tgt r) := by unfold setRes; lists'
instance (tgt : Bool) (v : Nat) : Lists (cst tgt v) := by unfold cst; lists'
instance (tgt : Bool) (v : Except Str Nat) : Lists (cstE tgt v) := by unfold cstE; lists'
instance (tgt : Bool) (n : Str) : Lists (cstlabel tgt n) := by unfold cstlabel; lists'
instance shows_parseConst (tgt : Bool) (e : Str) (rows : List (Str × Base)) : Lists (parseConst tgt e rows) := by
  induction rows with
  | nil => unfold parseConst; lists'
  | cons r rows ih => obtain ⟨p, b⟩ := r; unfold parseConst; lists'
instance (tgt : Bool) (e : Str) : Lists (parseLeaf tgt e) := by unfold parseLeaf; lists'



theorem shows_finishOp (tgt : Bool) (o : OpRes) (h : ∀ u, o = .ub u → u ≠ .lineBuffer) : Lists (finishOp tgt o) := by
  cases o with
  | ok r => exact (inferInstance : Lists (setRes tgt r))
  | err m r => unfold finishOp; lists'
  | ub u => exact shows_ub (h u rfl)
  | hang => exact (inferInstance : Lists (stopWith .hang : M Result))

instance shows_firstMatch (e : Str) (alts : List (Str × Op2)) : Lists (firstMatch e alts) := by
  induction alts with
  | nil => exact Lists.pure _
  | cons x alts ih => obtain ⟨pat, op⟩ := x; unfold firstMatch; lists'

theorem shows_parseRows (rec : Bool → Str → M Result) (hrec : ∀ tgt x, Lists (rec tgt x)) (tgt : Bool) (e : Str)
    (rows : List Ent) : Lists (parseRows rec tgt e rows) := by
  induction rows with
  | nil => exact (inferInstance : Lists (parseLeaf tgt (creverse e)))
  | cons r rows ih =>
    cases r with
    | dya alts =>
      unfold parseRows
      refine Lists.bind inferInstance fun m => ?_
      rcases m with _ | ⟨c1, c2, op⟩
      · exact ih
      · dsimp only
        split
        · exact ih
        · exact Lists.bind (hrec _ _) fun p => Lists.bind (hrec _ _) fun a => shows_finishOp _ _ fun u => applyOp2_line
    | mon pat op =>
      unfold parseRows
      refine Lists.bind inferInstance fun r => ?_
      rcases r with _ | _ | ⟨c, ca⟩
      · exact ih
      · exact ih
      · exact Lists.bind (hrec _ _) fun p => shows_finishOp _ _ fun u => applyOp1_line
    | paren pat =>
      unfold parseRows
      refine Lists.bind inferInstance fun r => ?_
      rcases r with _ | _ | ⟨c, ca⟩
      · exact ih
      · exact ih
      · exact hrec _ _

instance shows_parse2 (n : Nat) (tgt : Bool) (e : Str) : Lists (parse2 n tgt e) := by
  induction n generalizing tgt e with
  | zero => unfold parse2; lists'
  | succ n ih => exact shows_parseRows (parse2 n) ih tgt e revTable
instance (o : Option Str) : Lists (parse o) := by unfold parse; lists'
instance (o : Option Str) : Lists (parseAbs o) := by unfold parseAbs; lists'

/-! ### Instructions -/

instance (x : BitVec 16) : Lists (insert16 x) := by unfold insert16; lists'
instance (x : BitVec 32) : Lists (insert32 x) := by unfold insert32; lists'
instance (c : BitVec 32) (o : Option Str) : Lists (relBranch c o) := by unfold relBranch; lists'

namespace C6800
instance (c : BitVec 32) (o : Option Str) : Lists (single c o) := by unfold single; lists'
instance (a : BitVec 32) (o : Str) : Lists (modeValue a o) := by unfold modeValue; lists'
instance shows_findmode (o : Option Str) (ms : List (Str × BitVec 32)) : Lists (findmode o ms) := by
  induction ms with
  | nil => unfold findmode; lists'
  | cons r rows ih => obtain ⟨p, b⟩ := r; unfold findmode; lists'
instance (a b c : BitVec 32) : Lists (codemode a b c) := by unfold codemode; lists'
instance (h : H6800) (m : Int) (o : Option Str) : Lists (call h m o) := by
  cases h with
  | branch => exact (inferInstance : Lists (relBranch _ o))
  | single => exact (inferInstance : Lists (single _ o))
  | standard => exact Lists.bind inferInstance fun r => (inferInstance : Lists (codemode _ _ _))
  | standard2 => show Lists (standard2 _ o); unfold standard2; lists'
  | standard3 => show Lists (standard3 _ o); unfold standard3; lists'
end C6800

namespace C6502
instance (c : BitVec 32) (o : Option Str) : Lists (single c o) := by unfold single; lists'
instance shows_searchMode (o : Str) (ms : List (Str × Nat)) : Lists (searchMode o ms) := by
  induction ms with
  | nil => unfold searchMode; lists'
  | cons r rows ih => obtain ⟨p, b⟩ := r; unfold searchMode; lists'
instance (m : Nat) (o : Str) : Lists (operand m o) := by unfold operand; lists'

instance (c : BitVec 32) (m : Nat) : Lists (opcodeFor c m) := by unfold opcodeFor; lists'
instance (c : BitVec 32) (o : Option Str) : Lists (standard c o) := by unfold standard; lists'
instance (h : H6502) (m : Int) (o : Option Str) : Lists (call h m o) := by
  cases h with
  | branch => exact (inferInstance : Lists (relBranch _ o))
  | single => exact (inferInstance : Lists (single _ o))
  | standard => exact (inferInstance : Lists (standard _ o))
end C6502

namespace Z80
instance shows_getIndexed (z : Z) (o : Str) (ps : List (Str × Idx × Option Bool)) : Lists (getIndexed z o ps) := by
  induction ps with
  | nil => exact Lists.pure _
  | cons r rows ih => obtain ⟨p, b, sg⟩ := r; unfold getIndexed; lists'
instance (z : Z) (v : Word) : Lists (setArg z v) := by unfold setArg; lists'
instance (r : Result) : Lists (singleReg r) := by unfold singleReg; lists'
instance (z : Z) (n : Int) : Lists (regResult z n) := by unfold regResult; lists'
instance (z : Z) (o : Str) : Lists (getreg z o) := by unfold getreg; lists'
instance (z : Z) (c : BitVec 32) : Lists (docode z c) := by unfold docode; lists'
instance (c : BitVec 32) (o : Option Str) : Lists (simple c o) := by unfold simple; lists'
instance shows_findCond (o : Str) (ps : List Str) : ∀ i, Lists (findCond o i ps) := by
  induction ps with
  | nil => intro i; unfold findCond; lists'
  | cons r rows ih => intro i; unfold findCond; lists'
instance (n : Nat) (o : Option Str) : Lists (searchcond n o) := by unfold searchcond; lists'
instance (a b : Byte) (o : Option Str) : Lists (condJump a b o) := by unfold condJump; lists'
instance shows_firstOf (o : Str) (ps : List Str) : Lists (firstOf o ps) := by
  induction ps with
  | nil => exact Lists.pure _
  | cons r rows ih => unfold firstOf; lists'
instance (z : Z) (o : Str) : Lists (exAf z o) := by unfold exAf; lists'
instance (o : Option Str) : Lists (ex o) := by unfold ex; lists'
instance (c : BitVec 32) (o : Str) : Lists (inoutOps c o) := by unfold inoutOps; lists'
instance (c : BitVec 32) (o : Option Str) : Lists (inout c o) := by unfold inout; lists'
instance (z : Z) (c : BitVec 32) (o : Str) : Lists (logicalTail z c o) := by unfold logicalTail; lists'
instance (c : BitVec 32) (o : Option Str) : Lists (logical c o) := by unfold logical; lists'
instance (c : BitVec 32) (o : Option Str) : Lists (arith c o) := by unfold arith; lists'
instance (o : Option Str) : Lists (ld o) := by unfold ld; lists'
instance (h : HZ80) (m : Int) (o : Option Str) : Lists (call h m o) := by
  cases h with
  | im => show Lists (im o); unfold im; lists'
  | rst => show Lists (rst o); unfold rst; lists'
  | jr => show Lists (jr o); unfold jr; lists'
  | jp => show Lists (jp o); unfold jp; lists'
  | call => show Lists (callOp o); unfold callOp; lists'
  | ret => show Lists (ret o); unfold ret; lists'
  | bitop => show Lists (bitop _ o); unfold bitop; lists'
  | onreg8 => show Lists (onreg8 _ o); unfold onreg8; lists'
  | stackop => show Lists (stackop _ o); unfold stackop; lists'
  | incr => show Lists (incr _ o); unfold incr; lists'
  | _ => unfold call; lists'
end Z80

/-! ### Directives -/

instance (o : Option Str) (m : Int) : Lists (stocke o m) := by unfold stocke; lists'
instance shows_dcLoop (m : Int) (n : Nat) (o : Option Str) : Lists (dcLoop m n o) := by
  induction n generalizing o with
  | zero => unfold dcLoop; lists'
  | succ n ih => unfold dcLoop; lists'
instance (m : Int) (o : Option Str) : Lists (xDc m o) := by unfold xDc; lists'
instance shows_fillBytes (b : Byte) (n : Nat) : Lists (fillBytes b n) := by
  induction n with
  | zero => unfold fillBytes; lists'
  | succ n ih => unfold fillBytes; lists'
instance shows_ascLoop (d : Char) (s : Str) : ∀ e, Lists (ascLoop d e s) := by
  induction s with
  | nil => intro e; cases e <;> (unfold ascLoop; lists')
  | cons c s ih => intro e; cases e <;> (unfold ascLoop; lists')
instance (o : Option Str) : Lists (xAsc o) := by unfold xAsc; lists'
instance (o : Option Str) : Lists (xAlign o) := by unfold xAlign; lists'
theorem herelabel_shown {l : Str} {s s' : St} {u : Unit} (ho : s.flags.codeOn = true) (h : herelabel l s = .ok u s') : Shown s s' := by
  unfold herelabel at h
  split at h
  · exact absurd h error_not_ok
  · rw [getS_bind_run] at h
    split at h
    · obtain ⟨k, s1, h1, h⟩ := bind_ok h
      obtain ⟨_, s2, h2, h⟩ := bind_ok h
      have g := ((inferInstance : Lists (deflabel _ _ _ _)).run h1).trans ((inferInstance : Lists (note _)).run h2)
      refine g.trans ?_
      unfold whenM at h
      rw [if_neg (by rw [ho]; decide)] at h
      cases h
      exact .refl _
    · exact absurd h error_not_ok
instance (m : Str) : Lists (findmnemo m) := by unfold findmnemo; lists'
instance (l : Option Str) (s : Str) : Lists (splitMnemo l s) := by unfold splitMnemo; lists'
instance (s : Str) : Lists (splitLine s) := by unfold splitLine; lists'


instance (t : Str) : Lists (settitle t) := by unfold settitle; lists'
instance (o : Option Str) : Lists (xNam o) := by unfold xNam; lists'
instance (o : Option Str) : Lists (xFail o) := by unfold xFail; lists'
theorem shows_flags {g : Flags → Flags} (h : ∀ f, (g f).codeOn = f.codeOn ∧ (g f).addr16 = f.addr16 ∧ (g f).addr24 = f.addr24 ∧ (g f).listOn = f.listOn) :
    Lists (modFlags g) := .same fun s =>
  ⟨⟨(h s.flags).1, (h s.flags).2.1, (h s.flags).2.2.1, rfl, rfl, rfl, rfl, rfl⟩, (h s.flags).2.2.2, rfl, rfl, rfl, rfl, rfl, rfl, rfl, rfl⟩
theorem shows_onOff (o : Option Str) {g : Bool → Flags → Flags}
    (h : ∀ b f, (g b f).codeOn = f.codeOn ∧ (g b f).addr16 = f.addr16 ∧ (g b f).addr24 = f.addr24 ∧ (g b f).listOn = f.listOn) : Lists (onOff o g) := by
  have h1 := shows_flags (h true)
  have h2 := shows_flags (h false)
  unfold onOff
  lists'
instance (o : Option Str) : Lists (xClist o) := shows_onOff o fun _ _ => ⟨rfl, rfl, rfl, rfl⟩
instance (o : Option Str) : Lists (xIlist o) := shows_onOff o fun _ _ => ⟨rfl, rfl, rfl, rfl⟩
instance (o : Option Str) : Lists (xMlist o) := shows_onOff o fun _ _ => ⟨rfl, rfl, rfl, rfl⟩
instance (o : Option Str) : Lists (xOutput o) := by
  have h1 : Lists (modFlags fun f => { f with codeHex := false, codeScode := false }) := shows_flags fun _ => ⟨rfl, rfl, rfl, rfl⟩
  have h2 : Lists (modFlags fun f => { f with codeHex := true }) := shows_flags fun _ => ⟨rfl, rfl, rfl, rfl⟩
  have h3 : Lists (modFlags fun f => { f with codeScode := true }) := shows_flags fun _ => ⟨rfl, rfl, rfl, rfl⟩
  unfold xOutput
  lists'

/-! ### DS -/

/-- The number of bytes generated in the line is left as it is. -/
class Rests (m : M α) : Prop where
  run : ∀ {s a s'}, m s = .ok a s' → s'.advance = s.advance

theorem Rests.bind {m : M α} {f : α → M β} (hm : Rests m) (hf : ∀ a, Rests (f a)) : Rests (m >>= f) := ⟨fun h => by
  obtain ⟨a, s1, h1, h2⟩ := bind_ok h
  rw [(hf a).run h2, hm.run h1]⟩
theorem Rests.pure (a : α) : Rests (Pure.pure a : M α) := ⟨fun h => by cases h; rfl⟩
theorem Rests.getS : Rests Crasm.getS := ⟨fun h => by cases h; rfl⟩
theorem Rests.same {g : St → St} (h : ∀ s, (g s).advance = s.advance) : Rests (Crasm.modS g) := ⟨fun {s a s'} hr => by cases hr; exact h s⟩
theorem Rests.whenM {c : Prop} [Decidable c] {a : M Unit} (ha : Rests a) : Rests (whenM c a) := by
  unfold Crasm.whenM; split
  · exact ha
  · exact Rests.pure _
theorem Rests.quiet {m : M α} [hq : Quiet m] : Rests m := ⟨fun {s a s'} h => by
  have q := hq.run s
  rw [h] at q
  obtain ⟨_, _, _, rfl⟩ := (q : SameBut s s')
  rfl⟩

macro "rests" : tactic => `(tactic| repeat' (first
  | infer_instance
  | exact Rests.pure _
  | exact Rests.getS
  | exact Rests.same fun _ => rfl
  | with_reducible refine Rests.bind ?_ (fun _ => ?_)
  | with_reducible refine Rests.whenM ?_
  | dsimp only
  | split))

instance (u : UB) : Rests (ubM u : M α) := ⟨fun h => by cases h⟩
instance (m : Str) : Rests (fatal m : M α) := ⟨fun h => by cases h⟩
instance (w : Stop) : Rests (stopWith w : M α) := ⟨fun h => by cases h⟩
instance (m : Str) : Rests (error m : M α) := ⟨fun h => absurd h error_not_ok⟩
instance (s pat : Str) : Rests (filterC s pat) := by unfold filterC; rests
instance (s pat : Str) : Rests (filter0 s pat) := by unfold filter0; rests
instance (s pat : Str) : Rests (filter1 s pat) := by unfold filter1; rests
instance (s pat : Str) : Rests (filter2 s pat) := by unfold filter2; rests
instance (m : Str) : Rests (warning m) := .quiet
instance (v : Word) : Rests (echoAddr v) := .quiet
instance (n : Note) : Rests (note n) := Rests.same fun _ => rfl
instance (k : Str) (l : Label) : Rests (putLabel k l) := Rests.same fun _ => rfl
instance (n : Str) (f : LFlags) (t : LType) (v : Word) : Rests (deflabel n f t v) := by unfold deflabel; rests
instance (l : Str) : Rests (herelabel l) := by unfold herelabel; rests
instance (m : Str) : Rests (findmnemo m) := by unfold findmnemo; rests
instance (l : Option Str) (s : Str) : Rests (splitMnemo l s) := by unfold splitMnemo; rests
instance (s : Str) : Rests (splitLine s) := by unfold splitLine; rests
instance : Rests stripLine := by unfold stripLine; rests
instance (n : Str) : Rests (findlabel n) := by unfold findlabel; rests
instance (r : Result) (t : LType) : Rests (checktype r t) := by unfold checktype; rests
instance (tgt : Bool) (r : Result) : Rests (setRes tgt r) := by unfold setRes; rests
instance (tgt : Bool) (v : Nat) : Rests (cst tgt v) := by unfold cst; rests
instance (tgt : Bool) (v : Except Str Nat) : Rests (cstE tgt v) := by unfold cstE; rests
instance (tgt : Bool) (n : Str) : Rests (cstlabel tgt n) := by unfold cstlabel; rests
instance idle_parseConst (tgt : Bool) (e : Str) (rows : List (Str × Base)) : Rests (parseConst tgt e rows) := by
  induction rows with
  | nil => unfold parseConst; rests
  | cons r rows ih => obtain ⟨p, b⟩ := r; unfold parseConst; rests
instance (tgt : Bool) (e : Str) : Rests (parseLeaf tgt e) := by unfold parseLeaf; rests
instance (m : Str) : Rests (refuse m : M α) := ⟨fun h => absurd h refuse_not_ok⟩
instance (tgt : Bool) (o : OpRes) : Rests (finishOp tgt o) := by cases o <;> unfold finishOp <;> rests
instance idle_firstMatch (e : Str) (alts : List (Str × Op2)) : Rests (firstMatch e alts) := by
  induction alts with
  | nil => exact Rests.pure _
  | cons x alts ih => obtain ⟨pat, op⟩ := x; unfold firstMatch; rests
theorem idle_parseRows (rec : Bool → Str → M Result) (hrec : ∀ tgt x, Rests (rec tgt x)) (tgt : Bool) (e : Str)
    (rows : List Ent) : Rests (parseRows rec tgt e rows) := by
  induction rows with
  | nil => exact (inferInstance : Rests (parseLeaf tgt (creverse e)))
  | cons r rows ih => cases r <;> unfold parseRows <;> rests
instance idle_parse2 (n : Nat) (tgt : Bool) (e : Str) : Rests (parse2 n tgt e) := by
  induction n generalizing tgt e with
  | zero => unfold parse2; rests
  | succ n ih => exact idle_parseRows (parse2 n) ih tgt e revTable
instance (o : Option Str) : Rests (parse o) := by unfold parse; rests
instance (o : Option Str) : Rests (parseAbs o) := by unfold parseAbs; rests

theorem ds_shown {o : Option Str} {s s' : St} {u : Unit} (h0 : s.advance = 0) (h : xDs o s = .ok u s') : Shown s s' := by
  unfold xDs at h
  obtain ⟨x, s1, h1, h⟩ := bind_ok h
  have g1 : Shown s s1 ∧ s1.advance = 0 := by
    obtain ⟨r, s2, h2, h1⟩ := bind_ok h1
    have g2 := (inferInstance : Lists (filter2 _ _)).run h2
    have a2 := (inferInstance : Rests (filter2 _ _)).run h2
    rcases r with _ | ⟨x1, x2⟩
    · cases h1
      exact ⟨g2, a2.trans h0⟩
    · obtain ⟨r, s3, h3, h1⟩ := bind_ok h1
      obtain ⟨_, s4, h4, h1⟩ := bind_ok h1
      have g3 := (inferInstance : Lists (parseAbs _)).run h3
      have a3 := (inferInstance : Rests (parseAbs _)).run h3
      have g4 := (Lists.whenM (inferInstance : Lists (warning _))).run h4
      have a4 := (Rests.whenM (inferInstance : Rests (warning _))).run h4
      cases h1
      exact ⟨g2.trans (g3.trans g4), by rw [a4, a3, a2, h0]⟩
  obtain ⟨o', i⟩ := x
  obtain ⟨r, s2, h2, h⟩ := bind_ok h
  obtain ⟨_, s3, h3, h⟩ := bind_ok h
  have g2 := (inferInstance : Lists (parseAbs _)).run h2
  have a2 := (inferInstance : Rests (parseAbs _)).run h2
  have g3 := (inferInstance : Lists (note _)).run h3
  have a3 := (inferInstance : Rests (note _)).run h3
  refine (g1.1.trans g2).trans (g3.trans ?_)
  have a : s3.advance = 0 := by rw [a3, a2, g1.2]
  split at h
  · obtain ⟨_, s4, h4, h⟩ := bind_ok h
    cases h
  · rename_i hi
    obtain ⟨_, s4, h4, h⟩ := bind_ok h
    have g4 := (inferInstance : Lists (fillBytes _ _)).run h4
    have a4 := fillBytes_advance h4
    cases h
    have : ({ s4 with advance := toInt32 r.value } : St) = s4 := by
      have e : toInt32 r.value = s4.advance := by rw [a4, a]; omega
      rw [e]
    show Shown s3 { s4 with advance := toInt32 r.value }
    rw [this]
    exact g4

end Crasm

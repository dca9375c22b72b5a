import Verif.Spec.Symbols
import Verif.Proof.ProgList
import Verif.Proof.Whole
import Verif.Proof.Order

/-! The summary and the list of symbols, line by line. -/

namespace Crasm.C53
open Spec.Program (Isa Lines labels equates key Free)

/-- Between two lines of the listing. -/
structure Sheet (s : St) : Prop where
  list : s.flags.listOn = true
  llen : s.lst.llen = 76
  a16 : s.flags.addr16 = true
  a24 : s.flags.addr24 = false
  line : s.lst.line = []
  lpos : s.lst.lpos = 0

/-- The lines `ls` have been printed. -/
structure Wrote (s s' : St) (ls : List Str) : Prop where
  sheet : Sheet s'
  tree : s'.tree = s.tree
  lines : s'.lst.lines = ls.reverse ++ s.lst.lines

theorem Wrote.trans {a b c : St} {x y : List Str} (h : Wrote a b x) (g : Wrote b c y) : Wrote a c (x ++ y) :=
  ⟨g.sheet, g.tree.trans h.tree, by rw [g.lines, h.lines, List.reverse_append, List.append_assoc]⟩

theorem Wrote.none {s : St} (h : Sheet s) : Wrote s s [] := ⟨h, rfl, rfl⟩

/-- The end of a line, whatever is on it. -/
theorem eol_any {s s' : St} {u : Unit} (h1 : s.flags.listOn = true) (h2 : s.lst.llen = 76) (h3 : s.flags.addr16 = true) (h4 : s.flags.addr24 = false)
    (h : outputEOL s = .ok u s') : Wrote s s' [s.lst.line.reverse] := by
  rw [eol_shown h1 h]
  exact ⟨⟨h1, (printed_line _ _).2.2.trans h2, h3, h4, rfl, rfl⟩, rfl, (printed_view _ _).1⟩

theorem eol_wrote {s s' : St} {u : Unit} (S : Sheet s) (h : outputEOL s = .ok u s') : Wrote s s' [[]] := by
  have := eol_any S.list S.llen S.a16 S.a24 h
  rwa [S.line] at this

theorem loop_wrote (n : Nat) : ∀ {s s' : St} {u : Unit}, Sheet s → eolLoop n s = .ok u s' → ∃ k, Wrote s s' (List.replicate k []) := by
  induction n with
  | zero => intro s s' u S h; cases h; exact ⟨0, .none S⟩
  | succ n ih =>
    intro s s' u S h
    unfold eolLoop at h
    rw [getS_bind_run] at h
    split at h
    · cases h; exact ⟨0, .none S⟩
    · obtain ⟨_, s1, h1, h⟩ := bind_ok h
      have w := eol_wrote S h1
      obtain ⟨k, g⟩ := ih w.sheet h
      exact ⟨k + 1, by rw [List.replicate_succ]; exact w.trans g⟩

theorem eop_wrote {s s' : St} {u : Unit} (S : Sheet s) (h : outputEOP s = .ok u s') : ∃ k, Wrote s s' (List.replicate k []) := by
  unfold outputEOP at h
  rw [getS_bind_run, if_pos S.list] at h
  split at h
  · exact loop_wrote _ S h
  · cases h
    by_cases h0 : s.lst.ppos = 0
    · refine ⟨0, ⟨S.list, S.llen, S.a16, S.a24, S.line, S.lpos⟩, rfl, ?_⟩
      show (if s.lst.ppos = 0 then _ else _) = _
      rw [if_pos h0]
      rfl
    · refine ⟨3, ⟨S.list, S.llen, S.a16, S.a24, S.line, S.lpos⟩, rfl, ?_⟩
      show (if s.lst.ppos = 0 then _ else _) = _
      rw [if_neg h0]
      rfl

/-- Text added to the line. -/
def put (t : Str) (s : St) : St := { s with lst := { s.lst with line := t.reverse ++ s.lst.line, lpos := s.lst.lpos + t.length } }

theorem put_put (a b : Str) (s : St) : put b (put a s) = put (a ++ b) s := by
  unfold put
  simp only [List.reverse_append, List.append_assoc, List.length_append, Nat.add_assoc]

theorem put_output {t : Str} {s : St} (ht : t.all shownChar = true) (h1 : s.lst.llen = 76) (h : s.lst.lpos + t.length ≤ 76) :
    output t s = .ok () (put t s) := output_plain ht (by omega) (by omega)

theorem put_car {c : Char} {s : St} (hc : shownChar c = true) (h1 : s.lst.llen = 76) (h : s.lst.lpos < 76) :
    outputcar c s = .ok () (put [c] s) := outputcar_plain hc (by omega) (by omega)

theorem put_spaces (n : Nat) : ∀ {s : St}, s.lst.llen = 76 → s.lst.lpos + n ≤ 76 → putSpaces n s = .ok () (put (List.replicate n ' ') s) := by
  induction n with
  | zero => intro s _ _; rfl
  | succ n ih =>
    intro s h1 h
    unfold putSpaces
    have e : putSpace s = .ok () (put [' '] s) := by
      unfold putSpace
      rw [getS_bind_run, if_pos (by omega)]
      unfold putRaw
      rw [getS_bind_run, if_neg (by omega)]
      rfl
    rw [bind_run, e]
    show putSpaces n (put [' '] s) = _
    refine (ih (s := put [' '] s) h1 (by show s.lst.lpos + 1 + n ≤ 76; omega)).trans ?_
    rw [put_put]
    rfl

theorem put_position {n : Nat} {s : St} (h1 : s.lst.llen = 76) (h : n < 76) (hp : s.lst.lpos ≤ n) :
    position n s = .ok () (put (List.replicate (n - s.lst.lpos) ' ') s) := by
  unfold position
  rw [getS_bind_run, if_neg (by omega)]
  exact put_spaces _ h1 (by omega)

/-- A line of text. -/
theorem text_wrote {t : Str} {s s' : St} {u : Unit} (S : Sheet s) (ht : t.all shownChar = true) (hl : t.length ≤ 76)
    (h : (output t >>= fun _ => outputEOL) s = .ok u s') : Wrote s s' [t] := by
  rw [bind_run, put_output ht S.llen (by rw [S.lpos]; omega)] at h
  have w := eol_any (s := put t s) S.list S.llen S.a16 S.a24 h
  have e : (put t s).lst.line.reverse = t := by
    show (t.reverse ++ s.lst.line).reverse = t
    rw [S.line, List.append_nil, List.reverse_reverse]
  rw [e] at w
  exact ⟨w.sheet, w.tree, w.lines⟩

theorem result_line {t : Str} {s s' : St} {u : Unit} (S : Sheet s) (ht : t.all shownChar = true) (h : resultLine t s = .ok u s') : Wrote s s' [t] := by
  have e : resultLine t s = (if 40 ≤ t.length then ubM .resultBuffer else do output t; outputEOL) s := rfl
  rw [e] at h
  split at h
  · cases h
  · exact text_wrote S ht (by omega) h

theorem plain_hexLowerAux (f : Nat) : ∀ n acc, acc.all shownChar = true → (hexLowerAux f n acc).all shownChar = true := by
  have hd : ∀ n : Nat, shownChar (if n % 16 < 10 then Char.ofNat (48 + n % 16) else Char.ofNat (87 + n % 16)) = true := by
    have : ∀ k < 16, shownChar (if k < 10 then Char.ofNat (48 + k) else Char.ofNat (87 + k)) = true := by decide
    exact fun n => this _ (Nat.mod_lt _ (by omega))
  induction f with
  | zero => intro n acc h; exact h
  | succ f ih =>
    intro n acc h
    unfold hexLowerAux
    dsimp only
    split
    · rw [List.all_cons, hd, h]; rfl
    · exact ih _ _ (by rw [List.all_cons, hd, h]; rfl)

theorem plain_size (m : Str) (hm : m.all shownChar = true) (v : Word) : (sizeLine m v).all shownChar = true := by
  unfold sizeLine
  have h1 : (padLeft 8 (hexLower v.toNat)).all shownChar = true := plain_padLeft _ (plain_hexLowerAux _ _ _ rfl)
  have h2 : (intDigits v.toInt).all shownChar = true := by
    unfold intDigits
    split
    · exact plain_digits _
    · rw [List.all_cons, plain_digits]; rfl
  rw [List.all_append, List.all_append, List.all_append, List.all_append, hm, h1, h2]
  rfl

theorem intDigits_decimal (v : Int) : intDigits v = Spec.Program.decimal v := by
  unfold intDigits Spec.Program.decimal
  cases v with
  | ofNat n => rw [if_neg (by simp)]; exact digits_toDigits n
  | negSucc n => rw [if_pos (Int.negSucc_lt_zero n)]; exact congrArg _ (digits_toDigits _)
theorem hexLower_toDigits {n : Nat} (hn : n < 2 ^ 64) : hexLower n = Nat.toDigits 16 n := by
  have hd : ∀ d, d < 16 → (if d < 10 then Char.ofNat (48 + d) else Char.ofNat (87 + d)) = Nat.digitChar d := by decide
  have h : ∀ f g n acc, n < 16 ^ (f + 1) → n < g → hexLowerAux (f + 1) n acc = Nat.toDigitsCore 16 g n acc := by
    intro f
    induction f with
    | zero =>
      intro g n acc h1 h2
      cases g with
      | zero => omega
      | succ g =>
        have h0 : n / 16 = 0 := by omega
        rw [hexLowerAux, Nat.toDigitsCore, hd _ (Nat.mod_lt _ (by decide)), if_pos h0]
        simp only [h0, if_true]
    | succ f ih =>
      intro g n acc h1 h2
      cases g with
      | zero => omega
      | succ g =>
        rw [hexLowerAux, Nat.toDigitsCore, hd _ (Nat.mod_lt _ (by decide))]
        by_cases h0 : n / 16 = 0
        · rw [if_pos h0]
          simp only [h0, if_true]
        · rw [if_neg h0, if_neg h0]
          exact ih g _ _ (by rw [Nat.pow_succ] at h1; omega) (by omega)
  exact h 16 (n + 1) n [] (by have : 2 ^ 64 < 16 ^ 17 := by decide
                              omega) (Nat.lt_succ_self _)
theorem size_text (w : Word) {v : Int} (h : w = BitVec.ofInt 64 v) :
    padLeft 8 (hexLower w.toNat) ++ c!" (" ++ intDigits w.toInt ++ c!")" = Spec.Program.size v := by
  subst h
  unfold Spec.Program.size padLeft
  rw [hexLower_toDigits (BitVec.isLt _), intDigits_decimal, BitVec.toInt_ofInt]
  rfl

/-- The summary of a run without errors. -/
theorem result_wrote {s s' : St} {u : Unit} (S : Sheet s) (h0 : s.errnumber = 0) (h : result s = .ok u s') :
    ∃ k, Wrote s s' (List.replicate k [] ++ Spec.Program.summary (padLeft 8 (hexLower (s.code.pc - 1).toNat) ++ c!" (" ++ intDigits (s.code.pc - 1).toInt ++ c!")") (padLeft 8 (hexLower s.code.codelen.toNat) ++ c!" (" ++ intDigits s.code.codelen.toInt ++ c!")")) := by
  unfold result at h
  rw [getS_bind_run] at h
  obtain ⟨_, s1, h1, h⟩ := bind_ok h
  have w1 : ∃ k, Wrote s s1 (List.replicate k []) := by
    unfold whenM at h1
    split at h1
    · obtain ⟨_, t1, k1, h1⟩ := bind_ok h1
      obtain ⟨_, t2, k2, k3⟩ := bind_ok h1
      obtain ⟨k, w⟩ := eop_wrote S k1
      have w2 := eol_wrote w.sheet k2
      have w3 := eol_wrote w2.sheet k3
      refine ⟨k + 2, ?_⟩
      have := (w.trans w2).trans w3
      rwa [show List.replicate k ([] : Str) ++ [[]] ++ [[]] = List.replicate (k + 2) [] by
        rw [List.replicate_succ', List.replicate_succ']] at this
    · cases h1; exact ⟨0, .none S⟩
  obtain ⟨k, w1⟩ := w1
  obtain ⟨_, s2, h2, h⟩ := bind_ok h
  have w2 := w1.trans (eol_wrote w1.sheet h2)
  obtain ⟨_, s3, h3, h⟩ := bind_ok h
  have w3 := w2.trans (result_line w2.sheet (by rw [List.all_append, plain_padLeft _ (plain_digits _)]; rfl) h3)
  obtain ⟨_, s4, h4, h⟩ := bind_ok h
  have w4 := w3.trans (result_line w3.sheet (by rw [List.all_append, plain_padLeft _ (plain_digits _)]; rfl) h4)
  obtain ⟨_, s5, h5, h⟩ := bind_ok h
  have w5 := w4.trans (eol_wrote w4.sheet h5)
  rw [if_pos h0] at h
  have h : ((output c!"Successful assembly..." >>= fun _ => outputEOL) >>= fun _ => do
      resultLine (sizeLine c!" Last address " (s.code.pc - 1))
      resultLine (sizeLine c!" Code length  " s.code.codelen)) s5 = .ok u s' := by
    rw [← h]
    simp only [bind_run]
    cases output c!"Successful assembly..." s5 <;> rfl
  obtain ⟨_, s6, h6, h⟩ := bind_ok h
  have w6 := w5.trans (text_wrote w5.sheet (by decide) (by decide) h6)
  obtain ⟨_, s7, h7, h⟩ := bind_ok h
  have w7 := w6.trans (result_line w6.sheet (plain_size _ (by decide) _) h7)
  have w8 := w7.trans (result_line w7.sheet (plain_size _ (by decide) _) h)
  refine ⟨k + 1, ?_⟩
  rw [h0] at w8
  have e : List.replicate k ([] : Str) ++ [[]] ++ [c!"ERRORS:    " ++ padLeft 4 (digits 0)] ++ [c!"WARNINGS:  " ++ padLeft 4 (digits 0)] ++ [[]] ++
      [c!"Successful assembly..."] ++ [sizeLine c!" Last address " (s.code.pc - 1)] ++ [sizeLine c!" Code length  " s.code.codelen] =
      List.replicate (k + 1) [] ++ Spec.Program.summary (padLeft 8 (hexLower (s.code.pc - 1).toNat) ++ c!" (" ++ intDigits (s.code.pc - 1).toInt ++ c!")")
        (padLeft 8 (hexLower s.code.codelen.toNat) ++ c!" (" ++ intDigits s.code.codelen.toInt ++ c!")") := by
    rw [List.replicate_succ']
    unfold Spec.Program.summary sizeLine
    simp only [List.append_assoc, List.cons_append, List.nil_append]
    rfl
  rwa [e] at w8

/-! ### The list of symbols -/

/-- The lines `rows` of the list have been made, the last of them perhaps not yet ended. -/
structure Held (base s : St) (rows : List Str) : Prop where
  list : s.flags.listOn = true
  llen : s.lst.llen = 76
  a16 : s.flags.addr16 = true
  a24 : s.flags.addr24 = false
  tree : s.tree = base.tree
  lines : (s.lst.line = [] ∧ s.lst.lpos = 0 ∧ s.lst.lines = rows.reverse ++ base.lst.lines) ∨
    ∃ rs r, rows = rs ++ [r] ∧ s.lst.lines = rs.reverse ++ base.lst.lines ∧ s.lst.line = r.reverse ∧ s.lst.lpos = 61

/-- The mark of a symbol. -/
def markOf (l : Label) : Char := if !l.flags.used then '?' else if l.flags.forward then '^' else ' '

/-- A symbol whose line is made. -/
structure Shown (k : Str) (l : Label) : Prop where
  type : l.type = .absolute
  undef : l.flags.undef = false
  len : k.length ≤ 48
  plain : k.all shownChar = true
  name : hiddenName k = false

def rowOf (x : Str × Label) : Str := Spec.Program.symbol (markOf x.2) x.2.value.toNat x.1

theorem label_held {k : Str} {l : Label} {base s s' : St} {u : Unit} {rows : List Str} (H : Held base s rows)
    (hk : hiddenLabel k l = true ∨ Shown k l) (h : printlabel k l s = .ok u s') :
    Held base s' (if hiddenLabel k l then rows else rows ++ [rowOf (k, l)]) := by
  unfold printlabel at h
  rw [getS_bind_run] at h
  obtain ⟨_, s1, h1, h⟩ := bind_ok h
  have w : Sheet s1 ∧ s1.tree = base.tree ∧ s1.lst.lines = rows.reverse ++ base.lst.lines := by
    unfold whenM at h1
    rcases H.lines with ⟨a, b, c⟩ | ⟨rs, r, rfl, b, c, d⟩
    · rw [if_neg (by rw [H.llen, b]; decide)] at h1
      cases h1
      exact ⟨⟨H.list, H.llen, H.a16, H.a24, a, b⟩, H.tree, c⟩
    · rw [if_pos (by rw [H.llen, d]; decide)] at h1
      have w := eol_any H.list H.llen H.a16 H.a24 h1
      refine ⟨w.sheet, w.tree.trans H.tree, ?_⟩
      rw [w.lines, b, c, List.reverse_reverse, List.reverse_append]
      rfl
  obtain ⟨S, hT, hL⟩ := w
  rw [getS_bind_run] at h
  dsimp only at h
  split at h
  · rename_i hh
    cases h
    rw [if_pos hh]
    exact ⟨S.list, S.llen, S.a16, S.a24, hT, .inl ⟨S.line, S.lpos, hL⟩⟩
  · rename_i hh
    rw [if_neg hh]
    have V := hk.resolve_left hh
    rw [S.lpos] at h
    have eu : (l.flags.undef && !l.flags.forward) = false := by rw [V.undef]; rfl
    rw [eu] at h
    have ht : typeText false l = c!"Abs" := by unfold typeText; rw [V.type]; rfl
    rw [ht, show k.take LABLEN = k from List.take_of_length_le V.len] at h
    have hm : shownChar (markOf l) = true := by unfold markOf; split <;> (try split) <;> decide
    have l1 : (put [markOf l] s1).lst.lpos = 1 := by show s1.lst.lpos + 1 = 1; rw [S.lpos]
    rw [bind_run, show (if !l.flags.used then '?' else if l.flags.forward then '^' else ' ') = markOf l from rfl, put_car hm S.llen (by rw [S.lpos]; decide)] at h
    dsimp only at h
    have hx : ∀ c ∈ hexField 4 l.value.toNat, isspace c = false ∧ isprint c = true := hexField_shown 4 _
    have ha : (hexField 4 l.value.toNat ++ c!" ").all shownChar = true := by
      rw [List.all_append, List.all_eq_true.2 (fun c hc => by unfold shownChar; rw [(hx c hc).1, (hx c hc).2]; simp)]
      rfl
    have l2 : (put (hexField 4 l.value.toNat ++ c!" ") (put [markOf l] s1)).lst.lpos = 6 := by
      show (put [markOf l] s1).lst.lpos + _ = 6
      rw [l1, List.length_append, hexField_length]
      rfl
    have e2 : outputaddr l.value (put [markOf l] s1) = .ok () (put (hexField 4 l.value.toNat ++ c!" ") (put [markOf l] s1)) := by
      unfold outputaddr
      rw [getS_bind_run, show addrDigits (put [markOf l] s1).flags = 4 by
        show addrDigits s1.flags = 4; unfold addrDigits; rw [S.a24, S.a16]; rfl]
      exact put_output ha S.llen (by rw [l1, List.length_append, hexField_length]; decide)
    rw [bind_run] at h
    unfold whenM at h
    rw [if_pos (by rw [V.type]; decide), e2] at h
    dsimp only at h
    rw [bind_run, put_position (s := put (hexField 4 l.value.toNat ++ c!" ") (put [markOf l] s1)) S.llen (by decide) (by rw [l2]; decide), l2] at h
    dsimp only at h
    rw [put_put, put_put, bind_run] at h
    generalize ht3 : [markOf l] ++ (hexField 4 l.value.toNat ++ c!" " ++ List.replicate (0 + RECLEN - LABLEN - 2 - (c!"Abs").length - 6) ' ') = t3 at h
    have n3 : t3.length = 8 := by
      rw [← ht3, List.length_append, List.length_append, List.length_append, hexField_length, List.length_replicate]
      rfl
    have l3 : (put t3 s1).lst.lpos = 8 := by show s1.lst.lpos + _ = 8; rw [S.lpos, n3]
    rw [put_output (s := put t3 s1) (t := c!"Abs") (by decide) S.llen (by rw [l3]; decide)] at h
    dsimp only at h
    have l4 : (put c!"Abs" (put t3 s1)).lst.lpos = 11 := by show (put t3 s1).lst.lpos + _ = 11; rw [l3]; rfl
    rw [bind_run, put_position (s := put c!"Abs" (put t3 s1)) S.llen (by decide) (by rw [l4]; decide), l4] at h
    dsimp only at h
    have l5 : (put (List.replicate (0 + RECLEN - LABLEN - 1 - 11) ' ') (put c!"Abs" (put t3 s1))).lst.lpos = 12 := by
      show (put c!"Abs" (put t3 s1)).lst.lpos + _ = 12
      rw [l4]
      rfl
    have hlen := V.len
    rw [bind_run, put_output (s := put (List.replicate (0 + RECLEN - LABLEN - 1 - 11) ' ') (put c!"Abs" (put t3 s1))) V.plain S.llen (by rw [l5]; omega)] at h
    dsimp only at h
    have l6 : (put k (put (List.replicate (0 + RECLEN - LABLEN - 1 - 11) ' ') (put c!"Abs" (put t3 s1)))).lst.lpos = 12 + k.length := by
      show (put _ (put c!"Abs" (put t3 s1))).lst.lpos + _ = _
      rw [l5]
    rw [put_position (s := put k (put (List.replicate (0 + RECLEN - LABLEN - 1 - 11) ' ') (put c!"Abs" (put t3 s1)))) S.llen (by decide) (by rw [l6]; show 12 + k.length ≤ 61; omega), l6, put_put, put_put, put_put, put_put] at h
    rw [← List.append_assoc, ← List.append_assoc, ← List.append_assoc] at h
    cases h
    generalize hr : t3 ++ c!"Abs" ++ List.replicate (0 + RECLEN - LABLEN - 1 - 11) ' ' ++ k ++ List.replicate (0 + RECLEN - (12 + k.length)) ' ' = r
    have er : r = rowOf (k, l) := by
      rw [← hr, ← ht3]
      unfold rowOf Spec.Program.symbol
      rw [hexField_hex, show 0 + RECLEN - (12 + k.length) = 49 - k.length by show 61 - (12 + k.length) = _; omega]
      simp only [List.append_assoc, List.cons_append, List.nil_append]
      rfl
    have nr : r.length = 61 := by
      rw [← hr, List.length_append, List.length_append, List.length_append, List.length_append, n3, List.length_replicate, List.length_replicate]
      show 8 + 3 + 1 + k.length + (61 - (12 + k.length)) = 61
      omega
    refine ⟨S.list, S.llen, S.a16, S.a24, hT, .inr ⟨rows, r, by rw [er], hL, ?_, ?_⟩⟩
    · show r.reverse ++ s1.lst.line = r.reverse
      rw [S.line, List.append_nil]
    · show s1.lst.lpos + r.length = 61
      rw [S.lpos, nr]

/-- The symbols that are shown. -/
def shownOf (ls : List (Str × Label)) : List (Str × Label) := ls.filter fun x => !hiddenLabel x.1 x.2

theorem labels_held (ls : List (Str × Label)) : ∀ {base s s' : St} {u : Unit} {rows : List Str}, Held base s rows →
    (∀ x ∈ ls, hiddenLabel x.1 x.2 = true ∨ Shown x.1 x.2) → printlabels ls s = .ok u s' → Held base s' (rows ++ (shownOf ls).map rowOf) := by
  induction ls with
  | nil => intro base s s' u rows H _ h; cases h; rw [show (shownOf []).map rowOf = [] from rfl, List.append_nil]; exact H
  | cons x ls ih =>
    obtain ⟨k, l⟩ := x
    intro base s s' u rows H hk h
    unfold printlabels at h
    obtain ⟨_, s1, h1, h⟩ := bind_ok h
    have := ih (label_held H (hk _ (.head _)) h1) (fun x hx => hk x (.tail _ hx)) h
    unfold shownOf
    rw [List.filter_cons]
    by_cases hh : hiddenLabel k l = true
    · rw [if_pos hh] at this
      rw [if_neg (by rw [hh]; decide)]
      exact this
    · rw [if_neg hh] at this
      rw [if_pos (by simp [hh])]
      rw [List.append_assoc] at this
      exact this

theorem xref_wrote {s s' : St} {u : Unit} (S : Sheet s) (hk : ∀ x ∈ s.tree.toList, hiddenLabel x.1 x.2 = true ∨ Shown x.1 x.2)
    (h : xref s = .ok u s') : ∃ b c, Wrote s s' (List.replicate b [] ++ (shownOf s.tree.toList).map rowOf ++ List.replicate c []) := by
  unfold xref at h
  obtain ⟨_, s1, h1, h⟩ := bind_ok h
  obtain ⟨b, w⟩ := eop_wrote S h1
  rw [getS_bind_run, w.tree] at h
  obtain ⟨_, s2, h2, h⟩ := bind_ok h
  obtain ⟨_, s3, h3, h4⟩ := bind_ok h
  have w1 := w.sheet
  have H := labels_held _ (base := s1) (rows := []) ⟨w1.list, w1.llen, w1.a16, w1.a24, rfl, .inl ⟨w1.line, w1.lpos, rfl⟩⟩ hk h2
  rw [List.nil_append] at H
  have w3 : ∃ c, Wrote s1 s3 ((shownOf s.tree.toList).map rowOf ++ List.replicate c []) := by
    have g := eol_any H.list H.llen H.a16 H.a24 h3
    rcases H.lines with ⟨a, -, d⟩ | ⟨rs, r, e, d, a, -⟩
    · refine ⟨1, g.sheet, g.tree.trans H.tree, ?_⟩
      rw [g.lines, a, d, List.reverse_append]
      rfl
    · refine ⟨0, g.sheet, g.tree.trans H.tree, ?_⟩
      rw [g.lines, a, d, e, List.reverse_reverse]
      simp
  obtain ⟨c, w3⟩ := w3
  obtain ⟨d, w4⟩ := eop_wrote w3.sheet h4
  refine ⟨b, c + d, ?_⟩
  have := (w.trans w3).trans w4
  rw [← List.replicate_append_replicate]
  simpa only [List.append_assoc] using this

end Crasm.C53

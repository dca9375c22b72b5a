import Verif.Proof.Show

/-!
The line of the listing that shows a line of the source.
-/

namespace Crasm
open _root_.Spec.Listing (Text hex row rows rowsN perRow most dots bytes expand fill sourceLine tag statement)

/-- `k` characters are appended to the line buffer. -/
structure Adds (s s' : St) (t : Str) : Prop where
  line : s'.lst.line = t.reverse ++ s.lst.line
  lpos : s'.lst.lpos = s.lst.lpos + t.length
  llen : s'.lst.llen = s.lst.llen
  lines : s'.lst.lines = s.lst.lines
  list : s'.flags = s.flags

theorem Adds.refl (s : St) : Adds s s [] := ⟨rfl, rfl, rfl, rfl, rfl⟩
theorem Adds.trans {a b c : St} {t u : Str} (h : Adds a b t) (h' : Adds b c u) : Adds a c (t ++ u) :=
  ⟨by rw [h'.line, h.line]; simp, by rw [h'.lpos, h.lpos, List.length_append]; omega, h'.llen.trans h.llen, h'.lines.trans h.lines,
    h'.list.trans h.list⟩

theorem adds_raw {c : Char} {s s' : St} {u : Unit} (h : putRaw c s = .ok u s') : Adds s s' [c] := by
  unfold putRaw at h
  rw [getS_bind_run] at h
  split at h
  · cases h
  · cases h
    exact ⟨rfl, rfl, rfl, rfl, rfl⟩
theorem adds_space {s s' : St} {u : Unit} (hl : s.lst.lpos < s.lst.llen) (h : putSpace s = .ok u s') : Adds s s' [' '] := by
  unfold putSpace at h
  rw [getS_bind_run, if_pos hl] at h
  exact adds_raw h
theorem adds_spaces (n : Nat) : ∀ {s s' : St} {u : Unit}, s.lst.lpos + n ≤ s.lst.llen → putSpaces n s = .ok u s' →
    Adds s s' (List.replicate n ' ') := by
  induction n with
  | zero => intro s s' u _ h; cases h; exact .refl _
  | succ n ih =>
    intro s s' u hl h
    unfold putSpaces at h
    obtain ⟨_, s1, h1, h⟩ := bind_ok h
    have a1 := adds_space (by omega) h1
    have a2 := ih (by rw [a1.lpos, a1.llen]; simp; omega) h
    exact a1.trans a2

theorem adds_car {c : Char} {s s' : St} {u : Unit} (hk : keepChar c = true) {col : Nat} (hc : col % 8 = (s.lst.lpos + 4) % 8)
    (hl : s.lst.lpos + (expand col [c]).length ≤ s.lst.llen) (h : outputcar c s = .ok u s') : Adds s s' (expand col [c]) := by
  unfold outputcar at h
  by_cases ht : c = '\t'
  · subst ht
    rw [if_neg (by decide), if_neg (by decide), if_pos rfl, getS_bind_run] at h
    have e : expand col ['\t'] = List.replicate (8 - col % 8) ' ' := by simp [expand]
    rw [e] at hl ⊢
    rw [hc] at hl ⊢
    rw [List.length_replicate] at hl
    exact adds_spaces _ hl h
  · have e : expand col [c] = [c] := by simp [expand, ht]
    rw [e] at hl ⊢
    simp at hl
    by_cases hs : c = ' '
    · subst hs
      rw [if_neg (by decide), if_pos rfl] at h
      exact adds_space (by omega) h
    · have n9 : c.toNat ≠ 9 := fun e => ht (by rw [← Char.ofNat_toNat c, e])
      have n32 : c.toNat ≠ 32 := fun e => hs (by rw [← Char.ofNat_toNat c, e])
      have k : 32 ≤ c.toNat ∧ c.toNat ≤ 126 ∨ 127 < c.toNat := by
        simp [keepChar, isprint, isascii, ht] at hk
        omega
      have hsp : isspace c = false := by
        simp [isspace]
        omega
      have hp : (isprint c || !isascii c) = true := by
        simp [isprint, isascii]
        omega
      rw [if_pos (by rw [hsp]; rfl), getS_bind_run] at h
      obtain ⟨_, s1, h1, h⟩ := bind_ok h
      unfold whenM at h1 h
      rw [if_neg (by omega)] at h1
      cases h1
      rw [if_pos hp] at h
      exact adds_raw h

theorem expand_cons (col : Nat) (c : Char) (t : Text) : expand col (c :: t) = expand col [c] ++ expand (col + (expand col [c]).length) t := by
  by_cases h : c = '\t' <;> simp [expand, h]

theorem adds_output (t : Str) : ∀ {s s' : St} {u : Unit} {col : Nat}, (∀ c ∈ t, keepChar c = true) → col % 8 = (s.lst.lpos + 4) % 8 →
    s.lst.lpos + (expand col t).length ≤ s.lst.llen → output t s = .ok u s' → Adds s s' (expand col t) := by
  induction t with
  | nil => intro s s' u col _ _ _ h; cases h; exact .refl _
  | cons c t ih =>
    intro s s' u col hk hc hl h
    rw [expand_cons] at hl ⊢
    rw [List.length_append] at hl
    unfold output at h
    obtain ⟨_, s1, h1, h⟩ := bind_ok h
    have a1 := adds_car (hk c (.head _)) hc (by omega) h1
    have a2 := ih (col := col + (expand col [c]).length) (fun x hx => hk x (.tail _ hx)) (by rw [a1.lpos]; omega) (by rw [a1.lpos, a1.llen]; omega) h
    exact a1.trans a2

theorem expand_flat (t : Text) : ∀ col, '\t' ∉ t → expand col t = t := by
  induction t with
  | nil => intro col _; rfl
  | cons c t ih =>
    intro col h
    have h1 : c ≠ '\t' := fun e => h (by rw [e]; exact .head _)
    rw [expand, if_neg h1, ih _ fun hx => h (.tail _ hx)]

theorem adds_position {n : Nat} {s s' : St} {u : Unit} (hp : s.lst.line.length = s.lst.lpos) (h : position n s = .ok u s') :
    n < s.lst.llen ∧ Adds s s' (List.replicate (n - s.lst.lpos) ' ') := by
  unfold position at h
  rw [getS_bind_run] at h
  split at h
  · cases h
  · rename_i hn
    by_cases hl : s.lst.lpos ≤ n
    · exact ⟨by omega, adds_spaces _ (by omega) h⟩
    · have e : n - s.lst.lpos = 0 := by omega
      rw [e] at h ⊢
      cases h
      exact ⟨by omega, .refl _⟩

/-- Marks can be printed. -/
def Marked (p : Option Char) : Prop := ∀ c, p = some c → 32 < c.toNat ∧ c.toNat ≤ 126

theorem linnum_tag (p : Option Char) (l n : Nat) : linnumField p l n = tag p l n := by
  cases p with
  | none =>
    unfold linnumField tag padLeft
    dsimp only
    rw [digits_toDigits]
  | some c =>
    unfold linnumField tag
    dsimp only
    have : min 4 (5 - l) = if 5 - l > 4 then 4 else 5 - l := by split <;> omega
    rw [this]
    generalize (if 5 - l > 4 then 4 else 5 - l) = i at *
    have hi : i = 0 ∨ i = 1 ∨ i = 2 ∨ i = 3 ∨ i = 4 := by omega
    rcases hi with rfl | rfl | rfl | rfl | rfl <;> rfl

theorem digits_print (n : Nat) : ∀ c ∈ Nat.toDigits 10 n, 32 < c.toNat ∧ c.toNat ≤ 126 := by
  rw [← digits_toDigits]
  have h : ∀ f n acc, (∀ c ∈ acc, 32 < c.toNat ∧ c.toNat ≤ 126) → ∀ c ∈ digitsAux f n acc, 32 < c.toNat ∧ c.toNat ≤ 126 := by
    intro f
    induction f with
    | zero => intro n acc h; exact h
    | succ f ih =>
      intro n acc h
      have hd : ∀ d : Fin 10, 32 < (Char.ofNat (48 + d.val)).toNat ∧ (Char.ofNat (48 + d.val)).toNat ≤ 126 := by decide
      have h' : ∀ c ∈ Char.ofNat (48 + n % 10) :: acc, 32 < c.toNat ∧ c.toNat ≤ 126 := by
        intro c hc
        rcases List.mem_cons.1 hc with rfl | hc
        · exact hd ⟨n % 10, by omega⟩
        · exact h c hc
      rw [digitsAux]
      split
      · exact h'
      · exact ih _ _ h'
  exact h _ _ _ (by simp)

theorem tag_print {p : Option Char} (hp : Marked p) (l n : Nat) : ∀ c ∈ tag p l n, keepChar c = true ∧ c ≠ '\t' := by
  have ok : ∀ c : Char, 32 < c.toNat ∧ c.toNat ≤ 126 → keepChar c = true ∧ c ≠ '\t' := by
    intro c h
    refine ⟨?_, by rintro rfl; exact absurd h.1 (by decide)⟩
    simp [keepChar, isprint]
    omega
  have sp : keepChar ' ' = true ∧ ' ' ≠ '\t' := by decide
  intro c hc
  cases p with
  | none =>
    unfold tag at hc
    rcases List.mem_append.1 hc with hc | hc
    · rw [(List.mem_replicate.1 hc).2]; exact sp
    · exact ok c (digits_print n c hc)
  | some p =>
    unfold tag at hc
    rcases List.mem_append.1 hc with hc | hc
    · rcases List.mem_append.1 hc with hc | hc
      · rw [(List.mem_replicate.1 hc).2]; exact sp
      · rw [List.mem_singleton.1 hc]
        exact ok p (hp p rfl)
    · rw [(List.mem_replicate.1 hc).2]; exact sp

theorem sourceLine_length {m t x : Text} (hm : m.length ≤ 21) :
    (sourceLine m t x).length = (sourceLine [] t x).length := by
  unfold sourceLine fill
  simp only [List.length_append, List.length_replicate, List.length_nil]
  have : m.length + (21 - m.length) = 21 := by omega
  rw [this]

/-- outputline() prints one line. -/
theorem line_shown {s s' : St} {u : Unit} (hl : s.flags.listOn = true) (hn : s.linenumber ≠ 0) (hp : s.lst.line.length = s.lst.lpos)
    (hm : s.lst.lpos ≤ 21) (hk : ∀ c ∈ s.curline, keepChar c = true) (hx : Marked s.lineprefix)
    (hf : (sourceLine [] (tag s.lineprefix s.macrolevel s.linenumber) s.curline).length ≤ s.lst.llen)
    (h : outputline s = .ok u s') :
    s'.lst.lines = sourceLine s.lst.line.reverse (tag s.lineprefix s.macrolevel s.linenumber) s.curline :: s.lst.lines ∧
      s'.lst.line = [] ∧ s'.lst.lpos = 0 ∧ s'.lst.llen = s.lst.llen := by
  unfold outputline at h
  obtain ⟨_, s0, h0, h⟩ := bind_ok h
  have e0 : s0 = { s with lst := { s.lst with lastoffset := 0 } } := by cases h0; rfl
  rw [getS_bind_run] at h
  have p0 : s0.lst.line.length = s0.lst.lpos := by rw [e0]; exact hp
  rw [if_neg (by rw [e0]; exact hn)] at h
  obtain ⟨_, s1, h1, h⟩ := bind_ok h
  obtain ⟨_, s2, h2, h⟩ := bind_ok h
  obtain ⟨_, s3, h3, h⟩ := bind_ok h
  obtain ⟨_, s4, h4, h⟩ := bind_ok h
  have ec : s0.curline = s.curline := by rw [e0]
  have et : linnumField s0.lineprefix s0.macrolevel s0.linenumber = tag s.lineprefix s.macrolevel s.linenumber := by
    rw [e0]; exact linnum_tag _ _ _
  rw [ec] at h4
  rw [et] at h2
  have hf' := hf
  rw [← sourceLine_length (m := s.lst.line.reverse) (by rw [List.length_reverse, hp]; exact hm)] at hf
  generalize ht : tag s.lineprefix s.macrolevel s.linenumber = t at *
  have tk : ∀ c ∈ t, keepChar c = true ∧ c ≠ '\t' := by rw [← ht]; exact tag_print hx _ _
  have ll : s0.lst.llen = s.lst.llen := by rw [e0]
  have lp : s0.lst.lpos = s.lst.lpos := by rw [e0]
  have lb : s0.lst.line = s.lst.line := by rw [e0]
  have lx : s0.lst.lines = s.lst.lines := by rw [e0]
  have lf : s0.flags = s.flags := by rw [e0]
  obtain ⟨b1, a1⟩ := adds_position p0 h1
  have v1 : s1.lst.lpos = 21 := by rw [a1.lpos, lp, List.length_replicate]; show s.lst.lpos + (21 - s.lst.lpos) = 21; omega
  have et2 : expand (s1.lst.lpos + 4) t = t := expand_flat t _ fun hx => (tk _ hx).2 rfl
  have len : (fill 21 s.lst.line.reverse ++ t).length = 21 + t.length := by
    unfold fill
    simp only [List.length_append, List.length_reverse, List.length_replicate, hp]
    omega
  have hf2 : 21 + t.length ≤ s.lst.llen ∧ 28 - (21 + t.length) + (21 + t.length) + (expand (21 + t.length - 28) s.curline).length ≤ s.lst.llen := by
    unfold sourceLine at hf
    rw [List.length_append, len] at hf
    unfold fill at hf len
    rw [List.length_append, len, List.length_replicate] at hf
    omega
  have a2 := adds_output t (col := s1.lst.lpos + 4) (fun c hc => (tk c hc).1) rfl (by rw [et2, v1, a1.llen, ll]; exact hf2.1) h2
  rw [et2] at a2
  have v2 : s2.lst.lpos = 21 + t.length := by rw [a2.lpos, v1]
  have p1 : s1.lst.line.length = s1.lst.lpos := by rw [a1.line, a1.lpos, List.length_append, List.length_reverse, p0, Nat.add_comm]
  have p2 : s2.lst.line.length = s2.lst.lpos := by rw [a2.line, a2.lpos, List.length_append, List.length_reverse, p1, Nat.add_comm]
  obtain ⟨b3, a3⟩ := adds_position p2 h3
  rw [v2] at a3
  have v3 : s3.lst.lpos = 21 + t.length + (28 - (21 + t.length)) := by rw [a3.lpos, v2, List.length_replicate]; rfl
  have a4 := adds_output s.curline (col := 21 + t.length - 28) hk (by rw [v3]; omega) (by rw [v3, a3.llen, a2.llen, a1.llen, ll]; omega) h4
  have l4 : s4.flags.listOn = true := by rw [a4.list, a3.list, a2.list, a1.list, lf]; exact hl
  have e5 := eol_shown l4 h
  obtain ⟨v1', v2', v3'⟩ := printed_line s4.lst.line.reverse s4.lst
  obtain ⟨v4', v5'⟩ := printed_view s4.lst.line.reverse s4.lst
  rw [e5]
  refine ⟨?_, rfl, rfl, ?_⟩
  · show (printed _ _).lines = _
    rw [v4', a4.lines, a3.lines, a2.lines, a1.lines, lx]
    congr 1
    rw [a4.line, a3.line, a2.line, a1.line, lb, lp]
    unfold sourceLine
    rw [len]
    rw [show fill 28 (fill 21 s.lst.line.reverse ++ t) = (fill 21 s.lst.line.reverse ++ t) ++ List.replicate (28 - (fill 21 s.lst.line.reverse ++ t).length) ' ' from rfl, len]
    unfold fill
    rw [List.length_reverse, hp]
    simp only [List.reverse_append, List.reverse_reverse, List.append_assoc]
    rfl
  · show (printed _ _).llen = _
    rw [v3', a4.llen, a3.llen, a2.llen, a1.llen, ll]

/-! ### The lines of a statement -/

theorem bytes_last {d : Nat} (hd : d = 4 ∨ d = 6 ∨ d = 8) {a : Nat} {bs : List Nat} {r : List Text} {l : Text} (h : bytes d a bs = r ++ [l]) :
    l.length ≤ 20 := by
  have hq : 0 < perRow d := by rcases hd with rfl | rfl | rfl <;> decide
  have hn : bs ≠ [] := fun e => by rw [e, bytes_nil] at h; simp at h
  unfold bytes at h
  split at h
  · obtain ⟨r', l', h1, h2⟩ := rows_last hq a hn
    rw [h1] at h
    have := (List.append_inj' h rfl).2
    simp at this
    rw [← this, h2]
    have : bs.length % perRow d < perRow d := Nat.mod_lt _ hq
    have : d + 1 + 2 * perRow d ≤ 20 := by rcases hd with rfl | rfl | rfl <;> decide
    split <;> omega
  · rename_i hm
    have el : (bs.take (most d)).length = most d := by rw [List.length_take]; omega
    have ne : bs.take (most d) ≠ [] := by
      intro e
      rw [e] at el
      rcases hd with rfl | rfl | rfl <;> simp [most] at el
    obtain ⟨r', l', h1, h2⟩ := rows_last hq a ne
    rw [h1] at h
    have := (List.append_inj' h rfl).2
    simp at this
    rw [← this, List.length_append, h2, el]
    rcases hd with rfl | rfl | rfl <;> decide

/-- The lines printed since the state `base`: those of the statement, and remarks. -/
theorem Lined.line {s s' : St} {u : Unit} {base : St} {a : Word} {bs : List Byte} (r : Lined s base a bs) (hn : s.linenumber ≠ 0)
    (hk : ∀ c ∈ s.curline, keepChar c = true) (hx : Marked s.lineprefix)
    (hf : (sourceLine [] (tag s.lineprefix s.macrolevel s.linenumber) s.curline).length ≤ s.lst.llen)
    (h : outputline s = .ok u s') :
    ∃ ts : List (Bool × Str), s'.lst.lines = (ts.map Prod.snd).reverse ++ base.lst.lines ∧ (∀ t ∈ ts, t.1 = true → Remark t.2) ∧
      plain ts = _root_.Spec.Listing.statement (addrDigits s.flags) a.toNat (natsOf bs) (tag s.lineprefix s.macrolevel s.linenumber) s.curline ∧
      s'.lst.line = [] ∧ s'.lst.lpos = 0 ∧ s'.lst.llen = s.lst.llen := by
  obtain ⟨ts, t1, t2, t3, t4⟩ := r.shown
  have hm : s.lst.lpos ≤ 21 := by
    rw [← r.pos]
    by_cases e : bs = []
    · rw [t4 e]; simp
    · rw [if_neg e] at t3
      have := bytes_last (digits_cases s.flags) t3
      rw [List.length_reverse] at this
      omega
  obtain ⟨e1, e2, e3, e4⟩ := line_shown r.list hn r.pos hm hk hx hf h
  refine ⟨ts ++ [(false, sourceLine s.lst.line.reverse (tag s.lineprefix s.macrolevel s.linenumber) s.curline)], ?_, ?_, ?_, e2, e3, e4⟩
  · rw [e1, t1]
    simp
  · intro t ht
    rcases List.mem_append.1 ht with ht | ht
    · exact t2 t ht
    · simp at ht
      simp [ht]
  · rw [plain_append]
    unfold _root_.Spec.Listing.statement
    rw [t3]
    by_cases e : bs = []
    · rw [if_pos e, List.append_nil] at *
      have : plain ts = [] := by rw [← t3, e]; exact bytes_nil _ _
      rw [this, t4 e]
      rfl
    · rw [if_neg e]
      simp [plain]

/-! ### Lines that generate nothing -/

theorem Marg.of {s base : St} {m : Str} (h : Marg s base m) {s' : St} (hl : s'.lst = s.lst) (ho : s'.flags.listOn = s.flags.listOn) : Marg s' base m :=
  ⟨ho.trans h.list, by rw [hl]; exact h.wide, by rw [hl]; exact h.llen, by rw [hl]; exact h.line, by rw [hl]; exact h.pos, by rw [hl]; exact h.shown⟩

/-- The address of a label in front of its line. -/
theorem echo_shown {v : Word} {s s' base : St} {u : Unit} (r : Marg s base []) (hm : s.macrolevel = 0 ∨ s.flags.macrolistOn = true)
    (h : echoAddr v s = .ok u s') : SameBut s s' ∧ Marg s' base (_root_.Spec.Listing.echo (addrDigits s.flags) v.toNat) := by
  have q := (inferInstance : Quiet (echoAddr v)).run s
  rw [h] at q
  refine ⟨q, ?_⟩
  have hl : s.lst.line = [] := by simpa using r.line
  have hp : s.lst.lpos = 0 := by rw [← r.pos, hl]; rfl
  unfold echoAddr at h
  rw [getS_bind_run, if_pos ⟨hm, hp⟩] at h
  obtain ⟨_, s1, h1, h⟩ := bind_ok h
  obtain ⟨-, a1⟩ := adds_position r.pos h1
  unfold outputaddr at h
  rw [getS_bind_run] at h
  have f1 : Fits s1.lst := ⟨by rw [a1.line, a1.lpos, List.length_append, List.length_reverse, r.pos, Nat.add_comm], by rw [a1.llen]; exact r.wide⟩
  have d1 := digits_cases s1.flags
  have p1 : s1.lst.lpos = 2 := by rw [a1.lpos, hp, List.length_replicate]
  obtain ⟨s2, h2, e2⟩ := output_fits (hexField (addrDigits s1.flags) v.toNat ++ c!" ") (s := s1) f1 (by
    rw [List.length_append, hexField_length, p1]
    show 2 + (_ + 1) ≤ 39
    omega) (by
    intro c hc
    rcases List.mem_append.1 hc with hc | hc
    · exact .inl (hexField_shown _ _ c hc)
    · exact .inr (by simpa using hc))
  rw [h2] at h
  cases h
  have fl := (inferInstance : Flagged (output _)).run h2
  refine ⟨by rw [fl, a1.list]; exact r.list, by rw [e2]; show 39 ≤ s1.lst.llen; rw [a1.llen]; exact r.wide, by rw [e2]; exact a1.llen.trans r.llen, ?_, ?_, ?_⟩
  · rw [e2, a1.list, hexField_hex]
    show ((_ ++ c!" ").reverse ++ s1.lst.line).reverse = _
    rw [a1.line, hl, hp]
    simp [_root_.Spec.Listing.echo]
  · rw [e2]
    show (_ ++ s1.lst.line).length = s1.lst.lpos + _
    rw [List.length_append, f1.1, List.length_reverse]
    omega
  · rw [e2]
    show ∃ ts : List (Bool × Str), s1.lst.lines = _ ∧ _
    rw [a1.lines]
    exact r.shown

/-- outputline() with only a margin. -/
theorem Marg.out {s s' base : St} {u : Unit} {m : Str} (r : Marg s base m) (hm : m.length ≤ 21) (hn : s.linenumber ≠ 0)
    (hk : ∀ c ∈ s.curline, keepChar c = true) (hx : Marked s.lineprefix)
    (hf : (sourceLine [] (tag s.lineprefix s.macrolevel s.linenumber) s.curline).length ≤ s.lst.llen)
    (h : outputline s = .ok u s') :
    ∃ ts : List (Bool × Str), s'.lst.lines = (ts.map Prod.snd).reverse ++ base.lst.lines ∧ (∀ t ∈ ts, t.1 = true → Remark t.2) ∧
      plain ts = [sourceLine m (tag s.lineprefix s.macrolevel s.linenumber) s.curline] ∧
      s'.lst.line = [] ∧ s'.lst.lpos = 0 ∧ s'.lst.llen = s.lst.llen := by
  obtain ⟨ts, t1, t2⟩ := r.shown
  obtain ⟨e1, e2, e3, e4⟩ := line_shown r.list hn r.pos (by rw [← r.pos, ← List.length_reverse, r.line]; exact hm) hk hx hf h
  rw [r.line] at e1
  refine ⟨ts ++ [(false, sourceLine m (tag s.lineprefix s.macrolevel s.linenumber) s.curline)], ?_, ?_, ?_, e2, e3, e4⟩
  · rw [e1, t1]
    simp
  · intro t ht
    rcases List.mem_append.1 ht with ht | ht
    · exact fun _ => (t2 t ht).2
    · simp at ht
      simp [ht]
  · rw [plain_append]
    have : plain ts = [] := by
      unfold plain
      rw [List.filter_eq_nil_iff.2 fun t ht => by simp [(t2 t ht).1]]
      rfl
    rw [this]
    rfl

theorem echo_length {d : Nat} (hd : d = 4 ∨ d = 6 ∨ d = 8) (v : Nat) : (_root_.Spec.Listing.echo d v).length ≤ 21 := by
  unfold _root_.Spec.Listing.echo
  simp only [List.length_append, hex_length]
  show 2 + d + 1 ≤ 21
  omega

theorem deflabel_put {n : Str} {f : LFlags} {t : LType} {v : Word} {s s' : St} {k : Str} (h : deflabel n f t v s = .ok k s') :
    k = canon s.segment n ∧ ∃ l, s' = { s with tree := s.tree.put k l } ∧ l.value = v ∧ l.type = t ∧ l.flags.undef = f.undef := by
  unfold deflabel at h
  rw [getS_bind_run] at h
  dsimp only at h
  cases hq : s.tree.find (canon s.segment n) with
  | none =>
    rw [hq] at h
    dsimp only at h
    split at h
    · split at h <;> exact absurd h error_not_ok
    · obtain ⟨_, s3, h3, h⟩ := bind_ok h
      cases h3
      cases h
      exact ⟨rfl, _, rfl, rfl, rfl, rfl⟩
  | some q =>
    rw [hq] at h
    dsimp only at h
    split at h
    · split at h <;> exact absurd h error_not_ok
    · obtain ⟨_, s3, h3, h⟩ := bind_ok h
      cases h3
      cases h
      exact ⟨rfl, _, rfl, rfl, rfl, rfl⟩

/-- A label of a part that is not assembled. -/
theorem herelabel_marg {l : Str} {s s' base : St} {u : Unit} (ho : s.flags.codeOn = false) (r : Marg s base [])
    (hm : s.macrolevel = 0 ∨ s.flags.macrolistOn = true) (h : herelabel l s = .ok u s') :
    Marg s' base (_root_.Spec.Listing.echo (addrDigits s.flags) (starLabel s).value.toNat) ∧ Stays s s' ∧ s'.log = s.log := by
  unfold herelabel at h
  split at h
  · exact absurd h error_not_ok
  · rw [getS_bind_run] at h
    split at h
    · obtain ⟨k, s1, h1, h⟩ := bind_ok h
      obtain ⟨_, s2, h2, h⟩ := bind_ok h
      have m1 : s1.lst = s.lst ∧ s1.flags = s.flags ∧ Stays s s1 ∧ s1.log = s.log := by
        obtain ⟨-, x, rfl, -⟩ := deflabel_put h1
        exact ⟨rfl, rfl, ⟨rfl, rfl, rfl, rfl, rfl, rfl, rfl, rfl⟩, rfl⟩
      cases h2
      unfold whenM at h
      rw [if_pos (by rw [ho]; rfl)] at h
      have r1 : Marg { s1 with notes := (s1.passnumber, .label k (starLabel s).value) :: s1.notes } base [] :=
        r.of m1.1 (by show s1.flags.listOn = _; rw [m1.2.1])
      obtain ⟨q, r2⟩ := echo_shown r1 (by show s1.macrolevel = 0 ∨ s1.flags.macrolistOn = true; rw [m1.2.2.1.level, m1.2.1]; exact hm) h
      refine ⟨?_, ?_, ?_⟩
      · have e : addrDigits s1.flags = addrDigits s.flags := by rw [m1.2.1]
        rw [← e]
        exact r2
      · have := q.keep
        exact m1.2.2.1.trans ⟨this.on, this.a16, this.a24, this.num, this.line, this.mark, this.level, this.pass⟩
      · obtain ⟨_, _, _, rfl⟩ := q
        exact m1.2.2.2
    · exact absurd h error_not_ok

/-! ### Reading the fields of a line changes neither flags nor labels -/

class Reads (m : M α) : Prop where
  run : ∀ {s a s'}, m s = .ok a s' → s'.flags = s.flags ∧ s'.tree = s.tree

theorem Reads.bind {m : M α} {f : α → M β} (hm : Reads m) (hf : ∀ a, Reads (f a)) : Reads (m >>= f) := ⟨fun h => by
  obtain ⟨a, s1, h1, h2⟩ := bind_ok h
  have x := hm.run h1
  have y := (hf a).run h2
  exact ⟨y.1.trans x.1, y.2.trans x.2⟩⟩
theorem Reads.pure (a : α) : Reads (Pure.pure a : M α) := ⟨fun h => by cases h; exact ⟨rfl, rfl⟩⟩
theorem Reads.getS : Reads Crasm.getS := ⟨fun h => by cases h; exact ⟨rfl, rfl⟩⟩
theorem Reads.same {g : St → St} (h : ∀ s, (g s).flags = s.flags ∧ (g s).tree = s.tree) : Reads (Crasm.modS g) :=
  ⟨fun {s a s'} hr => by cases hr; exact h s⟩
theorem Reads.whenM {c : Prop} [Decidable c] {a : M Unit} (ha : Reads a) : Reads (whenM c a) := by
  unfold Crasm.whenM; split
  · exact ha
  · exact Reads.pure _

macro "reads" : tactic => `(tactic| repeat' (first
  | infer_instance
  | exact Reads.pure _
  | exact Reads.getS
  | exact Reads.same fun _ => ⟨rfl, rfl⟩
  | with_reducible refine Reads.bind ?_ (fun _ => ?_)
  | with_reducible refine Reads.whenM ?_
  | dsimp only
  | split))

instance (u : UB) : Reads (ubM u : M α) := ⟨fun h => by cases h⟩
instance (m : Str) : Reads (error m : M α) := ⟨fun h => absurd h error_not_ok⟩
instance (m : Str) : Reads (refuse m : M α) := ⟨fun h => absurd h refuse_not_ok⟩
instance (n : Note) : Reads (note n) := Reads.same fun _ => ⟨rfl, rfl⟩
instance (s pat : Str) : Reads (filterC s pat) := by unfold filterC; reads
instance (s pat : Str) : Reads (filter0 s pat) := by unfold filter0; reads
instance (s pat : Str) : Reads (filter1 s pat) := by unfold filter1; reads
instance (s pat : Str) : Reads (filter2 s pat) := by unfold filter2; reads
instance (m : Str) : Reads (findmnemo m) := by unfold findmnemo; reads
instance (l : Option Str) (s : Str) : Reads (splitMnemo l s) := by unfold splitMnemo; reads
instance (s : Str) : Reads (splitLine s) := by unfold splitLine; reads
instance : Reads stripLine := by unfold stripLine; reads

/-! ### Expressions leave the flags and the part of the program alone -/

class Bound (m : M α) : Prop where
  run : ∀ {s a s'}, m s = .ok a s' → s'.flags = s.flags ∧ s'.segment = s.segment

theorem Bound.bind {m : M α} {f : α → M β} (hm : Bound m) (hf : ∀ a, Bound (f a)) : Bound (m >>= f) := ⟨fun h => by
  obtain ⟨a, s1, h1, h2⟩ := bind_ok h
  exact ⟨((hf a).run h2).1.trans (hm.run h1).1, ((hf a).run h2).2.trans (hm.run h1).2⟩⟩
theorem Bound.pure (a : α) : Bound (Pure.pure a : M α) := ⟨fun h => by cases h; exact ⟨rfl, rfl⟩⟩
theorem Bound.getS : Bound Crasm.getS := ⟨fun h => by cases h; exact ⟨rfl, rfl⟩⟩
theorem Bound.same {g : St → St} (h : ∀ s, (g s).flags = s.flags ∧ (g s).segment = s.segment) : Bound (Crasm.modS g) := ⟨fun {s a s'} hr => by cases hr; exact h s⟩
theorem Bound.whenM {c : Prop} [Decidable c] {a : M Unit} (ha : Bound a) : Bound (whenM c a) := by
  unfold Crasm.whenM; split
  · exact ha
  · exact Bound.pure _
macro "bound" : tactic => `(tactic| repeat' (first
  | infer_instance
  | exact Bound.pure _
  | exact Bound.getS
  | exact Bound.same fun _ => ⟨rfl, rfl⟩
  | with_reducible refine Bound.bind ?_ (fun _ => ?_)
  | with_reducible refine Bound.whenM ?_
  | dsimp only
  | split))

instance (u : UB) : Bound (ubM u : M α) := ⟨fun h => by cases h⟩
instance (m : Str) : Bound (fatal m : M α) := ⟨fun h => by cases h⟩
instance (w : Stop) : Bound (stopWith w : M α) := ⟨fun h => by cases h⟩
instance (m : Str) : Bound (error m : M α) := ⟨fun h => absurd h error_not_ok⟩
instance (s pat : Str) : Bound (filterC s pat) := by unfold filterC; bound
instance (s pat : Str) : Bound (filter0 s pat) := by unfold filter0; bound
instance (s pat : Str) : Bound (filter1 s pat) := by unfold filter1; bound
instance (s pat : Str) : Bound (filter2 s pat) := by unfold filter2; bound
instance (m : Str) : Bound (warning m) := ⟨fun {s a s'} h => by
  have q := (inferInstance : Quiet (warning m)).run s
  rw [h] at q
  refine ⟨(inferInstance : Flagged (warning m)).run h, ?_⟩
  obtain ⟨_, _, _, rfl⟩ := (q : SameBut s s')
  rfl⟩
instance (n : Note) : Bound (note n) := Bound.same fun _ => ⟨rfl, rfl⟩
instance (k : Str) (l : Label) : Bound (putLabel k l) := Bound.same fun _ => ⟨rfl, rfl⟩
instance (n : Str) (f : LFlags) (t : LType) (v : Word) : Bound (deflabel n f t v) := by unfold deflabel; bound
instance (m : Str) : Bound (findmnemo m) := by unfold findmnemo; bound
instance (l : Option Str) (s : Str) : Bound (splitMnemo l s) := by unfold splitMnemo; bound
instance (s : Str) : Bound (splitLine s) := by unfold splitLine; bound
instance : Bound stripLine := by unfold stripLine; bound
instance (n : Str) : Bound (findlabel n) := by unfold findlabel; bound
instance (r : Result) (t : LType) : Bound (checktype r t) := by unfold checktype; bound
instance (tgt : Bool) (r : Result) : Bound (setRes tgt r) := by unfold setRes; bound
instance (tgt : Bool) (v : Nat) : Bound (cst tgt v) := by unfold cst; bound
instance (tgt : Bool) (v : Except Str Nat) : Bound (cstE tgt v) := by unfold cstE; bound
instance (tgt : Bool) (n : Str) : Bound (cstlabel tgt n) := by unfold cstlabel; bound
instance bound_parseConst (tgt : Bool) (e : Str) (rows : List (Str × Base)) : Bound (parseConst tgt e rows) := by
  induction rows with
  | nil => unfold parseConst; bound
  | cons r rows ih => obtain ⟨p, b⟩ := r; unfold parseConst; bound
instance (tgt : Bool) (e : Str) : Bound (parseLeaf tgt e) := by unfold parseLeaf; bound
instance (m : Str) : Bound (refuse m : M α) := ⟨fun h => absurd h refuse_not_ok⟩
instance (tgt : Bool) (o : OpRes) : Bound (finishOp tgt o) := by cases o <;> unfold finishOp <;> bound
instance bound_firstMatch (e : Str) (alts : List (Str × Op2)) : Bound (firstMatch e alts) := by
  induction alts with
  | nil => exact Bound.pure _
  | cons x alts ih => obtain ⟨pat, op⟩ := x; unfold firstMatch; bound
theorem bound_parseRows (rec : Bool → Str → M Result) (hrec : ∀ tgt x, Bound (rec tgt x)) (tgt : Bool) (e : Str)
    (rows : List Ent) : Bound (parseRows rec tgt e rows) := by
  induction rows with
  | nil => exact (inferInstance : Bound (parseLeaf tgt (creverse e)))
  | cons r rows ih => cases r <;> unfold parseRows <;> bound
instance bound_parse2 (n : Nat) (tgt : Bool) (e : Str) : Bound (parse2 n tgt e) := by
  induction n generalizing tgt e with
  | zero => unfold parse2; bound
  | succ n ih => exact bound_parseRows (parse2 n) ih tgt e revTable
instance (o : Option Str) : Bound (parse o) := by unfold parse; bound
instance (o : Option Str) : Bound (parseAbs o) := by unfold parseAbs; bound

/-! ### Lines that change the processor or the part of the program -/

/-- Nothing is listed but remarks. -/
structure Silence (s s' : St) : Prop where
  num : s'.linenumber = s.linenumber
  line : s'.curline = s.curline
  mark : s'.lineprefix = s.lineprefix
  level : s'.macrolevel = s.macrolevel
  log : s'.log = s.log
  adv : s'.advance = s.advance
  marg : ∀ base m, Marg s base m → Marg s' base m

theorem Silence.trans {a b c : St} (h : Silence a b) (h' : Silence b c) : Silence a c :=
  ⟨h'.num.trans h.num, h'.line.trans h.line, h'.mark.trans h.mark, h'.level.trans h.level, h'.log.trans h.log, h'.adv.trans h.adv,
    fun base m r => h'.marg _ _ (h.marg base m r)⟩
theorem Silence.refl (s : St) : Silence s s := ⟨rfl, rfl, rfl, rfl, rfl, rfl, fun _ _ r => r⟩
theorem Silence.of {s s' : St} (h : Shown s s') (ha : s'.advance = s.advance) : Silence s s' :=
  ⟨h.1.num, h.1.line, h.1.mark, h.1.level, (h.idle ha).1, ha, (h.idle ha).2⟩

class Silences (m : M α) : Prop where
  run : ∀ {s a s'}, m s = .ok a s' → Silence s s'

theorem Silences.bind {m : M α} {f : α → M β} (hm : Silences m) (hf : ∀ a, Silences (f a)) : Silences (m >>= f) := ⟨fun h => by
  obtain ⟨a, s1, h1, h2⟩ := bind_ok h
  exact (hm.run h1).trans ((hf a).run h2)⟩
theorem Silences.pure (a : α) : Silences (Pure.pure a : M α) := ⟨fun h => by cases h; exact .refl _⟩
theorem Silences.getS : Silences Crasm.getS := ⟨fun h => by cases h; exact .refl _⟩
theorem Silences.whenM {c : Prop} [Decidable c] {a : M Unit} (ha : Silences a) : Silences (whenM c a) := by
  unfold Crasm.whenM; split
  · exact ha
  · exact Silences.pure _
theorem Silences.both {m : M α} [h1 : Lists m] [h2 : Rests m] : Silences m := ⟨fun h => .of (h1.run h) (h2.run h)⟩
theorem Silences.same {g : St → St} (h : ∀ s, (g s).lst = s.lst ∧ (g s).flags.listOn = s.flags.listOn ∧ (g s).log = s.log ∧ (g s).advance = s.advance ∧
    (g s).linenumber = s.linenumber ∧ (g s).curline = s.curline ∧ (g s).lineprefix = s.lineprefix ∧ (g s).macrolevel = s.macrolevel) :
    Silences (Crasm.modS g) := ⟨fun {s a s'} hr => by
  cases hr
  obtain ⟨h1, h2, h3, h4, h5, h6, h7, h8⟩ := h s
  exact ⟨h5, h6, h7, h8, h3, h4, fun base m r => r.of h1 h2⟩⟩

macro "silences" : tactic => `(tactic| repeat' (first
  | infer_instance
  | exact Silences.pure _
  | exact Silences.getS
  | exact Silences.same fun _ => ⟨rfl, rfl, rfl, rfl, rfl, rfl, rfl, rfl⟩
  | with_reducible refine Silences.bind ?_ (fun _ => ?_)
  | with_reducible refine Silences.whenM ?_
  | dsimp only
  | split))

instance (m : Str) : Silences (error m : M α) := ⟨fun h => absurd h error_not_ok⟩
instance (m : Str) : Silences (warning m) := .both
instance (s pat : Str) : Silences (filter0 s pat) := .both
instance (k : Str) (l : Label) : Silences (putLabel k l) := .both
instance (t : TableId) (e : Entry) : Silences (bindOne t e) := by unfold bindOne; silences
instance silences_bindAll (t : TableId) (es : List Entry) (is : List Nat) : Silences (bindAll t es is) := by
  induction is with
  | nil => exact Silences.pure _
  | cons i is ih => unfold bindAll; silences
instance (t : TableId) (es : List Entry) : Silences (initLabelList t es) := by unfold initLabelList; silences
instance (c : Int) : Silences (C6800.init c) := by unfold C6800.init modFlags; silences
instance (c : Int) : Silences (C6502.init c) := by unfold C6502.init; silences
instance : Silences Z80.init := by unfold Z80.init modFlags; silences
instance (c : Cpu) : Silences c.init := by cases c <;> unfold Cpu.init <;> infer_instance
instance silences_findCpu (o : Str) (cs : List (Str × Cpu)) : Silences (findCpu o cs) := by
  induction cs with
  | nil => exact Silences.pure _
  | cons c cs ih => obtain ⟨n, c⟩ := c; unfold findCpu; silences
instance (o : Option Str) : Silences (xCpu o) := by unfold xCpu modFlags; silences
instance (on : Bool) (o : Option Str) : Silences (xCode on o) := by unfold xCode; silences

end Crasm

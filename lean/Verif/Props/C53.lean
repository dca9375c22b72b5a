import Verif.Proof.Table
import Verif.Props.C38
import Verif.Props.C52

/-! C53: all that is printed for a program: its listing, a summary, and the list of its symbols. -/

namespace Crasm.C53
open Spec.Program (Isa Source Proper State Lines late Printed labels key Free All2)
open _root_.Spec.Listing (sourceLine tag)
open C42 (Charted)

/-! ### The symbols of a program -/

theorem upper_shown {c : Char} (h : c.isAlphanum = true ∨ c = '_') :
    shownChar c.toUpper = true ∧ (c.isAlpha = true ∨ c = '_' → 57 < c.toUpper.toNat ∧ c.toUpper.toNat < 128) := by
  have hc : c.toNat < 128 := by
    rcases h with h | rfl
    · simp only [Char.isAlphanum, Char.isAlpha, Char.isUpper, Char.isLower, Char.isDigit, Bool.or_eq_true, Bool.and_eq_true, decide_eq_true_eq, UInt32.le_iff_toNat_le] at h
      show c.val.toNat < 128
      have e1 : 'Z'.val.toNat = 90 := rfl
      have e2 : 'z'.val.toNat = 122 := rfl
      have e3 : '9'.val.toNat = 57 := rfl
      omega
    · decide
  have : ∀ n < 128, ((Char.ofNat n).isAlphanum = true ∨ Char.ofNat n = '_') →
      shownChar (Char.ofNat n).toUpper = true ∧ ((Char.ofNat n).isAlpha = true ∨ Char.ofNat n = '_' → 57 < (Char.ofNat n).toUpper.toNat ∧ (Char.ofNat n).toUpper.toNat < 128) := by
    decide +kernel
  have := this _ hc
  rw [Char.ofNat_toNat] at this
  exact this h

/-- A free name is shown. -/
theorem free_shown {isa : Isa} {y : Str} (F : Free isa y) {l : Label} (h1 : l.type = .absolute) (h2 : l.flags.undef = false) : Shown (key y) l := by
  obtain ⟨hn, hd, -⟩ := F
  cases y with
  | nil => exact absurd hn (by simp [Spec.IsName])
  | cons c y =>
    obtain ⟨h3, h4, h5⟩ := hn
    have hc : c.isAlpha = true ∨ c = '_' := by
      rcases h3 with h | h | rfl
      · exact .inl h
      · exact .inr h
      · exact absurd (List.mem_cons_self) hd
    have hc' : c.isAlphanum = true ∨ c = '_' := hc.imp_left fun h => by unfold Char.isAlphanum; rw [h]; rfl
    refine ⟨h1, h2, ?_, ?_, ?_⟩
    · show ((c :: y).map Char.toUpper).length ≤ 48
      rw [List.length_map, List.length_cons]
      omega
    · show ((c :: y).map Char.toUpper).all shownChar = true
      rw [List.all_eq_true]
      intro x hx
      obtain ⟨z, hz, rfl⟩ := List.mem_map.1 hx
      rcases List.mem_cons.1 hz with rfl | hz
      · exact (upper_shown hc').1
      · rcases h4 z hz with h | h | rfl
        · exact (upper_shown (.inl h)).1
        · exact (upper_shown (.inr h)).1
        · exact absurd (List.mem_cons_of_mem _ hz) hd
    · have := (upper_shown hc').2 hc
      show (decide (c.toUpper.toNat ≤ 57) || decide (128 ≤ c.toUpper.toNat)) = false
      rw [decide_eq_false (by omega), decide_eq_false (by omega)]
      rfl

/-- The words of a vocabulary do not have a number as their value. -/
def wordy (voc : List Entry) : Bool := (pseudos ++ voc).all fun e => decide (e.label.type ≠ .absolute) && decide (e.label.type ≠ .relative)

theorem value_bits (v : Word) : v.toNat = Spec.Program.bits v.toInt := by
  unfold Spec.Program.bits
  rw [BitVec.ofInt_toInt]

/-- The symbols that the table holds at the end, and their lines. -/
theorem charted_table {isa : Isa} {voc : List Entry} {p : Lines isa} {addr : Str → Int} {σ : State} {s : St} (C : Charted isa voc p addr σ s) (hw : wordy voc = true)
    (hfree : ∀ k, k ∈ labels p ∨ k ∈ Spec.Program.equates p → ∃ y, Free isa y ∧ key y = k)
    (hs : (s.tree.toList.map (·.1)).Pairwise (· < ·)) (hm : ∀ k l, (k, l) ∈ s.tree.toList ↔ s.tree.find k = some l) :
    (∀ x ∈ s.tree.toList, hiddenLabel x.1 x.2 = true ∨ Shown x.1 x.2) ∧ Spec.Program.Table addr p σ ((shownOf s.tree.toList).map rowOf) := by
  have hval : ∀ k l, s.tree.find k = some l → k ∈ labels p ∨ k ∈ Spec.Program.equates p →
      l.type = .absolute ∧ l.flags.undef = false ∧ Spec.Program.Valued addr p σ k l.value.toInt l.flags.forward := by
    intro k l hl hk
    rcases hk with hk | hk
    · obtain ⟨l', h1, h2, h3, h4, h5⟩ := C.labs k hk
      rw [hl] at h1
      cases h1
      exact ⟨h3, h2, .inl ⟨hk, h4, h5⟩⟩
    · obtain ⟨l', v, b, h0, h1, h2, h3, h4, h5⟩ := C.equs k hk
      rw [hl] at h1
      cases h1
      exact ⟨h3, h2, .inr ⟨hk, by rw [h0, h4, h5]⟩⟩
  have hvis : ∀ k l, s.tree.find k = some l → k ∈ labels p ∨ k ∈ Spec.Program.equates p → Shown k l := by
    intro k l hl hk
    obtain ⟨h1, h2, -⟩ := hval k l hl hk
    obtain ⟨y, hy, rfl⟩ := hfree k hk
    exact free_shown hy h1 h2
  have hhid : ∀ k l, s.tree.find k = some l → C42.Reserved isa k → hiddenLabel k l = true := by
    intro k l hl hk
    unfold hiddenLabel
    rcases hk with rfl | hk
    · rw [show hiddenName starKey = true by decide, Bool.or_true]
    · obtain ⟨h1, e, he, h2⟩ := C.words k hk l hl
      have := List.all_eq_true.1 hw e he
      rw [Bool.and_eq_true, decide_eq_true_eq, decide_eq_true_eq, ← h2] at this
      rw [h1, decide_eq_true this.1, decide_eq_true this.2]
      rfl
  have hvf : ∀ k l, Shown k l → hiddenLabel k l = false := by
    intro k l V
    unfold hiddenLabel
    rw [V.name, V.type]
    rfl
  refine ⟨fun x hx => ?_, (shownOf s.tree.toList).map (·.1), ?_, fun k => ⟨fun hk => ?_, fun hk => ?_⟩, ?_⟩
  · obtain ⟨k, l⟩ := x
    have hl := (hm k l).1 hx
    rcases C.only k l hl with h | h | h
    · exact .inr (hvis k l hl (.inl h))
    · exact .inr (hvis k l hl (.inr h))
    · exact .inl (hhid k l hl h)
  · exact hs.sublist (List.filter_sublist.map _)
  · obtain ⟨⟨k', l⟩, hx, rfl⟩ := List.mem_map.1 hk
    obtain ⟨hx, hv⟩ := List.mem_filter.1 hx
    have hl := (hm k' l).1 hx
    rcases C.only k' l hl with h | h | h
    · exact .inl h
    · exact .inr h
    · rw [hhid k' l hl h] at hv
      cases hv
  · have : ∃ l, s.tree.find k = some l := by
      rcases hk with hk | hk
      · obtain ⟨l, h, -⟩ := C.labs k hk; exact ⟨l, h⟩
      · obtain ⟨l, v, b, h0, h, -⟩ := C.equs k hk; exact ⟨l, h⟩
    obtain ⟨l, hl⟩ := this
    exact List.mem_map.2 ⟨(k, l), List.mem_filter.2 ⟨(hm k l).2 hl, by rw [hvf k l (hvis k l hl hk)]; rfl⟩, rfl⟩
  · have : ∀ xs : List (Str × Label), (∀ x ∈ xs, x ∈ shownOf s.tree.toList) →
        All2 (fun k r => ∃ mark v fwd, Spec.Program.Valued addr p σ k v fwd ∧ (mark = '?' ∨ mark = if fwd = true then '^' else ' ') ∧
          r = Spec.Program.symbol mark (Spec.Program.bits v) k) (xs.map (·.1)) (xs.map rowOf) := by
      intro xs
      induction xs with
      | nil => intro _; exact .nil
      | cons x xs ih =>
        intro h
        refine .cons ?_ (ih fun y hy => h y (.tail _ hy))
        obtain ⟨k, l⟩ := x
        obtain ⟨hx, hv⟩ := List.mem_filter.1 (h (k, l) (.head _))
        have hl := (hm k l).1 hx
        have hk : k ∈ labels p ∨ k ∈ Spec.Program.equates p := by
          rcases C.only k l hl with h | h | h
          · exact .inl h
          · exact .inr h
          · rw [hhid k l hl h] at hv
            cases hv
        refine ⟨markOf l, l.value.toInt, l.flags.forward, (hval k l hl hk).2.2, ?_, ?_⟩
        · unfold markOf
          split
          · exact .inl rfl
          · exact .inr rfl
        · rw [← value_bits]
          rfl
    exact this _ fun x hx => hx

/-! ### Runs -/

/-- All that is printed for a program that stands for something. -/
def Complete (isa : Isa) (src : Str) (p : Lines isa) (out : Str) : Prop :=
  ∃ addr img σ' x bl rest rows table last, Spec.lines src = (x ++ bl) :: rest ∧ (∀ c ∈ bl, Spec.IsBlank c) ∧
    Printed isa addr (late p) 2 {} rest p img rows σ' ∧ Spec.Program.Table addr p σ' table ∧
    Spec.Program.Final p σ' last ∧ Spec.Program.Report out last img.length (sourceLine [] (tag none 0 1) x :: rows) table

theorem before (w : Word) : w - 1 = BitVec.ofInt 64 (w.toInt - 1) := by
  apply BitVec.eq_of_toInt_eq
  rw [BitVec.toInt_sub, BitVec.toInt_ofInt]
  rfl

theorem printed_run {isa : Isa} {addr : Str → Int} {l : Str → Bool} {n : Nat} {σ σ' : State} {ts : List Str} {p : Lines isa} {img : List (Int × Byte)}
    {out : List Str} (h : Printed isa addr l n σ ts p img out σ') : Spec.Program.Run isa addr l σ p img σ' := by
  induction h with
  | nil => exact .nil
  | cons _ _ h _ ih => exact .cons h ih

theorem complete {isa : Isa} {voc : List Entry} {p : Lines isa} {fuel : Nat} {o : Opts} {env : Env} {src nm out : Str} {file : CodeFile}
    (hs : env.fs nm = some src) (h : crasm fuel env o nm = .exit 0 out file) (hl : o.list = true) (hw : wordy voc = true)
    (hfree : ∀ k, k ∈ labels p ∨ k ∈ Spec.Program.equates p → ∃ y, Free isa y ∧ key y = k)
    (hgood : ∀ s, assemble fuel o (initSt env src) = .ok () s → s.errnumber = 0)
    (hsize : ∀ s, assemble fuel o (initSt env src) = .ok () s → ∀ addr σ' img, Spec.Program.Run isa addr (late p) {} p img σ' →
      s.code.codelen = BitVec.ofNat 64 (2 * img.length))
    (hlist : ∀ s, C40.Assembles fuel o env src s → ∃ addr σ' x bl rest rows, Spec.lines src = (x ++ bl) :: rest ∧
      (∀ c ∈ bl, Spec.IsBlank c) ∧ Printed isa addr (late p) 2 {} rest p (C42.image s.log) rows σ' ∧
      _root_.Spec.Program.Shows (stdoutOf s) (sourceLine [] (tag none 0 1) x :: rows) ∧ s.lst.pages = [] ∧
      ∃ ts : List (Bool × Str), s.lst.lines = (ts.map Prod.snd).reverse ∧ (∀ t ∈ ts, t.1 = true → _root_.Spec.Listing.Remark t.2) ∧
        (ts.filter fun t => !t.1).map Prod.snd = sourceLine [] (tag none 0 1) x :: rows ∧ Charted isa voc p addr σ' s ∧ ∃ k, C51.Desk k 76 s) :
    Complete isa src p out := by
  have hout : out = stdoutOf (lastState fuel o (initSt env src)) := by
    rcases C49_stdout hs h with ⟨-, h⟩ | ⟨h, -⟩
    · exact h
    · cases h
  obtain ⟨src', hs', hfin⟩ := crasm_exit0 h
  rw [hs] at hs'
  cases hs'
  obtain ⟨s, ha, -⟩ := finish_exit0 (inv_initSt env src) rfl hfin
  have he := hgood s ha
  obtain ⟨addr, σ', x, bl, rest, rows, l1, l2, l3, -, l5, ts, l6, l7, l8, ch, k, D⟩ := hlist s ⟨ha, he⟩
  obtain ⟨hso, hme⟩ := C38_sorted_complete fuel o env src s ha
  obtain ⟨hv, hT⟩ := charted_table ch hw hfree hso hme
  have m2 := (C52.last_from ha hfin).2
  have S : Sheet s := ⟨D.list, D.llen, D.a16, D.a24, D.line, D.lpos⟩
  have hlast : ∃ a b c, (lastState fuel o (initSt env src)).lst.lines =
      (List.replicate a [] ++ Spec.Program.summary (padLeft 8 (hexLower (s.code.pc - 1).toNat) ++ c!" (" ++ intDigits (s.code.pc - 1).toInt ++ c!")") (padLeft 8 (hexLower s.code.codelen.toNat) ++ c!" (" ++ intDigits s.code.codelen.toInt ++ c!")") ++ List.replicate b [] ++ (shownOf s.tree.toList).map rowOf ++ List.replicate c []).reverse ++ s.lst.lines := by
    unfold lastState
    unfold finish at hfin
    rw [ha] at hfin ⊢
    dsimp only at hfin ⊢
    cases hr : result s with
    | err s1 => rw [hr] at hfin; cases hfin
    | stop w s1 => rw [hr] at hfin; cases w <;> cases hfin
    | ok u s1 =>
      rw [hr] at hfin
      dsimp only at hfin ⊢
      obtain ⟨a, w1⟩ := result_wrote S he hr
      have hx : (o.xref || (decide (s.errnumber = 0) && o.list)) = true := by rw [he, hl]; simp
      rw [if_pos (by first | exact hx | simpa using hx)] at hfin ⊢
      cases hz : xref s1 with
      | err s2 => rw [hz] at hfin; cases hfin
      | stop w s2 => rw [hz] at hfin; cases w <;> cases hfin
      | ok _ s2 =>
        obtain ⟨b, c, w2⟩ := xref_wrote w1.sheet (by rw [w1.tree]; exact hv) hz
        rw [w1.tree] at w2
        refine ⟨a, b, c, ?_⟩
        have := (w1.trans w2).lines
        show s2.lst.lines = _
        rw [this]
        simp only [List.append_assoc]
  obtain ⟨a, b, c, hln⟩ := hlast
  have hcount := size_text s.code.codelen (v := 2 * ((C42.image s.log).length : Nat)) (by
    rw [hsize s ha addr σ' _ (printed_run l3)]
    exact (BitVec.ofInt_natCast 64 _).symm)
  rw [hcount] at hln
  refine ⟨addr, _, σ', x, bl, rest, rows, _, _, l1, l2, l3, hT, fun ho hx => ⟨_, ch.here ho hx, size_text _ (before s.code.pc)⟩, ?_⟩
  obtain ⟨closed, last, gap, hS⟩ := (laid_last fuel o env src).1.sheets
  rw [m2, l5] at hS
  refine ⟨closed, last, gap, a, b, c, ts, by rw [hout]; exact hS.list, ?_, l7, l8⟩
  rw [hS.lines, hln, l6, List.reverse_append, List.reverse_reverse, List.reverse_reverse]
  simp only [List.append_assoc]

theorem source_free {isa : Isa} {cpu src : Str} {p : Lines isa} (h : Source isa cpu src p) :
    ∀ k, k ∈ labels p ∨ k ∈ Spec.Program.equates p → ∃ y, Free isa y ∧ key y = k := by
  obtain ⟨first, rest, m, b, op, x1, x2, x3, x4, x5, hl⟩ := h
  exact C42.all_free hl

/-- **C53.**  Take a program for the 6500, 6502 or 65C02 that stands for something, in lines that fit on a line of the listing.  If
    crasm, called with this file and a listing, comes to its end, then all that is printed are pages with the listing of the
    program, the summary that there were no errors, and the list of the symbols of the program: every label with its address
    and every equate with its value, each once, in alphabetical order, and no other symbols. -/
theorem C53_6502 {c : _root_.Spec.M6502.Chip} {fuel : Nat} {o : Opts} {env : Env} {src nm out : Str} {file : CodeFile} {p : Lines (_root_.Spec.M6502.full c)}
    (hs : env.fs nm = some src) (hw : Source (_root_.Spec.M6502.full c) c.name src p) (ht : Spec.Tame src) (hp : Proper p) (hl : o.list = true) (hfit : C51.Fits src)
    (hr : ∃ addr img σ', Spec.Program.Run _ addr (late p) {} p img σ') (h : crasm fuel env o nm = .exit 0 out file) : Complete _ src p out :=
  complete (voc := C22.table c) hs h hl (by cases c <;> decide +kernel) (source_free hw) (fun _ ha => (C45.C45_exact ⟨hw, ht, hp, ha⟩).2 hr)
    (fun _ ha _ _ _ hR => C42.program_length (C42.machine c) (C42.complete c) (C42.definite c) (C42.chosen6502 c) (C42.cpuOf6502 c) (C42.mild6502 c) ha hw ht hp hR
      (C36_run _ _ _ _ _ ha).1)
    (fun _ hA => C51.program_closing (C42.machine c) (C51.coded6502 c) (C42.chosen6502 c) (fun _ => ⟨rfl, rfl, rfl⟩) (C42.cpuOf6502 c) (C42.mild6502 c) hA hw ht hp hl hfit)

/-- The same for the 6800, 6801 and 6803. -/
theorem C53_6800 {c : _root_.Spec.M6800.Chip} {cpu : Str} {fuel : Nat} {o : Opts} {env : Env} {src nm out : Str} {file : CodeFile} {p : Lines (_root_.Spec.M6800.full c)}
    (hn : _root_.Spec.M6800.Named c cpu) (hs : env.fs nm = some src) (hw : Source (_root_.Spec.M6800.full c) cpu src p) (ht : Spec.Tame src) (hp : Proper p)
    (hl : o.list = true) (hfit : C51.Fits src) (hr : ∃ addr img σ', Spec.Program.Run _ addr (late p) {} p img σ') (h : crasm fuel env o nm = .exit 0 out file) :
    Complete _ src p out :=
  complete (voc := C23.table c) hs h hl (by cases c <;> decide +kernel) (source_free hw) (fun _ ha => (C46.C46_exact ⟨hn, hw, ht, hp, ha⟩).2 hr)
    (fun _ ha _ _ _ hR => by
      obtain ⟨n, h1, h2, h3⟩ := C43.named hn
      exact C42.program_length (C43.machine c) (C43.complete c) (C43.whole c) (C43.chosen h1) h2 h3 ha hw ht hp hR (C36_run _ _ _ _ _ ha).1)
    (fun _ hA => by
      obtain ⟨n, h1, h2, h3⟩ := C43.named hn
      exact C51.program_closing (C43.machine c) (C51.coded6800 c) (C43.chosen h1) (fun _ => ⟨rfl, rfl, rfl⟩) h2 h3 hA hw ht hp hl hfit)

/-- The same for the Z80. -/
theorem C53_Z80 {fuel : Nat} {o : Opts} {env : Env} {src nm out : Str} {file : CodeFile} {p : Lines _root_.Spec.Z80.full}
    (hs : env.fs nm = some src) (hw : Source _root_.Spec.Z80.full c!"Z80" src p) (ht : Spec.Tame src) (hp : Proper p) (hl : o.list = true) (hfit : C51.Fits src)
    (hr : ∃ addr img σ', Spec.Program.Run _ addr (late p) {} p img σ') (h : crasm fuel env o nm = .exit 0 out file) : Complete _ src p out :=
  complete (voc := Z80.mz80) hs h hl (by decide +kernel) (source_free hw) (fun _ ha => (C47.C47_exact ⟨hw, ht, hp, ha⟩).2 hr)
    (fun _ ha _ _ _ hR => C42.program_length C44.machine C44.complete C44.whole C44.chosen C44.named.1 C44.named.2 ha hw ht hp hR (C36_run _ _ _ _ _ ha).1)
    (fun _ hA => C51.program_closing C44.machine C51.codedZ80 C44.chosen (fun _ => ⟨rfl, rfl, rfl⟩) C44.named.1 C44.named.2 hA hw ht hp hl hfit)

/-! ### Non-vacuity -/

/-- The small program of C42, with a code file: all that is printed for it is as described. -/
example : ∃ out file, crasm 60 C52.smallEnv { list := true, scode := some c!"o" } c!"small.asm" = .exit 0 out file ∧
    Complete (_root_.Spec.M6502.full .m6502) C42.small C42.smallLines out := by
  obtain ⟨out, h⟩ := C52.exits_of C52.small_exits
  obtain ⟨s, hs, -⟩ := C42.small_holds
  obtain ⟨addr, σ', hr⟩ := C42.C42_program hs
  exact ⟨out, _, h, C53_6502 rfl C42.small_written C42.small_tame C42.small_proper rfl (C51.fits_of (by decide +kernel)) ⟨addr, _, σ', hr⟩ h⟩

/-- Its list of symbols: nothing refers to the first label, and the second one is defined below its first use. -/
example : (match crasm 60 C52.smallEnv { list := true } c!"small.asm" with
    | .exit 0 out _ => decide ((Spec.Program.symbol '?' 0xC0 c!"L" ++ ['\n'] ++ Spec.Program.symbol '^' 0xC3 c!"N" ++ ['\n']) <:+: out)
    | _ => false) = true := by decide +kernel
/-- It has four bytes, so that the length reported is eight. -/
example : (match crasm 60 C52.smallEnv { list := true } c!"small.asm" with
    | .exit 0 out _ => decide ((c!" Code length  " ++ Spec.Program.size (2 * 4) ++ ['\n']) <:+: out)
    | _ => false) = true := by decide +kernel
/-- It ends with an instruction, at the address 0xC3, so that this is the last address. -/
example : Spec.Program.hasOrg C42.smallLines = true ∧ Spec.Program.hasOrg C42.smallLines.getLast?.toList = false := by decide
example : (match crasm 60 C52.smallEnv { list := true } c!"small.asm" with
    | .exit 0 out _ => decide ((c!" Last address " ++ Spec.Program.size (0xC4 - 1) ++ ['\n']) <:+: out)
    | _ => false) = true := by decide +kernel
example : Spec.Program.size 300 = c!"     12c (300)" := by decide
example : Spec.Program.symbol '^' 0xC3 c!"N" = c!"^00C3   Abs N                                                " := by decide

end Crasm.C53

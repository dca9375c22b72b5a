import Verif.Proof.ProgFull
import Verif.Proof.ProgExtra
import Verif.Props.C50
import Verif.Spec.ProgList
import Verif.Proof.Tidy
import Verif.Props.C49
import Verif.Proof.ProgWhole

/-! Programs: how they are listed in pass 2. -/

namespace Crasm.C51
open Spec.Program (Isa key Free Body Line State Lines)
open _root_.Spec.Listing (sourceLine tag echo width)
open C42 (Machine Match Placed Trace Instr image Fares Runout)
open C50 (Codes Only Equates Begin)

/-- The words of the instructions belong to instructions, or to directives that generate bytes. -/
def Coded (isa : Isa) (voc : List Entry) : Prop := ∀ {i m o}, isa.writes i m o →
  ∃ e ∈ pseudos ++ voc, e.name.map toupper = m ∧ Instr e.label ∧ ∃ h, e.label.ptr = .handler h ∧ Codes h

theorem stmt_run {s s' : St} {f : Fields} (h : Crasm.statement s = .ok (some f) s') :
    ∃ t s1, (do startLine; stripLine : M Str) s = .ok t s1 ∧ t ≠ [] ∧ splitLine t s1 = .ok f s' := by
  unfold Crasm.statement at h
  obtain ⟨_, s1, h1, h⟩ := bind_ok h
  obtain ⟨t, s2, h2, h⟩ := bind_ok h
  by_cases ht : t = []
  · rw [if_pos ht] at h
    cases h
  · rw [if_neg ht] at h
    obtain ⟨g, s3, h3, h⟩ := bind_ok h
    cases h
    exact ⟨t, s2, by rw [bind_run, h1]; exact h2, ht, h3⟩

theorem only_stmt {P : Handler → Prop} {s s' : St} {f : Fields} (h : Crasm.statement s = .ok (some f) s')
    (hf : ∀ k lab, f.entry = some (k, lab) → lab.flags.defcond = false ∧ lab.flags.defmacro = false ∧ lab.type = .mnemo ∧
      ∃ h, lab.ptr = .handler h ∧ P h) : Only P s := by
  obtain ⟨t, s1, h1, -, h2⟩ := stmt_run h
  intro t' s1' f' s2' h1' _ h2'
  rw [h1] at h1'
  cases h1'
  rw [h2] at h2'
  cases h2'
  exact hf

theorem only_none {P : Handler → Prop} {s s' : St} (h : Crasm.statement s = .ok none s') : Only P s := by
  intro t s1 f s2 h1 ht _
  unfold Crasm.statement at h
  obtain ⟨_, s1', h1', h⟩ := bind_ok h
  obtain ⟨t', s2', h2', h⟩ := bind_ok h
  have : (do startLine; stripLine : M Str) s = .ok t' s2' := by rw [bind_run, h1']; exact h2'
  rw [this] at h1
  cases h1
  rw [if_neg ht] at h
  obtain ⟨g, s3, h3, h⟩ := bind_ok h
  cases h

section
variable {isa : Isa} {voc : List Entry} {cf : Option Int} {s : St}

/-- A statement with a word that is an instruction. -/
theorem word_only (M : Machine isa voc cf) (hi : C42.Base isa voc s) {t m : Str} {l o : Option Str} (hS : Spec.Stmt (fun w => key w ∈ isa.words) t l m o)
    (hA : Spec.Around t s.curline) (hlen : s.curline.length ≤ 600) (hl : ∀ x ∈ l, Free isa x) {e : Entry} (he : e ∈ pseudos ++ voc)
    (hn : e.name.map toupper = key m) (hI : Instr e.label) {h : Handler} (hp : e.label.ptr = .handler h) (hc : Codes h) : Only Codes s := by
  obtain ⟨lab, h1, hw, -⟩ := C42.word_entry M hi he hI.1 hn
  have hk := C42.stmt_known hi hS (by unfold C41.Known; rw [h1]; rfl) fun y hy => .inr (hl y hy)
  obtain ⟨s1, hs, -⟩ := C41.C41_fields hk hA hlen
  refine only_stmt hs fun k lab' he' => ?_
  dsimp only at he'
  rw [h1] at he'
  cases he'
  exact ⟨hw.2.2.2.2.2.2.2.1.trans hI.2.2.2.2, hw.2.2.2.2.2.2.1.trans hI.2.2.2.1, hw.1.trans hI.1, h, hw.2.2.1.trans hp, hc⟩

theorem equates_of (M : Machine isa voc cf) (hi : C42.Base isa voc s) {t m l o : Str} (hS : Spec.Stmt (fun w => key w ∈ isa.words) t (some l) m (some o))
    (hA : Spec.Around t s.curline) (hlen : s.curline.length ≤ 600) (hm : key m = c!"EQU") (hl : l = ['*'] ∨ Free isa l) : Equates s l := by
  obtain ⟨e, he, e1, e2, e3, e4, e5, e6, -⟩ := C42.equ_word
  obtain ⟨lab, h1, hw, -⟩ := C42.word_entry M hi (List.mem_append_left _ he) e2 (e1.trans hm.symm)
  have hk := C42.stmt_known hi hS (by unfold C41.Known; rw [h1]; rfl) fun y hy => by cases hy; exact hl
  obtain ⟨s1, hs, -⟩ := C41.C41_fields hk hA hlen
  obtain ⟨t, s1, g1, g2, g3⟩ := stmt_run hs
  exact ⟨t, s1, _, _, _, lab, g1, g2, g3, h1, rfl, hw.2.2.2.2.2.2.2.1.trans e6, hw.2.2.2.2.2.2.1.trans e5, hw.2.2.2.2.2.1.trans e4, hw.1.trans e2, hw.2.2.1.trans e3⟩

theorem free_word {x : Str} (hx : Free isa x) : Spec.Word x := by
  obtain ⟨-, c, r, rfl, -⟩ := C42.isName_len hx.name
  refine ⟨by simp, fun d hd => ?_⟩
  have hd' : d.isAlphanum ∨ d = '_' ∨ d = '.' := by
    rcases List.mem_cons.1 hd with rfl | hd
    · exact hx.name.1.imp_left fun h => by simp [Char.isAlphanum, h]
    · exact hx.name.2.1 d hd
  intro hm
  revert hd'
  simp only [List.mem_cons, List.not_mem_nil, or_false] at hm
  rcases hm with rfl | rfl | rfl | rfl | rfl | rfl | rfl | rfl <;> decide

/-- What the lines of a program are to the assembler. -/
def Kind (isa : Isa) (s : St) : Option Str × Body isa.Ins → Prop
  | (_, .org _) => Equates s ['*']
  | (some l, .equ _) => Free isa l ∧ Equates s l
  | _ => Only Codes s

theorem line_sort (M : Machine isa voc cf) (hC : Coded isa voc) (hi : C42.Base isa voc s) (hlen : s.curline.length ≤ 600) {l : Option Str} {body : Body isa.Ins}
    (h : Line isa s.curline l body) : Kind isa s (l, body) := by
  cases h with
  | blank hA =>
    obtain ⟨s1, h1, -⟩ := C41.C41_blank hA hlen
    exact only_none h1
  | @label l hA _ hf =>
    have hk := C42.not_known hi (.inr hf)
    have hw : Spec.Word l := free_word hf
    obtain ⟨s1, h1, -⟩ := C41.C41_fields (s := s) (.one hw) hA hlen
    refine only_stmt h1 fun k lab he => ?_
    dsimp only at he
    unfold C41.Known at hk
    rw [he] at hk
    exact absurd rfl hk
  | org hA hS hm _ => exact equates_of M hi hS hA hlen hm (.inl rfl)
  | equ hA hS hm hf _ => exact ⟨hf, equates_of M hi hS hA hlen hm (.inr hf)⟩
  | data hA hS hd hf _ _ =>
    obtain ⟨e, he, hn0, hn, hI, d, hd1, hd2, -⟩ := C42.data_words _ hd
    have hp : ∀ e ∈ pseudos, ∀ d ∈ dataDirectives, e.name = d.1 → e.label.ptr = .handler (.pseudo .dc) := by decide +kernel
    have := word_only M hi hS hA hlen hf (List.mem_append_left _ he) hn hI (hp e he d hd1 (hn0.trans hd2.symm)) (by decide)
    cases l <;> exact this
  | ins hA hS hw hf =>
    obtain ⟨e, he, hn, hI, h, hp, hc⟩ := hC hw
    have := word_only M hi hS hA hlen hf he hn hI hp hc
    cases l <;> exact this

/-! ### Bytes in the log and in the image -/

/-- Bytes with their addresses. -/
def stored : Word → List Byte → List (Int × Byte)
  | _, [] => []
  | a, b :: bs => (a.toInt, b) :: stored (a + 1) bs

theorem image_events (bs : List Byte) : ∀ (a : Word) (L : List Event), image ((byteEvents 2 true a bs).reverse ++ L) = image L ++ stored a bs := by
  induction bs with
  | nil => intro a L; simp [byteEvents, stored]
  | cons b bs ih =>
    intro a L
    unfold byteEvents stored
    rw [List.reverse_cons, List.append_assoc, ih, List.singleton_append]
    have : image (.byte 2 a b true :: L) = image L ++ [(a.toInt, b)] := by
      unfold image
      rw [codeOf_byte]
      simp
    rw [this, List.append_assoc]
    rfl

theorem stored_bytes (bs : List Byte) : ∀ a : Word, (stored a bs).map (fun b => b.2.toNat) = bs.map BitVec.toNat := by
  induction bs with
  | nil => intro a; rfl
  | cons b bs ih => intro a; simp only [stored, List.map_cons, ih]

theorem bits_toInt (a : Word) : Spec.Program.bits a.toInt = a.toNat := by
  unfold Spec.Program.bits
  rw [BitVec.ofInt_toInt]

/-- The bytes of a line and those of the image are shown alike. -/
theorem statement_stored (a : Word) (bs : List Byte) (tg x : Str) :
    _root_.Spec.Listing.statement 4 (Spec.Program.bits (((stored a bs).head?.map Prod.fst).getD 0)) ((stored a bs).map fun b => b.2.toNat) tg x =
      _root_.Spec.Listing.statement 4 a.toNat (bs.map BitVec.toNat) tg x := by
  rw [stored_bytes]
  cases bs with
  | nil => rfl
  | cons b bs =>
    show _root_.Spec.Listing.statement 4 (Spec.Program.bits a.toInt) _ tg x = _
    rw [bits_toInt]

/-! ### Lines leave the pages as they are -/

/-- What the lines of programs are. -/
def Plainly (h : Handler) : Prop := Codes h ∨ h = .pseudo .equ

theorem equates_only {s : St} {l : Str} (h : Equates s l) : Only Plainly s := by
  obtain ⟨t, s1, f, s2, k, lab, h1, h2, h3, h4, h5, h6, h7, h8, h9, h10⟩ := h
  intro t' s1' f' s2' g1 _ g3 k' lab' g4
  rw [h1] at g1
  cases g1
  rw [h3] at g3
  cases g3
  rw [h4] at g4
  cases g4
  exact ⟨h6, h7, h9, _, h10, .inr rfl⟩

theorem codes_only {s : St} (h : Only Codes s) : Only Plainly s := by
  intro t s1 f s2 g1 g2 g3 k lab g4
  obtain ⟨h1, h2, h3, hd, h4, h5⟩ := h t s1 f s2 g1 g2 g3 k lab g4
  exact ⟨h1, h2, h3, hd, h4, .inl h5⟩

theorem kind_only {isa : Isa} {s : St} {x : Option Str × Body isa.Ins} (h : Kind isa s x) : Only Plainly s := by
  obtain ⟨l, body⟩ := x
  cases body with
  | org e => cases l <;> exact equates_only h
  | equ e =>
    cases l with
    | none => exact codes_only h
    | some l => exact equates_only h.2
  | nothing => cases l <;> exact codes_only h
  | data a b c => cases l <;> exact codes_only h
  | ins i => cases l <;> exact codes_only h

theorem tidy_call {h : Handler} (hp : Plainly h) (self : Status → M RC) (fuel : Nat) (arg : Int) (l o : Option Str) : Tidy (callHandler self fuel h arg l o) := by
  cases h with
  | h6800 h => exact Tidy.bind inferInstance fun _ => Tidy.pure _
  | h6502 h => exact Tidy.bind inferInstance fun _ => Tidy.pure _
  | hz80 h => exact Tidy.bind inferInstance fun _ => Tidy.pure _
  | pseudo p =>
    rcases hp with hp | hp
    · unfold Codes at hp
      simp only [List.mem_cons, List.not_mem_nil, or_false] at hp
      rcases hp with rfl | rfl | rfl | rfl | rfl | rfl | rfl | rfl | rfl <;> exact Tidy.bind inferInstance fun _ => Tidy.pure _
    · cases hp
      exact Tidy.bind inferInstance fun _ => Tidy.pure _

theorem line_tidies {n : Nat} {s : St} (ho : Only Plainly s) : Tidies s (asmline n ⟨true, true⟩ s) := by
  cases n with
  | zero => exact trivial
  | succ n =>
  unfold asmline asmlineF
  refine Tidy.bindAt ((inferInstance : Tidy startLine).run s) fun _ s1 h1 => ?_
  rw [getS_bind_run]
  refine Tidy.bindAt ((inferInstance : Tidy stripLine).run s1) fun t s2 h2 => ?_
  split
  · exact (by tidy : Tidy (do whenM true outputline; pure RC.cont : M RC)).run s2
  · rename_i ht
    refine Tidy.bindAt ((inferInstance : Tidy (splitLine t)).run s2) fun f s3 h3 => ?_
    have ho := ho t s2 f s3 (by rw [bind_run, h1]; exact h2) ht h3
    unfold doFields
    revert ho
    cases f.entry with
    | none =>
      intro _
      dsimp only
      split
      · exact (by tidy : Tidy (do whenM true (herelabel f.mnemo); whenM true outputline; pure RC.cont : M RC)).run s3
      · exact (inferInstance : Tidy (error _ : M RC)).run s3
    | some e =>
      obtain ⟨k, lab⟩ := e
      intro ho
      obtain ⟨o1, o2, o3, h, o4, o5⟩ := ho k lab rfl
      dsimp only
      split
      · exact (inferInstance : Tidy (error _ : M RC)).run s3
      · have hx : Tidy (execLine (asmline n) n ⟨true, true⟩ f.label f.oper k lab) := by
          unfold execLine
          rw [o1, o2, if_neg (by decide), o3, if_neg (by decide), if_pos rfl, o4]
          have := tidy_call o5 (asmline n) n lab.modifier f.label f.oper
          exact .bind (.whenM (.bind this fun _ => Tidy.pure _)) fun _ => .bind inferInstance fun _ => .bind (.whenM inferInstance) fun _ => Tidy.pure _
        refine Tidy.bindAt ((?_ : Tidy _).run s3) fun _ s4 _ => hx.run s4
        tidy

/-! ### One line -/

/-- Between two lines of pass 2, `n` lines having been read, the lines being `w` characters wide. -/
structure Desk (n w : Nat) (s : St) : Prop where
  list : s.flags.listOn = true
  wide : 39 ≤ w
  llen : s.lst.llen = w
  line : s.lst.line = []
  lpos : s.lst.lpos = 0
  pages : s.lst.pages = []
  num : s.linenumber = n
  mark : s.lineprefix = none
  level : s.macrolevel = 0
  a16 : s.flags.addr16 = true
  a24 : s.flags.addr24 = false

/-- Lines have been printed, `out` and perhaps remarks. -/
def Adds (s s' : St) (out : List Str) : Prop := ∃ ts : List (Bool × Str), s'.lst.lines = (ts.map Prod.snd).reverse ++ s.lst.lines ∧
  (∀ t ∈ ts, t.1 = true → Remark t.2) ∧ (ts.filter fun t => !t.1).map Prod.snd = out

theorem Adds.trans {a b c : St} {x y : List Str} (h : Adds a b x) (h' : Adds b c y) : Adds a c (x ++ y) := by
  obtain ⟨ts, h1, h2, h3⟩ := h
  obtain ⟨us, g1, g2, g3⟩ := h'
  refine ⟨ts ++ us, ?_, fun t ht => ?_, ?_⟩
  · rw [g1, h1, List.map_append, List.reverse_append, List.append_assoc]
  · rcases List.mem_append.1 ht with ht | ht
    · exact h2 t ht
    · exact g2 t ht
  · rw [List.filter_append, List.map_append, h3, g3]

theorem keep_plain {c : Char} (h : Spec.Plain c) : keepChar c = true := by
  have : [c].filter keepChar = [c] := C42.filter_all (by intro d hd; cases List.mem_singleton.1 hd; exact h)
  simpa using this

theorem blank_of {c : Char} (h : c = ' ' ∨ c = '\t') : Spec.IsBlank c := h

theorem row_ok (M : Machine isa voc cf) (hC : Coded isa voc) {n w fuel : Nat} {addr : Str → Int} {late : Str → Bool} {ls qs ds : List Str} {σ σ' : State} {x : Option Str × Body isa.Ins}
    {img : List (Int × Byte)} {t m : Str} {e : Bool} {s2 : St} (D : Desk n w s) (hl : Line isa t x.1 x.2) (hlen : t.length ≤ 248) (hpl : ∀ c ∈ t, Spec.Plain c)
    (hi : C42.Inv isa voc cf { s with curline := t, linenumber := s.linenumber + 1, log := .line s.passnumber 0 t :: s.log, main := m, mainEof := e })
    (h : asmline fuel ⟨true, true⟩ { s with curline := t, linenumber := s.linenumber + 1, log := .line s.passnumber 0 t :: s.log, main := m, mainEof := e } = .ok .cont s2)
    (hs : Spec.Program.Step isa addr late σ x img σ') (hM : Match addr late ls qs ds σ' s2) (hO : Spec.Program.hasOrg [x] = true → Placed s2) (hi2 : C42.Inv isa voc cf s2)
    (him : image s2.log = image s.log ++ img) (hf : (sourceLine [] (tag none 0 (n + 1)) t).length ≤ w) :
    ∃ y bl, t = y ++ bl ∧ (∀ c ∈ bl, Spec.IsBlank c) ∧ Adds s s2 (Spec.Program.shown (n + 1) y x img σ') ∧ Desk (n + 1) w s2 := by
  generalize hs1 : ({ s with curline := t, linenumber := s.linenumber + 1, log := .line s.passnumber 0 t :: s.log, main := m, mainEof := e } : St) = s1 at hi h
  have b : Begin s1 := by
    subst hs1
    refine ⟨D.list, by rw [D.llen]; exact D.wide, D.line, D.lpos, by show s.linenumber + 1 ≠ 0; omega, fun c hc => keep_plain (hpl c hc), fun c hc => ?_, ?_⟩
    · rw [show s.lineprefix = none from D.mark] at hc; cases hc
    · show (sourceLine [] (tag s.lineprefix s.macrolevel (s.linenumber + 1)) t).length ≤ s.lst.llen
      rw [D.mark, D.level, D.num, D.llen]
      exact hf
  have fl : s1.flags = s.flags ∧ s1.lst = s.lst ∧ s1.linenumber = n + 1 ∧ s1.lineprefix = none ∧ s1.macrolevel = 0 ∧ s1.curline = t ∧ image s1.log = image s.log := by
    subst hs1
    exact ⟨rfl, rfl, by show s.linenumber + 1 = _; rw [D.num], D.mark, D.level, rfl, C42.image_line _ _ _ _⟩
  obtain ⟨f1, f2, f3, f4, f5, f6, f7⟩ := fl
  clear hs1
  have hwd : width s1.flags.addr24 s1.flags.addr16 = 4 := by rw [f1, D.a24, D.a16]; rfl
  have hsort := line_sort M hC hi.toBase (by rw [f6]; omega) (l := x.1) (body := x.2) (by rw [f6]; exact hl)
  have hpg : s2.lst.pages = [] := by
    have := line_tidies (n := fuel) (kind_only hsort)
    rw [h] at this
    rw [this.1, f2]
    exact D.pages
  have desk : s2.lst.line = [] → s2.lst.lpos = 0 → s2.lst.llen = s1.lst.llen → C50.Leaves s1 s2 → Desk (n + 1) w s2 := fun h1 h2 h3 L =>
    ⟨L.list, D.wide, by rw [h3, f2]; exact D.llen, h1, h2, hpg, L.num.trans f3, L.mark.trans f4, L.level.trans f5, by rw [L.a16, f1]; exact D.a16, by rw [L.a24, f1]; exact D.a24⟩
  have rest : Only Codes s1 → (∀ y, Spec.Program.shown (n + 1) y x img σ' = _root_.Spec.Listing.statement 4 (Spec.Program.bits ((img.head?.map Prod.fst).getD 0)) (img.map fun b => b.2.toNat) (tag none 0 (n + 1)) y) →
      ∃ y bl, t = y ++ bl ∧ (∀ c ∈ bl, Spec.IsBlank c) ∧ Adds s s2 (Spec.Program.shown (n + 1) y x img σ') ∧ Desk (n + 1) w s2 := by
    intro ho hshow
    obtain ⟨y, bl, g1, g2, ⟨a, bs, ts, g3, g4, g5, g6⟩, g7, g8, g9, g10⟩ := C50.C50_statement fuel s1 s2 .cont b hi.on ho h
    rw [f6] at g1
    refine ⟨y, bl, g1, fun c hc => blank_of (g2 c hc), ⟨ts, by rw [g4, f2], g5, ?_⟩, desk g7 g8 g9 g10⟩
    rw [hi.pass] at g3
    rw [g3, image_events, f7] at him
    have him := List.append_cancel_left him
    rw [g6, hshow, ← him, statement_stored, hwd, f3, f4, f5]
  obtain ⟨l, body⟩ := x
  cases body with
  | org ex =>
    have hsort : Equates s1 ['*'] := by cases l <;> exact hsort
    obtain ⟨y, bl, lab, g1, g2, g3, g4, g5, ⟨ts, g6, g7, g8, g9, g10, g11⟩, g12⟩ := C50.C50_equ fuel s1 s2 .cont ['*'] b (.inl f5) hsort h
    rw [f6] at g1
    rw [hi.seg, C42.canon_star] at g4
    obtain ⟨lab', e1, e2⟩ := hi2.star
    rw [g4] at e1
    cases e1
    have ep : σ'.pc = some lab.value.toInt := by
      have := hM.pc (hO (by cases l <;> rfl))
      unfold starLabel at this
      rw [g4] at this
      exact this
    refine ⟨y, bl, g1, fun c hc => blank_of (g2 c hc), ⟨ts, by rw [g6, f2], g7, ?_⟩, desk g9 g10 g11 g12⟩
    rw [g8, if_pos (.inl (e2 g5)), hwd, f3, f4, f5]
    have : Spec.Program.shown (isa := isa) (n + 1) y (l, .org ex) img σ' = [sourceLine (echo 4 (Spec.Program.bits (σ'.pc.getD 0))) (tag none 0 (n + 1)) y] := by
      cases l <;> rfl
    rw [this, ep]
    show _ = [sourceLine (echo 4 (Spec.Program.bits lab.value.toInt)) _ _]
    rw [bits_toInt]
  | equ ex =>
    cases l with
    | none => cases hs
    | some l =>
      obtain ⟨hfree, hsort⟩ : Free isa l ∧ Equates s1 l := hsort
      obtain ⟨y, bl, lab, g1, g2, g3, g4, g5, ⟨ts, g6, g7, g8, g9, g10, g11⟩, g12⟩ := C50.C50_equ fuel s1 s2 .cont l b (.inl f5) hsort h
      rw [f6] at g1
      obtain ⟨hc, hr⟩ := C42.free_key (n := l) hfree rfl
      rw [hi.seg, hc] at g4
      have ht : lab.type = .absolute := hi2.numeric.abs _ _ (fun h => hr (.inr h)) g4 (.inl g5)
      have ep : ((σ'.env (key l)).getD (0, false)).1 = lab.value.toInt := by
        have : ∃ v, σ'.env (key l) = some v := by
          cases hs
          exact ⟨_, by unfold Spec.Program.State.set; dsimp only; rw [if_pos rfl]⟩
        obtain ⟨⟨v, c⟩, hv⟩ := this
        obtain ⟨-, lab', e1, e2, -⟩ := hM.env _ _ _ hv
        rw [g4] at e1
        cases e1
        rw [hv]
        exact e2.symm
      refine ⟨y, bl, g1, fun c hc => blank_of (g2 c hc), ⟨ts, by rw [g6, f2], g7, ?_⟩, desk g9 g10 g11 g12⟩
      rw [g8, if_pos (.inl ht), hwd, f3, f4, f5]
      show _ = [sourceLine (echo 4 (Spec.Program.bits ((σ'.env (key l)).getD (0, false)).1)) (tag none 0 (n + 1)) y]
      rw [ep, bits_toInt]
  | nothing =>
    have hsort : Only Codes s1 := by cases l <;> exact hsort
    exact rest hsort fun y => by cases l <;> rfl
  | data size swap es =>
    have hsort : Only Codes s1 := by cases l <;> exact hsort
    exact rest hsort fun y => by cases l <;> rfl
  | ins i =>
    have hsort : Only Codes s1 := by cases l <;> exact hsort
    exact rest hsort fun y => by cases l <;> rfl

/-- All lines. -/
theorem rows_ok (M : Machine isa voc cf) (hC : Coded isa voc) {w fuel : Nat} {addr : Str → Int} {late : Str → Bool} {σ σ' : State} {s' : St} {ts : List Str} {p : Lines isa}
    {img : List (Int × Byte)} (T : Trace isa voc cf fuel addr late σ s ts p img σ' s') : ∀ {n : Nat}, Desk n w s →
    (∀ i t, ts[i]? = some t → (sourceLine [] (tag none 0 (n + 1 + i)) t).length ≤ w) →
    ∃ out, Spec.Program.Printed isa addr late (n + 1) σ ts p img out σ' ∧ Adds s s' out ∧ ∃ k, Desk k w s' := by
  induction T with
  | nil => exact fun {n} D _ => ⟨[], .nil, ⟨[], rfl, (fun t ht => by cases ht), rfl⟩, n, D⟩
  | cons hl hlen hpl hi h hs hM hO hi2 him _ _ ih =>
    intro n D hf
    obtain ⟨y, bl, rfl, h2, h3, h4⟩ := row_ok M hC D hl hlen hpl hi h hs hM hO hi2 him (hf 0 _ rfl)
    obtain ⟨out, g1, g2, g3⟩ := ih h4 fun i t ht => by
      have := hf (i + 1) t ht
      rwa [show n + 1 + (i + 1) = n + 1 + 1 + i by omega] at this
    exact ⟨_, .cons hl h2 hs g1, h3.trans g2, g3⟩

end

/-! ### The first pass prints nothing, and leaves nothing to be printed -/

/-- Nothing waits to be printed, and the pages have the length that they have without PAGE. -/
def Clear (s : St) : Prop := s.lst.pages = [] ∧ s.lst.line = [] ∧ s.lst.lpos = 0

theorem line_clear {n : Nat} {s : St} {Q : St → Prop} (ho : Only Plainly s) (hn : s.linenumber ≠ 0) (hp : s.lst.pages = [])
    (F : Fares Q (asmline n ⟨true, true⟩ s)) : Fares Clear (asmline n ⟨true, true⟩ s) := by
  have ht := line_tidies (n := n) ho
  revert F ht
  cases h : asmline n ⟨true, true⟩ s with
  | stop w s' => exact fun _ _ => trivial
  | err s' =>
    rintro - ⟨h1, h2, h3⟩
    exact ⟨h1.trans hp, h3 (by rw [h2]; exact hn)⟩
  | ok rc s' =>
    rintro ⟨rfl, -⟩ ⟨h1, h2⟩
    have sw : Swept s' := by
      obtain ⟨s1, t, s2, -, -, ⟨-, g⟩ | ⟨f, s3, s4, -, -, -, ⟨-, g⟩ | ⟨k, lab, hd, m, rc', s5, s6, -, -, -, -, g⟩⟩⟩ := C50.path ho h
      · exact line_swept g
      · exact line_swept g
      · exact line_swept g
    exact ⟨rfl, h1.trans hp, sw (by rw [h2]; exact hn)⟩

theorem take_nothing (s : St) : takeLine [] s = .ok () { s with curline := [], linenumber := s.linenumber + 1, log := .line s.passnumber s.stack.length [] :: s.log } := rfl

theorem ends_clear {fuel : Nat} {s e : St} (h : Runout fuel s e) (hc : Clear s) : Clear e := by
  rcases h with h | ⟨n, h, h1, h2, h3⟩
  · unfold Clear
    rw [h]
    exact hc
  · cases n with
    | zero => cases h
    | succ n =>
    rw [passLoop_round (by simp)] at h
    obtain ⟨again, s3, g1, g2⟩ := bind_ok h
    have hl : ∃ s1, linegets s = .ok () s1 ∧ s1.lst = s.lst ∧ s1.linenumber = s.linenumber + 1 ∧ s1.curline = [] ∧ s1.mainEof = true := by
      refine ⟨{ s with curline := [], linenumber := s.linenumber + 1, log := .line s.passnumber 0 [] :: s.log, main := [], mainEof := true }, ?_, rfl, rfl, rfl, rfl⟩
      unfold linegets
      rw [modS_bind_run, h1]
      rw [getS_bind_run]
      have hp : popEnds [] s = s := rfl
      rw [hp, h1, h2]
      dsimp only
      show (takeLine [] >>= _) s = _
      rw [bind_run, take_nothing]
      show Res.ok () _ = Res.ok () _
      simp only [h1, h3, List.length_nil, Bool.true_or]
      rfl
    obtain ⟨s1, k1, k2, k3, k4, k5⟩ := hl
    have ho : Only Plainly s1 := by
      obtain ⟨s2, b1, -⟩ := C41.C41_blank (s := s1) (by rw [k4]; exact Spec.Around.plain (t := []) (b := []) (b' := []) (fun c hc => by cases hc) (fun c hc => by cases hc)) (by rw [k4]; exact Nat.zero_le _)
      exact only_none b1
    have I := idle_asmline fuel ⟨true, true⟩ s1 k4
    have F : Fares (fun s2 => s2.mainEof = true) (asmline fuel ⟨true, true⟩ s1) := by
      revert I
      cases asmline fuel ⟨true, true⟩ s1 with
      | ok rc s2 => rintro ⟨k, rfl⟩; exact ⟨rfl, k.2.2.1.trans k5⟩
      | err s2 => exact fun h => h.elim
      | stop w s2 => exact fun _ => trivial
    have C := line_clear ho (by rw [k3]; omega) (by rw [k2]; exact hc.1) F
    have hb : passBody fuel s = (asmline fuel ⟨true, true⟩ >>= fun r => whenM (r ≠ .cont) (error c!"ELSE, ENDC, ENDM, EXITM illegal here")) s1 := by
      unfold passBody
      rw [bind_run, k1]
    unfold catchErr at g1
    rw [bind_run, hb, bind_run] at g1
    revert F C I g1
    cases asmline fuel ⟨true, true⟩ s1 with
    | err s2 => exact fun _ I => I.elim
    | stop w s2 => intro g1; cases g1
    | ok rc s2 =>
      rintro g1 - ⟨rfl, F⟩ ⟨-, C⟩
      cases g1
      cases n with
      | zero => cases g2
      | succ n =>
        unfold passLoop at g2
        rw [getS_bind_run, F, if_pos (by decide)] at g2
        cases g2
        exact C

theorem first_clear {isa : Isa} {voc : List Entry} {cf : Option Int} {p : Lines isa} (M : Machine isa voc cf) (hC : Coded isa voc) {c : Cpu} {tabs : List TableId} {f : Flags → Flags} (C : C42.Chosen c tabs f voc cf isa.little)
    {fuel : Nat} {env : Env} {src : Str} {e : St} {rest : List Str} {first m b o name : Str} (hn : C42.cpuOf name = some c) (hmild : C42.Mild name)
    (S : C42.Opening name src rest first m b o) (ht : Spec.Tame src) (hl : Spec.Program.All2 (fun t x => Line isa t x.1 x.2) rest p) (hp : Spec.Program.Proper p)
    (h : passLoop fuel fuel true (passStart 1 { initSt env src with tree := pseudoTree }) = .ok () e) : Clear e := by
  obtain ⟨s0, -, h1, -, -, -, -, h2⟩ := C42.first_end (J := fun _ s => Clear s) M C (fun h _ _ _ _ _ e => by unfold Clear; rw [e]; exact h)
    (fun hn _ H F J hlen hl => line_clear (kind_only (line_sort M hC H.mid.base hlen hl)) hn J.1 F)
    (fun s _ _ _ _ h => by
      obtain ⟨s1, s2, h1, h2, h3, h4⟩ := h
      unfold Clear
      rw [h4]
      unfold C42.afterwards at h3
      obtain ⟨_, s3, g1, h3⟩ := bind_ok h3
      obtain ⟨_, s4, g2, h3⟩ := bind_ok h3
      cases h3
      have t1 := (inferInstance : Tidy bumpStar).run s1
      rw [g1] at t1
      have t2 := (inferInstance : Tidy outputline).run s3
      rw [g2] at t2
      exact ⟨t2.1.trans (t1.1.trans h1), line_swept g2 (by rw [t2.2, t1.2, h2]; decide)⟩) hn hmild S ht hl hp h
  exact ends_clear h2 h1

/-! ### The whole listing -/

/-- Steps of the listing that do not set the length of pages; and nothing is recorded as printed unless something is printed. -/
theorem steady {n : Nat} {a b : Lst} (h : LStar n a b) : (b.pages = [] → b.llen = a.llen) ∧ (b.pages = [] → a.pages = []) ∧
    ((a.out = [] → a.lines = []) → b.out = [] → b.lines = []) := by
  induction h with
  | refl => exact ⟨fun _ => rfl, id, id⟩
  | tail _ r ih =>
    cases r with
    | print s h =>
      rename_i l _
      have e1 := (printed_line s l).2.2
      have e2 : (printed s l).pages = l.pages := printed_pages s l
      refine ⟨fun h => e1.trans (ih.1 (e2 ▸ h)), fun h => ih.2.1 (e2 ▸ h), fun _ h => ?_⟩
      unfold printed at h
      dsimp only at h
      split at h <;> split at h <;> cases h
    | clear => exact ih
    | put c h => exact ih
    | over => exact ih
    | mark => exact ih
    | title => exact ih
    | eject h => exact ⟨ih.1, ih.2.1, fun _ h => nomatch h⟩
    | page p w f hp h1 h2 => exact ⟨(fun h => nomatch h), (fun h => nomatch h), ih.2.2⟩

theorem program_closing {isa : Isa} {voc : List Entry} {cf : Option Int} {p : Lines isa} (M : Machine isa voc cf) (hC : Coded isa voc) {c : Cpu} {tabs : List TableId} {f : Flags → Flags}
    (C : C42.Chosen c tabs f voc cf isa.little) (hF : ∀ g, (f g).listOn = g.listOn ∧ (f g).addr24 = g.addr24 ∧ (f g).addr16 = true) {name : Str} (hn : C42.cpuOf name = some c)
    (hmild : C42.Mild name) {fuel : Nat} {o : Opts} {env : Env} {src : Str} {s : St}
    (h : C40.Assembles fuel o env src s) (hsrc : Spec.Program.Source isa name src p) (ht : Spec.Tame src) (hp : Spec.Program.Proper p) (hlist : o.list = true)
    (hfit : ∀ i t, (Spec.lines src)[i]? = some t → (sourceLine [] (tag none 0 (i + 1)) t).length ≤ 76) :
    ∃ addr σ' x bl rest out, Spec.lines src = (x ++ bl) :: rest ∧ (∀ c ∈ bl, Spec.IsBlank c) ∧
      Spec.Program.Printed isa addr (Spec.Program.late p) 2 {} rest p (image s.log) out σ' ∧
      Spec.Program.Shows (stdoutOf s) (sourceLine [] (tag none 0 1) x :: out) ∧ s.lst.pages = [] ∧
      ∃ ts : List (Bool × Str), s.lst.lines = (ts.map Prod.snd).reverse ∧ (∀ t ∈ ts, t.1 = true → Spec.Listing.Remark t.2) ∧
        (ts.filter fun t => !t.1).map Prod.snd = sourceLine [] (tag none 0 1) x :: out ∧
      C42.Charted isa voc p addr σ' s ∧ ∃ k, Desk k 76 s := by
  obtain ⟨first, rest, sA, e, sC, n, s0, addr, σ', hlines, h1, h2, rfl, hloop, ⟨s4, g, bl, q1, q2, q3, q4, q5, q6, q7, q8, q9, q10⟩, hpl, hch, T⟩ :=
    C42.program_trace M C hn hmild h hsrc ht hp
  have h2' : passLoop fuel fuel true (passStart 1 { initSt env src with tree := pseudoTree }) = .ok () e := by
    rw [init_run] at h1
    cases h1
    have := h2
    unfold pass at this
    rw [bind_run, passInit_run] at this
    exact this
  have hclear : Clear e := by
    obtain ⟨first, rest, m, b, op, x1, x2, x3, x4, x5, hl⟩ := hsrc
    exact first_clear M hC C hn hmild ⟨x1, x2, x3, x4, x5⟩ ht hl hp h2'
  have hst : LStar 1 (initSt env src).lst e.lst := by
    have := ((inferInstance : Lay (passLoop fuel fuel true)).run (passStart 1 { initSt env src with tree := pseudoTree })).1
    rw [h2'] at this
    exact this
  obtain ⟨k1, -, k3⟩ := steady hst
  have hpass : e.passnumber = 1 := by
    have := ((inferInstance : Lay (passLoop fuel fuel true)).run (passStart 1 { initSt env src with tree := pseudoTree })).2.1
    rw [h2'] at this
    exact this
  have hllen : e.lst.llen = 76 := k1 hclear.1
  have hempty : e.lst.lines = [] := by
    refine k3 (fun _ => rfl) ?_
    have iB := (pass1_inv (fuel := fuel) (inv_initSt env src) rfl h1).2
    rw [h2] at iB
    exact (iB.2 (by show e.passnumber ≤ 1; omega)).2.2.2.2
  have hlo : s4.flags.listOn = true := by
    rw [q8, (hF g).1, q9]
    show (e.flags.listOn || !(e.flags.nolist && !o.list)) = true
    rw [hlist]
    simp
  have h24 : s4.flags.addr24 = false := by
    rw [q8, (hF g).2.1, q10]
    have := narrow_star (walk_pass h2)
    refine this.trans ?_
    rw [init_run] at h1
    cases h1
    rfl
  have r : Marg s4 s4 [] := ⟨hlo, by rw [q2, hllen]; decide, rfl, by rw [q2, hclear.2.1]; rfl, by rw [q2, hclear.2.1, hclear.2.2]; rfl, [], rfl, fun t ht => nomatch ht⟩
  obtain ⟨ts, t1, t2, t3, t4, t5, t6⟩ := r.out (Nat.zero_le _) (by rw [q3]; decide) (fun c hc => keep_plain (hpl c (by rw [q6]; exact List.mem_append_left _ hc)))
    (by rw [q4]; exact fun c hc => nomatch hc) (by
      rw [q3, q4, q5, q2, hllen]
      refine Nat.le_trans (C50.source_prefix [] (tag none 0 1) s4.curline bl) ?_
      rw [← q6]
      exact hfit 0 first (by rw [hlines]; rfl)) q1
  rw [q3, q4, q5] at t3
  have hA : Adds s4 s0 [sourceLine [] (tag none 0 1) s4.curline] := ⟨ts, t1, t2, t3⟩
  have hfl := (inferInstance : Flagged outputline).run q1
  have q := (inferInstance : Quiet outputline).run s4
  rw [q1] at q
  have hq : s0.linenumber = s4.linenumber ∧ s0.lineprefix = s4.lineprefix ∧ s0.macrolevel = s4.macrolevel := by
    obtain ⟨_, _, _, rfl⟩ := (q : SameBut s4 s0)
    exact ⟨rfl, rfl, rfl⟩
  have tt := (inferInstance : Tidy outputline).run s4
  rw [q1] at tt
  have D : Desk 1 76 s0 := ⟨by rw [hfl]; exact hlo, by decide, by rw [t6, q2, hllen], t4, t5, by rw [tt.1, q2]; exact hclear.1, hq.1.trans q3, hq.2.1.trans q4, hq.2.2.trans q5,
    by rw [hfl, q8]; exact (hF g).2.2, by rw [hfl]; exact h24⟩
  obtain ⟨out, g1, g2, k, g3⟩ := rows_ok M hC T D fun i t hi => by
    have := hfit (i + 1) t (by rw [hlines]; exact hi)
    rwa [show i + 1 + 1 = 1 + 1 + i by omega] at this
  obtain ⟨us, u1, u2, u3⟩ := hA.trans g2
  rw [q2, hempty, List.append_nil] at u1
  have hL := ((assemble_laid fuel o (initSt env src) ⟨laid_init env src, fun x hx => nomatch hx⟩ rfl (inv_initSt env src) ⟨Nat.zero_le _, rfl, (by show 39 ≤ 76; omega)⟩).2.2 _ _ h.1).2
  have hpg : (afterPasses sC).lst.pages = [] := g3.pages
  rw [hpg] at hL
  obtain ⟨closed, last, gap, hS⟩ := hL.sheets
  have u2' : ∀ t ∈ us, t.1 = true → Spec.Listing.Remark t.2 := fun t ht h => by
    obtain ⟨n, m, e⟩ := u2 t ht h
    rw [e]
    exact remark_warning n m
  refine ⟨addr, σ', s4.curline, bl, rest, out, by rw [hlines, q6], fun c hc => isblank_iff.1 (q7 c hc), g1, ⟨closed, last, gap, us, hS.list, ?_, u2', u3⟩, hpg, us, u1, u2', u3, ⟨hch.labs, hch.equs, hch.only, hch.words, fun ho hx => by
    rw [hch.here ho hx]
    show some sC.code.pc.toInt = some (if sC.code.file.isSome then sC.code.close sC.flags.codeHex else sC.code).pc.toInt
    split
    · rw [C42.close_pc]
    · rfl⟩, k, ⟨rfl, g3.wide, g3.llen, g3.line, g3.lpos, g3.pages, g3.num, g3.mark, g3.level, g3.a16, g3.a24⟩⟩
  rw [hS.lines]
  show sC.lst.lines.reverse = _
  rw [u1, List.reverse_reverse]

/-- The listing alone. -/
theorem program_listed {isa : Isa} {voc : List Entry} {cf : Option Int} {p : Lines isa} (M : Machine isa voc cf) (hC : Coded isa voc) {c : Cpu} {tabs : List TableId} {f : Flags → Flags}
    (C : C42.Chosen c tabs f voc cf isa.little) (hF : ∀ g, (f g).listOn = g.listOn ∧ (f g).addr24 = g.addr24 ∧ (f g).addr16 = true) {name : Str} (hn : C42.cpuOf name = some c)
    (hmild : C42.Mild name) {fuel : Nat} {o : Opts} {env : Env} {src : Str} {s : St}
    (h : C40.Assembles fuel o env src s) (hsrc : Spec.Program.Source isa name src p) (ht : Spec.Tame src) (hp : Spec.Program.Proper p) (hlist : o.list = true)
    (hfit : ∀ i t, (Spec.lines src)[i]? = some t → (sourceLine [] (tag none 0 (i + 1)) t).length ≤ 76) :
    ∃ addr σ' x bl rest out, Spec.lines src = (x ++ bl) :: rest ∧ (∀ c ∈ bl, Spec.IsBlank c) ∧
      Spec.Program.Printed isa addr (Spec.Program.late p) 2 {} rest p (image s.log) out σ' ∧
      Spec.Program.Shows (stdoutOf s) (sourceLine [] (tag none 0 1) x :: out) ∧ s.lst.pages = [] ∧
      ∃ ts : List (Bool × Str), s.lst.lines = (ts.map Prod.snd).reverse ∧ (∀ t ∈ ts, t.1 = true → Spec.Listing.Remark t.2) ∧
        (ts.filter fun t => !t.1).map Prod.snd = sourceLine [] (tag none 0 1) x :: out := by
  obtain ⟨addr, σ', x, bl, rest, out, h1, h2, h3, h4, h5, ts, h6, h7, h8, -⟩ := program_closing M hC C hF hn hmild h hsrc ht hp hlist hfit
  exact ⟨addr, σ', x, bl, rest, out, h1, h2, h3, h4, h5, ts, h6, h7, h8⟩

/-! ### The processors -/

theorem Coded.plus {isa : Isa} {voc : List Entry} {cf : Option Int} (M : C42.Core isa voc cf) (hv : ∀ e ∈ voc, ∀ h, e.label.ptr = .handler h → Codes h) : Coded isa.plus voc := by
  intro i m o hw
  cases i with
  | inl i =>
    obtain ⟨e, h1, h2, h3, h, h4, -⟩ := M.ins hw
    exact ⟨e, List.mem_append_right _ h1, h2, h3, h, h4, hv e h1 h h4⟩
  | inr x =>
    obtain ⟨e, h1, h2, h3, h4⟩ := C42.extra_entry hw
    refine ⟨e, List.mem_append_left _ h1, h2, h3, _, h4, ?_⟩
    cases x <;> simp [Codes, C42.pseudoOf]

/-- The words of processors do not belong to directives. -/
def apart (voc : List Entry) : Bool := voc.all fun e => match e.label.ptr with | .handler (.pseudo _) => false | _ => true

theorem apart_codes {voc : List Entry} (h : apart voc = true) : ∀ e ∈ voc, ∀ h, e.label.ptr = .handler h → Codes h := by
  intro e he hd hp
  have := List.all_eq_true.1 h e he
  rw [hp] at this
  cases hd with
  | pseudo p => cases this
  | _ => trivial

theorem coded6502 (c : _root_.Spec.M6502.Chip) : Coded (_root_.Spec.M6502.full c) (C22.table c) :=
  Coded.plus (C42.core c) (apart_codes (by cases c <;> decide +kernel))
theorem coded6800 (c : _root_.Spec.M6800.Chip) : Coded (_root_.Spec.M6800.full c) (C23.table c) :=
  Coded.plus (C43.core c) (apart_codes (by cases c <;> decide +kernel))
theorem codedZ80 : Coded _root_.Spec.Z80.full Z80.mz80 :=
  Coded.plus C44.core (apart_codes (by decide +kernel))

end Crasm.C51

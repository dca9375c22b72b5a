import Verif.Proof.ShowL
import Verif.Proof.Whole
import Verif.Proof.LockH

/-!
C50: the listing shows what is assembled.
-/

namespace Crasm.C50
open _root_.Spec.Listing (Text hex width bytes expand fill sourceLine tag statement echo)

/-- Instructions, and the directives that generate data or only take note of something. -/
def Codes : Handler → Prop
  | .h6800 _ => True
  | .h6502 _ => True
  | .hz80 _ => True
  | .pseudo p => p ∈ [.asc, .align, .dc, .ds, .nam, .output, .clist, .ilist, .mlist]

instance (h : Handler) : Decidable (Codes h) := by cases h <;> unfold Codes <;> infer_instance

/-- The current line is empty, or only defines a label, or is a statement with a mnemonic of a certain kind. -/
def Only (P : Handler → Prop) (s : St) : Prop := ∀ t s1 f s2, (do startLine; stripLine : M Str) s = .ok t s1 → t ≠ [] → splitLine t s1 = .ok f s2 →
  ∀ k lab, f.entry = some (k, lab) → lab.flags.defcond = false ∧ lab.flags.defmacro = false ∧ lab.type = .mnemo ∧
    ∃ h, lab.ptr = .handler h ∧ P h

/-- A line is about to be assembled and listed, nothing is in the line buffer, and there is room for the line. -/
structure Begin (s : St) : Prop where
  list : s.flags.listOn = true
  wide : 39 ≤ s.lst.llen
  line : s.lst.line = []
  lpos : s.lst.lpos = 0
  num : s.linenumber ≠ 0
  text : ∀ c ∈ s.curline, keepChar c = true
  mark : Marked s.lineprefix
  fits : (sourceLine [] (tag s.lineprefix s.macrolevel s.linenumber) s.curline).length ≤ s.lst.llen

/-- What is in the log and in the listing after a line: bytes have been generated, the lines that show them and the source
    have been printed, and apart from these only remarks (warnings). -/
def Listed (s s' : St) (text : Str) : Prop := ∃ (a : Word) (bs : List Byte) (ts : List (Bool × Str)),
  s'.log = (byteEvents s.passnumber true a bs).reverse ++ s.log ∧
  s'.lst.lines = (ts.map Prod.snd).reverse ++ s.lst.lines ∧ (∀ t ∈ ts, t.1 = true → Remark t.2) ∧
  (ts.filter fun t => !t.1).map Prod.snd =
    _root_.Spec.Listing.statement (width s.flags.addr24 s.flags.addr16) a.toNat (bs.map BitVec.toNat) (tag s.lineprefix s.macrolevel s.linenumber) text

/-- What is the same behind the line. -/
structure Leaves (s s' : St) : Prop where
  list : s'.flags.listOn = true
  a16 : s'.flags.addr16 = s.flags.addr16
  a24 : s'.flags.addr24 = s.flags.addr24
  num : s'.linenumber = s.linenumber
  mark : s'.lineprefix = s.lineprefix
  level : s'.macrolevel = s.macrolevel

theorem Stays.leaves {s s4 s' : St} {x : Str} {u : Unit} (k : Stays { s with curline := x } s4) (hl : s4.flags.listOn = true) (h : outputline s4 = .ok u s') : Leaves s s' := by
  have hf := (inferInstance : Flagged outputline).run h
  have q := (inferInstance : Quiet outputline).run s4
  rw [h] at q
  have e : s'.linenumber = s4.linenumber ∧ s'.lineprefix = s4.lineprefix ∧ s'.macrolevel = s4.macrolevel := by
    obtain ⟨_, _, _, rfl⟩ := (q : SameBut s4 s')
    exact ⟨rfl, rfl, rfl⟩
  exact ⟨by rw [hf]; exact hl, by rw [hf]; exact k.a16, by rw [hf]; exact k.a24, e.1.trans k.num, e.2.1.trans k.mark, e.2.2.trans k.level⟩

theorem start_labels {s s1 : St} {u : Unit} (h : startLine s = .ok u s1) : s1.tree = s.tree ∧ s1.flags.macrolistOn = s.flags.macrolistOn ∧ s1.segment = s.segment := by
  unfold startLine at h
  obtain ⟨_, s2, h2, h⟩ := bind_ok h
  cases h2
  rw [getS_bind_run] at h
  obtain ⟨_, s3, h3, h⟩ := bind_ok h
  cases h3
  obtain ⟨_, s4, h4, h⟩ := bind_ok h
  unfold whenM setpc at h4
  split at h4
  · cases h4
    cases h
    dsimp only
    split <;> exact ⟨rfl, rfl, rfl⟩
  · cases h4
    cases h
    exact ⟨rfl, rfl, rfl⟩

theorem start_run {s s1 : St} {u : Unit} (h : startLine s = .ok u s1) :
    Stays s s1 ∧ s1.flags.listOn = s.flags.listOn ∧ s1.lst = s.lst ∧ s1.advance = 0 ∧ s1.log = s.log := by
  unfold startLine at h
  obtain ⟨_, s2, h2, h⟩ := bind_ok h
  cases h2
  rw [getS_bind_run] at h
  obtain ⟨_, s3, h3, h⟩ := bind_ok h
  cases h3
  obtain ⟨_, s4, h4, h⟩ := bind_ok h
  unfold whenM setpc at h4
  split at h4
  · cases h4
    cases h
    dsimp only
    split <;> exact ⟨⟨rfl, rfl, rfl, rfl, rfl, rfl, rfl, rfl⟩, rfl, rfl, rfl, rfl⟩
  · cases h4
    cases h
    exact ⟨⟨rfl, rfl, rfl, rfl, rfl, rfl, rfl, rfl⟩, rfl, rfl, rfl, rfl⟩

theorem Lined.reline {s : St} {base : St} {a : Word} {bs : List Byte} (x : Str) (r : Lined s base a bs) : Lined { s with curline := x } base a bs :=
  ⟨r.on, r.list, r.wide, r.llen, r.adv, r.pc, r.next, r.pos, r.shown⟩
theorem Marg.reline {s base : St} {m : Str} (x : Str) (r : Marg s base m) : Marg { s with curline := x } base m :=
  ⟨r.list, r.wide, r.llen, r.line, r.pos, r.shown⟩
theorem Shown.reline {s s' : St} (h : Shown s s') (x : Str) : Shown { s with curline := x } { s' with curline := x } := by
  obtain ⟨k, bs, h1, h2, h3, h4⟩ := h
  exact ⟨⟨k.on, k.a16, k.a24, k.num, rfl, k.mark, k.level, k.pass⟩, bs, h1, h2, h3, fun base a bs0 r =>
    Lined.reline x (h4.1 base a bs0 ⟨r.on, r.list, r.wide, r.llen, r.adv, r.pc, r.next, r.pos, r.shown⟩),
    fun ho base m r => Marg.reline x (h4.2 ho base m ⟨r.list, r.wide, r.llen, r.line, r.pos, r.shown⟩)⟩

/-- The source is listed as it is, except that blanks at the end may be left out. -/
theorem strip_run {s s1 : St} {t : Str} (h : stripLine s = .ok t s1) :
    ∃ x bl, s.curline = x ++ bl ∧ (∀ c ∈ bl, c = ' ' ∨ c = '\t') ∧ Shown { s with curline := x } s1 := by
  unfold stripLine at h
  rw [getS_bind_run] at h
  obtain ⟨r, s2, h2, h⟩ := bind_ok h
  have g := (inferInstance : Lists (filter2 _ _)).run h2
  rcases r with _ | ⟨l, o⟩
  · obtain ⟨_, s3, h3, h⟩ := bind_ok h
    cases h3
    cases h
    refine ⟨rtrim s.curline, (s.curline.reverse.takeWhile isblank).reverse, ?_, ?_, Shown.reline g _⟩
    · unfold rtrim
      rw [← List.reverse_append, List.takeWhile_append_dropWhile, List.reverse_reverse]
    · intro c hc
      have := List.all_eq_true.1 List.all_takeWhile c (List.mem_reverse.1 hc)
      simp [isblank] at this
      rcases this with e | e
      · left; rw [← Char.ofNat_toNat c, e]
      · right; rw [← Char.ofNat_toNat c, e]
  · cases h
    exact ⟨s.curline, [], by simp, by simp, g⟩

theorem expand_prefix (a b : Text) : ∀ col, (expand col a).length ≤ (expand col (a ++ b)).length := by
  induction a with
  | nil => intro col; simp [expand]
  | cons c a ih =>
    intro col
    rw [List.cons_append, expand_cons col c a, expand_cons col c (a ++ b), List.length_append, List.length_append]
    have := ih (col + (expand col [c]).length)
    omega

theorem source_prefix (m t a b : Text) : (sourceLine m t a).length ≤ (sourceLine m t (a ++ b)).length := by
  unfold sourceLine
  rw [List.length_append (as := fill 28 _), List.length_append (as := fill 28 _)]
  have := expand_prefix a b ((fill 21 m ++ t).length - 28)
  omega

/-- After the statement the line is printed. -/
theorem finish {s s1 s4 s' : St} {x bl : Str} {u : Unit} (b : Begin s) (on : s.flags.codeOn = true) (k : Stays s s1) (hl : s1.flags.listOn = s.flags.listOn) (he : s1.lst = s.lst)
    (ha : s1.advance = 0) (hg : s1.log = s.log) (hx : s.curline = x ++ bl) (g : Shown { s1 with curline := x } s4) (h : outputline s4 = .ok u s') :
    Listed s s' x ∧ s'.lst.line = [] ∧ s'.lst.lpos = 0 ∧ s'.lst.llen = s.lst.llen ∧ Leaves s s' := by
  have r1 : Lined { s1 with curline := x } s s1.code.pc [] := by
    refine ⟨by show s1.flags.codeOn = true; rw [k.on]; exact on, by show s1.flags.listOn = true; rw [hl]; exact b.list,
      by show 39 ≤ s1.lst.llen; rw [he]; exact b.wide, by show s1.lst.llen = _; rw [he], by show s1.advance = _; rw [ha]; simp, by show s1.code.pc = _; simp, fun h => absurd rfl h,
      by show s1.lst.line.length = s1.lst.lpos; rw [he, b.line, b.lpos]; rfl, [], by show s1.lst.lines = _; rw [he]; rfl, by simp, ?_, fun _ => by show s1.lst.line = []; rw [he]; exact b.line⟩
    rw [if_pos rfl]
    exact bytes_nil _ _
  obtain ⟨k4, bs, g1, g2, g3, g4⟩ := g
  have r4 := g4.1 _ _ _ r1
  rw [List.nil_append] at r4
  have en : s4.linenumber = s.linenumber := k4.num.trans k.num
  have ep : s4.lineprefix = s.lineprefix := k4.mark.trans k.mark
  have em : s4.macrolevel = s.macrolevel := k4.level.trans k.level
  have ec : s4.curline = x := k4.line
  have hll : s4.lst.llen = s.lst.llen := r4.llen
  obtain ⟨ts, t1, t2, t3, t4, t5, t6⟩ := r4.line (by rw [en]; exact b.num) (by rw [ec]; exact fun c hc => b.text c (by rw [hx]; exact List.mem_append_left _ hc))
    (by rw [ep]; exact b.mark) (by
      rw [ep, em, en, ec, hll]
      have := source_prefix [] (tag s.lineprefix s.macrolevel s.linenumber) x bl
      rw [← hx] at this
      exact Nat.le_trans this b.fits) h
  have q := (inferInstance : Quiet outputline).run s4
  rw [h] at q
  have q : SameBut s4 s' := q
  refine ⟨⟨s1.code.pc, bs, ts, ?_, t1, t2, ?_⟩, t4, t5, t6.trans hll, Stays.leaves (x := x)
    (⟨k4.on.trans k.on, k4.a16.trans k.a16, k4.a24.trans k.a24, en, ec, ep, em, k4.pass.trans k.pass⟩) r4.list h⟩
  · have : s'.log = s4.log := by obtain ⟨_, _, _, rfl⟩ := q; rfl
    rw [this, g1]
    show (byteEvents s1.passnumber s1.flags.codeOn s1.code.pc bs).reverse ++ s1.log = _
    rw [hg, k.pass, k.on, on]
  · rw [ep, em, en, ec] at t3
    have ed : addrDigits s4.flags = width s.flags.addr24 s.flags.addr16 := by
      rw [k4.digits]
      exact k.digits
    rw [ed] at t3
    exact t3

theorem codes_shown {self : Status → M RC} {fuel : Nat} {h : Handler} {arg : Int} {l o : Option Str} {s s' : St} {rc : RC} (hc : Codes h)
    (h0 : s.advance = 0) (hr : callHandler self fuel h arg l o s = .ok rc s') : Shown s s' := by
  have unit : ∀ {m : M Unit}, Lists m → (do m; pure RC.cont : M RC) s = .ok rc s' → Shown s s' := fun hm hr =>
    (Lists.bind hm fun _ => Lists.pure _).run hr
  cases h with
  | h6800 h => exact unit inferInstance hr
  | h6502 h => exact unit inferInstance hr
  | hz80 h => exact unit inferInstance hr
  | pseudo p =>
    cases p with
    | asc => exact unit (inferInstance : Lists (xAsc o)) hr
    | align => exact unit (inferInstance : Lists (xAlign o)) hr
    | dc => exact unit (inferInstance : Lists (xDc arg o)) hr
    | nam => exact unit (inferInstance : Lists (xNam o)) hr
    | output => exact unit (inferInstance : Lists (xOutput o)) hr
    | clist => exact unit (inferInstance : Lists (xClist o)) hr
    | ilist => exact unit (inferInstance : Lists (xIlist o)) hr
    | mlist => exact unit (inferInstance : Lists (xMlist o)) hr
    | ds =>
      obtain ⟨_, s1, h1, h2⟩ := bind_ok (show (xDs o >>= fun _ => pure RC.cont) s = .ok rc s' from hr)
      cases h2
      exact ds_shown h0 h1
    | _ => exact absurd hc (by decide)

/-- The label that is defined as the address of the line. -/
def here (f : Fields) : Option Str :=
  match f.entry with
  | none => some f.mnemo
  | some (_, lab) => if lab.flags.deflabel then none else f.label

def LabelStep (f : Fields) (s s' : St) : Prop :=
  match here f with
  | some l => herelabel l s = .ok () s'
  | none => s' = s

/-- The steps in which a line is assembled. -/
theorem path {P : Handler → Prop} {n : Nat} {s s' : St} {rc : RC} (ho : Only P s) (h : asmline n ⟨true, true⟩ s = .ok rc s') :
    ∃ s1 t s2, startLine s = .ok () s1 ∧ stripLine s1 = .ok t s2 ∧
      (t = [] ∧ outputline s2 = .ok () s' ∨
       ∃ f s3 s4, t ≠ [] ∧ splitLine t s2 = .ok f s3 ∧ LabelStep f s3 s4 ∧
        (f.entry = none ∧ outputline s4 = .ok () s' ∨
         ∃ k lab h m rc' s5 s6, f.entry = some (k, lab) ∧ P h ∧ callHandler (asmline m) m h lab.modifier f.label f.oper s4 = .ok rc' s5 ∧
          bumpStar s5 = .ok () s6 ∧ outputline s6 = .ok () s')) := by
  cases n with
  | zero => cases h
  | succ n =>
  unfold asmline asmlineF at h
  obtain ⟨_, s1, h1, h⟩ := bind_ok h
  rw [getS_bind_run] at h
  obtain ⟨t, s2, h2, h⟩ := bind_ok h
  refine ⟨s1, t, s2, h1, h2, ?_⟩
  have last : ∀ {s4 : St} {rc : RC}, (do whenM true outputline; pure RC.cont : M RC) s4 = .ok rc s' → outputline s4 = .ok () s' := by
    intro s4 rc h
    obtain ⟨u, s5, h5, h⟩ := bind_ok h
    cases h
    exact h5
  split at h
  · rename_i ht
    exact .inl ⟨ht, last h⟩
  · rename_i ht
    obtain ⟨f, s3, h3, h⟩ := bind_ok h
    have ho := ho t s2 f s3 (by rw [bind_run, h1]; exact h2) ht h3
    right
    obtain ⟨lbl, mn, op, entry⟩ := f
    unfold doFields at h
    rcases entry with _ | ⟨key, lab⟩
    · dsimp only at h
      split at h
      · obtain ⟨_, s4, h4, h⟩ := bind_ok h
        exact ⟨_, s3, s4, ht, h3, h4, .inl ⟨rfl, last h⟩⟩
      · exact absurd h error_not_ok
    · obtain ⟨o1, o2, o3, hd, o4, o5⟩ := ho key lab rfl
      dsimp only at h
      split at h
      · exact absurd h error_not_ok
      · obtain ⟨_, s4, h4, h⟩ := bind_ok h
        refine ⟨_, s3, s4, ht, h3, ?_, .inr (Exists.intro key (Exists.intro lab (Exists.intro hd (Exists.intro n ?_))))⟩
        · unfold LabelStep here
          dsimp only
          unfold whenM at h4
          cases lbl with
          | none =>
            dsimp only at h4
            split at h4
            · exact absurd h4 error_not_ok
            · rename_i hd
              rw [if_neg hd]
              cases h4
              rfl
          | some l =>
            dsimp only at h4
            split at h4
            · rename_i hd
              rw [if_neg (by intro e; rw [e] at hd; cases hd)]
              exact h4
            · rename_i hd
              rw [if_pos (by simpa using hd)]
              cases h4
              rfl
        · unfold execLine at h
          rw [if_neg (by rw [o1, o2]; decide), if_neg (by rw [o3]; decide), if_pos o3, o4] at h
          obtain ⟨_, s5, h5, h⟩ := bind_ok h
          unfold whenM at h5
          rw [if_pos rfl] at h5
          obtain ⟨rc', s6, h6, h5⟩ := bind_ok h5
          cases h5
          obtain ⟨_, s7, h7, h⟩ := bind_ok h
          exact ⟨rc', s5, s7, rfl, o5, h6, h7, last h⟩

theorem LabelStep.shown {f : Fields} {s s' : St} (ho : s.flags.codeOn = true) (h : LabelStep f s s') : Shown s s' := by
  unfold LabelStep at h
  split at h
  · exact herelabel_shown ho h
  · rw [h]
    exact .refl _

theorem LabelStep.idle {f : Fields} {s s' : St} (h : LabelStep f s s') : s'.advance = s.advance := by
  unfold LabelStep at h
  split at h
  · exact (inferInstance : Rests (herelabel _)).run h
  · rw [h]

/-- A line and what it generates. -/
theorem C50_statement (n : Nat) (s s' : St) (rc : RC) (b : Begin s) (on : s.flags.codeOn = true) (ho : Only Codes s)
    (h : asmline n ⟨true, true⟩ s = .ok rc s') :
    ∃ x bl, s.curline = x ++ bl ∧ (∀ c ∈ bl, c = ' ' ∨ c = '\t') ∧ Listed s s' x ∧
      s'.lst.line = [] ∧ s'.lst.lpos = 0 ∧ s'.lst.llen = s.lst.llen ∧ Leaves s s' := by
  obtain ⟨s1, t, s2, h1, h2, h⟩ := path ho h
  obtain ⟨k, hl, he, ha, hg⟩ := start_run h1
  obtain ⟨x, bl, hx, hb, g2⟩ := strip_run h2
  rw [k.line] at hx
  have a2 : s2.advance = 0 := ((inferInstance : Rests stripLine).run h2).trans ha
  refine ⟨x, bl, hx, hb, ?_⟩
  rcases h with ⟨-, h⟩ | ⟨f, s3, s4, -, h3, h4, h⟩
  · exact finish b on k hl he ha hg hx g2 h
  · have g3 := g2.trans ((inferInstance : Lists (splitLine t)).run h3)
    have a3 := ((inferInstance : Rests (splitLine t)).run h3).trans a2
    have g4 := g3.trans (h4.shown ((g3.1.on.trans k.on).trans on))
    rcases h with ⟨-, h⟩ | ⟨key, lab, hd, m, rc', s5, s6, -, hc, h5, h6, h⟩
    · exact finish b on k hl he ha hg hx g4 h
    · exact finish b on k hl he ha hg hx ((g4.trans (codes_shown hc (h4.idle.trans a3) h5)).trans ((inferInstance : Lists bumpStar).run h6)) h

/-! ### Lines that show no bytes -/

/-- After a line only one line and perhaps remarks have been printed. -/
def Noted (s s' : St) (m text : Str) : Prop := ∃ ts : List (Bool × Str),
  s'.lst.lines = (ts.map Prod.snd).reverse ++ s.lst.lines ∧ (∀ t ∈ ts, t.1 = true → Remark t.2) ∧
  (ts.filter fun t => !t.1).map Prod.snd = [sourceLine m (tag s.lineprefix s.macrolevel s.linenumber) text] ∧
  s'.lst.line = [] ∧ s'.lst.lpos = 0 ∧ s'.lst.llen = s.lst.llen

/-- What is not changed, for lines that change the processor, or turn the generation of code on or off. -/
structure Place (s s' : St) : Prop where
  num : s'.linenumber = s.linenumber
  line : s'.curline = s.curline
  mark : s'.lineprefix = s.lineprefix
  level : s'.macrolevel = s.macrolevel

theorem Stays.place {s s' : St} (h : Stays s s') : Place s s' := ⟨h.num, h.line, h.mark, h.level⟩
theorem Place.trans {a b c : St} (h : Place a b) (h' : Place b c) : Place a c :=
  ⟨h'.num.trans h.num, h'.line.trans h.line, h'.mark.trans h.mark, h'.level.trans h.level⟩

theorem noted {s s4 s' : St} {x bl m : Str} (b : Begin s) (hx : s.curline = x ++ bl) (k : Place { s with curline := x } s4) (r : Marg s4 s m)
    (hm : m.length ≤ 21) (h : outputline s4 = .ok () s') : Noted s s' m x := by
  have hf : (sourceLine [] (tag s4.lineprefix s4.macrolevel s4.linenumber) s4.curline).length ≤ s4.lst.llen := by
    rw [k.num, k.line, k.mark, k.level, r.llen]
    have := source_prefix [] (tag s.lineprefix s.macrolevel s.linenumber) x bl
    rw [← hx] at this
    exact Nat.le_trans this b.fits
  obtain ⟨ts, t1, t2, t3, t4, t5, t6⟩ := r.out hm (by rw [k.num]; exact b.num)
    (by rw [k.line]; exact fun c hc => b.text c (by rw [hx]; exact List.mem_append_left _ hc)) (by rw [k.mark]; exact b.mark) hf h
  rw [k.num, k.line, k.mark, k.level] at t3
  exact ⟨ts, t1, t2, t3, t4, t5, t6.trans r.llen⟩

/-- At the beginning. -/
theorem begin_marg {s s1 : St} (b : Begin s) (x : Str) (he : s1.lst = s.lst) (hl : s1.flags.listOn = s.flags.listOn) : Marg { s1 with curline := x } s [] :=
  ⟨hl.trans b.list, by show 39 ≤ s1.lst.llen; rw [he]; exact b.wide, by show s1.lst.llen = _; rw [he], by show s1.lst.line.reverse = []; rw [he, b.line]; rfl,
    by show s1.lst.line.length = s1.lst.lpos; rw [he, b.line, b.lpos]; rfl, [], by show s1.lst.lines = _; rw [he]; rfl, by simp⟩

/-- In parts that are not assembled: the line has the address in front that its label is given; bytes are counted, but not shown. -/
theorem C50_dummy (n : Nat) (s s' : St) (rc : RC) (b : Begin s) (off : s.flags.codeOn = false) (hm : s.macrolevel = 0 ∨ s.flags.macrolistOn = true)
    (ho : Only Codes s) (h : asmline n ⟨true, true⟩ s = .ok rc s') :
    ∃ x bl m, s.curline = x ++ bl ∧ (∀ c ∈ bl, c = ' ' ∨ c = '\t') ∧ Noted s s' m x ∧
      (∃ a bs, s'.log = (byteEvents s.passnumber false a bs).reverse ++ s.log) ∧
      ∃ t s2, (do startLine; stripLine : M Str) s = .ok t s2 ∧ (t = [] ∧ m = [] ∨ ∃ f s3, t ≠ [] ∧ splitLine t s2 = .ok f s3 ∧
        m = if (here f).isSome then echo (width s.flags.addr24 s.flags.addr16) (starLabel s).value.toNat else []) := by
  obtain ⟨s1, t, s2, h1, h2, h⟩ := path ho h
  obtain ⟨k, hl, he, ha, hg⟩ := start_run h1
  obtain ⟨u1, u2, u3⟩ := start_labels h1
  obtain ⟨v1, v2⟩ := (inferInstance : Reads stripLine).run h2
  obtain ⟨x, bl, hx, hb, g2⟩ := strip_run h2
  rw [k.line] at hx
  have a2 : s2.advance = 0 := ((inferInstance : Rests stripLine).run h2).trans ha
  have r1 := begin_marg b x he hl
  have i2 := g2.idle (a2.trans ha.symm)
  have r2 := i2.2 s [] r1
  have kx : Stays { s with curline := x } { s1 with curline := x } := ⟨k.on, k.a16, k.a24, k.num, rfl, k.mark, k.level, k.pass⟩
  have k2 := kx.trans g2.1
  have e2 : (do startLine; stripLine : M Str) s = .ok t s2 := by rw [bind_run, h1]; exact h2
  have lg : ∀ {s4 : St}, outputline s4 = .ok () s' → s'.log = s4.log := fun {s4} h => by
    have q := (inferInstance : Quiet outputline).run s4
    rw [h] at q
    obtain ⟨_, _, _, rfl⟩ := (q : SameBut s4 s')
    rfl
  have hg2 : s2.log = s.log := i2.1.trans hg
  rcases h with ⟨e, h⟩ | ⟨f, s3, s4, e, h3, h4, h⟩
  · exact ⟨x, bl, [], hx, hb, noted b hx (Stays.place k2) r2 (by simp) h, ⟨0, [], by rw [lg h, hg2]; rfl⟩, t, s2, e2, .inl ⟨e, rfl⟩⟩
  · have g3 := (inferInstance : Lists (splitLine t)).run h3
    have a3 := (inferInstance : Rests (splitLine t)).run h3
    obtain ⟨w1, w2⟩ := (inferInstance : Reads (splitLine t)).run h3
    have i3 := g3.idle a3
    have r3 := i3.2 s [] r2
    have k3 := k2.trans g3.1
    have st : starLabel s3 = starLabel s := by unfold starLabel; rw [w2, v2, u1]
    have ml : s3.flags.macrolistOn = s.flags.macrolistOn := by rw [w1, v1, u2]
    generalize hme : (if (here f).isSome then echo (width s.flags.addr24 s.flags.addr16) (starLabel s).value.toNat else []) = m
    have e4 : Marg s4 s m ∧ Stays s3 s4 ∧ s4.log = s3.log := by
      unfold LabelStep at h4
      cases hh : here f with
      | none =>
        rw [hh] at h4 hme
        have h4 : s4 = s3 := h4
        rw [h4, ← hme]
        exact ⟨r3, .refl _, rfl⟩
      | some l =>
        rw [hh] at h4 hme
        have h4 : herelabel l s3 = .ok () s4 := h4
        have := herelabel_marg (k3.on.trans off) r3 (by rw [k3.level, ml]; exact hm) h4
        rw [k3.digits, st] at this
        rw [← hme]
        exact this
    obtain ⟨r4, k4, l4⟩ := e4
    have ml : m.length ≤ 21 := by
      rw [← hme]
      split
      · exact echo_length (digits_cases s.flags) _
      · simp
    have fin : ∃ s6, Shown s4 s6 ∧ outputline s6 = .ok () s' := by
      rcases h with ⟨-, h⟩ | ⟨key, lab, hd, m, rc', s5, s6, -, hc, h5, h6, h⟩
      · exact ⟨s4, .refl _, h⟩
      · exact ⟨s6, (codes_shown hc (h4.idle.trans (a3.trans a2)) h5).trans ((inferInstance : Lists bumpStar).run h6), h⟩
    obtain ⟨s6, ⟨k6, bs, c1, c2, c3, c4, c5⟩, h⟩ := fin
    have o4 : s4.flags.codeOn = false := (k4.on.trans k3.on).trans off
    refine ⟨x, bl, m, hx, hb, noted b hx (Stays.place ((k3.trans k4).trans k6)) (c5 (.inl o4) _ _ r4) ml h, ⟨s4.code.pc, bs, ?_⟩,
      t, s2, e2, .inr ⟨f, s3, e, h3, hme.symm⟩⟩
    rw [lg h, c1, l4, i3.1, hg2, o4, k4.pass, k3.pass]

/-! ### EQU -/

/-- The current line is an equation. -/
def Equates (s : St) (l : Str) : Prop := ∃ t s1 f s2 k lab, (do startLine; stripLine : M Str) s = .ok t s1 ∧ t ≠ [] ∧ splitLine t s1 = .ok f s2 ∧
  f.entry = some (k, lab) ∧ f.label = some l ∧ lab.flags.defcond = false ∧ lab.flags.defmacro = false ∧ lab.flags.deflabel = true ∧
  lab.type = .mnemo ∧ lab.ptr = .handler (.pseudo .equ)

/-- An assignment and the address in front of it. -/
theorem equ_shown {l : Str} {o : Option Str} {s s' base : St} {u : Unit} (r : Marg s base []) (hm : s.macrolevel = 0 ∨ s.flags.macrolistOn = true)
    (h : xEqu (some l) o s = .ok u s') : ∃ lab, s'.tree.find (canon s.segment l) = some lab ∧ lab.flags.undef = false ∧ Stays s s' ∧ s'.log = s.log ∧ s'.advance = s.advance ∧
      Marg s' base (if lab.type = .absolute ∨ lab.type = .relative then echo (addrDigits s.flags) lab.value.toNat else []) := by
  unfold xEqu at h
  obtain ⟨r0, s1, h1, h⟩ := bind_ok h
  have a1 := (inferInstance : Rests (parse o)).run h1
  have g1 := (inferInstance : Lists (parse o)).run h1
  obtain ⟨l1, m1⟩ := g1.idle a1
  obtain ⟨f1, b1⟩ := (inferInstance : Bound (parse o)).run h1
  have r1 := m1 _ _ r
  dsimp only at h
  rw [modS_bind_run] at h
  obtain ⟨_, s3, h3, h⟩ := bind_ok h
  have e3 : Stays s1 s3 ∧ s3.log = s1.log ∧ s3.advance = s1.advance ∧ s3.segment = s1.segment ∧
      Marg s3 base (if r0.type = .absolute ∨ r0.type = .relative then echo (addrDigits s.flags) r0.value.toNat else []) := by
    unfold whenM at h3
    split at h3
    · rename_i ht
      rw [if_pos ht]
      have w := fun r hm => echo_shown (base := base) r hm h3
      obtain ⟨q, r3⟩ := w (r1.of rfl rfl) (by show s1.macrolevel = 0 ∨ s1.flags.macrolistOn = true; rw [g1.1.level, f1]; exact hm)
      have q' := q.keep
      refine ⟨⟨q'.on, q'.a16, q'.a24, q'.num, q'.line, q'.mark, q'.level, q'.pass⟩, ?_, ?_, ?_, ?_⟩
      · obtain ⟨_, _, _, rfl⟩ := q; rfl
      · obtain ⟨_, _, _, rfl⟩ := q; rfl
      · obtain ⟨_, _, _, rfl⟩ := q; rfl
      · rw [← f1]
        exact r3
    · rename_i ht
      rw [if_neg ht]
      cases h3
      exact ⟨⟨rfl, rfl, rfl, rfl, rfl, rfl, rfl, rfl⟩, rfl, rfl, rfl, r1.of rfl rfl⟩
  obtain ⟨k3, l3, a3, b3, r3⟩ := e3
  obtain ⟨_, s4, h4, h⟩ := bind_ok h
  have e4 : ∃ ns, s4 = { s3 with notes := ns } := by
    unfold whenM at h4
    split at h4
    · cases h4
      exact ⟨_, rfl⟩
    · cases h4
      exact ⟨_, rfl⟩
  obtain ⟨ns, rfl⟩ := e4
  obtain ⟨key, s5, h5, h⟩ := bind_ok h
  obtain ⟨ek, x, rfl, hv, ht, hu⟩ := deflabel_put h5
  rw [getS_bind_run] at h
  have ef : ({ s3 with notes := ns, tree := s3.tree.put key x } : St).tree.find key = some x := Tree.find_put_self _ _ _
  rw [ef] at h
  cases h
  refine ⟨{ x with modifier := r0.modifier, ptr := r0.ptr }, ?_, hu, ?_, l3.trans l1, a3.trans a1, ?_⟩
  · have : canon s.segment l = key := by rw [ek]; show _ = canon s3.segment l; rw [b3, b1]
    rw [this]
    exact Tree.find_put_self _ _ _
  · have := g1.1.trans k3
    exact ⟨this.on, this.a16, this.a24, this.num, this.line, this.mark, this.level, this.pass⟩
  · show Marg _ base (if x.type = _ ∨ x.type = _ then echo _ x.value.toNat else [])
    rw [hv, ht]
    exact r3.of rfl rfl

/-- An equation has the value in front that is given to the label (unless it is the name of a mnemonic or a macro). -/
theorem C50_equ (n : Nat) (s s' : St) (rc : RC) (l : Str) (b : Begin s) (hm : s.macrolevel = 0 ∨ s.flags.macrolistOn = true)
    (ho : Equates s l) (h : asmline n ⟨true, true⟩ s = .ok rc s') :
    ∃ x bl lab, s.curline = x ++ bl ∧ (∀ c ∈ bl, c = ' ' ∨ c = '\t') ∧ s'.log = s.log ∧ s'.tree.find (canon s.segment l) = some lab ∧ lab.flags.undef = false ∧
      Noted s s' (if lab.type = .absolute ∨ lab.type = .relative then echo (width s.flags.addr24 s.flags.addr16) lab.value.toNat else []) x ∧ Leaves s s' := by
  obtain ⟨t', s1', f', s2', key', lab', e1, ne, e2, o0, o1, o2, o3, o4, o5, o6⟩ := ho
  have ho : Only (fun h => h = .pseudo .equ) s := by
    intro t s1 f s2 x1 _ x2 k lab x3
    rw [e1] at x1
    cases x1
    rw [e2] at x2
    cases x2
    rw [o0] at x3
    cases x3
    exact ⟨o2, o3, o5, _, o6, rfl⟩
  obtain ⟨s1, t, s2, h1, h2, h⟩ := path ho h
  obtain ⟨k, hl, he, ha, hg⟩ := start_run h1
  obtain ⟨u1, u2, u3⟩ := start_labels h1
  obtain ⟨v1, v2⟩ := (inferInstance : Reads stripLine).run h2
  obtain ⟨x, bl, hx, hb, g2⟩ := strip_run h2
  rw [k.line] at hx
  have a2 : s2.advance = 0 := ((inferInstance : Rests stripLine).run h2).trans ha
  have r1 := begin_marg b x he hl
  have i2 := g2.idle (a2.trans ha.symm)
  have r2 := i2.2 s [] r1
  have kx : Stays { s with curline := x } { s1 with curline := x } := ⟨k.on, k.a16, k.a24, k.num, rfl, k.mark, k.level, k.pass⟩
  have k2 := kx.trans g2.1
  have hg2 : s2.log = s.log := i2.1.trans hg
  have ee : (do startLine; stripLine : M Str) s = .ok t s2 := by rw [bind_run, h1]; exact h2
  rw [e1] at ee
  cases ee
  rcases h with ⟨e, h⟩ | ⟨f, s3, s4, e, h3, h4, h⟩
  · exact absurd e ne
  · rw [e2] at h3
    cases h3
    have g3 := (inferInstance : Lists (splitLine _)).run e2
    have a3 := (inferInstance : Rests (splitLine _)).run e2
    obtain ⟨w1, w2⟩ := (inferInstance : Reads (splitLine _)).run e2
    have i3 := g3.idle a3
    have r3 := i3.2 s [] r2
    have k3 := k2.trans g3.1
    have ml : s2'.flags.macrolistOn = s.flags.macrolistOn := by rw [w1, v1, u2]
    have h4' : s4 = s2' := by
      unfold LabelStep here at h4
      rw [o0] at h4
      dsimp only at h4
      rw [o4] at h4
      exact h4
    subst h4'
    rcases h with ⟨e, h⟩ | ⟨key, lab, hd, m, rc', s5, s6, e, hc, h5, h6, h⟩
    · rw [o0] at e
      cases e
    · rw [hc, o1] at h5
      obtain ⟨_, s5', h5, h5'⟩ := bind_ok (show (xEqu (some l) f'.oper >>= fun _ => pure RC.cont) s4 = .ok rc' s5 from h5)
      cases h5'
      obtain ⟨lab, q1, qu, q2, q3, q4, q5⟩ := equ_shown r3 (by rw [k3.level, ml]; exact hm) h5
      have a5 : s5.advance = 0 := q4.trans (a3.trans a2)
      have e6 : Still' s5 s6 ∧ ∃ lab', s6.tree.find (canon s.segment l) = some lab' ∧ lab'.type = lab.type ∧ lab'.value = lab.value ∧ lab'.flags.undef = lab.flags.undef := by
        have sg : s4.segment = s.segment := ((inferInstance : Bound (splitLine _)).run e2).2.trans (((inferInstance : Bound stripLine).run h2).2.trans u3)
        rw [sg] at q1
        unfold bumpStar at h6
        rw [getS_bind_run, a5, addS_zero] at h6
        cases h6
        refine ⟨⟨⟨rfl, rfl, rfl, rfl, rfl, rfl, rfl, rfl⟩, rfl, rfl, rfl, rfl, rfl, rfl, rfl, rfl, rfl⟩, ?_⟩
        by_cases hk : canon s.segment l = starKey
        · refine ⟨_, by rw [hk]; exact Tree.find_put_self _ _ _, ?_⟩
          rw [hk] at q1
          unfold starLabel
          rw [q1]
          exact ⟨rfl, rfl, rfl⟩
        · exact ⟨lab, (Tree.find_put_ne _ _ hk).trans q1, rfl, rfl, rfl⟩
      obtain ⟨st, lab', x1, x2, x3, x4⟩ := e6
      have lg : s'.log = s6.log := by
        have q := (inferInstance : Quiet outputline).run s6
        rw [h] at q
        obtain ⟨_, _, _, rfl⟩ := (q : SameBut s6 s')
        rfl
      have lt : s'.tree = s6.tree := by
        have q := (inferInstance : Quiet outputline).run s6
        rw [h] at q
        obtain ⟨_, _, _, rfl⟩ := (q : SameBut s6 s')
        rfl
      refine ⟨x, bl, lab', hx, hb, ?_, by rw [lt]; exact x1, x4.trans qu, ?_, Stays.leaves ((k3.trans q2).trans st.keep) (st.marg q5).list h⟩
      · rw [lg, st.log, q3, i3.1, hg2]
      · rw [x2, x3]
        rw [k3.digits] at q5
        refine noted b hx (Stays.place ((k3.trans q2).trans st.keep)) (st.marg q5) ?_ h
        split
        · exact echo_length (digits_cases s.flags) _
        · simp

/-! ### CPU, CODE, DUMMY -/

def Sets : Handler → Prop
  | .pseudo p => p ∈ [.cpu, .code, .dummy]
  | _ => False

instance (h : Handler) : Decidable (Sets h) := by cases h <;> unfold Sets <;> infer_instance

theorem sets_silent {self : Status → M RC} {fuel : Nat} {h : Handler} {arg : Int} {l o : Option Str} {s s' : St} {rc : RC} (hc : Sets h)
    (hr : callHandler self fuel h arg l o s = .ok rc s') : Silence s s' := by
  have unit : ∀ {m : M Unit}, Silences m → (do m; pure RC.cont : M RC) s = .ok rc s' → Silence s s' := fun hm hr =>
    (Silences.bind hm fun _ => Silences.pure _).run hr
  cases h with
  | h6800 h => exact hc.elim
  | h6502 h => exact hc.elim
  | hz80 h => exact hc.elim
  | pseudo p =>
    cases p with
    | cpu => exact unit (inferInstance : Silences (xCpu o)) hr
    | code => exact unit (inferInstance : Silences (xCode true o)) hr
    | dummy => exact unit (inferInstance : Silences (xCode false o)) hr
    | _ => exact absurd hc (by decide)

/-- These lines are listed, with the address of their label in front in parts that are not assembled. -/
theorem C50_sets (n : Nat) (s s' : St) (rc : RC) (b : Begin s) (hm : s.macrolevel = 0 ∨ s.flags.macrolistOn = true)
    (ho : Only Sets s) (h : asmline n ⟨true, true⟩ s = .ok rc s') :
    ∃ x bl m, s.curline = x ++ bl ∧ (∀ c ∈ bl, c = ' ' ∨ c = '\t') ∧ Noted s s' m x ∧ s'.log = s.log ∧
      ∃ t s2, (do startLine; stripLine : M Str) s = .ok t s2 ∧ (t = [] ∧ m = [] ∨ ∃ f s3, t ≠ [] ∧ splitLine t s2 = .ok f s3 ∧
        m = if (here f).isSome ∧ s.flags.codeOn = false then echo (width s.flags.addr24 s.flags.addr16) (starLabel s).value.toNat else []) := by
  obtain ⟨s1, t, s2, h1, h2, h⟩ := path ho h
  obtain ⟨k, hl, he, ha, hg⟩ := start_run h1
  obtain ⟨u1, u2, u3⟩ := start_labels h1
  obtain ⟨v1, v2⟩ := (inferInstance : Reads stripLine).run h2
  obtain ⟨x, bl, hx, hb, g2⟩ := strip_run h2
  rw [k.line] at hx
  have a2 : s2.advance = 0 := ((inferInstance : Rests stripLine).run h2).trans ha
  have r1 := begin_marg b x he hl
  have i2 := g2.idle (a2.trans ha.symm)
  have r2 := i2.2 s [] r1
  have kx : Stays { s with curline := x } { s1 with curline := x } := ⟨k.on, k.a16, k.a24, k.num, rfl, k.mark, k.level, k.pass⟩
  have k2 := kx.trans g2.1
  have e2 : (do startLine; stripLine : M Str) s = .ok t s2 := by rw [bind_run, h1]; exact h2
  have lg : ∀ {s4 : St}, outputline s4 = .ok () s' → s'.log = s4.log := fun {s4} h => by
    have q := (inferInstance : Quiet outputline).run s4
    rw [h] at q
    obtain ⟨_, _, _, rfl⟩ := (q : SameBut s4 s')
    rfl
  have hg2 : s2.log = s.log := i2.1.trans hg
  rcases h with ⟨e, h⟩ | ⟨f, s3, s4, e, h3, h4, h⟩
  · exact ⟨x, bl, [], hx, hb, noted b hx (Stays.place k2) r2 (by simp) h, by rw [lg h, hg2], t, s2, e2, .inl ⟨e, rfl⟩⟩
  · have g3 := (inferInstance : Lists (splitLine t)).run h3
    have a3 := (inferInstance : Rests (splitLine t)).run h3
    obtain ⟨w1, w2⟩ := (inferInstance : Reads (splitLine t)).run h3
    have i3 := g3.idle a3
    have r3 := i3.2 s [] r2
    have k3 := k2.trans g3.1
    have st : starLabel s3 = starLabel s := by unfold starLabel; rw [w2, v2, u1]
    have ml : s3.flags.macrolistOn = s.flags.macrolistOn := by rw [w1, v1, u2]
    generalize hme : (if (here f).isSome ∧ s.flags.codeOn = false then echo (width s.flags.addr24 s.flags.addr16) (starLabel s).value.toNat else []) = m
    have e4 : Marg s4 s m ∧ Stays s3 s4 ∧ s4.log = s3.log := by
      cases hon : s.flags.codeOn with
      | true =>
        rw [if_neg (by rw [hon]; simp)] at hme
        rw [← hme]
        have g := h4.shown (k3.on.trans hon)
        have i := g.idle h4.idle
        exact ⟨i.2 _ _ r3, g.1, i.1⟩
      | false =>
        unfold LabelStep at h4
        cases hh : here f with
        | none =>
          rw [hh] at h4 hme
          have h4 : s4 = s3 := h4
          rw [h4, ← hme]
          exact ⟨r3, .refl _, rfl⟩
        | some l =>
          rw [hh] at h4 hme
          have h4 : herelabel l s3 = .ok () s4 := h4
          have := herelabel_marg (k3.on.trans hon) r3 (by rw [k3.level, ml]; exact hm) h4
          rw [k3.digits, st] at this
          rw [if_pos ⟨rfl, hon⟩] at hme
          rw [← hme]
          exact this
    obtain ⟨r4, k4, l4⟩ := e4
    have ml : m.length ≤ 21 := by
      rw [← hme]
      split
      · exact echo_length (digits_cases s.flags) _
      · simp
    have fin : ∃ s6, Silence s4 s6 ∧ outputline s6 = .ok () s' := by
      rcases h with ⟨-, h⟩ | ⟨key, lab, hd, m, rc', s5, s6, -, hc, h5, h6, h⟩
      · exact ⟨s4, .refl _, h⟩
      · have q5 := sets_silent hc h5
        have q6 : Silence s5 s6 := by
          have a5 : s5.advance = 0 := q5.adv.trans (h4.idle.trans (a3.trans a2))
          have g6 := (inferInstance : Lists bumpStar).run h6
          unfold bumpStar at h6
          rw [getS_bind_run, a5, addS_zero] at h6
          cases h6
          exact .of g6 rfl
        exact ⟨s6, q5.trans q6, h⟩
    obtain ⟨s6, q, h⟩ := fin
    refine ⟨x, bl, m, hx, hb, noted b hx ((Stays.place (k3.trans k4)).trans ⟨q.num, q.line, q.mark, q.level⟩) (q.marg _ _ r4) ml h, ?_,
      t, s2, e2, .inr ⟨f, s3, e, h3, hme.symm⟩⟩
    rw [lg h, q.log, l4, i3.1, hg2]

/-! ### Examples -/

/-- `Only`, decided. -/
def onlyB (P : Handler → Prop) [DecidablePred P] (s : St) : Bool :=
  match (do startLine; stripLine : M Str) s with
  | .ok t s1 =>
    match splitLine t s1 with
    | .ok f _ =>
      match f.entry with
      | some (_, lab) => !lab.flags.defcond && !lab.flags.defmacro && decide (lab.type = .mnemo) &&
          (match lab.ptr with | .handler h => decide (P h) | _ => false)
      | none => true
    | _ => true
  | _ => true

theorem only_of {P : Handler → Prop} [DecidablePred P] {s : St} (h : onlyB P s = true) : Only P s := by
  intro t s1 f s2 h1 _ h2 k lab h3
  unfold onlyB at h
  rw [h1] at h
  dsimp only at h
  rw [h2] at h
  dsimp only at h
  rw [h3] at h
  dsimp only at h
  simp at h
  refine ⟨h.1.1.1, h.1.1.2, h.1.2, ?_⟩
  have h := h.2
  cases hp : lab.ptr with
  | handler x =>
    rw [hp] at h
    exact ⟨x, rfl, by simpa using h⟩
  | _ => rw [hp] at h; cases h

/-- A line in the second pass, at address $1000. -/
def at1000 (on : Bool) (line : Str) : St :=
  match (do
    initLabelList .pseudos pseudos
    Cpu.init .c6502
    let _ ← deflabel starKey {} .absolute 0x1000
    modS fun s => { s with curline := line, linenumber := 12, passnumber := 2, flags := { s.flags with listOn := true, codeOn := on, nolist := false } } : M Unit)
      (initSt { fs := fun _ => none } []) with
  | .ok _ s => s
  | _ => initSt { fs := fun _ => none } []

def linesOf (s : St) : List Str :=
  match asmline 9 ⟨true, true⟩ s with
  | .ok _ s => s.lst.lines.reverse
  | _ => []

theorem begin_of {s : St} (h : s.flags.listOn = true ∧ 39 ≤ s.lst.llen ∧ s.lst.line = [] ∧ s.lst.lpos = 0 ∧ s.linenumber ≠ 0 ∧
    (∀ c ∈ s.curline, keepChar c = true) ∧ s.lineprefix = none ∧ (sourceLine [] (tag s.lineprefix s.macrolevel s.linenumber) s.curline).length ≤ s.lst.llen) :
    Begin s :=
  ⟨h.1, h.2.1, h.2.2.1, h.2.2.2.1, h.2.2.2.2.1, h.2.2.2.2.2.1, fun c hc => by exact absurd (h.2.2.2.2.2.2.1.symm.trans hc) (by simp), h.2.2.2.2.2.2.2⟩

/-- An instruction with a label. -/
example : Begin (at1000 true c!"loop  lda #5  ") ∧ (at1000 true c!"loop  lda #5  ").flags.codeOn = true ∧ Only Codes (at1000 true c!"loop  lda #5  ") ∧
    linesOf (at1000 true c!"loop  lda #5  ") = [c!"1000 A905               12  loop  lda #5"] :=
  ⟨begin_of (by decide +kernel), by decide +kernel, only_of (by decide +kernel), by decide +kernel⟩

/-- Data in several rows. -/
example : Begin (at1000 true c!" asc \"abcdefghij\"") ∧ Only Codes (at1000 true c!" asc \"abcdefghij\"") ∧
    linesOf (at1000 true c!" asc \"abcdefghij\"") =
      [c!"1000 61626364656667", c!"1007 68696A             12   asc \"abcdefghij\""] :=
  ⟨begin_of (by decide +kernel), only_of (by decide +kernel), by decide +kernel⟩

/-- With addresses of four digits, 21 bytes are shown and nothing tells that there are more; with six or eight digits
    there is a mark. -/
example : linesOf (at1000 true c!" asc \"abcdefghijklmnopqrstuvwxyz\"") =
      [c!"1000 61626364656667", c!"1007 68696A6B6C6D6E", c!"100E 6F707172737475     12   asc \"abcdefghijklmnopqrstuvwxyz\""] := by decide +kernel
example : bytes 4 0 (List.range 30) = bytes 4 0 (List.range 21) := by decide
example : (bytes 6 0 (List.range 30)).getLast? = some c!"000012 1213141516..." := by decide

/-- In a DUMMY part. -/
example : Begin (at1000 false c!"foo ds 5") ∧ (at1000 false c!"foo ds 5").flags.codeOn = false ∧ Only Codes (at1000 false c!"foo ds 5") ∧
    linesOf (at1000 false c!"foo ds 5") = [c!"  1000                  12  foo ds 5"] :=
  ⟨begin_of (by decide +kernel), by decide +kernel, only_of (by decide +kernel), by decide +kernel⟩

/-- An equation. -/
example : Begin (at1000 true c!"foo = 2*$81") ∧ Equates (at1000 true c!"foo = 2*$81") c!"foo" ∧
    linesOf (at1000 true c!"foo = 2*$81") = [c!"  0102                  12  foo = 2*$81"] := by
  refine ⟨begin_of (by decide +kernel), ?_, by decide +kernel⟩
  have h : (match (do startLine; stripLine : M Str) (at1000 true c!"foo = 2*$81") with
    | .ok t s1 => match splitLine t s1 with
      | .ok f _ => (match f.entry with
        | some (_, lab) => decide (t ≠ [] ∧ f.label = some c!"foo" ∧ lab.flags.defcond = false ∧ lab.flags.defmacro = false ∧ lab.flags.deflabel = true ∧
            lab.type = .mnemo ∧ lab.ptr = .handler (.pseudo .equ))
        | none => false)
      | _ => false
    | _ => false) = true := by decide +kernel
  unfold Equates
  generalize (do startLine; stripLine : M Str) (at1000 true c!"foo = 2*$81") = r at *
  cases r with
  | ok t s1 =>
    dsimp only at h
    cases h2 : splitLine t s1 with
    | ok f s2 =>
      rw [h2] at h
      dsimp only at h
      cases h3 : f.entry with
      | some kl =>
        obtain ⟨k, lab⟩ := kl
        rw [h3] at h
        exact ⟨t, s1, f, s2, k, lab, rfl, (of_decide_eq_true h).1, h2, h3, (of_decide_eq_true h).2⟩
      | none => rw [h3] at h; cases h
    | _ => rw [h2] at h; cases h
  | _ => cases h

/-- DUMMY. -/
example : Only Sets (at1000 true c!" dummy") ∧ linesOf (at1000 true c!" dummy") = [c!"                        12   dummy"] :=
  ⟨only_of (by decide +kernel), by decide +kernel⟩

end Crasm.C50

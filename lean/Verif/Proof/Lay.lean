import Verif.Proof.Calm
import Verif.Proof.Run
import Verif.Spec.Listing

/-!
What a function does to the listing: it is a sequence of the steps of `LStep`.
-/

namespace Crasm
open _root_.Spec.Listing (Remark)

/-- What `outputraw` does when the listing is on. -/
def printed (s : Str) (l : Lst) : Lst :=
  let l := if l.ppos = 0 then
      { l with pagenumber := l.pagenumber + 1, ppos := 2,
               out := pageHeader l.title l.llen (l.pagenumber + 1) :: l.out }
    else l
  let l := { l with out := (s ++ ['\n']) :: l.out, ppos := l.ppos + 1, lines := s :: l.lines }
  if l.plen ≤ l.ppos + 2 ∧ l.plen ≠ 0 then
    { l with out := c!"\n\n" :: l.out, ppos := 0 }
  else l

/-- The steps in pass `n`. -/
inductive LStep (n : Nat) : Lst → Lst → Prop
  | print (l : Lst) (s : Str) (h : s = l.line.reverse ∨ Remark s) : LStep n l (printed s l)
  | clear (l : Lst) : LStep n l { l with lpos := 0, line := [] }
  | put (l : Lst) (c : Char) (h : 0 < l.llen → l.lpos < l.llen) : LStep n l { l with line := c :: l.line, lpos := l.lpos + 1 }
  | over (l : Lst) : LStep n l { l with lpos := l.lpos + 1 }
  | mark (l : Lst) (a : Nat) (b : Word) (h : a = l.lastoffset ∨ (0 < l.llen → a < l.llen)) : LStep n l { l with lastoffset := a, mypc := b }
  | title (l : Lst) (t : Str) (f : Bool) (h : t.length ≤ 30) : LStep n l { l with title := t, titleFlag := f }
  | eject (l : Lst) (h : l.plen = 0) : LStep n l { l with out := c!"\n\n\n" :: l.out, lines := if l.ppos = 0 then l.lines else [] :: [] :: [] :: l.lines }
  | page (l : Lst) (p w : Nat) (f : Bool) (hp : p = 0 ∨ 10 ≤ p) (h1 : 39 ≤ w) (h2 : w ≤ 1000) :
      LStep n l { l with plen := p, llen := w, pageFlag := f, pages := (n, p, w) :: l.pages }

inductive LStar (n : Nat) : Lst → Lst → Prop
  | refl (l : Lst) : LStar n l l
  | tail {a b c : Lst} : LStar n a b → LStep n b c → LStar n a c
theorem LStar.trans {n : Nat} {a b c : Lst} (h : LStar n a b) (h' : LStar n b c) : LStar n a c := by
  induction h' with
  | refl => exact h
  | tail _ r ih => exact .tail ih r
theorem LStep.one {n : Nat} {a b : Lst} (h : LStep n a b) : LStar n a b := .tail (.refl a) h

/-- The line buffer overflows only when a character is put at the end of a line of 1000 characters. -/
def Full : Res α → Prop
  | .stop (.ub .lineBuffer) s => (0 < s.lst.llen → s.lst.lpos < s.lst.llen) ∧ 1000 ≤ s.lst.lpos + 1
  | _ => True

/-- What is known of a run from `s`. -/
def Lays (s : St) (r : Res α) : Prop := LStar s.passnumber s.lst r.state.lst ∧ r.state.passnumber = s.passnumber ∧ Full r

class Lay (m : M α) : Prop where
  run : ∀ s, Lays s (m s)

theorem Lay.bindAt {m : M α} {f : α → M β} {s : St} (hm : Lays s (m s))
    (hf : ∀ a s1, m s = .ok a s1 → Lays s1 (f a s1)) : Lays s ((m >>= f) s) := by
  rw [bind_run]
  revert hm hf
  cases m s with
  | ok a s1 =>
    intro hm hf
    obtain ⟨h1, h2, -⟩ := hm
    change s1.passnumber = _ at h2
    obtain ⟨g1, g2, g3⟩ := hf a s1 rfl
    rw [h2] at g1 g2
    exact ⟨h1.trans g1, g2, g3⟩
  | err s1 => intro hm _; exact ⟨hm.1, hm.2.1, trivial⟩
  | stop w1 s1 =>
    intro hm _
    refine ⟨hm.1, hm.2.1, ?_⟩
    have := hm.2.2
    revert this
    cases w1 with
    | ub u => cases u <;> exact id
    | _ => exact id
theorem Lay.bind {m : M α} {f : α → M β} (hm : Lay m) (hf : ∀ a, Lay (f a)) : Lay (m >>= f) :=
  ⟨fun s => Lay.bindAt (hm.run s) fun a s1 _ => (hf a).run s1⟩
theorem Lay.pure (a : α) : Lay (Pure.pure a : M α) := ⟨fun s => ⟨.refl _, rfl, trivial⟩⟩
theorem Lay.getS : Lay Crasm.getS := ⟨fun s => ⟨.refl _, rfl, trivial⟩⟩
theorem Lay.getS_bind {f : St → M β} (hf : ∀ s, Lays s (f s s)) : Lay (Crasm.getS >>= f) := ⟨hf⟩
theorem Lay.modS {g : St → St} (h : ∀ s, LStar s.passnumber s.lst (g s).lst ∧ (g s).passnumber = s.passnumber) : Lay (Crasm.modS g) :=
  ⟨fun s => ⟨(h s).1, (h s).2, trivial⟩⟩
theorem Lay.same {g : St → St} (h : ∀ s, (g s).lst = s.lst ∧ (g s).passnumber = s.passnumber) : Lay (Crasm.modS g) :=
  .modS fun s => ⟨by rw [(h s).1]; exact .refl _, (h s).2⟩
theorem Lay.whenM {c : Prop} [Decidable c] {a : M Unit} (ha : Lay a) : Lay (whenM c a) := by
  unfold Crasm.whenM; split
  · exact ha
  · exact Lay.pure _
theorem Lay.catchErr {m h : M α} (hm : Lay m) (hh : Lay h) : Lay (catchErr m h) := by
  constructor
  intro s
  have h1 := hm.run s
  unfold Crasm.catchErr
  revert h1
  cases m s with
  | ok a s1 => exact id
  | err s1 =>
    intro h1
    obtain ⟨h1, h2, -⟩ := h1
    change s1.passnumber = _ at h2
    obtain ⟨g1, g2, g3⟩ := hh.run s1
    rw [h2] at g1 g2
    exact ⟨h1.trans g1, g2, g3⟩
  | stop w1 s1 => exact id

macro "lay" : tactic => `(tactic| repeat' (first
  | infer_instance
  | exact Lay.pure _
  | exact Lay.getS
  | exact Lay.same fun _ => ⟨rfl, rfl⟩
  | with_reducible refine Lay.bind ?_ (fun _ => ?_)
  | with_reducible refine Lay.whenM ?_
  | dsimp only
  | split))

theorem lay_ub {u : UB} (h : u ≠ .lineBuffer) : Lay (ubM u : M α) := ⟨fun s => by
  refine ⟨.refl _, rfl, ?_⟩
  show Full (Res.stop (.ub u) s)
  cases u <;> first | trivial | exact absurd rfl h⟩
instance : Lay (ubM .filterBuffer : M α) := lay_ub (by decide)
instance : Lay (ubM .errorBuffer : M α) := lay_ub (by decide)
instance : Lay (ubM .resultBuffer : M α) := lay_ub (by decide)
instance : Lay (ubM .signedOverflow : M α) := lay_ub (by decide)
instance : Lay (ubM .shiftCount : M α) := lay_ub (by decide)
instance : Lay (ubM .ascOverread : M α) := lay_ub (by decide)
instance : Lay (ubM .dsNegative : M α) := lay_ub (by decide)
instance : Lay (ubM .nullMacro : M α) := lay_ub (by decide)
instance : Lay (ubM .nullHandler : M α) := lay_ub (by decide)
instance : Lay (ubM .nullLabel : M α) := lay_ub (by decide)
instance : Lay (ubM .tableIndex : M α) := lay_ub (by decide)
instance (m : Str) : Lay (fatal m : M α) := ⟨fun _ => ⟨.refl _, rfl, trivial⟩⟩
instance : Lay (stopWith .fuel : M α) := ⟨fun _ => ⟨.refl _, rfl, trivial⟩⟩
instance : Lay (stopWith .hang : M α) := ⟨fun _ => ⟨.refl _, rfl, trivial⟩⟩
instance : Lay (throwErr : M α) := ⟨fun _ => ⟨.refl _, rfl, trivial⟩⟩
instance (f : Flags → Flags) : Lay (modFlags f) := Lay.same fun _ => ⟨rfl, rfl⟩
instance (f : Code → Code) : Lay (modCode f) := Lay.same fun _ => ⟨rfl, rfl⟩
instance : Lay zerobuffer := Lay.same fun _ => ⟨rfl, rfl⟩

/-! ### filter.c, output.c, error() -/

instance (s pat : Str) : Lay (filterC s pat) := by unfold filterC; lay
instance (s pat : Str) : Lay (filter0 s pat) := by unfold filter0; lay
instance (s pat : Str) : Lay (filter1 s pat) := by unfold filter1; lay
instance (s pat : Str) : Lay (filter2 s pat) := by unfold filter2; lay

theorem lay_raw {t : Str} {s : St} (h : t = s.lst.line.reverse ∨ Remark t) :
    Lays s (outputraw t s) := by
  unfold outputraw
  rw [getS_bind_run]
  split
  · exact ⟨(LStep.print _ t h).one, rfl, trivial⟩
  · exact ⟨.refl _, rfl, trivial⟩
instance : Lay outputEOL := by
  unfold outputEOL
  exact .getS_bind fun s => Lay.bindAt (lay_raw (.inl rfl)) fun _ s1 _ => ⟨(LStep.clear _).one, rfl, trivial⟩
instance lay_eolLoop (n : Nat) : Lay (eolLoop n) := by
  induction n with
  | zero => exact Lay.pure _
  | succ n ih => unfold eolLoop; lay
instance : Lay outputEOP := by
  unfold outputEOP
  refine .getS_bind fun s => ?_
  split
  · split
    · exact (lay_eolLoop _).run s
    · rename_i h
      exact ⟨(LStep.eject _ (by simpa using h)).one, rfl, trivial⟩
  · exact ⟨.refl _, rfl, trivial⟩
theorem lay_putRaw (c : Char) {s : St} (h : 0 < s.lst.llen → s.lst.lpos < s.lst.llen) :
    Lays s (putRaw c s) := by
  unfold putRaw
  rw [getS_bind_run]
  split
  · rename_i hl
    exact ⟨.refl _, rfl, h, hl⟩
  · exact ⟨(LStep.put _ c h).one, rfl, trivial⟩
instance : Lay putSpace := by
  unfold putSpace
  refine .getS_bind fun s => ?_
  split
  · rename_i h
    exact lay_putRaw _ fun _ => h
  · exact ⟨(LStep.over _).one, rfl, trivial⟩
instance lay_putSpaces (n : Nat) : Lay (putSpaces n) := by
  induction n with
  | zero => exact Lay.pure _
  | succ n ih => unfold putSpaces; lay
instance (n : Nat) : Lay (position n) := by unfold position; lay
instance lay_tryPats (t : Str) (ps : List Str) : Lay (tryPats t ps) := by
  induction ps with
  | nil => exact Lay.pure _
  | cons p ps ih => unfold tryPats; lay
theorem lay_marks {f : Lst → Lst} (h : ∀ l, ∃ a b, f l = { l with lastoffset := a, mypc := b } ∧ (a = l.lastoffset ∨ (0 < l.llen → a < l.llen))) : Lay (modLst f) :=
  .modS fun s => by
    obtain ⟨a, b, e, h⟩ := h s.lst
    refine ⟨?_, rfl⟩
    show LStar _ s.lst (f s.lst)
    rw [e]
    exact (LStep.mark _ a b h).one
instance : Lay (modLst fun l => { l with lastoffset := 0 }) := lay_marks fun l => ⟨_, _, rfl, .inr id⟩
instance (w : Word) : Lay (modLst fun l => { l with mypc := w }) := lay_marks fun l => ⟨_, _, rfl, .inl rfl⟩

/-- There is room in the line. -/
def Room (l : Lst) : Prop := 0 < l.llen → l.lpos < l.llen

theorem raw_pos {t : Str} {s s' : St} (h : outputraw t s = .ok () s') : s'.lst.lpos = s.lst.lpos ∧ s'.lst.llen = s.lst.llen := by
  unfold outputraw at h
  rw [getS_bind_run] at h
  split at h
  · cases h
    show (printed t s.lst).lpos = _ ∧ (printed t s.lst).llen = _
    unfold printed
    dsimp only
    split <;> split <;> exact ⟨rfl, rfl⟩
  · cases h; exact ⟨rfl, rfl⟩
theorem eol_pos {s s' : St} (h : outputEOL s = .ok () s') : s'.lst.lpos = 0 ∧ s'.lst.llen = s.lst.llen := by
  unfold outputEOL at h
  rw [getS_bind_run] at h
  obtain ⟨_, s1, h1, h⟩ := bind_ok h
  cases h
  exact ⟨rfl, (raw_pos h1).2⟩
theorem space_pos {s s' : St} (h : putSpace s = .ok () s') : s'.lst.lpos = s.lst.lpos + 1 ∧ s'.lst.llen = s.lst.llen := by
  unfold putSpace at h
  rw [getS_bind_run] at h
  split at h
  · unfold putRaw at h
    rw [getS_bind_run] at h
    split at h
    · cases h
    · cases h; exact ⟨rfl, rfl⟩
  · cases h; exact ⟨rfl, rfl⟩
theorem spaces_pos {n : Nat} : ∀ {s s' : St}, putSpaces n s = .ok () s' → s'.lst.lpos = s.lst.lpos + n ∧ s'.lst.llen = s.lst.llen := by
  induction n with
  | zero => intro s s' h; cases h; exact ⟨rfl, rfl⟩
  | succ n ih =>
    intro s s' h
    unfold putSpaces at h
    obtain ⟨_, s1, h1, h⟩ := bind_ok h
    have := ih h
    have := space_pos h1
    omega
theorem position_room {n : Nat} {s s' : St} (h0 : Room s.lst) (h : position n s = .ok () s') : Room s'.lst := by
  unfold position at h
  rw [getS_bind_run] at h
  split at h
  · cases h
  · have := spaces_pos h
    intro hl
    have := h0 (by omega)
    omega
theorem filterC_lst {t p : Str} {s s' : St} {r} (h : filterC t p s = .ok r s') : s'.lst = s.lst := by
  unfold filterC at h
  rw [getS_bind_run] at h
  split at h
  · cases h
  · split at h <;> (cases h; rfl)
theorem tryPats_room {t : Str} {ps : List Str} : ∀ {s s' : St}, Room s.lst → tryPats t ps s = .ok () s' → Room s'.lst := by
  induction ps with
  | nil => intro s s' h0 h; cases h; exact h0
  | cons p ps ih =>
    intro s s' h0 h
    unfold tryPats at h
    obtain ⟨r, s1, h1, h⟩ := bind_ok h
    have e := filterC_lst h1
    rw [← e] at h0
    revert h
    rcases r with _ | ⟨c, k⟩
    · exact ih h0
    · exact position_room h0
/-- The column in which a continuation line begins. -/
def startWrap (st : St) (c : Char) (r : Option (List Str × Nat)) : M Unit :=
  match r with
  | some (_, k) => position k
  | none =>
    if c = ';' then position LMARGIN
    else if LMARGIN ≤ st.lst.lastoffset then position st.lst.lastoffset
    else tryPats (st.lst.line.reverse.drop LMARGIN) [c!"_? _? _?", c!"_? _?", c!"_?"]
instance (st : St) (c : Char) (r) : Lay (startWrap st c r) := by unfold startWrap; lay
theorem startWrap_room {st : St} {c : Char} {r} {s s' : St} (r1 : Room s.lst) (h3 : startWrap st c r s = .ok () s') : Room s'.lst := by
  revert h3
  unfold startWrap
  rcases r with _ | ⟨c, k⟩
  · dsimp only
    split
    · exact position_room r1
    · split
      · exact position_room r1
      · exact tryPats_room r1
  · exact position_room r1
theorem wrap_eq (c : Char) (s : St) : wrapLine c s = (outputEOL >>= fun _ => filterC (s.lst.line.reverse.drop LMARGIN) c!"?;_?" >>= fun r =>
    startWrap s c r >>= fun _ => modLst fun l => { l with lastoffset := l.lpos }) s := by
  unfold wrapLine
  rw [getS_bind_run]
  rfl
theorem wrap_room {c : Char} {s s' : St} (h : wrapLine c s = .ok () s') : Room s'.lst := by
  rw [wrap_eq] at h
  obtain ⟨_, s1, h1, h⟩ := bind_ok h
  have r1 : Room s1.lst := by
    intro hl
    have := (eol_pos h1).1
    omega
  obtain ⟨r, s2, h2, h⟩ := bind_ok h
  rw [← filterC_lst h2] at r1
  obtain ⟨_, s3, h3, h⟩ := bind_ok h
  have r3 := startWrap_room r1 h3
  cases h
  exact r3
instance (c : Char) : Lay (wrapLine c) := ⟨fun s => by
  rw [wrap_eq]
  refine Lay.bindAt ((inferInstance : Lay outputEOL).run s) fun _ s1 h1 => ?_
  refine Lay.bindAt ((inferInstance : Lay (filterC _ _)).run s1) fun r s2 h2 => ?_
  refine Lay.bindAt ((inferInstance : Lay (startWrap s c r)).run s2) fun _ s3 h3 => ?_
  have r3 : Room s3.lst := startWrap_room (by
    rw [filterC_lst h2]
    intro hl
    have := (eol_pos h1).1
    omega) h3
  exact ⟨(LStep.mark s3.lst s3.lst.lpos s3.lst.mypc (.inr r3)).one, rfl, trivial⟩⟩

instance (c : Char) : Lay (outputcar c) := by
  unfold outputcar
  split
  · refine .getS_bind fun s => ?_
    refine Lay.bindAt ((Lay.whenM (c := s.lst.llen ≤ s.lst.lpos) (inferInstance : Lay (wrapLine c))).run s) fun _ s1 h1 => ?_
    have r1 : Room s1.lst := by
      unfold whenM at h1
      split at h1
      · exact wrap_room h1
      · cases h1; intro _; omega
    unfold whenM
    split
    · exact lay_putRaw c r1
    · exact ⟨.refl _, rfl, trivial⟩
  · lay
instance lay_output (s : Str) : Lay (output s) := by
  induction s with
  | nil => exact Lay.pure _
  | cons p ps ih => unfold output; lay
instance : Lay outputline := by unfold outputline; lay
instance (a : Word) : Lay (outputaddr a) := by unfold outputaddr; lay
instance (b : Byte) : Lay (outputbyte b) := by unfold outputbyte; lay
theorem remark_warning (n : Nat) (m : Str) : Remark (diagText c!" WARNING: " n m) := ⟨_, _, .inr rfl⟩
theorem remark_error (n : Nat) (m : Str) : Remark (diagText c!" ERROR: " n m) := ⟨_, _, .inl rfl⟩
theorem lay_remark {t : Str} (h : Remark t) : Lay (outputraw t) := ⟨fun _ => lay_raw (.inr h)⟩
instance (m : Str) : Lay (warning m) := by
  unfold warning
  exact .bind .getS fun s => .whenM (lay_remark (remark_warning _ _))
instance (m : Str) : Lay (reportError m) := by
  unfold reportError
  refine Lay.bind Lay.getS fun s => ?_
  simp only
  split
  · infer_instance
  · exact Lay.bind inferInstance fun _ => lay_remark (remark_error _ _)
instance : Lay bumpStar := by unfold bumpStar; lay
instance (m : Str) : Lay (error m : M α) := by unfold error; lay
instance (n : Note) : Lay (note n) := Lay.same fun _ => ⟨rfl, rfl⟩
instance (m : Str) : Lay (refuse m : M α) := Lay.catchErr inferInstance (Lay.bind inferInstance fun _ => inferInstance)
instance (k : Str) (l : Label) : Lay (putLabel k l) := Lay.same fun _ => ⟨rfl, rfl⟩
instance (n : Str) : Lay (findlabel n) := ⟨fun _ => ⟨.refl _, rfl, trivial⟩⟩
instance (n : Str) (f : LFlags) (t : LType) (v : Word) : Lay (deflabel n f t v) := by unfold deflabel; lay
instance (r : Result) (t : LType) : Lay (checktype r t) := by unfold checktype; lay

/-! ### parse.c, operator.c -/

instance (tgt : Bool) (r : Result) : Lay (setRes tgt r) := by unfold setRes; lay
instance (tgt : Bool) (v : Nat) : Lay (cst tgt v) := by unfold cst; lay
instance (tgt : Bool) (v : Except Str Nat) : Lay (cstE tgt v) := by unfold cstE; lay
instance (tgt : Bool) (n : Str) : Lay (cstlabel tgt n) := by unfold cstlabel; lay
instance lay_parseConst (tgt : Bool) (e : Str) (rows : List (Str × Base)) : Lay (parseConst tgt e rows) := by
  induction rows with
  | nil => unfold parseConst; lay
  | cons r rows ih => obtain ⟨p, b⟩ := r; unfold parseConst; lay
instance (tgt : Bool) (e : Str) : Lay (parseLeaf tgt e) := by unfold parseLeaf; lay

theorem applyOp2_line {op : Op2} {p a : Result} {u : UB} (h : applyOp2 op p a = .ub u) : u ≠ .lineBuffer := by
  have ha : ∀ {p a : Result} {k : Result → OpRes}, (∀ r, k r = .ub u → u ≠ .lineBuffer) → absolute2 p a k = .ub u →
      u ≠ .lineBuffer := by
    intro p a k hk
    unfold absolute2
    split
    · simp
    · split
      · simp
      · exact hk _
  have ho : ∀ {r v}, ofOpt r v = .ub u → u ≠ .lineBuffer := by
    intro r v h
    cases v with
    | none => cases h; decide
    | some v => cases h
  have hs : ∀ {x : UB}, x ≠ .lineBuffer → OpRes.ub x = .ub u → u ≠ .lineBuffer := by rintro x hx h; cases h; exact hx
  revert h
  cases op with
  | add =>
    simp only [applyOp2]
    split
    · first | exact hs (by decide) | simp
    · split
      · first | exact ho | exact hs (by decide) | simp
      · split <;> first | exact ho | exact hs (by decide) | simp
  | sub =>
    simp only [applyOp2]
    split
    · exact ho
    · split
      · exact ho
      · split
        · unfold regRange
          split
          · split <;> first | exact hs (by decide) | simp
          · first | exact hs (by decide) | simp
        · simp
  | rlist =>
    simp only [applyOp2]
    split
    · simp
    · split <;> simp
  | mul => simp only [applyOp2]; exact ha fun r => ho
  | div =>
    simp only [applyOp2]
    refine ha fun r => ?_
    split
    · simp
    · split
      · exact hs (by decide)
      · simp
  | or => simp only [applyOp2]; exact ha fun r => by simp
  | and => simp only [applyOp2]; exact ha fun r => by simp
  | xor => simp only [applyOp2]; exact ha fun r => by simp
  | lsh => simp only [applyOp2]; refine ha fun r => ?_; split <;> first | exact hs (by decide) | simp
  | rsh => simp only [applyOp2]; refine ha fun r => ?_; split <;> first | exact hs (by decide) | simp
  | bit => simp only [applyOp2]; refine ha fun r => ?_; split <;> first | exact hs (by decide) | simp

theorem applyOp1_line {op : Op1} {p : Result} {u : UB} (h : applyOp1 op p = .ub u) : u ≠ .lineBuffer := by
  revert h
  cases op <;> (simp only [applyOp1]; split <;> try simp)
  split <;> first | (intro h; cases h; decide) | simp

theorem lay_finishOp (tgt : Bool) (o : OpRes) (h : ∀ u, o = .ub u → u ≠ .lineBuffer) : Lay (finishOp tgt o) := by
  cases o with
  | ok r => exact (inferInstance : Lay (setRes tgt r))
  | err m r => unfold finishOp; lay
  | ub u => exact lay_ub (h u rfl)
  | hang => exact (inferInstance : Lay (stopWith .hang : M Result))

instance lay_firstMatch (e : Str) (alts : List (Str × Op2)) : Lay (firstMatch e alts) := by
  induction alts with
  | nil => exact Lay.pure _
  | cons x alts ih => obtain ⟨pat, op⟩ := x; unfold firstMatch; lay

theorem lay_parseRows (rec : Bool → Str → M Result) (hrec : ∀ tgt x, Lay (rec tgt x)) (tgt : Bool) (e : Str)
    (rows : List Ent) : Lay (parseRows rec tgt e rows) := by
  induction rows with
  | nil => exact (inferInstance : Lay (parseLeaf tgt (creverse e)))
  | cons r rows ih =>
    cases r with
    | dya alts =>
      unfold parseRows
      refine Lay.bind inferInstance fun m => ?_
      rcases m with _ | ⟨c1, c2, op⟩
      · exact ih
      · dsimp only
        split
        · exact ih
        · exact Lay.bind (hrec _ _) fun p => Lay.bind (hrec _ _) fun a => lay_finishOp _ _ fun u => applyOp2_line
    | mon pat op =>
      unfold parseRows
      refine Lay.bind inferInstance fun r => ?_
      rcases r with _ | _ | ⟨c, ca⟩
      · exact ih
      · exact ih
      · exact Lay.bind (hrec _ _) fun p => lay_finishOp _ _ fun u => applyOp1_line
    | paren pat =>
      unfold parseRows
      refine Lay.bind inferInstance fun r => ?_
      rcases r with _ | _ | ⟨c, ca⟩
      · exact ih
      · exact ih
      · exact hrec _ _

instance lay_parse2 (n : Nat) (tgt : Bool) (e : Str) : Lay (parse2 n tgt e) := by
  induction n generalizing tgt e with
  | zero => unfold parse2; lay
  | succ n ih => exact lay_parseRows (parse2 n) ih tgt e revTable
instance (o : Option Str) : Lay (parse o) := by unfold parse; lay
instance (o : Option Str) : Lay (parseAbs o) := by unfold parseAbs; lay

/-! ### Instructions -/

instance : Lay openScode := by unfold openScode; lay
instance (x : Byte) : Lay (insert8 x) := by unfold insert8; lay
instance (x : BitVec 16) : Lay (insert16 x) := by unfold insert16; lay
instance (x : BitVec 32) : Lay (insert32 x) := by unfold insert32; lay
instance (a : Word) : Lay (setpc a) := Lay.same fun _ => by split <;> exact ⟨rfl, rfl⟩
instance (c : BitVec 32) (o : Option Str) : Lay (relBranch c o) := by unfold relBranch; lay

namespace C6800
instance (c : BitVec 32) (o : Option Str) : Lay (single c o) := by unfold single; lay
instance (a : BitVec 32) (o : Str) : Lay (modeValue a o) := by unfold modeValue; lay
instance lay_findmode (o : Option Str) (ms : List (Str × BitVec 32)) : Lay (findmode o ms) := by
  induction ms with
  | nil => unfold findmode; lay
  | cons r rows ih => obtain ⟨p, b⟩ := r; unfold findmode; lay
instance (a b c : BitVec 32) : Lay (codemode a b c) := by unfold codemode; lay
instance (h : H6800) (m : Int) (o : Option Str) : Lay (call h m o) := by
  cases h with
  | branch => exact (inferInstance : Lay (relBranch _ o))
  | single => exact (inferInstance : Lay (single _ o))
  | standard => exact Lay.bind inferInstance fun r => (inferInstance : Lay (codemode _ _ _))
  | standard2 => show Lay (standard2 _ o); unfold standard2; lay
  | standard3 => show Lay (standard3 _ o); unfold standard3; lay
end C6800

namespace C6502
instance (c : BitVec 32) (o : Option Str) : Lay (single c o) := by unfold single; lay
instance lay_searchMode (o : Str) (ms : List (Str × Nat)) : Lay (searchMode o ms) := by
  induction ms with
  | nil => unfold searchMode; lay
  | cons r rows ih => obtain ⟨p, b⟩ := r; unfold searchMode; lay
instance (m : Nat) (o : Str) : Lay (operand m o) := by unfold operand; lay

instance (c : BitVec 32) (m : Nat) : Lay (opcodeFor c m) := by unfold opcodeFor; lay
instance (c : BitVec 32) (o : Option Str) : Lay (standard c o) := by unfold standard; lay
instance (h : H6502) (m : Int) (o : Option Str) : Lay (call h m o) := by
  cases h with
  | branch => exact (inferInstance : Lay (relBranch _ o))
  | single => exact (inferInstance : Lay (single _ o))
  | standard => exact (inferInstance : Lay (standard _ o))
end C6502

namespace Z80
instance lay_getIndexed (z : Z) (o : Str) (ps : List (Str × Idx × Option Bool)) : Lay (getIndexed z o ps) := by
  induction ps with
  | nil => exact Lay.pure _
  | cons r rows ih => obtain ⟨p, b, sg⟩ := r; unfold getIndexed; lay
instance (z : Z) (v : Word) : Lay (setArg z v) := by unfold setArg; lay
instance (r : Result) : Lay (singleReg r) := by unfold singleReg; lay
instance (z : Z) (n : Int) : Lay (regResult z n) := by unfold regResult; lay
instance (z : Z) (o : Str) : Lay (getreg z o) := by unfold getreg; lay
instance (z : Z) (c : BitVec 32) : Lay (docode z c) := by unfold docode; lay
instance (c : BitVec 32) (o : Option Str) : Lay (simple c o) := by unfold simple; lay
instance lay_findCond (o : Str) (ps : List Str) : ∀ i, Lay (findCond o i ps) := by
  induction ps with
  | nil => intro i; unfold findCond; lay
  | cons r rows ih => intro i; unfold findCond; lay
instance (n : Nat) (o : Option Str) : Lay (searchcond n o) := by unfold searchcond; lay
instance (a b : Byte) (o : Option Str) : Lay (condJump a b o) := by unfold condJump; lay
instance lay_firstOf (o : Str) (ps : List Str) : Lay (firstOf o ps) := by
  induction ps with
  | nil => exact Lay.pure _
  | cons r rows ih => unfold firstOf; lay
instance (z : Z) (o : Str) : Lay (exAf z o) := by unfold exAf; lay
instance (o : Option Str) : Lay (ex o) := by unfold ex; lay
instance (c : BitVec 32) (o : Str) : Lay (inoutOps c o) := by unfold inoutOps; lay
instance (c : BitVec 32) (o : Option Str) : Lay (inout c o) := by unfold inout; lay
instance (z : Z) (c : BitVec 32) (o : Str) : Lay (logicalTail z c o) := by unfold logicalTail; lay
instance (c : BitVec 32) (o : Option Str) : Lay (logical c o) := by unfold logical; lay
instance (c : BitVec 32) (o : Option Str) : Lay (arith c o) := by unfold arith; lay
instance (o : Option Str) : Lay (ld o) := by unfold ld; lay
instance (h : HZ80) (m : Int) (o : Option Str) : Lay (call h m o) := by
  cases h with
  | im => show Lay (im o); unfold im; lay
  | rst => show Lay (rst o); unfold rst; lay
  | jr => show Lay (jr o); unfold jr; lay
  | jp => show Lay (jp o); unfold jp; lay
  | call => show Lay (callOp o); unfold callOp; lay
  | ret => show Lay (ret o); unfold ret; lay
  | bitop => show Lay (bitop _ o); unfold bitop; lay
  | onreg8 => show Lay (onreg8 _ o); unfold onreg8; lay
  | stackop => show Lay (stackop _ o); unfold stackop; lay
  | incr => show Lay (incr _ o); unfold incr; lay
  | _ => unfold call; lay
end Z80

/-! ### Directives -/

instance (o : Option Str) (m : Int) : Lay (stocke o m) := by unfold stocke; lay
instance lay_dcLoop (m : Int) (n : Nat) (o : Option Str) : Lay (dcLoop m n o) := by
  induction n generalizing o with
  | zero => unfold dcLoop; lay
  | succ n ih => unfold dcLoop; lay
instance (m : Int) (o : Option Str) : Lay (xDc m o) := by unfold xDc; lay
instance lay_fillBytes (b : Byte) (n : Nat) : Lay (fillBytes b n) := by
  induction n with
  | zero => unfold fillBytes; lay
  | succ n ih => unfold fillBytes; lay
instance (o : Option Str) : Lay (xDs o) := by unfold xDs; lay
instance (t : Str) : Lay (settitle t) := by
  unfold settitle
  refine .bind .getS fun s => .bind (.whenM inferInstance) fun _ => ?_
  split
  · infer_instance
  · rename_i h
    exact .modS fun s => ⟨(LStep.title s.lst t _ (by omega)).one, rfl⟩
instance (o : Option Str) : Lay (xNam o) := by unfold xNam; lay
instance lay_ascLoop (d : Char) (s : Str) : ∀ e, Lay (ascLoop d e s) := by
  induction s with
  | nil => intro e; cases e <;> (unfold ascLoop; lay)
  | cons c s ih => intro e; cases e <;> (unfold ascLoop; lay)
instance (o : Option Str) : Lay (xAsc o) := by unfold xAsc; lay
instance (b : Bool) (o : Option Str) : Lay (xCode b o) := by unfold xCode; lay
instance (o : Option Str) (g : Bool → Flags → Flags) : Lay (onOff o g) := by unfold onOff; lay
instance (o : Option Str) : Lay (xClist o) := by unfold xClist; lay
instance (o : Option Str) : Lay (xIlist o) := by unfold xIlist; lay
instance (o : Option Str) : Lay (xMlist o) := by unfold xMlist; lay
instance (o : Option Str) : Lay (xList o) := by unfold xList; lay
instance (a b : Int) : Lay (setpage a b) := by
  unfold setpage
  refine .bind .getS fun s => .bind (.whenM inferInstance) fun _ => ?_
  split
  · infer_instance
  · rename_i h
    exact .modS fun s => ⟨(LStep.page s.lst _ _ _ (by omega) (by omega) (by omega)).one, rfl⟩
instance (o : Option Str) : Lay (xPage o) := by unfold xPage; lay
instance lay_eols (n : Nat) : Lay (eols n) := by
  induction n with
  | zero => unfold eols; lay
  | succ n ih => unfold eols; lay
instance (o : Option Str) : Lay (xSkip o) := by unfold xSkip; lay
instance (o : Option Str) : Lay (xOutput o) := by unfold xOutput; lay
instance (o : Option Str) : Lay (xAlign o) := by unfold xAlign; lay
instance (i : TableId) (e : Entry) : Lay (bindOne i e) := by unfold bindOne; lay
instance lay_bindAll (i : TableId) (es : List Entry) (is : List Nat) : Lay (bindAll i es is) := by
  induction is with
  | nil => unfold bindAll; lay
  | cons i is ih => unfold bindAll; lay
instance (i : TableId) (es : List Entry) : Lay (initLabelList i es) := by unfold initLabelList; lay
instance (c : Int) : Lay (C6800.init c) := by unfold C6800.init; lay
instance (c : Int) : Lay (C6502.init c) := by unfold C6502.init; lay
instance : Lay Z80.init := by unfold Z80.init; lay
instance (c : Cpu) : Lay c.init := by unfold Cpu.init; lay
instance lay_findCpu (o : Str) (cs : List (Str × Cpu)) : Lay (findCpu o cs) := by
  induction cs with
  | nil => unfold findCpu; lay
  | cons c cs ih => obtain ⟨n, c⟩ := c; unfold findCpu; lay
instance (o : Option Str) : Lay (xCpu o) := by unfold xCpu; lay
instance (o : Option Str) : Lay (xFail o) := by unfold xFail; lay
instance (v : Word) : Lay (echoAddr v) := by unfold echoAddr; lay
instance (l : Option Str) (o : Option Str) : Lay (xEqu l o) := by unfold xEqu; lay
instance (o : Option Str) : Lay (xInclude o) := by unfold xInclude checkDepth; lay

/-! ### Conditions, lines -/

instance lay_findCmp (o : Str) (cs : List (Str × Cmp)) : Lay (findCmp o cs) := by
  induction cs with
  | nil => exact Lay.pure _
  | cons c cs ih => obtain ⟨p, q⟩ := c; unfold findCmp; lay
instance (q : Cmp) (a b : Result) : Lay (compareRes q a b) := by unfold compareRes; lay
instance (o : Option Str) : Lay (testtrue o) := by unfold testtrue; lay
instance (o : Option Str) : Lay (xElse o) := by unfold xElse; lay
instance (o : Option Str) : Lay (xEndc o) := by unfold xEndc; lay
instance (m : Str) (r : RC) (st : Status) (o : Option Str) : Lay (macroEnd m r st o) := by unfold macroEnd; lay
instance (st : Status) (o : Option Str) : Lay (xEndm st o) := by unfold xEndm; lay
instance (st : Status) (o : Option Str) : Lay (xExitm st o) := by unfold xExitm; lay
instance (r : Str) : Lay (takeLine r) := by unfold takeLine; lay
theorem popEnds_lst (es : List Src) : ∀ s : St, (popEnds es s).lst = s.lst ∧ (popEnds es s).passnumber = s.passnumber := by
  induction es with
  | nil => intro s; exact ⟨rfl, rfl⟩
  | cons e es ih =>
    intro s
    obtain ⟨a, b, c, k⟩ := e
    cases k with
    | file t b =>
      cases b with
      | false => exact ⟨rfl, rfl⟩
      | true => exact ih _
    | «macro» => exact ⟨rfl, rfl⟩
instance : Lay (modS fun s => popEnds s.stack s) := .same fun s => popEnds_lst _ s
instance : Lay linegets := by unfold linegets; lay
instance (st : Status) : Lay (ifList st) := by unfold ifList; lay
instance (st : Status) (b : Bool) : Lay (markSkipped st b) := by unfold markSkipped; lay
instance lay_macroLoop (st : Status) (n : Nat) : ∀ acc, Lay (macroLoop st n acc) := by
  induction n with
  | zero => intro acc; unfold macroLoop; lay
  | succ n ih => intro acc; unfold macroLoop; lay
instance (k : Str) (ls : List Str) : Lay (setLines k ls) := by unfold setLines; lay
instance (n : Nat) (st : Status) (l : Option Str) (o : Option Str) : Lay (xMacro n st l o) := by unfold xMacro; lay
instance lay_macroArgs (n : Nat) : ∀ acc o, Lay (macroArgs n acc o) := by
  induction n with
  | zero => intro acc o; unfold macroArgs; lay
  | succ n ih => intro acc o; unfold macroArgs; lay
instance (l : Str) : Lay (herelabel l) := by unfold herelabel; lay
instance (m : Str) : Lay (findmnemo m) := by unfold findmnemo; lay
instance (l : Option Str) (s : Str) : Lay (splitMnemo l s) := by unfold splitMnemo; lay
instance (s : Str) : Lay (splitLine s) := by unfold splitLine; lay
instance : Lay startLine := by unfold startLine; lay
instance : Lay stripLine := by unfold stripLine; lay
instance : Lay checkDepth := by unfold checkDepth; lay
instance (k : Str) : Lay (markUsed k) := Lay.same fun _ => by dsimp only; split <;> exact ⟨rfl, rfl⟩
instance : Lay bumpErr := Lay.same fun _ => ⟨rfl, rfl⟩

/-! ### Lines and passes -/

section
variable {self : Status → M RC} (hs : ∀ st, Lay (self st))
include hs

theorem lay_ifLoop (st : Status) (n : Nat) : Lay (ifLoop self st n) := by
  induction n with
  | zero => unfold ifLoop; lay
  | succ n ih =>
    unfold ifLoop
    refine .bind (.catchErr ?_ (by lay)) fun r => ?_
    · unfold ifRound
      refine .bind inferInstance fun _ => .bind .getS fun s => ?_
      split
      · exact Lay.pure _
      · exact .bind (hs _) fun r => Lay.pure _
    · rcases r with r | _
      · cases r with
        | cont => exact ih
        | _ => exact Lay.pure _
      · exact (inferInstance : Lay (error _ : M RC))

theorem lay_ifElse (fuel : Nat) (st : Status) (b : Bool) (o : Option Char) : Lay (ifElse self fuel st b o) := by
  unfold ifElse
  refine .bind .getS fun s => .bind inferInstance fun _ => ?_
  exact .bind (lay_ifLoop hs _ _) fun r => by lay

theorem lay_xIf (fuel : Nat) (st : Status) (o : Option Str) : Lay (xIf self fuel st o) := by
  unfold xIf
  refine .bind (by lay) fun t => .bind .getS fun s => ?_
  refine .bind inferInstance fun _ => .bind .getS fun s => ?_
  refine .bind inferInstance fun _ => .bind (lay_ifLoop hs _ _) fun r => ?_
  refine .bind (.same fun _ => ⟨rfl, rfl⟩) fun _ => ?_
  split
  · infer_instance
  · refine .bind inferInstance fun _ => ?_
    split
    · exact Lay.pure _
    · exact Lay.pure _
    · exact lay_ifElse hs _ _ _ _

theorem lay_macroRun (st : Status) (n : Nat) : Lay (macroRun self st n) := by
  induction n with
  | zero => unfold macroRun; lay
  | succ n ih =>
    unfold macroRun
    refine .bind (.catchErr (.bind inferInstance fun _ => hs st) (by lay)) fun r => ?_
    split
    · exact ih
    · exact Lay.pure _

theorem lay_macrocall (fuel : Nat) (k : Str) (lab : Label) (st : Status) (o : Option Str) :
    Lay (macrocall self fuel k lab st o) := by
  unfold macrocall
  refine .bind inferInstance fun _ => .bind inferInstance fun _ => ?_
  refine .bind .getS fun s0 => ?_
  dsimp only
  refine .bind inferInstance fun args => ?_
  split
  · refine .bind (by lay) fun _ => .bind (.same fun _ => ⟨rfl, rfl⟩) fun _ => ?_
    exact .bind (lay_macroRun hs _ _) fun r => by lay
  · infer_instance

theorem lay_callHandler (fuel : Nat) (h : Handler) (arg : Int) (l o : Option Str) :
    Lay (callHandler self fuel h arg l o) := by
  cases h with
  | h6800 h => exact Lay.bind inferInstance fun _ => Lay.pure _
  | h6502 h => exact Lay.bind inferInstance fun _ => Lay.pure _
  | hz80 h => exact Lay.bind inferInstance fun _ => Lay.pure _
  | pseudo p =>
    cases p with
    | «macro» => exact (inferInstance : Lay (xMacro fuel (.ofInt arg) l o))
    | if_ => exact lay_xIf hs _ _ _
    | else_ => exact (inferInstance : Lay (xElse o))
    | endc => exact (inferInstance : Lay (xEndc o))
    | endm => exact (inferInstance : Lay (xEndm (.ofInt arg) o))
    | exitm => exact (inferInstance : Lay (xExitm (.ofInt arg) o))
    | _ => exact Lay.bind inferInstance fun _ => Lay.pure _

theorem lay_execLine (fuel : Nat) (st : Status) (l o : Option Str) (k : Str) (lab : Label) :
    Lay (execLine self fuel st l o k lab) := by
  have hc := lay_callHandler hs fuel
  have hm := lay_macrocall hs fuel
  unfold execLine
  repeat' (first
    | exact hc _ _ _ _
    | exact hm _ _ _ _
    | infer_instance
    | exact Lay.pure _
    | exact Lay.getS
    | exact Lay.same (fun _ => ⟨rfl, rfl⟩)
    | with_reducible refine Lay.bind ?_ (fun _ => ?_)
    | with_reducible refine Lay.whenM ?_
    | dsimp only
    | split)

theorem lay_doFields (fuel : Nat) (st : Status) (b : Bool) (f : Fields) : Lay (doFields self fuel st b f) := by
  have hc := lay_execLine hs fuel
  unfold doFields
  repeat' (first
    | exact hc _ _ _ _ _
    | infer_instance
    | exact Lay.pure _
    | exact Lay.getS
    | exact Lay.same (fun _ => ⟨rfl, rfl⟩)
    | with_reducible refine Lay.bind ?_ (fun _ => ?_)
    | with_reducible refine Lay.whenM ?_
    | dsimp only
    | split)

theorem lay_asmlineF (fuel : Nat) (st : Status) : Lay (asmlineF self fuel st) := by
  have hc := lay_doFields hs fuel
  unfold asmlineF
  repeat' (first
    | exact hc _ _ _
    | infer_instance
    | exact Lay.pure _
    | exact Lay.getS
    | exact Lay.same (fun _ => ⟨rfl, rfl⟩)
    | with_reducible refine Lay.bind ?_ (fun _ => ?_)
    | with_reducible refine Lay.whenM ?_
    | dsimp only
    | split)
end

instance lay_asmline (n : Nat) : ∀ st, Lay (asmline n st) := by
  induction n with
  | zero => exact fun st => by unfold asmline; lay
  | succ n ih => exact fun st => lay_asmlineF ih n st

instance lay_passLoop (fuel n : Nat) : ∀ b, Lay (passLoop fuel n b) := by
  induction n with
  | zero => exact fun b => by unfold passLoop; lay
  | succ n ih =>
    intro b
    unfold passLoop passBody
    refine .bind .getS fun s => ?_
    split
    · exact Lay.pure _
    · refine .bind (.catchErr ?_ (by lay)) fun b => ih b
      exact .bind (by lay) fun _ => Lay.pure _

instance : Lay undeflabels := Lay.same fun _ => ⟨rfl, rfl⟩

/-! ### xref.c -/

instance (k : Str) (l : Label) : Lay (printlabel k l) := by unfold printlabel; lay
instance lay_printlabels (ls : List (Str × Label)) : Lay (printlabels ls) := by
  induction ls with
  | nil => exact Lay.pure _
  | cons x ls ih => obtain ⟨k, l⟩ := x; unfold printlabels; lay
instance : Lay xref := by unfold xref; lay
instance (t : Str) : Lay (resultLine t) := by unfold resultLine; lay
instance : Lay result := by unfold result; lay

end Crasm

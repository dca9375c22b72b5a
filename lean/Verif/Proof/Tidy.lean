import Verif.Proof.Slim

/-!
Statements that generate bytes or give values to labels leave the lines of the source counted as they are, set no page
length, and leave the line buffer empty when they end with an error.
-/

namespace Crasm

/-- Nothing is in the line buffer, if lines are printed at all. -/
def Swept (s : St) : Prop := s.linenumber ≠ 0 → s.lst.line = [] ∧ s.lst.lpos = 0

def Tidies (s : St) : Res α → Prop
  | .ok _ s' => s'.lst.pages = s.lst.pages ∧ s'.linenumber = s.linenumber
  | .err s' => s'.lst.pages = s.lst.pages ∧ s'.linenumber = s.linenumber ∧ Swept s'
  | .stop _ _ => True

class Tidy (m : M α) : Prop where
  run : ∀ s, Tidies s (m s)

theorem Tidy.bindAt {m : M α} {f : α → M β} {s : St} (hm : Tidies s (m s))
    (hf : ∀ a s1, m s = .ok a s1 → Tidies s1 (f a s1)) : Tidies s ((m >>= f) s) := by
  rw [bind_run]
  revert hm hf
  cases m s with
  | ok a s1 =>
    rintro ⟨h1, h2⟩ hf
    have h3 := hf a s1 rfl
    show Tidies s (f a s1)
    revert h3
    cases f a s1 with
    | ok b s2 => exact fun h3 => ⟨h3.1.trans h1, h3.2.trans h2⟩
    | err s2 => exact fun h3 => ⟨h3.1.trans h1, h3.2.1.trans h2, h3.2.2⟩
    | stop w s2 => exact id
  | err s1 => exact fun hm _ => hm
  | stop w1 s1 => exact fun _ _ => trivial
theorem Tidy.bind {m : M α} {f : α → M β} (hm : Tidy m) (hf : ∀ a, Tidy (f a)) : Tidy (m >>= f) :=
  ⟨fun s => Tidy.bindAt (hm.run s) fun a s1 _ => (hf a).run s1⟩
theorem Tidy.pure (a : α) : Tidy (Pure.pure a : M α) := ⟨fun s => ⟨rfl, rfl⟩⟩
theorem Tidy.getS : Tidy Crasm.getS := ⟨fun s => ⟨rfl, rfl⟩⟩
theorem Tidy.same {g : St → St} (h : ∀ s, (g s).lst.pages = s.lst.pages ∧ (g s).linenumber = s.linenumber) : Tidy (Crasm.modS g) :=
  ⟨fun s => h s⟩
theorem Tidy.whenM {c : Prop} [Decidable c] {a : M Unit} (ha : Tidy a) : Tidy (whenM c a) := by
  unfold Crasm.whenM; split
  · exact ha
  · exact Tidy.pure _

macro "tidy" : tactic => `(tactic| repeat' (first
  | infer_instance
  | exact Tidy.pure _
  | exact Tidy.getS
  | exact Tidy.same fun _ => ⟨rfl, rfl⟩
  | with_reducible refine Tidy.bind ?_ (fun _ => ?_)
  | with_reducible refine Tidy.whenM ?_
  | dsimp only
  | split))

instance (u : UB) : Tidy (ubM u : M α) := ⟨fun _ => trivial⟩
instance (m : Str) : Tidy (fatal m : M α) := ⟨fun _ => trivial⟩
instance (w : Stop) : Tidy (stopWith w : M α) := ⟨fun _ => trivial⟩
instance (f : Flags → Flags) : Tidy (modFlags f) := Tidy.same fun _ => ⟨rfl, rfl⟩
instance (f : Code → Code) : Tidy (modCode f) := Tidy.same fun _ => ⟨rfl, rfl⟩
instance : Tidy zerobuffer := Tidy.same fun _ => ⟨rfl, rfl⟩

/-! ### filter.c, output.c, error() -/

instance (s pat : Str) : Tidy (filterC s pat) := by unfold filterC; tidy
instance (s pat : Str) : Tidy (filter0 s pat) := by unfold filter0; tidy
instance (s pat : Str) : Tidy (filter1 s pat) := by unfold filter1; tidy
instance (s pat : Str) : Tidy (filter2 s pat) := by unfold filter2; tidy

theorem tidy_printed (t : Str) (l : Lst) : (printed t l).pages = l.pages := by
  unfold printed
  dsimp only
  split <;> split <;> rfl
instance (t : Str) : Tidy (outputraw t) := ⟨fun s => by
  unfold outputraw
  rw [getS_bind_run]
  split
  · exact ⟨tidy_printed _ _, rfl⟩
  · exact ⟨rfl, rfl⟩⟩
theorem tidy_lst {f : Lst → Lst} (h : ∀ l, (f l).pages = l.pages) : Tidy (modLst f) := Tidy.same fun s => ⟨h s.lst, rfl⟩
instance : Tidy outputEOL := by
  unfold outputEOL
  exact .bind .getS fun s => .bind inferInstance fun _ => tidy_lst fun _ => rfl
instance (c : Char) : Tidy (putRaw c) := by
  unfold putRaw
  refine .bind .getS fun s => ?_
  split
  · infer_instance
  · exact tidy_lst fun _ => rfl
instance : Tidy putSpace := by
  unfold putSpace
  refine .bind .getS fun s => ?_
  split
  · infer_instance
  · exact tidy_lst fun _ => rfl
instance tidy_putSpaces (n : Nat) : Tidy (putSpaces n) := by
  induction n with
  | zero => exact Tidy.pure _
  | succ n ih => unfold putSpaces; tidy
instance (n : Nat) : Tidy (position n) := by unfold position; tidy
instance tidy_tryPats (t : Str) (ps : List Str) : Tidy (tryPats t ps) := by
  induction ps with
  | nil => exact Tidy.pure _
  | cons p ps ih => unfold tryPats; tidy
instance : Tidy (modLst fun l => { l with lastoffset := l.lpos }) := tidy_lst fun _ => rfl
instance : Tidy (modLst fun l => { l with lastoffset := 0 }) := tidy_lst fun _ => rfl
instance (w : Word) : Tidy (modLst fun l => { l with mypc := w }) := tidy_lst fun _ => rfl
instance (c : Char) : Tidy (wrapLine c) := by unfold wrapLine; tidy
instance (c : Char) : Tidy (outputcar c) := by unfold outputcar; tidy
instance tidy_output (s : Str) : Tidy (output s) := by
  induction s with
  | nil => exact Tidy.pure _
  | cons p ps ih => unfold output; tidy
instance : Tidy outputline := by unfold outputline; tidy
instance (a : Word) : Tidy (outputaddr a) := by unfold outputaddr; tidy
instance (b : Byte) : Tidy (outputbyte b) := by unfold outputbyte; tidy
instance (m : Str) : Tidy (warning m) := by unfold warning; tidy
instance (m : Str) : Tidy (reportError m) := by
  unfold reportError
  refine Tidy.bind Tidy.getS fun s => ?_
  simp only
  split
  · infer_instance
  · exact Tidy.bind inferInstance fun _ => inferInstance
instance : Tidy bumpStar := by unfold bumpStar; tidy

theorem line_swept {s s' : St} {u : Unit} (h : outputline s = .ok u s') : Swept s' := by
  unfold outputline at h
  obtain ⟨_, s1, h1, h⟩ := bind_ok h
  cases h1
  rw [getS_bind_run] at h
  split at h
  · rename_i h0
    cases h
    exact fun hn => absurd h0 hn
  · obtain ⟨_, s2, -, h⟩ := bind_ok h
    obtain ⟨_, s3, -, h⟩ := bind_ok h
    obtain ⟨_, s4, -, h⟩ := bind_ok h
    obtain ⟨_, s5, -, h⟩ := bind_ok h
    obtain ⟨s6, h6, e1, e2, -⟩ := eol_ok s5
    rw [h6] at h
    cases h
    exact fun _ => ⟨e2, e1⟩

theorem bump_swept {s s' : St} {u : Unit} {c : Prop} [Decidable c] (hs : Swept s) (h : whenM c bumpStar s = .ok u s') : Swept s' := by
  unfold whenM at h
  split at h
  · unfold bumpStar at h
    rw [getS_bind_run] at h
    revert h
    cases addS (starLabel s).value (BitVec.ofInt 64 s.advance) with
    | none => intro h; cases h
    | some v => intro h; cases h; exact hs
  · cases h; exact hs

instance (m : Str) : Tidy (error m : M α) := by
  unfold error
  refine .bind .getS fun st => .bind (by tidy) fun _ => ⟨fun s => ?_⟩
  refine Tidy.bindAt ((inferInstance : Tidy outputline).run s) fun _ s1 h1 => ?_
  refine Tidy.bindAt ((by tidy : Tidy (whenM (st.advance ≠ 0) bumpStar)).run s1) fun _ s2 h2 => ?_
  have := bump_swept (line_swept h1) h2
  exact ⟨rfl, rfl, this⟩
instance (n : Note) : Tidy (note n) := Tidy.same fun _ => ⟨rfl, rfl⟩
instance (m : Str) : Tidy (refuse m : M α) := ⟨fun s => by
  have h := (inferInstance : Tidy (error m : M α)).run s
  unfold refuse catchErr
  revert h
  cases (error m : M α) s with
  | ok a s1 => exact id
  | err s1 => exact id
  | stop w s1 => exact id⟩
instance (k : Str) (l : Label) : Tidy (putLabel k l) := Tidy.same fun _ => ⟨rfl, rfl⟩
instance (n : Str) : Tidy (findlabel n) := ⟨fun _ => ⟨rfl, rfl⟩⟩
instance (n : Str) (f : LFlags) (t : LType) (v : Word) : Tidy (deflabel n f t v) := by unfold deflabel; tidy
instance (r : Result) (t : LType) : Tidy (checktype r t) := by unfold checktype; tidy

/-! ### parse.c, operator.c -/

instance (tgt : Bool) (r : Result) : Tidy (setRes tgt r) := by unfold setRes; tidy
instance (tgt : Bool) (v : Nat) : Tidy (cst tgt v) := by unfold cst; tidy
instance (tgt : Bool) (v : Except Str Nat) : Tidy (cstE tgt v) := by unfold cstE; tidy
instance (tgt : Bool) (n : Str) : Tidy (cstlabel tgt n) := by unfold cstlabel; tidy
instance tidy_parseConst (tgt : Bool) (e : Str) (rows : List (Str × Base)) : Tidy (parseConst tgt e rows) := by
  induction rows with
  | nil => unfold parseConst; tidy
  | cons r rows ih => obtain ⟨p, b⟩ := r; unfold parseConst; tidy
instance (tgt : Bool) (e : Str) : Tidy (parseLeaf tgt e) := by unfold parseLeaf; tidy

instance (tgt : Bool) (o : OpRes) : Tidy (finishOp tgt o) := by unfold finishOp; tidy

instance tidy_firstMatch (e : Str) (alts : List (Str × Op2)) : Tidy (firstMatch e alts) := by
  induction alts with
  | nil => exact Tidy.pure _
  | cons x alts ih => obtain ⟨pat, op⟩ := x; unfold firstMatch; tidy

theorem tidy_parseRows (rec : Bool → Str → M Result) (hrec : ∀ tgt x, Tidy (rec tgt x)) (tgt : Bool) (e : Str)
    (rows : List Ent) : Tidy (parseRows rec tgt e rows) := by
  induction rows with
  | nil => exact (inferInstance : Tidy (parseLeaf tgt (creverse e)))
  | cons r rows ih =>
    cases r with
    | dya alts =>
      unfold parseRows
      refine Tidy.bind inferInstance fun m => ?_
      rcases m with _ | ⟨c1, c2, op⟩
      · exact ih
      · dsimp only
        split
        · exact ih
        · exact Tidy.bind (hrec _ _) fun p => Tidy.bind (hrec _ _) fun a => inferInstance
    | mon pat op =>
      unfold parseRows
      refine Tidy.bind inferInstance fun r => ?_
      rcases r with _ | _ | ⟨c, ca⟩
      · exact ih
      · exact ih
      · exact Tidy.bind (hrec _ _) fun p => inferInstance
    | paren pat =>
      unfold parseRows
      refine Tidy.bind inferInstance fun r => ?_
      rcases r with _ | _ | ⟨c, ca⟩
      · exact ih
      · exact ih
      · exact hrec _ _

instance tidy_parse2 (n : Nat) (tgt : Bool) (e : Str) : Tidy (parse2 n tgt e) := by
  induction n generalizing tgt e with
  | zero => unfold parse2; tidy
  | succ n ih => exact tidy_parseRows (parse2 n) ih tgt e revTable
instance (o : Option Str) : Tidy (parse o) := by unfold parse; tidy
instance (o : Option Str) : Tidy (parseAbs o) := by unfold parseAbs; tidy

/-! ### Instructions -/

instance : Tidy openScode := by unfold openScode; tidy
instance (x : Byte) : Tidy (insert8 x) := by unfold insert8; tidy
instance (x : BitVec 16) : Tidy (insert16 x) := by unfold insert16; tidy
instance (x : BitVec 32) : Tidy (insert32 x) := by unfold insert32; tidy
instance (a : Word) : Tidy (setpc a) := Tidy.same fun _ => by split <;> exact ⟨rfl, rfl⟩
instance (c : BitVec 32) (o : Option Str) : Tidy (relBranch c o) := by unfold relBranch; tidy

namespace C6800
instance (c : BitVec 32) (o : Option Str) : Tidy (single c o) := by unfold single; tidy
instance (a : BitVec 32) (o : Str) : Tidy (modeValue a o) := by unfold modeValue; tidy
instance tidy_findmode (o : Option Str) (ms : List (Str × BitVec 32)) : Tidy (findmode o ms) := by
  induction ms with
  | nil => unfold findmode; tidy
  | cons r rows ih => obtain ⟨p, b⟩ := r; unfold findmode; tidy
instance (a b c : BitVec 32) : Tidy (codemode a b c) := by unfold codemode; tidy
instance (h : H6800) (m : Int) (o : Option Str) : Tidy (call h m o) := by
  cases h with
  | branch => exact (inferInstance : Tidy (relBranch _ o))
  | single => exact (inferInstance : Tidy (single _ o))
  | standard => exact Tidy.bind inferInstance fun r => (inferInstance : Tidy (codemode _ _ _))
  | standard2 => show Tidy (standard2 _ o); unfold standard2; tidy
  | standard3 => show Tidy (standard3 _ o); unfold standard3; tidy
end C6800

namespace C6502
instance (c : BitVec 32) (o : Option Str) : Tidy (single c o) := by unfold single; tidy
instance tidy_searchMode (o : Str) (ms : List (Str × Nat)) : Tidy (searchMode o ms) := by
  induction ms with
  | nil => unfold searchMode; tidy
  | cons r rows ih => obtain ⟨p, b⟩ := r; unfold searchMode; tidy
instance (m : Nat) (o : Str) : Tidy (operand m o) := by unfold operand; tidy

instance (c : BitVec 32) (m : Nat) : Tidy (opcodeFor c m) := by unfold opcodeFor; tidy
instance (c : BitVec 32) (o : Option Str) : Tidy (standard c o) := by unfold standard; tidy
instance (h : H6502) (m : Int) (o : Option Str) : Tidy (call h m o) := by
  cases h with
  | branch => exact (inferInstance : Tidy (relBranch _ o))
  | single => exact (inferInstance : Tidy (single _ o))
  | standard => exact (inferInstance : Tidy (standard _ o))
end C6502

namespace Z80
instance tidy_getIndexed (z : Z) (o : Str) (ps : List (Str × Idx × Option Bool)) : Tidy (getIndexed z o ps) := by
  induction ps with
  | nil => exact Tidy.pure _
  | cons r rows ih => obtain ⟨p, b, sg⟩ := r; unfold getIndexed; tidy
instance (z : Z) (v : Word) : Tidy (setArg z v) := by unfold setArg; tidy
instance (r : Result) : Tidy (singleReg r) := by unfold singleReg; tidy
instance (z : Z) (n : Int) : Tidy (regResult z n) := by unfold regResult; tidy
instance (z : Z) (o : Str) : Tidy (getreg z o) := by unfold getreg; tidy
instance (z : Z) (c : BitVec 32) : Tidy (docode z c) := by unfold docode; tidy
instance (c : BitVec 32) (o : Option Str) : Tidy (simple c o) := by unfold simple; tidy
instance tidy_findCond (o : Str) (ps : List Str) : ∀ i, Tidy (findCond o i ps) := by
  induction ps with
  | nil => intro i; unfold findCond; tidy
  | cons r rows ih => intro i; unfold findCond; tidy
instance (n : Nat) (o : Option Str) : Tidy (searchcond n o) := by unfold searchcond; tidy
instance (a b : Byte) (o : Option Str) : Tidy (condJump a b o) := by unfold condJump; tidy
instance tidy_firstOf (o : Str) (ps : List Str) : Tidy (firstOf o ps) := by
  induction ps with
  | nil => exact Tidy.pure _
  | cons r rows ih => unfold firstOf; tidy
instance (z : Z) (o : Str) : Tidy (exAf z o) := by unfold exAf; tidy
instance (o : Option Str) : Tidy (ex o) := by unfold ex; tidy
instance (c : BitVec 32) (o : Str) : Tidy (inoutOps c o) := by unfold inoutOps; tidy
instance (c : BitVec 32) (o : Option Str) : Tidy (inout c o) := by unfold inout; tidy
instance (z : Z) (c : BitVec 32) (o : Str) : Tidy (logicalTail z c o) := by unfold logicalTail; tidy
instance (c : BitVec 32) (o : Option Str) : Tidy (logical c o) := by unfold logical; tidy
instance (c : BitVec 32) (o : Option Str) : Tidy (arith c o) := by unfold arith; tidy
instance (o : Option Str) : Tidy (ld o) := by unfold ld; tidy
instance (h : HZ80) (m : Int) (o : Option Str) : Tidy (call h m o) := by
  cases h with
  | im => show Tidy (im o); unfold im; tidy
  | rst => show Tidy (rst o); unfold rst; tidy
  | jr => show Tidy (jr o); unfold jr; tidy
  | jp => show Tidy (jp o); unfold jp; tidy
  | call => show Tidy (callOp o); unfold callOp; tidy
  | ret => show Tidy (ret o); unfold ret; tidy
  | bitop => show Tidy (bitop _ o); unfold bitop; tidy
  | onreg8 => show Tidy (onreg8 _ o); unfold onreg8; tidy
  | stackop => show Tidy (stackop _ o); unfold stackop; tidy
  | incr => show Tidy (incr _ o); unfold incr; tidy
  | _ => unfold call; tidy
end Z80

/-! ### Directives -/

instance (o : Option Str) (m : Int) : Tidy (stocke o m) := by unfold stocke; tidy
instance tidy_dcLoop (m : Int) (n : Nat) (o : Option Str) : Tidy (dcLoop m n o) := by
  induction n generalizing o with
  | zero => unfold dcLoop; tidy
  | succ n ih => unfold dcLoop; tidy
instance (m : Int) (o : Option Str) : Tidy (xDc m o) := by unfold xDc; tidy
instance tidy_fillBytes (b : Byte) (n : Nat) : Tidy (fillBytes b n) := by
  induction n with
  | zero => unfold fillBytes; tidy
  | succ n ih => unfold fillBytes; tidy
instance (o : Option Str) : Tidy (xDs o) := by unfold xDs; tidy
instance (t : Str) : Tidy (settitle t) := by unfold settitle; tidy
instance (o : Option Str) : Tidy (xNam o) := by unfold xNam; tidy
instance tidy_ascLoop (d : Char) (s : Str) : ∀ e, Tidy (ascLoop d e s) := by
  induction s with
  | nil => intro e; cases e <;> (unfold ascLoop; tidy)
  | cons c s ih => intro e; cases e <;> (unfold ascLoop; tidy)
instance (o : Option Str) : Tidy (xAsc o) := by unfold xAsc; tidy
instance (o : Option Str) (g : Bool → Flags → Flags) : Tidy (onOff o g) := by unfold onOff; tidy
instance (o : Option Str) : Tidy (xClist o) := by unfold xClist; tidy
instance (o : Option Str) : Tidy (xIlist o) := by unfold xIlist; tidy
instance (o : Option Str) : Tidy (xMlist o) := by unfold xMlist; tidy
instance (o : Option Str) : Tidy (xOutput o) := by unfold xOutput; tidy
instance (o : Option Str) : Tidy (xAlign o) := by unfold xAlign; tidy
instance (v : Word) : Tidy (echoAddr v) := by unfold echoAddr; tidy
instance (l : Option Str) (o : Option Str) : Tidy (xEqu l o) := by unfold xEqu; tidy
instance (l : Str) : Tidy (herelabel l) := by unfold herelabel; tidy
instance (m : Str) : Tidy (findmnemo m) := by unfold findmnemo; tidy
instance (l : Option Str) (s : Str) : Tidy (splitMnemo l s) := by unfold splitMnemo; tidy
instance (s : Str) : Tidy (splitLine s) := by unfold splitLine; tidy
instance : Tidy startLine := by unfold startLine; tidy
instance : Tidy stripLine := by unfold stripLine; tidy

end Crasm

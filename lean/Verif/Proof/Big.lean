import Verif.Proof.Run

/-! Relations between the state before and the state after a part of the program, whether it returns or calls error(). -/

namespace Crasm

class Pre (R : St → St → Prop) : Prop where
  refl : ∀ s, R s s
  trans : ∀ {a b c}, R a b → R b c → R a c

def Ends (R : St → St → Prop) (s : St) : Res α → Prop
  | .ok _ s' => R s s'
  | .err s' => R s s'
  | .stop _ _ => True

class B (R : St → St → Prop) (m : M α) : Prop where
  run : ∀ s, Ends R s (m s)

section
variable {R : St → St → Prop} [Pre R]

theorem Ends.after {a b : St} {r : Res α} (h : R a b) (h' : Ends R b r) : Ends R a r := by
  cases r with
  | ok x s => exact Pre.trans h h'
  | err s => exact Pre.trans h h'
  | stop w s => trivial

theorem B.bind {m : M α} {f : α → M β} (hm : B R m) (hf : ∀ a, B R (f a)) : B R (m >>= f) := by
  constructor
  intro s
  have h1 := hm.run s
  rw [bind_run]
  cases h : m s with
  | ok a s' => rw [h] at h1; exact Ends.after h1 ((hf a).run s')
  | err s' => rw [h] at h1; exact h1
  | stop w s' => trivial
theorem B.pure (a : α) : B R (Pure.pure a : M α) := ⟨fun s => Pre.refl s⟩
theorem B.getS : B R Crasm.getS := ⟨fun s => Pre.refl s⟩
theorem B.whenM {c : Prop} [Decidable c] {a : M Unit} (ha : B R a) : B R (whenM c a) := by
  unfold Crasm.whenM; split; exact ha; exact B.pure ()
theorem B.modS {f : St → St} (h : ∀ s, R s (f s)) : B R (modS f) := ⟨h⟩
theorem B.catchErr {m h : M α} (hm : B R m) (hh : B R h) : B R (catchErr m h) := by
  constructor
  intro s
  have h1 := hm.run s
  unfold Crasm.catchErr
  cases e : m s with
  | ok a s' => rw [e] at h1; exact h1
  | err s' => rw [e] at h1; exact Ends.after h1 (hh.run s')
  | stop w s' => trivial
end

/-- Relations that hold for the steps of the directives. -/
class PreP (R : St → St → Prop) : Prop extends Pre R where
  step : ∀ {a b}, PStep a b → R a.1 b.1

theorem PreP.star {R : St → St → Prop} [PreP R] {a b : Cfg} (h : Star PStep a b) : R a.1 b.1 := by
  induction h with
  | refl => exact Pre.refl _
  | tail _ r ih => exact Pre.trans ih (PreP.step r)

instance {R : St → St → Prop} [PreP R] (m : M α) [W PStep m] : B R m := ⟨by
  intro s
  have := (W.walk (R := PStep) (m := m)) s
  cases h : m s with
  | ok a s' => rw [h] at this; exact PreP.star this
  | err s' => rw [h] at this; exact PreP.star this
  | stop w s' => trivial⟩

theorem B.ofWalk {R : St → St → Prop} [PreP R] {m : M α} (h : Walk PStep m) : B R m :=
  haveI : W PStep m := ⟨h⟩; inferInstance

/-- Relations that in addition allow any change of the symbol table, the error count and the length of the line, and
    the start of a line. -/
class PreL (R : St → St → Prop) : Prop extends PreP R where
  tree : ∀ s tree, R s { s with tree }
  errs : ∀ s n, R s { s with errnumber := n }
  notes : ∀ s notes, R s { s with notes }
  advance : ∀ s n, R s { s with advance := n }
  start : B R startLine

macro "big" : tactic => `(tactic| repeat' (first
  | infer_instance
  | exact B.pure _
  | exact B.getS
  | exact B.modS fun s => PreL.tree s _
  | with_reducible refine B.bind ?_ (fun _ => ?_)
  | with_reducible refine B.whenM ?_
  | dsimp only
  | split))

section
variable {R : St → St → Prop} [PreL R]

instance (k : Str) (l : Label) : B R (putLabel k l) := ⟨fun s => PreL.tree s _⟩
instance (n : Note) : B R (note n) := ⟨fun s => PreL.notes s _⟩
instance : B R bumpErr := ⟨fun s => PreL.errs s _⟩
instance (n : Str) (f : LFlags) (t : LType) (v : Word) : B R (deflabel n f t v) := ⟨by
  intro s
  rcases deflabel_run n f t v s with ⟨msg, e⟩ | ⟨-, e⟩
  · rw [e]; exact B.run s
  · rw [e]; exact PreL.tree s _⟩
instance (n : Str) : B R (herelabel n) := by unfold herelabel; big
instance (l o : Option Str) : B R (xEqu l o) := by
  unfold xEqu
  refine B.bind inferInstance fun r => ?_
  refine B.bind (B.modS fun s => PreP.star (NStep.scr.mono fun _ _ h => .h (.n h))) fun _ => ?_
  big
instance (k : Str) : B R (markUsed k) := ⟨by
  intro s
  show R s _
  dsimp only
  split
  · exact PreL.tree s _
  · exact Pre.refl s⟩
instance : B R bumpStar := ⟨by
  intro s
  unfold bumpStar
  rw [getS_bind_run]
  generalize addS (starLabel s).value (BitVec.ofInt 64 s.advance) = v
  cases v
  · trivial
  · exact PreL.tree s _⟩
instance (k : Str) (ls : List Str) : B R (setLines k ls) := by unfold setLines; big

theorem big_prefix (o : Option Char) : B R (modS fun s => { s with lineprefix := o }) :=
  B.modS fun s => PreP.step (.misc s s.curline o s.linenumber)
instance (st : Status) (b : Bool) : B R (markSkipped st b) := by
  unfold markSkipped
  exact B.whenM (big_prefix _)
theorem big_curline (k : Str) : B R (modS fun s => { s with curline := k }) :=
  B.modS fun s => PreP.step (.misc s k s.lineprefix s.linenumber)
instance : B R stripLine := by
  unfold stripLine
  haveI : ∀ k, B R (modS fun s => { s with curline := k }) := big_curline
  big
instance : B R startLine := PreL.start
end

/-- Relations for which reading a line is fine. -/
class PreR (R : St → St → Prop) : Prop extends PreL R where
  read : B R linegets

section
variable {R : St → St → Prop} [PreR R]

instance : B R linegets := PreR.read
instance big_macroLoop (st : Status) (n : Nat) : ∀ acc, B R (macroLoop st n acc) := by
  induction n with
  | zero => intro acc; unfold macroLoop; big
  | succ n ih => intro acc; unfold macroLoop; big
instance (n : Nat) (st : Status) (l o : Option Str) : B R (xMacro n st l o) := by unfold xMacro; big
instance (o : Option Str) : B R (xDs o) := by
  unfold xDs
  refine B.bind (B.ofWalk (by walk)) fun p => ?_
  obtain ⟨o', init⟩ := p
  dsimp only
  refine B.bind (B.ofWalk (by walk)) fun r => ?_
  split
  · big
  · exact B.bind inferInstance fun _ => B.bind inferInstance fun _ => B.modS fun s => PreL.advance s _

variable {self : Status → M RC}
theorem big_ifLoop (hs : ∀ st, B R (self st)) (st : Status) (n : Nat) : B R (ifLoop self st n) := by
  induction n with
  | zero => unfold ifLoop; big
  | succ n ih =>
    unfold ifLoop
    refine B.bind (B.catchErr (by unfold ifRound; big) (by big)) fun r => ?_
    big
theorem big_xIf (hs : ∀ st, B R (self st)) (fuel : Nat) (st : Status) (o : Option Str) : B R (xIf self fuel st o) := by
  haveI : ∀ st n, B R (ifLoop self st n) := fun st n => big_ifLoop hs st n
  haveI : ∀ o, B R (modS fun s => { s with lineprefix := o }) := big_prefix
  unfold xIf
  have : ∀ n st b o, B R (ifElse self n st b o) := by
    intro n st b o
    unfold ifElse; big
  big
theorem big_macroRun (hs : ∀ st, B R (self st)) (st : Status) (n : Nat) : B R (macroRun self st n) := by
  induction n with
  | zero => unfold macroRun; big
  | succ n ih =>
    unfold macroRun
    refine B.bind (B.catchErr (by big) (by big)) fun r => ?_
    big
theorem big_callHandler (hs : ∀ st, B R (self st)) (fuel : Nat) (h : Handler) (arg : Int) (l o : Option Str) :
    B R (callHandler self fuel h arg l o) := by
  haveI : ∀ n st o, B R (xIf self n st o) := fun n st o => big_xIf hs n st o
  unfold callHandler
  cases h with
  | pseudo p => cases p <;> big
  | _ => big
theorem big_execLine (hs : ∀ st, B R (self st)) (hm : ∀ f k lab st o, B R (macrocall self f k lab st o)) (fuel : Nat) (st : Status)
    (l o : Option Str) (k : Str) (lab : Label) : B R (execLine self fuel st l o k lab) := by
  haveI : ∀ f h arg l o, B R (callHandler self f h arg l o) := fun f h arg l o => big_callHandler hs f h arg l o
  unfold execLine
  big
theorem big_asmlineF (hs : ∀ st, B R (self st)) (hm : ∀ f k lab st o, B R (macrocall self f k lab st o)) (fuel : Nat) (st : Status) :
    B R (asmlineF self fuel st) := by
  haveI : ∀ st l o k lab, B R (execLine self fuel st l o k lab) := fun st l o k lab => big_execLine hs hm fuel st l o k lab
  have : ∀ b f, B R (doFields self fuel st b f) := by intro b f; unfold doFields; big
  unfold asmlineF
  big
end

/-- Macro calls too. -/
class PreM (R : St → St → Prop) : Prop extends PreR R where
  call : ∀ {self : Status → M RC}, (∀ st, B R (self st)) → ∀ f k lab st o, B R (macrocall self f k lab st o)

section
variable {R : St → St → Prop} [PreM R]
instance big_asmline (n : Nat) : ∀ st, B R (asmline n st) := by
  induction n with
  | zero => intro st; unfold asmline; big
  | succ n ih => intro st; exact big_asmlineF ih (PreM.call ih) n st
instance big_passLoop (fuel n : Nat) : ∀ b, B R (passLoop fuel n b) := by
  induction n with
  | zero => intro b; unfold passLoop; big
  | succ n ih =>
    intro b
    unfold passLoop
    refine B.bind B.getS fun s => ?_
    split
    · big
    · refine B.bind (B.catchErr (by unfold passBody; big) (by big)) fun r => ?_
      big
end

end Crasm

import Verif.Proof.Big
import Verif.Proof.Stmt
import Verif.Proof.Lawful

/-! What the assembler does with text it does not assemble (`st.act = false`). -/

namespace Crasm

/-- What is written about a line that is read or refused. -/
def Event.passive : Event → Bool
  | .line .. => true
  | .error .. => true
  | _ => false

/-- From `s` to `s'` nothing is assembled: no byte, no change of a symbol (the location counter is one), no change
    of sections, options or scopes. -/
structure Still (s s' : St) : Prop where
  log : ∃ new, s'.log = new ++ s.log ∧ ∀ e ∈ new, e.passive = true
  find : ∀ k, s'.tree.find k = s.tree.find k
  adv : s'.advance = 0
  flags : ∃ a b, s'.flags = { s.flags with listOn := a, orgGv := b }
  segment : s'.segment = s.segment
  thiscall : s'.thiscall = s.thiscall
  macrolevel : s'.macrolevel = s.macrolevel
  passnumber : s'.passnumber = s.passnumber
  cpuflag : s'.cpuflag = s.cpuflag
  env : s'.env = s.env
  source : s'.source = s.source

/-- Between lines, and at the start of one. -/
structure Ready (s : St) : Prop where
  adv : s.advance = 0
  good : GoodTree s.tree
  star : (s.tree.find starKey).isSome = true

def Sk (s s' : St) : Prop := Ready s → Still s s'

theorem Still.ready {s s' : St} (h : Still s s') (r : Ready s) : Ready s' := by
  refine ⟨h.adv, fun k l hl => ?_, ?_⟩
  · rw [h.find] at hl; exact r.good k l hl
  · rw [h.find]; exact r.star

theorem Still.trans {a b c : St} (h : Still a b) (h' : Still b c) : Still a c := by
  obtain ⟨n1, e1, p1⟩ := h.log
  obtain ⟨n2, e2, p2⟩ := h'.log
  obtain ⟨x1, y1, f1⟩ := h.flags
  obtain ⟨x2, y2, f2⟩ := h'.flags
  refine ⟨⟨n2 ++ n1, by rw [e2, e1]; simp, ?_⟩, fun k => (h'.find k).trans (h.find k), h'.adv, ⟨x2, y2, by rw [f2, f1]⟩,
    h'.segment.trans h.segment, h'.thiscall.trans h.thiscall, h'.macrolevel.trans h.macrolevel,
    h'.passnumber.trans h.passnumber, h'.cpuflag.trans h.cpuflag, h'.env.trans h.env, h'.source.trans h.source⟩
  intro e he
  rcases List.mem_append.1 he with he | he
  · exact p2 e he
  · exact p1 e he

/-- Changes that matter to nobody. -/
theorem Still.mk' {s s' : St} (h0 : s.advance = 0) (h1 : s'.log = s.log) (h2 : s'.tree = s.tree) (h3 : s'.advance = s.advance)
    (h4 : ∃ a b, s'.flags = { s.flags with listOn := a, orgGv := b }) (h5 : s'.segment = s.segment)
    (h6 : s'.thiscall = s.thiscall) (h7 : s'.macrolevel = s.macrolevel) (h8 : s'.passnumber = s.passnumber)
    (h9 : s'.cpuflag = s.cpuflag) (h10 : s'.env = s.env) (h11 : s'.source = s.source) : Still s s' :=
  ⟨⟨[], by simpa using h1, by simp⟩, fun k => by rw [h2], h3.trans h0, h4, h5, h6, h7, h8, h9, h10, h11⟩

theorem Still.refl {s : St} (h : s.advance = 0) : Still s s :=
  .mk' h rfl rfl rfl ⟨_, _, rfl⟩ rfl rfl rfl rfl rfl rfl rfl

instance : Pre Sk where
  refl s := fun r => .refl r.adv
  trans h h' := fun r => (h r).trans (h' ((h r).ready r))

theorem SameBut.still {s s' : St} (h : SameBut s s') (h0 : s.advance = 0) : Still s s' := by
  obtain ⟨l, b, f, rfl⟩ := h
  exact .mk' h0 rfl rfl rfl ⟨f, s.flags.orgGv, rfl⟩ rfl rfl rfl rfl rfl rfl rfl

instance (m : M α) [h : Quiet m] : B Sk m := ⟨by
  intro s
  have := h.run s
  cases e : m s with
  | ok a s' => rw [e] at this; exact fun r => this.still r.adv
  | err s' => rw [e] at this; exact this.elim
  | stop w s' => trivial⟩

instance (msg : Str) : B Sk (error msg : M α) := ⟨by
  intro s
  rcases error_run (α := α) msg s with ⟨w, s', e, -⟩ | ⟨s1, s', e, hs, h⟩
  · rw [e]; trivial
  · rw [e]
    intro r
    rcases h with ⟨-, rfl⟩ | ⟨t, hn, -⟩
    · obtain ⟨l, b, f, rfl⟩ := hs
      exact ⟨⟨[_], rfl, by simp [Event.passive]⟩, fun k => rfl, r.adv, ⟨s.flags.listOn, s.flags.orgGv, rfl⟩,
        rfl, rfl, rfl, rfl, rfl, rfl, rfl⟩
    · exact absurd r.adv hn⟩

instance : B Sk bumpErr := ⟨fun s r => .mk' r.adv rfl rfl rfl ⟨s.flags.listOn, s.flags.orgGv, rfl⟩ rfl rfl rfl rfl rfl rfl rfl⟩
theorem sk_prefix (o : Option Char) : B Sk (modS fun s => { s with lineprefix := o }) :=
  ⟨fun s r => .mk' r.adv rfl rfl rfl ⟨s.flags.listOn, s.flags.orgGv, rfl⟩ rfl rfl rfl rfl rfl rfl rfl⟩
theorem sk_curline (o : Str) : B Sk (modS fun s => { s with curline := o }) :=
  ⟨fun s r => .mk' r.adv rfl rfl rfl ⟨s.flags.listOn, s.flags.orgGv, rfl⟩ rfl rfl rfl rfl rfl rfl rfl⟩

theorem bumpStar_zero {s : St} (h : s.advance = 0) (hs : (s.tree.find starKey).isSome = true) :
    ∃ t, bumpStar s = .ok () { s with tree := t } ∧ ∀ k, t.find k = s.tree.find k := by
  unfold bumpStar
  rw [getS_bind_run]
  have e : addS (starLabel s).value (BitVec.ofInt 64 s.advance) = some (starLabel s).value := by
    unfold addS
    rw [h, show BitVec.ofInt 64 0 = 0#64 from rfl]
    have h1 := BitVec.toInt_lt (x := (starLabel s).value)
    have h2 := BitVec.le_toInt (x := (starLabel s).value)
    rw [if_neg (by simp [BitVec.saddOverflow]; omega), BitVec.add_zero]
  revert e
  generalize addS (starLabel s).value (BitVec.ofInt 64 s.advance) = v
  intro e
  subst e
  refine ⟨_, rfl, fun k => ?_⟩
  by_cases hk : k = starKey
  · subst hk
    rw [Tree.find_put_self]
    unfold starLabel
    cases h3 : s.tree.find starKey with
    | none => rw [h3] at hs; simp at hs
    | some l => rfl
  · rw [Tree.find_put_ne _ _ hk]

instance : B Sk bumpStar := ⟨by
  intro s
  by_cases h0 : s.advance = 0
  · by_cases hs : (s.tree.find starKey).isSome = true
    · obtain ⟨t, e, ht⟩ := bumpStar_zero h0 hs
      rw [e]
      exact fun r => ⟨⟨[], rfl, by simp⟩, ht, r.adv, ⟨s.flags.listOn, s.flags.orgGv, rfl⟩, rfl, rfl, rfl, rfl, rfl, rfl, rfl⟩
    · cases bumpStar s <;> first | trivial | exact fun r => absurd r.star hs
  · cases bumpStar s <;> first | trivial | exact fun r => absurd r.adv h0⟩

instance : B Sk startLine := ⟨by
  intro s
  rw [startLine_eq]
  exact fun r => .mk' r.adv rfl rfl r.adv.symm ⟨s.flags.listOn, _, rfl⟩ rfl rfl rfl rfl rfl rfl rfl⟩

macro "skip" : tactic => `(tactic| repeat' (first
  | infer_instance
  | exact B.pure _
  | exact B.getS
  | with_reducible refine B.bind ?_ (fun _ => ?_)
  | with_reducible refine B.whenM ?_
  | dsimp only
  | split))

instance : B Sk stripLine := by
  unfold stripLine
  haveI := sk_curline
  skip

instance (n : Note) : B Sk (note n) :=
  ⟨fun s r => .mk' r.adv rfl rfl rfl ⟨s.flags.listOn, s.flags.orgGv, rfl⟩ rfl rfl rfl rfl rfl rfl rfl⟩
instance (n : Str) : B Sk (findmnemo n) := by unfold findmnemo; skip
instance (l : Option Str) (n : Str) : B Sk (splitMnemo l n) := by unfold splitMnemo; skip
instance (n : Str) : B Sk (splitLine n) := by unfold splitLine; skip

theorem popEnds_sk (st : List Src) : ∀ s, Sk s (popEnds st s) := by
  induction st with
  | nil => intro s; exact Pre.refl s
  | cons src rest ih =>
    obtain ⟨ol, op, on, kind⟩ := src
    intro s
    cases kind with
    | «macro» a b c => exact Pre.refl s
    | file t e =>
      cases e with
      | false => exact Pre.refl s
      | true =>
        unfold popEnds
        refine Pre.trans (R := Sk) ?_ (ih _)
        exact fun r => .mk' r.adv rfl rfl rfl ⟨_, _, rfl⟩ rfl rfl rfl rfl rfl rfl rfl

instance (raw : Str) : B Sk (takeLine raw) := ⟨by
  intro s
  rcases takeLine_run raw s with ⟨w, s', k, e, -⟩ | ⟨s', e, l, b, f, rfl⟩
  · rw [e]; trivial
  · rw [e]
    exact fun r => ⟨⟨[_], rfl, by simp [Event.passive]⟩, fun k => rfl, r.adv, ⟨f, s.flags.orgGv, rfl⟩, rfl, rfl, rfl, rfl, rfl, rfl, rfl⟩⟩

instance : B Sk linegets := by
  unfold linegets
  refine B.bind ⟨fun s => popEnds_sk s.stack s⟩ fun _ => B.bind B.getS fun s => ?_
  haveI : ∀ r e, B Sk (modS fun s => { s with main := r, mainEof := s.mainEof || e }) := fun r e =>
    ⟨fun s r => .mk' r.adv rfl rfl rfl ⟨s.flags.listOn, s.flags.orgGv, rfl⟩ rfl rfl rfl rfl rfl rfl rfl⟩
  haveI : ∀ st, B Sk (modS fun s => { s with stack := st }) := fun st =>
    ⟨fun s r => .mk' r.adv rfl rfl rfl ⟨s.flags.listOn, s.flags.orgGv, rfl⟩ rfl rfl rfl rfl rfl rfl rfl⟩
  haveI : ∀ d x, B Sk (modS fun s => { s with curline := x, log := .line s.passnumber d x :: s.log }) := fun d x =>
    ⟨fun s r => ⟨⟨[_], rfl, by simp [Event.passive]⟩, fun k => rfl, r.adv, ⟨s.flags.listOn, s.flags.orgGv, rfl⟩, rfl, rfl, rfl, rfl, rfl, rfl, rfl⟩⟩
  skip

instance (st : Status) : B Sk (ifList st) := by unfold ifList; skip
instance (st : Status) (b : Bool) : B Sk (markSkipped st b) := by
  unfold markSkipped
  exact B.whenM (sk_prefix _)
instance (o : Option Str) : B Sk (xElse o) := by unfold xElse; skip
instance (o : Option Str) : B Sk (xEndc o) := by unfold xEndc; skip
instance (m : Str) (rc : RC) (st : Status) (o : Option Str) : B Sk (macroEnd m rc st o) := by unfold macroEnd; skip

instance sk_macroLoop (st : Status) (n : Nat) : ∀ acc, B Sk (macroLoop st n acc) := by
  induction n with
  | zero => intro acc; unfold macroLoop; skip
  | succ n ih => intro acc; unfold macroLoop; skip

theorem sk_xMacro {st : Status} (ha : st.act = false) (n : Nat) (l o : Option Str) : B Sk (xMacro n st l o) := by
  unfold xMacro
  cases l with
  | none => skip
  | some l =>
    dsimp only
    rw [ha]
    refine B.bind B.getS fun s => ?_
    split
    · skip
    · split
      · skip
      · simp only [Bool.false_eq_true, if_false, pure_bind]
        skip

section
variable {self : Status → M RC} (hs : ∀ st, st.act = false → B Sk (self st))
include hs

theorem sk_ifLoop {st : Status} (ha : st.act = false) (n : Nat) : B Sk (ifLoop self st n) := by
  haveI := hs st ha
  induction n with
  | zero => unfold ifLoop; skip
  | succ n ih =>
    unfold ifLoop
    refine B.bind (B.catchErr (by unfold ifRound; skip) (by skip)) fun r => ?_
    skip

theorem sk_xIf {st : Status} (ha : st.act = false) (fuel : Nat) (o : Option Str) : B Sk (xIf self fuel st o) := by
  haveI : ∀ x n, B Sk (ifLoop self (st.and x) n) := fun x n => sk_ifLoop hs (by simp [Status.and, ha]) n
  haveI : ∀ o, B Sk (modS fun s => { s with lineprefix := o }) := sk_prefix
  unfold xIf
  rw [ha]
  have : ∀ n b o, B Sk (ifElse self n st b o) := by
    intro n b o
    unfold ifElse; skip
  refine B.bind (B.pure _) fun _ => ?_
  skip

omit hs in
theorem ofInt_toInt (st : Status) : Status.ofInt st.toInt = st := by
  obtain ⟨a, b⟩ := st
  cases a <;> cases b <;> rfl

theorem sk_execLine {st : Status} (ha : st.act = false) (fuel : Nat) (l o : Option Str) (k : Str) (lab : Label)
    (hg : SpecialOk lab.flags lab.type lab.ptr lab.modifier) : B Sk (execLine self fuel st l o k lab) := by
  unfold execLine
  split
  · next hc =>
    obtain ⟨-, p, hp, hptr⟩ := hg.1 (by simpa using hc)
    rw [hptr]
    dsimp only
    unfold callHandler
    dsimp only
    rw [ofInt_toInt]
    haveI := sk_xIf hs ha fuel o
    haveI := sk_xMacro ha fuel l o
    simp only [condPseudos, List.mem_cons, List.not_mem_nil, or_false] at hp
    rcases hp with rfl | rfl | rfl | rfl | rfl | rfl <;> dsimp only [xEndm, xExitm] <;> infer_instance
  · rw [ha]
    split
    · split
      · skip
      · simp only [Bool.false_eq_true, if_false]; skip
    · split
      · refine B.bind (B.pure _) fun _ => ?_
        skip
      · skip

theorem sk_doFields {st : Status} (ha : st.act = false) (fuel : Nat) (b : Bool) (f : Fields)
    (hg : ∀ key lab, f.entry = some (key, lab) → SpecialOk lab.flags lab.type lab.ptr lab.modifier) :
    B Sk (doFields self fuel st b f) := by
  unfold doFields
  rw [ha]
  cases he : f.entry with
  | none =>
    dsimp only
    split
    · exact B.bind (B.pure _) fun _ => by skip
    · skip
  | some e =>
    obtain ⟨key, lab⟩ := e
    dsimp only
    split
    · skip
    · refine B.bind ?_ fun _ => sk_execLine hs ha fuel _ _ _ _ (hg key lab he)
      split
      · skip
      · rw [Bool.and_false]
        exact B.pure _
end

theorem usable_find {k : Str} {l : Label} {key : Str} {lab : Label} (h : usable k l = some (key, lab)) : l = lab := by
  unfold usable at h
  split at h
  · cases h; rfl
  · cases h

theorem findmnemo_entry {n : Str} {s s' : St} {key : Str} {lab : Label} (h : findmnemo n s = .ok (some (key, lab)) s') :
    ∃ k, s.tree.find k = some lab := by
  unfold findmnemo at h
  rw [getS_bind_run] at h
  cases h1 : searchlabel s n with
  | some l =>
    rw [h1] at h
    dsimp only at h
    injection h with h2 h3
    rw [usable_find h2] at h1
    exact ⟨_, h1⟩
  | none =>
    rw [h1] at h
    dsimp only at h
    obtain ⟨r, s1, h2, h3⟩ := bind_ok h
    cases r with
    | none => cases h3
    | some r =>
      obtain ⟨a, b⟩ := r
      dsimp only at h3
      cases h4 : searchlabel s a with
      | none => rw [h4] at h3; cases h3
      | some l =>
        rw [h4] at h3
        dsimp only at h3
        split at h3
        · obtain ⟨_, s2, -, h3⟩ := bind_ok h3
          injection h3 with h5 h6
          rw [usable_find h5] at h4
          exact ⟨_, h4⟩
        · cases h3

theorem quiet_tree {m : M α} [Quiet m] {s s' : St} {a : α} (h : m s = .ok a s') : s'.tree = s.tree := by
  have := (inferInstance : Quiet m).run s
  rw [h] at this
  obtain ⟨_, _, _, rfl⟩ := this
  rfl

/-- The symbol table stays. -/
def TreeKept (s s' : St) : Prop := s'.tree = s.tree
instance : Pre TreeKept where
  refl _ := rfl
  trans h h' := h'.trans h
instance (m : M α) [h : Quiet m] : B TreeKept m := ⟨by
  intro s
  have := h.run s
  cases e : m s with
  | ok a s' => rw [e] at this; obtain ⟨_, _, _, rfl⟩ := this; exact rfl
  | err s' => rw [e] at this; exact this.elim
  | stop w s' => trivial⟩
instance (n : Note) : B TreeKept (note n) := ⟨fun _ => rfl⟩
instance (n : Str) : B TreeKept (findmnemo n) := by unfold findmnemo; skip
instance (l : Option Str) (n : Str) : B TreeKept (splitMnemo l n) := by unfold splitMnemo; skip

theorem kept_tree {m : M α} [h : B TreeKept m] {s s' : St} {a : α} (hr : m s = .ok a s') : s'.tree = s.tree := by
  have := h.run s
  rw [hr] at this
  exact this

theorem splitMnemo_entry {l : Option Str} {t : Str} {s s' : St} {f : Fields} (h : splitMnemo l t s = .ok f s') :
    ∀ key lab, f.entry = some (key, lab) → ∃ k, s.tree.find k = some lab := by
  unfold splitMnemo at h
  obtain ⟨r, s1, h1, h2⟩ := bind_ok h
  have e1 := quiet_tree h1
  have key : ∀ {n : Str} {s2 : St} {e : Option (Str × Label)}, findmnemo n s1 = .ok e s2 → ∀ key lab, e = some (key, lab) →
      ∃ k, s.tree.find k = some lab := by
    intro n s2 e h3 key lab he
    subst he
    rw [← e1]
    exact findmnemo_entry h3
  revert h2
  match r with
  | none => intro h2; obtain ⟨e, s2, h3, h4⟩ := bind_ok h2; cases h4; exact key h3
  | some ([], _) => intro h2; obtain ⟨e, s2, h3, h4⟩ := bind_ok h2; cases h4; exact key h3
  | some (_ :: _, []) => intro h2; obtain ⟨e, s2, h3, h4⟩ := bind_ok h2; cases h4; exact key h3
  | some (_ :: _, _ :: _) => intro h2; obtain ⟨e, s2, h3, h4⟩ := bind_ok h2; cases h4; exact key h3

/-- crasm.c:456-483. -/
def splitRest (t : Str) : M Fields := do
  let f ← splitMnemo none t
  match f.oper, f.entry with
  | some rest, none =>
    if !checklabel f.mnemo then error c!"malformed label"
    else splitMnemo (some f.mnemo) rest
  | _, _ => pure f

/-- crasm.c:447-455. -/
def splitEqu (label oper : Str) : M Fields := do
  let e ← findmnemo c!"equ"
  if !checklabel label then error c!"malformed label"
  else pure { label := some label, mnemo := c!"equ", oper := some oper, entry := e }

theorem splitLine_eq (t : Str) : splitLine t = (filter2 t c!"?_=_?" >>= fun eq =>
    match eq with
    | some (l, o) => if nospacein l then splitEqu l o else splitRest t
    | none => splitRest t) := by
  unfold splitLine
  congr 1
  funext eq
  cases eq with
  | none => rfl
  | some p =>
    obtain ⟨l, o⟩ := p
    dsimp only
    cases nospacein l <;> rfl

/-- The vocabulary entry of a statement is in the symbol table. -/
theorem splitLine_entry {t : Str} {s s' : St} {f : Fields} (h : splitLine t s = .ok f s') :
    ∀ key lab, f.entry = some (key, lab) → ∃ k, s.tree.find k = some lab := by
  rw [splitLine_eq] at h
  obtain ⟨eq, s1, h1, h2⟩ := bind_ok h
  have e1 := quiet_tree h1
  clear h h1
  rw [← e1]
  have p1 : ∀ {l o}, splitEqu l o s1 = .ok f s' → ∀ key lab, f.entry = some (key, lab) → ∃ k, s1.tree.find k = some lab := by
    intro l o h2
    obtain ⟨e, s2, h3, h4⟩ := bind_ok h2
    revert h4
    split
    · intro h4; exact absurd h4 (error_not_ok)
    · intro h4
      cases h4
      intro key lab he
      dsimp only at he
      subst he
      exact findmnemo_entry h3
  have p2 : splitRest t s1 = .ok f s' → ∀ key lab, f.entry = some (key, lab) → ∃ k, s1.tree.find k = some lab := by
    intro h2
    obtain ⟨f1, s2, h3, h4⟩ := bind_ok h2
    have e2 := kept_tree h3
    have base := splitMnemo_entry h3
    revert h4
    cases ho : f1.oper with
    | none => intro h4; cases h4; exact base
    | some o =>
      cases he : f1.entry with
      | some e => intro h4; cases h4; rw [he] at base ⊢; exact base
      | none =>
        dsimp only
        split
        · intro h4; exact absurd h4 (error_not_ok)
        · intro h4
          rw [← e2]; exact splitMnemo_entry h4
  revert h2
  cases eq with
  | none => exact p2
  | some p =>
    obtain ⟨l, o⟩ := p
    dsimp only
    split
    · exact p1
    · exact p2

/-- A line that is not assembled, whatever it says. -/
theorem sk_asmlineF {self : Status → M RC} (hs : ∀ st, st.act = false → B Sk (self st)) {st : Status} (ha : st.act = false)
    (fuel : Nat) : B Sk (asmlineF self fuel st) := by
  unfold asmlineF
  refine B.bind inferInstance fun _ => B.bind B.getS fun s0 => B.bind inferInstance fun t => ?_
  split
  · skip
  · constructor
    intro s
    have h1 := (inferInstance : B Sk (splitLine t)).run s
    rw [bind_run]
    cases h : splitLine t s with
    | stop w s' => trivial
    | err s' => rw [h] at h1; exact h1
    | ok f s' =>
      rw [h] at h1
      dsimp only
      by_cases hr : Ready s
      · refine Ends.after h1 ((sk_doFields hs ha fuel _ f fun key lab he => ?_).run s')
        obtain ⟨k, hk⟩ := splitLine_entry h key lab he
        exact hr.good k lab hk
      · cases doFields self fuel st _ f s' <;> first | trivial | exact fun r => absurd r hr

theorem sk_asmline (n : Nat) : ∀ st, st.act = false → B Sk (asmline n st) := by
  induction n with
  | zero => intro st _; unfold asmline; skip
  | succ n ih => intro st ha; exact sk_asmlineF ih ha n

end Crasm

import Verif.Proof.WalkS

/-! Conditionals, macros, lines and passes. -/

namespace Crasm

theorem walk_catch {m k : M α} (hm : Walk Step m) (hk : Walk Step k) :
    Walk Step (catchErr m (do bumpErr; k)) := by
  intro s
  have h := hm s
  unfold catchErr
  cases e : m s with
  | ok a s' => rw [e] at h; exact h
  | stop w s' => rw [e] at h; exact h
  | err s' =>
    rw [e] at h
    have h2 := hk { s' with errnumber := s'.errnumber + 1 }
    simp only [bumpErr, modS_bind_run]
    have h3 : Star Step (s, .live) ({ s' with errnumber := s'.errnumber + 1 }, .live) := .tail h (.caught s')
    unfold Out at *
    split <;> rename_i heq <;> rw [heq] at h2 <;> exact h3.trans h2

/-! ### Conditionals -/

theorem walk_findCmp (o : Str) (cs : List (Str × Cmp)) : Walk NStep (findCmp o cs) := by
  induction cs with
  | nil => exact Walk.pure _
  | cons c cs ih => obtain ⟨p, b⟩ := c; unfold findCmp; walk; exact ih
instance (o : Str) (cs : List (Str × Cmp)) : W NStep (findCmp o cs) := ⟨walk_findCmp o cs⟩
instance (q : Cmp) (a b : Result) : W HStep (compareRes q a b) := ⟨by unfold compareRes; walk⟩
instance (o : Option Str) : W HStep (testtrue o) := ⟨by unfold testtrue; walk⟩

section
variable {self : Status → M RC}

theorem walk_ifRound (hs : ∀ st, Walk Step (self st)) (st : Status) : Walk Step (ifRound self st) := by
  haveI : ∀ st, W Step (self st) := fun st => ⟨hs st⟩
  unfold ifRound; walk

theorem walk_ifLoop (hs : ∀ st, Walk Step (self st)) (st : Status) (n : Nat) :
    Walk Step (ifLoop self st n) := by
  induction n with
  | zero => unfold ifLoop; walk
  | succ n ih =>
    unfold ifLoop
    refine Walk.bind (walk_catch (walk_ifRound hs st) (Walk.pure _)) fun r => ?_
    split
    · walk
    · exact ih
    · walk

instance (st : Status) : W NStep (ifList st) := ⟨by unfold ifList; walk⟩
instance (st : Status) (b : Bool) : W Step (markSkipped st b) := ⟨by
  unfold markSkipped
  exact Walk.whenM (Walk.modS fun s => .one (.misc s s.curline (some 'C') s.linenumber))⟩

theorem walk_prefix (old : Option Char) : Walk Step (modS fun s => { s with lineprefix := old }) :=
  Walk.modS fun s => .one (.misc s s.curline old s.linenumber)

theorem walk_ifElse (hs : ∀ st, Walk Step (self st)) (fuel : Nat) (st : Status) (b : Bool) (o : Option Char) :
    Walk Step (ifElse self fuel st b o) := by
  haveI : ∀ st n, W Step (ifLoop self st n) := fun st n => ⟨walk_ifLoop hs st n⟩
  haveI : ∀ o, W Step (modS fun s => { s with lineprefix := o }) := fun o => ⟨walk_prefix o⟩
  unfold ifElse; walk

theorem walk_xIf (hs : ∀ st, Walk Step (self st)) (fuel : Nat) (st : Status) (o : Option Str) :
    Walk Step (xIf self fuel st o) := by
  haveI : ∀ st n, W Step (ifLoop self st n) := fun st n => ⟨walk_ifLoop hs st n⟩
  haveI : ∀ n st b o, W Step (ifElse self n st b o) := fun n st b o => ⟨walk_ifElse hs n st b o⟩
  haveI : ∀ o, W Step (modS fun s => { s with lineprefix := o }) := fun o => ⟨walk_prefix o⟩
  unfold xIf; walk
end

instance (o : Option Str) : W NStep (xElse o) := ⟨by unfold xElse; walk⟩
instance (o : Option Str) : W NStep (xEndc o) := ⟨by unfold xEndc; walk⟩
instance (m : Str) (r : RC) (st : Status) (o : Option Str) : W NStep (macroEnd m r st o) :=
  ⟨by unfold macroEnd; walk⟩
instance (st : Status) (o : Option Str) : W NStep (xExitm st o) := ⟨by unfold xExitm; walk⟩
instance (st : Status) (o : Option Str) : W NStep (xEndm st o) := ⟨by unfold xEndm; walk⟩

/-! ### Macros -/

theorem walk_macroLoop (st : Status) (n : Nat) : ∀ acc, Walk Step (macroLoop st n acc) := by
  induction n with
  | zero => intro acc; unfold macroLoop; walk
  | succ n ih => intro acc; unfold macroLoop; walk <;> exact ih _
instance (st : Status) (n : Nat) (acc : List Str) : W Step (macroLoop st n acc) := ⟨walk_macroLoop st n acc⟩

/-- Every label keeps its type. -/
def TypeKeep (t t' : Tree) : Prop := ∀ k l, t.find k = some l → ∃ l', t'.find k = some l' ∧ l'.type = l.type

theorem TypeKeep.rfl' (t : Tree) : TypeKeep t t := fun _ l h => ⟨l, h, rfl⟩
theorem TypeKeep.trans {a b c : Tree} (h : TypeKeep a b) (h' : TypeKeep b c) : TypeKeep a c := by
  intro k l hl
  obtain ⟨l1, h1, e1⟩ := h k l hl
  obtain ⟨l2, h2, e2⟩ := h' k l1 h1
  exact ⟨l2, h2, e2.trans e1⟩
theorem typeKeep_put {t : Tree} {k : Str} {x : Label} (h : ∀ l, t.find k = some l → x.type = l.type) :
    TypeKeep t (t.put k x) := by
  intro k' l hl
  by_cases e : k' = k
  · subst e; exact ⟨x, Tree.find_put_self .., h l hl⟩
  · exact ⟨l, by rw [Tree.find_put_ne _ _ e]; exact hl, rfl⟩

theorem nstar_type {s s' : St} (h : Star NStep (s, .live) (s', .live)) : TypeKeep s.tree s'.tree := by
  generalize ha : (s, Mode.live) = a at h
  generalize hb : (s', Mode.live) = b at h
  induction h generalizing s' with
  | refl => subst ha; cases hb; exact .rfl' _
  | tail _ r ih =>
    subst hb
    cases r with
    | scratch s1 => exact (ih rfl : TypeKeep s.tree s1.tree)
    | use s1 k =>
      refine (ih rfl).trans (typeKeep_put fun l hl => ?_)
      rw [hl]; rfl

theorem popEnds_tree (st : List Src) (s : St) : (popEnds st s).tree = s.tree := by
  induction st generalizing s with
  | nil => rfl
  | cons src rest ih =>
    obtain ⟨ol, op, on, kind⟩ := src
    cases kind with
    | «macro» a b c => rfl
    | file t e =>
      cases e with
      | false => rfl
      | true => unfold popEnds; exact ih _

theorem takeLine_tree {raw : Str} {u : Unit} {s s' : St} (h : takeLine raw s = .ok u s') : s'.tree = s.tree := by
  rcases takeLine_run raw s with ⟨w, s1, k, h1, -⟩ | ⟨s1, h1, hq⟩
  · rw [h1] at h; cases h
  · rw [h1] at h; cases h; obtain ⟨_, _, _, rfl⟩ := hq; rfl

theorem linegets_tree {u : Unit} {s s' : St} (h : linegets s = .ok u s') : s'.tree = s.tree := by
  unfold linegets at h
  rw [modS_bind_run, getS_bind_run] at h
  rw [← popEnds_tree s.stack s]
  revert h
  generalize popEnds s.stack s = s
  intro h
  cases hs : s.stack with
  | nil =>
    simp only [hs] at h
    obtain ⟨_, s1, h1, h2⟩ := bind_ok h
    cases h2
    have := takeLine_tree h1
    exact this
  | cons src rest =>
    simp only [hs] at h
    cases hk : src.kind with
    | file t e0 =>
      simp only [hk] at h
      obtain ⟨_, s1, h1, h2⟩ := bind_ok h
      cases h2
      have := takeLine_tree h1
      exact this
    | «macro» args all lines =>
      simp only [hk] at h
      cases lines with
      | nil => cases h
      | cons l ls =>
        simp only [modS_bind_run] at h
        have q := (by quiet : Quiet (whenM ((expandLine args all false [] l).2 = true)
          (warning c!"Too long line"))).run { s with
            curline := (expandLine args all false [] l).1.reverse,
            log := .line s.passnumber (rest.length + 1) (expandLine args all false [] l).1.reverse :: s.log,
            stack := { src with kind := .macro args all ls } :: rest }
        rw [h] at q
        obtain ⟨_, _, _, rfl⟩ := q
        rfl

theorem macroLoop_type (st : Status) (n : Nat) : ∀ acc s s' r, macroLoop st n acc s = .ok r s' →
    TypeKeep s.tree s'.tree := by
  induction n with
  | zero => intro acc s s' r h; cases h
  | succ n ih =>
    intro acc s s' r h
    unfold macroLoop at h
    obtain ⟨_, s1, h1, h⟩ := bind_ok h
    cases h1
    obtain ⟨_, s2, h2, h⟩ := bind_ok h
    have e2 := linegets_tree h2
    replace e2 : s2.tree = s.tree := e2
    rw [getS_bind_run] at h
    rw [← e2]
    split at h
    · exact absurd h error_not_ok
    · obtain ⟨l, s3, h3, h⟩ := bind_ok h
      refine (nstar_type (walk_nstar (by walk) h3)).trans ?_
      obtain ⟨_, s4, h4, h⟩ := bind_ok h
      refine (nstar_type (walk_nstar (by walk) h4)).trans ?_
      obtain ⟨q, s5, h5, h⟩ := bind_ok h
      refine (nstar_type (walk_nstar (by walk) h5)).trans ?_
      split at h
      · cases h; exact .rfl' _
      · exact ih _ _ _ _ h

theorem at_setLines (k : Str) (ls : List Str) (s : St) (h : ∃ l, s.tree.find k = some l ∧ l.type = .macro) :
    At Step s (setLines k ls) := by
  obtain ⟨l, hl, ht⟩ := h
  unfold setLines
  refine At.getS ?_
  rw [hl]
  exact .one (.macroText s k l hl ht ls)

instance (n : Nat) (st : Status) (l o : Option Str) : W Step (xMacro n st l o) := ⟨by
  intro s
  show At Step s _
  unfold xMacro
  split
  · exact At.w
  · rename_i label
    refine At.getS ?_
    split
    · exact At.w
    · split
      · exact At.w
      · refine At.bind (At.walk (by walk)) fun _ s1 _ _ => ?_
        refine At.bind (m := (if st.act then do
          let k ← deflabel (label.take LABLEN) {} .macro 0
          pure (some k)
        else pure none : M (Option Str))) ?_ fun key s2 _ h2 => ?_
        · split
          · refine At.bind ?_ fun _ _ _ _ => At.walk (Walk.pure _)
            rcases deflabel_run (label.take LABLEN) {} .macro 0 s1 with ⟨msg, h⟩ | ⟨hd, h⟩
            · exact At.of_eq h At.w
            · exact At.ok h (.one (.macroName s1 _ hd))
          · exact At.walk (Walk.pure _)
        · have hk : ∀ k, key = some k → ∃ l, s2.tree.find k = some l ∧ l.type = .macro := by
            intro k e
            subst e
            split at h2
            · obtain ⟨k', s3, h3, h4⟩ := bind_ok h2
              cases h4
              rcases deflabel_run (label.take LABLEN) {} .macro 0 s1 with ⟨msg, h⟩ | ⟨hd, h⟩
              · rw [h] at h3; exact absurd h3 error_not_ok
              · rw [h] at h3; cases h3
                exact ⟨_, Tree.find_put_self .., rfl⟩
            · cases h2
          refine At.bind At.w fun r s3 _ h3 => ?_
          obtain ⟨lines, a, b⟩ := r
          dsimp only
          split
          · exact At.w
          · refine At.bind ?_ fun _ _ _ _ => At.walk (Walk.pure _)
            cases key with
            | none => exact At.walk (Walk.pure _)
            | some k =>
              obtain ⟨l, hl, ht⟩ := hk k rfl
              obtain ⟨l', hl', e⟩ := macroLoop_type _ _ _ _ _ _ h3 k l hl
              exact at_setLines k lines s3 ⟨l', hl', e.trans ht⟩⟩

instance : W NStep checkDepth := ⟨by unfold checkDepth; walk⟩
theorem checkDepth_ok {u : Unit} {s s' : St} (h : checkDepth s = .ok u s') :
    s' = s ∧ s.stack.length + 1 < maxSourceDeep := by
  unfold checkDepth whenM at h
  rw [getS_bind_run] at h
  by_cases hd : maxSourceDeep ≤ s.stack.length + 1
  · simp [hd] at h
  · simp [hd] at h
    exact ⟨h.symm, by omega⟩

theorem walk_macroArgs (n : Nat) : ∀ acc o, Walk NStep (macroArgs n acc o) := by
  induction n with
  | zero => intro acc o; unfold macroArgs; walk
  | succ n ih => intro acc o; unfold macroArgs; walk; exact ih _ _
instance (n : Nat) (acc : List Str) (o : Str) : W NStep (macroArgs n acc o) := ⟨walk_macroArgs n acc o⟩

instance (k : Str) : W Step (markUsed k) := ⟨by
  intro s
  show Star Step _ _
  dsimp only
  split
  · rename_i l hl
    exact .one (.markUsed s k l hl)
  · exact .refl _⟩

section
variable {self : Status → M RC}

theorem walk_macroRun (hs : ∀ st, Walk Step (self st)) (st : Status) (n : Nat) :
    Walk Step (macroRun self st n) := by
  haveI : ∀ st, W Step (self st) := fun st => ⟨hs st⟩
  induction n with
  | zero => unfold macroRun; walk
  | succ n ih =>
    unfold macroRun
    refine Walk.bind (walk_catch (by walk) (Walk.pure _)) fun r => ?_
    split
    · exact ih
    · walk

theorem walk_curline (k : Str) : Walk Step (modS fun s => { s with curline := k }) :=
  Walk.modS fun _ => Star.misc

theorem walk_macrocall (hs : ∀ st, Walk Step (self st)) (fuel : Nat) (k : Str) (lab : Label) (st : Status)
    (o : Option Str) : Walk Step (macrocall self fuel k lab st o) := by
  haveI : ∀ st n, W Step (macroRun self st n) := fun st n => ⟨walk_macroRun hs st n⟩
  haveI : ∀ k, W Step (modS fun s => { s with curline := k }) := fun o => ⟨walk_curline o⟩
  intro s
  show At Step s _
  unfold macrocall
  refine At.bind At.w fun _ s1 _ _ => ?_
  refine At.bind At.w fun _ s2 _ h2 => ?_
  obtain ⟨rfl, hd⟩ := checkDepth_ok h2
  refine At.getS ?_
  dsimp only
  refine At.bind At.w fun args s3 _ h3 => ?_
  obtain ⟨_, _, _, _, _, rfl⟩ := nframe (walk_nstar W.walk h3)
  split
  · rename_i ls hls
    refine At.bind (At.walk (by walk)) fun _ s4 _ h4 => ?_
    obtain ⟨_, _, _, _, _, rfl⟩ := nframe (walk_nstar (by walk) h4)
    refine At.modS ?_ (At.walk ?_)
    · refine (Star.one (Step.call _ ⟨s2.flags.listOn, s2.lineprefix, s2.linenumber,
          .macro args ((orEmpty o).take 59) ls⟩ (by exact hd))).trans ?_
      refine (Star.one (Step.enter _)).trans ?_
      exact .one (.misc _ s2.curline (some 'M') s2.linenumber)
    · refine Walk.bind (by walk) fun r => ?_
      refine Walk.bind (Walk.modS fun s => ?_) fun _ => by walk
      refine (Star.one (Step.drop s (s.stack.length - s2.stack.length))).trans ?_
      refine (Star.one (Step.misc _ s.curline s2.lineprefix s2.linenumber)).trans ?_
      refine (Star.one (Step.leave _ s2.segment (s.macrolevel - 1))).trans ?_
      exact .one (.h (.n (.scratch _ s.lst s.bufpos s.calcR s2.flags.listOn)))
  · exact At.w
end

instance (o : Option Str) : W PStep (xInclude o) := ⟨by
  intro s
  show At PStep s _
  unfold xInclude
  split
  · exact At.w
  · rename_i name
    refine At.getS ?_
    dsimp only
    split
    · exact At.w
    · rename_i text ht
      refine At.bind At.w fun _ s2 _ h2 => ?_
      obtain ⟨rfl, hd⟩ := checkDepth_ok h2
      refine At.bind (At.walk (by walk)) fun _ s4 _ h4 => ?_
      obtain ⟨_, _, _, _, _, rfl⟩ := nframe (walk_nstar (by walk) h4)
      show Star PStep _ _
      refine (Star.one (PStep.push _ ⟨s2.flags.listOn, s2.lineprefix, s2.linenumber,
          .file text false⟩ (by exact hd) ⟨_, _, (by exact ht), rfl⟩)).trans ?_
      refine (Star.one (PStep.misc _ s2.curline s2.lineprefix 0)).trans ?_
      exact .one (.h (.n (.scratch _ _ _ _ _)))⟩

/-! ### Lines -/

instance : W Step bumpStar := ⟨by
  intro s
  show At Step s _
  unfold bumpStar
  refine At.getS ?_
  dsimp only
  split
  · exact At.w
  · rename_i v hv
    exact .one (.bump s _ ⟨v, hv, rfl⟩)⟩

theorem startLine_run (s : St) : ∃ s', startLine s = .ok () s' ∧ s'.advance = 0 ∧
    Star Step (s, .live) (s', .live) := by
  cases hu : (starLabel s).flags.undef with
  | true =>
    have e : (starLabel { s with advance := 0 }).flags.undef = true := hu
    refine ⟨_, ?_, ?_, .one (.start0 s hu)⟩
    · simp [startLine, e, whenM, modFlags, zerobuffer]
    · rfl
  | false =>
    have e : (starLabel { s with advance := 0 }).flags.undef = false := hu
    refine ⟨_, ?_, ?_, .one (.start1 s hu)⟩
    · simp only [startLine, e, whenM, modFlags, zerobuffer, setpc, modS_bind_run, getS_bind_run,
        Bool.not_false, if_true, modS_run]
      have e2 : (starLabel { s with advance := 0 }).value = (starLabel s).value := rfl
      rw [e2]
      split <;> rfl
    · rfl

theorem walk_stripLine : Walk AStep stripLine := by
  unfold stripLine
  refine Walk.bind Walk.getS fun s => Walk.bind W.walk fun r => ?_
  split
  · walk
  · refine Walk.bind (Walk.modS fun s => ?_) fun _ => Walk.pure _
    exact .one ⟨.misc s _ s.lineprefix s.linenumber, fun _ => ⟨rfl, rfl⟩⟩
instance (s : Str) : W AStep (findmnemo s) := ⟨by unfold findmnemo; walk⟩
instance (s : Str) : W HStep (findmnemo s) := ⟨by unfold findmnemo; walk⟩
instance (l : Option Str) (s : Str) : W AStep (splitMnemo l s) := ⟨by unfold splitMnemo; walk⟩
instance (l : Option Str) (s : Str) : W HStep (splitMnemo l s) := ⟨by unfold splitMnemo; walk⟩
instance (s : Str) : W AStep (splitLine s) := ⟨by unfold splitLine; walk⟩
instance (s : Str) : W HStep (splitLine s) := ⟨by unfold splitLine; walk⟩

section
variable {self : Status → M RC}

theorem at_callHandler (hs : ∀ st, Walk Step (self st)) (fuel : Nat) (h : Handler) (arg : Int)
    (l o : Option Str) (s : St) (h0 : s.advance = 0) :
    At Step s (callHandler self fuel h arg l o) := by
  haveI : ∀ n st o, W Step (xIf self n st o) := fun n st o => ⟨walk_xIf hs n st o⟩
  unfold callHandler
  cases h with
  | h6800 h => exact At.walk (by walk)
  | h6502 h => exact At.walk (by walk)
  | hz80 h => exact At.walk (by walk)
  | pseudo p =>
    cases p with
    | ds => exact At.bind (At.p (at_xDs o s h0)) fun _ _ _ _ => At.walk (Walk.pure _)
    | _ => exact At.walk (by walk)

theorem at_execLine (hs : ∀ st, Walk Step (self st)) (fuel : Nat) (st : Status) (l o : Option Str)
    (k : Str) (lab : Label) (s : St) (h0 : s.advance = 0) :
    At Step s (execLine self fuel st l o k lab) := by
  haveI : ∀ n k lab st o, W Step (macrocall self n k lab st o) :=
    fun n k lab st o => ⟨walk_macrocall hs n k lab st o⟩
  unfold execLine
  split
  · split
    · exact at_callHandler hs fuel _ _ l o s h0
    · exact At.w
  · split
    · exact At.walk (by walk)
    · split
      · refine At.bind ?_ fun _ _ _ _ => At.walk (by walk)
        unfold whenM
        split
        · split
          · exact At.bind (at_callHandler hs fuel _ _ l o s h0) fun _ _ _ _ => At.walk (Walk.pure _)
          · exact At.w
        · exact At.walk (Walk.pure _)
      · exact At.w

theorem at_doFields (hs : ∀ st, Walk Step (self st)) (fuel : Nat) (st : Status) (b : Bool) (f : Fields)
    (s : St) (h0 : s.advance = 0) : At Step s (doFields self fuel st b f) := by
  unfold doFields
  haveI : ∀ l, W Step (herelabel l) := fun l => ⟨walk_a W.walk⟩
  split
  · exact At.walk (by walk)
  · split
    · exact At.w
    · refine At.bindA h0 ?_ fun _ s' h1 _ => at_execLine hs fuel st _ _ _ _ s' h1
      split <;> walk

theorem walk_asmlineF (hs : ∀ st, Walk Step (self st)) (fuel : Nat) (st : Status) :
    Walk Step (asmlineF self fuel st) := by
  intro s
  show At Step s _
  unfold asmlineF
  obtain ⟨s1, h1, h0, hw⟩ := startLine_run s
  refine At.bind (At.ok h1 hw) fun _ s2 _ h2 => ?_
  rw [h1] at h2
  cases h2
  refine At.getS ?_
  dsimp only
  refine At.bindA h0 walk_stripLine fun t s3 h3 _ => ?_
  split
  · exact At.walk (by walk)
  · exact At.bindA h3 W.walk fun f s4 h4 _ => at_doFields hs fuel st _ f s4 h4
end

theorem walk_asmline (n : Nat) : ∀ st, Walk Step (asmline n st) := by
  induction n with
  | zero => intro st; unfold asmline; walk
  | succ n ih => intro st; unfold asmline; exact walk_asmlineF ih n st
instance (n : Nat) (st : Status) : W Step (asmline n st) := ⟨walk_asmline n st⟩

/-! ### Passes -/

instance (n : Nat) : W Step (passBody n) := ⟨by unfold passBody; walk⟩

theorem walk_passLoop (fuel n : Nat) : ∀ b, Walk Step (passLoop fuel n b) := by
  induction n with
  | zero => intro b; unfold passLoop; walk
  | succ n ih =>
    intro b
    unfold passLoop
    refine Walk.bind Walk.getS fun s => ?_
    split
    · walk
    · exact Walk.bind (walk_catch (by walk) (Walk.pure _)) fun b => ih b

end Crasm

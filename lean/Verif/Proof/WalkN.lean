import Verif.Proof.Steps

/-! Functions without code generation: listing, filters, symbols, expressions. -/

namespace Crasm

/-- `Walk`, as a class so that known functions are found by instance resolution. -/
class W (R : Cfg → Cfg → Prop) (m : M α) : Prop where
  walk : Walk R m

instance (m : M α) [h : W NStep m] : W HStep m := ⟨h.walk.mono fun _ _ h => .n h⟩
instance (m : M α) [h : W HStep m] : W PStep m := ⟨h.walk.mono fun _ _ h => .h h⟩
instance (m : M α) [h : W PStep m] : W Step m := ⟨h.walk.mono fun _ _ h => .p h⟩

macro "walk" : tactic => `(tactic| repeat' (first
  | exact W.walk
  | exact Walk.pure _
  | exact Walk.getS
  | with_reducible refine Walk.bind ?_ (fun _ => ?_)
  | with_reducible refine Walk.whenM ?_
  | dsimp only
  | split))

theorem NStep.scr {s : St} {lst bufpos calcR} :
    Star NStep (s, .live) ({ s with lst, bufpos, calcR }, .live) :=
  .one (.scratch s lst bufpos calcR s.flags.listOn)

instance (w : Stop) : W NStep (stopWith w : M α) :=
  ⟨fun s => .one (.die s s.lst s.bufpos s.code s.flags.listOn)⟩
instance (u : UB) : W NStep (ubM u : M α) := ⟨(W.walk : Walk NStep (stopWith _))⟩
instance (m : Str) : W NStep (fatal m : M α) := ⟨(W.walk : Walk NStep (stopWith _))⟩
instance : W NStep zerobuffer := ⟨Walk.modS fun s => .one (.scratch s s.lst 0 s.calcR s.flags.listOn)⟩
instance (f : Lst → Lst) : W NStep (modLst f) :=
  ⟨Walk.modS fun s => .one (.scratch s (f s.lst) s.bufpos s.calcR s.flags.listOn)⟩
instance : W NStep eject := ⟨by unfold eject; walk⟩

instance (s pat : Str) : W NStep (filterC s pat) := ⟨by
  intro st
  simp only [filterC, getS_bind_run]
  split
  · exact W.walk (R := NStep) (m := (ubM UB.filterBuffer : M (Option (List Str × Nat)))) st
  · split
    · exact .one (.scratch st st.lst _ st.calcR st.flags.listOn)
    · exact .refl _⟩
instance (s pat : Str) : W NStep (filter0 s pat) := ⟨by unfold filter0; walk⟩
instance (s pat : Str) : W NStep (filter1 s pat) := ⟨by unfold filter1; walk⟩
instance (s pat : Str) : W NStep (filter2 s pat) := ⟨by unfold filter2; walk⟩

/-! ### output.c -/

instance (s : Str) : W NStep (outputraw s) := ⟨by unfold outputraw; walk⟩
instance : W NStep outputEOL := ⟨by unfold outputEOL; walk⟩
theorem walk_eolLoop (n : Nat) : Walk NStep (eolLoop n) := by
  induction n with
  | zero => exact Walk.pure _
  | succ n ih => unfold eolLoop; walk; exact ih
instance (n : Nat) : W NStep (eolLoop n) := ⟨walk_eolLoop n⟩
instance : W NStep outputEOP := ⟨by unfold outputEOP; walk⟩
instance (c : Char) : W NStep (putRaw c) := ⟨by unfold putRaw; walk⟩
instance : W NStep putSpace := ⟨by unfold putSpace; walk⟩
theorem walk_putSpaces (n : Nat) : Walk NStep (putSpaces n) := by
  induction n with
  | zero => exact Walk.pure _
  | succ n ih => unfold putSpaces; walk; exact ih
instance (n : Nat) : W NStep (putSpaces n) := ⟨walk_putSpaces n⟩
instance (n : Nat) : W NStep (position n) := ⟨by unfold position; walk⟩
theorem walk_tryPats (t : Str) (ps : List Str) : Walk NStep (tryPats t ps) := by
  induction ps with
  | nil => exact Walk.pure _
  | cons p ps ih => unfold tryPats; walk; exact ih
instance (t : Str) (ps : List Str) : W NStep (tryPats t ps) := ⟨walk_tryPats t ps⟩
instance (c : Char) : W NStep (wrapLine c) := ⟨by unfold wrapLine; walk⟩
instance (c : Char) : W NStep (outputcar c) := ⟨by unfold outputcar; walk⟩
theorem walk_output (s : Str) : Walk NStep (output s) := by
  induction s with
  | nil => exact Walk.pure _
  | cons p ps ih => unfold output; walk; exact ih
instance (s : Str) : W NStep (output s) := ⟨walk_output s⟩
instance : W NStep outputline := ⟨by unfold outputline; walk⟩
instance (a : Word) : W NStep (outputaddr a) := ⟨by unfold outputaddr; walk⟩
instance (b : Byte) : W NStep (outputbyte b) := ⟨by unfold outputbyte; walk⟩
instance (m : Str) : W NStep (warning m) := ⟨by unfold warning; walk⟩

/-! Functions that only touch the listing: the state they leave is the old one with a new listing. -/

/-- Equal but for listing, work buffer and LIST flag. -/
def SameBut (s s' : St) : Prop :=
  ∃ lst bufpos listOn, s' = { s with lst, bufpos, flags := { s.flags with listOn } }

/-- `m` changes listing, work buffer and LIST flag only, and does not call error(). -/
class Quiet (m : M α) : Prop where
  run : ∀ s, match m s with
    | .ok _ s' => SameBut s s'
    | .err _ => False
    | .stop _ s' => SameBut s s'

theorem SameBut.rfl' (s : St) : SameBut s s := ⟨s.lst, s.bufpos, s.flags.listOn, rfl⟩
theorem SameBut.trans {a b c : St} (h : SameBut a b) (h' : SameBut b c) : SameBut a c := by
  obtain ⟨_, _, _, rfl⟩ := h
  obtain ⟨l, b, f, rfl⟩ := h'
  exact ⟨l, b, f, rfl⟩

theorem Quiet.pure (a : α) : Quiet (Pure.pure a : M α) := ⟨fun s => .rfl' s⟩
theorem Quiet.getS : Quiet Crasm.getS := ⟨fun s => .rfl' s⟩
theorem Quiet.bind {m : M α} {f : α → M β} (hm : Quiet m) (hf : ∀ a, Quiet (f a)) : Quiet (m >>= f) := by
  constructor
  intro s
  have h1 := hm.run s
  rw [bind_run]
  cases h : m s with
  | ok a s' =>
    rw [h] at h1
    have h2 := (hf a).run s'
    simp only at h1 ⊢
    split <;> rename_i heq <;> rw [heq] at h2
    · exact h1.trans h2
    · exact h2
    · exact h1.trans h2
  | err s' => rw [h] at h1; exact h1
  | stop w s' => rw [h] at h1; exact h1
theorem Quiet.whenM {c : Prop} [Decidable c] {a : M Unit} (ha : Quiet a) :
    Quiet (whenM c a) := by unfold Crasm.whenM; split; exact ha; exact Quiet.pure ()

macro "quiet" : tactic => `(tactic| repeat' (first
  | infer_instance
  | exact Quiet.pure _
  | exact Quiet.getS
  | with_reducible refine Quiet.bind ?_ (fun _ => ?_)
  | with_reducible refine Quiet.whenM ?_
  | split))

instance (w : Stop) : Quiet (stopWith w : M α) := ⟨fun s => .rfl' s⟩
instance (u : UB) : Quiet (ubM u : M α) := ⟨fun s => .rfl' s⟩
instance (m : Str) : Quiet (fatal m : M α) := ⟨fun s => .rfl' s⟩
instance : Quiet zerobuffer := ⟨fun s => ⟨s.lst, 0, s.flags.listOn, rfl⟩⟩
instance (f : Lst → Lst) : Quiet (modLst f) := ⟨fun s => ⟨f s.lst, s.bufpos, s.flags.listOn, rfl⟩⟩
instance : Quiet eject := by unfold eject; quiet
instance (s pat : Str) : Quiet (filterC s pat) := ⟨by
  intro st
  simp only [filterC, getS_bind_run]
  split
  · rename_i h
    split at h
    · exact absurd h (by simp)
    · split at h
      · simp at h; obtain ⟨-, rfl⟩ := h; exact ⟨st.lst, _, st.flags.listOn, rfl⟩
      · simp at h; obtain ⟨-, rfl⟩ := h; exact .rfl' _
  · rename_i h
    split at h
    · simp at h
    · split at h <;> simp at h
  · rename_i h
    split at h
    · simp at h; obtain ⟨-, rfl⟩ := h; exact .rfl' _
    · split at h <;> simp at h⟩
instance (s pat : Str) : Quiet (filter0 s pat) := by unfold filter0; quiet
instance (s pat : Str) : Quiet (filter1 s pat) := by unfold filter1; quiet
instance (s pat : Str) : Quiet (filter2 s pat) := by unfold filter2; quiet
instance (s : Str) : Quiet (outputraw s) := by unfold outputraw; quiet
instance : Quiet outputEOL := by unfold outputEOL; quiet
instance quiet_eolLoop (n : Nat) : Quiet (eolLoop n) := by
  induction n with
  | zero => exact Quiet.pure _
  | succ n ih => unfold eolLoop; quiet
instance : Quiet outputEOP := by unfold outputEOP; quiet
instance (c : Char) : Quiet (putRaw c) := by unfold putRaw; quiet
instance : Quiet putSpace := by unfold putSpace; quiet
instance quiet_putSpaces (n : Nat) : Quiet (putSpaces n) := by
  induction n with
  | zero => exact Quiet.pure _
  | succ n ih => unfold putSpaces; quiet
instance (n : Nat) : Quiet (position n) := by unfold position; quiet
instance quiet_tryPats (t : Str) (ps : List Str) : Quiet (tryPats t ps) := by
  induction ps with
  | nil => exact Quiet.pure _
  | cons p ps ih => unfold tryPats; quiet
instance (c : Char) : Quiet (wrapLine c) := by unfold wrapLine; quiet
instance (c : Char) : Quiet (outputcar c) := by unfold outputcar; quiet
instance quiet_output (s : Str) : Quiet (output s) := by
  induction s with
  | nil => exact Quiet.pure _
  | cons p ps ih => unfold output; quiet
instance : Quiet outputline := by unfold outputline; quiet
instance (a : Word) : Quiet (outputaddr a) := by unfold outputaddr; quiet
instance (b : Byte) : Quiet (outputbyte b) := by unfold outputbyte; quiet
instance (m : Str) : Quiet (warning m) := by unfold warning; quiet
instance (m : Str) : Quiet (reportError m) := by
  unfold reportError
  refine Quiet.bind Quiet.getS fun s => ?_
  simp only
  split
  · infer_instance
  · exact Quiet.bind ⟨fun s => ⟨s.lst, s.bufpos, true, rfl⟩⟩ fun _ => inferInstance

theorem SameBut.star {s s' : St} (h : SameBut s s') : Star NStep (s, .live) (s', .live) := by
  obtain ⟨l, b, f, rfl⟩ := h
  exact .one (.scratch s l b s.calcR f)
theorem SameBut.dead {s s' : St} (h : SameBut s s') : Star NStep (s, .live) (s', .dead) := by
  obtain ⟨l, b, f, rfl⟩ := h
  exact .one (.die s l b s.code f)

theorem Quiet.walk {m : M α} (h : Quiet m) : Walk NStep m := by
  intro s
  have := h.run s
  unfold Out
  split <;> rename_i heq <;> rw [heq] at this
  · exact this.star
  · exact this.elim
  · exact this.dead

/-- `error` never returns; its effect. -/
theorem error_run (msg : Str) (s : St) :
    (∃ w s', (error msg : M α) s = .stop w s' ∧ SameBut s s') ∨
    (∃ s1 s', (error msg : M α) s = .err s' ∧ SameBut s s1 ∧
      ((s.advance = 0 ∧
        s' = { s1 with flags := s.flags, log := .error s.passnumber (!s.flags.noerror) :: s.log }) ∨
       (∃ t, s.advance ≠ 0 ∧ bumped s t ∧
        s' = { s1 with flags := s.flags, tree := t,
                       log := .error s.passnumber (!s.flags.noerror) :: s.log }))) := by
  unfold error
  rw [getS_bind_run]
  simp only
  have q1 : Quiet (do whenM (!s.flags.noerror) (reportError msg); outputline) := by quiet
  have := q1.run s
  have e : (do
      whenM (!s.flags.noerror) (reportError msg)
      outputline
      whenM (s.advance ≠ 0) bumpStar
      modS fun s' => { s' with flags := { s'.flags with listOn := s.flags.listOn }, log := .error s'.passnumber (!s.flags.noerror) :: s'.log }
      (throwErr : M α)) = (do
      (do whenM (!s.flags.noerror) (reportError msg); outputline)
      whenM (s.advance ≠ 0) bumpStar
      modS fun s' => { s' with flags := { s'.flags with listOn := s.flags.listOn }, log := .error s'.passnumber (!s.flags.noerror) :: s'.log }
      throwErr) := by
    funext s0
    simp only [bind_run]
    cases whenM (!s.flags.noerror) (reportError msg) s0 <;> rfl
  rw [e, bind_run]
  revert this
  cases (do whenM (!s.flags.noerror) (reportError msg); outputline : M Unit) s with
  | err s' => intro h; exact h.elim
  | stop w s' => intro h; exact .inl ⟨w, s', rfl, h⟩
  | ok a s1 =>
    intro h
    simp only at h ⊢
    obtain ⟨l, b, f, rfl⟩ := h
    by_cases h0 : s.advance = 0
    · refine .inr ⟨{ s with lst := l, bufpos := b, flags := { s.flags with listOn := f } },
        { s with lst := l, bufpos := b, log := .error s.passnumber (!s.flags.noerror) :: s.log },
        ?_, ⟨l, b, f, rfl⟩, .inl ⟨h0, rfl⟩⟩
      simp [whenM, h0, bind_run]
    · simp only [whenM, h0, ne_eq, not_false_eq_true, if_true, bumpStar, bind_run, getS_run]
      have hs : starLabel { s with lst := l, bufpos := b, flags := { s.flags with listOn := f } } = starLabel s := rfl
      rw [hs]
      cases hv : addS (starLabel s).value (BitVec.ofInt 64 s.advance) with
      | none => exact .inl ⟨_, _, rfl, ⟨l, b, f, rfl⟩⟩
      | some v =>
        exact .inr ⟨_, _, rfl, ⟨l, b, f, rfl⟩, .inr ⟨_, trivial, ⟨v, hv, rfl⟩, rfl⟩⟩

instance (msg : Str) : W NStep (error msg : M α) := ⟨by
  intro s
  rcases error_run (α := α) msg s with ⟨w, s', h, hq⟩ | ⟨s1, s', h, hq, hh⟩
  · rw [h]; exact hq.dead
  · rw [h]
    obtain ⟨l, b, f, rfl⟩ := hq
    rcases hh with ⟨h0, rfl⟩ | ⟨t, h0, hb, rfl⟩
    · exact .tail (.one (.scratch s l b s.calcR s.flags.listOn)) (.error0 _ h0)
    · exact .tail (.one (.scratch s l b s.calcR s.flags.listOn)) (.error1 _ t h0 hb)⟩

instance (msg : Str) : W NStep (refuse msg : M α) := ⟨by
  intro s
  have h := (inferInstance : W NStep (error msg : M α)).walk s
  unfold refuse catchErr
  cases e : (error msg : M α) s with
  | ok a s' => rw [e] at h; exact h
  | stop w s' => rw [e] at h; exact h
  | err s' => rw [e] at h; exact .tail h (.odd s')⟩

/-! ### label.c, operator.c, parse.c -/

instance (name : Str) : W NStep (findlabel name) := ⟨fun s => .one (.use s (canon s.segment name))⟩
instance (r : Result) (t : LType) : W NStep (checktype r t) := ⟨by unfold checktype; walk⟩
instance (tgt : Bool) (r : Result) : W NStep (setRes tgt r) := ⟨by
  unfold setRes
  refine Walk.bind (Walk.whenM (Walk.modS fun s => ?_)) fun _ => Walk.pure _
  exact .one (.scratch s s.lst s.bufpos r s.flags.listOn)⟩
instance (tgt : Bool) (v : Nat) : W NStep (cst tgt v) := ⟨by unfold cst; walk⟩
instance (tgt : Bool) (v : Except Str Nat) : W NStep (cstE tgt v) := ⟨by unfold cstE; walk⟩
instance (tgt : Bool) (n : Str) : W NStep (cstlabel tgt n) := ⟨by unfold cstlabel; walk⟩
instance (tgt : Bool) (o : OpRes) : W NStep (finishOp tgt o) := ⟨by unfold finishOp; walk⟩
theorem walk_parseConst (tgt : Bool) (e : Str) (rows : List (Str × Base)) :
    Walk NStep (parseConst tgt e rows) := by
  induction rows with
  | nil => unfold parseConst; walk
  | cons r rows ih => obtain ⟨p, b⟩ := r; unfold parseConst; walk; exact ih
instance (tgt : Bool) (e : Str) (rows : List (Str × Base)) : W NStep (parseConst tgt e rows) :=
  ⟨walk_parseConst tgt e rows⟩
instance (tgt : Bool) (e : Str) : W NStep (parseLeaf tgt e) := ⟨by unfold parseLeaf; walk⟩
theorem walk_firstMatch (e : Str) (alts : List (Str × Op2)) : Walk NStep (firstMatch e alts) := by
  induction alts with
  | nil => exact Walk.pure _
  | cons r rows ih => obtain ⟨p, b⟩ := r; unfold firstMatch; walk; exact ih
instance (e : Str) (alts : List (Str × Op2)) : W NStep (firstMatch e alts) := ⟨walk_firstMatch e alts⟩
theorem walk_parseRows (rec : Bool → Str → M Result) (h : ∀ t e, Walk NStep (rec t e)) (tgt : Bool) (e : Str)
    (rows : List Ent) : Walk NStep (parseRows rec tgt e rows) := by
  haveI : ∀ t e, W NStep (rec t e) := fun t e => ⟨h t e⟩
  induction rows with
  | nil => unfold parseRows; walk
  | cons r rows ih => cases r <;> (unfold parseRows; walk <;> exact ih)
theorem walk_parse2 (n : Nat) : ∀ tgt e, Walk NStep (parse2 n tgt e) := by
  induction n with
  | zero => intro tgt e; unfold parse2; walk
  | succ n ih => intro tgt e; exact walk_parseRows _ ih tgt e _
instance (n : Nat) (tgt : Bool) (e : Str) : W NStep (parse2 n tgt e) := ⟨walk_parse2 n tgt e⟩
instance (e : Option Str) : W NStep (parse e) := ⟨by unfold parse; walk⟩
instance (e : Option Str) : W NStep (parseAbs e) := ⟨by unfold parseAbs; walk⟩

end Crasm

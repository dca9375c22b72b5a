import Verif.Proof.Run

/-!
Two runs of the same function from states that differ only in what concerns the listing: they behave alike, unless
one of them stops. Along the way, two invariants of single runs: lines are at least 39 columns wide, and pass 1
prints nothing.
-/

namespace Crasm

/-- Pass 1 prints nothing, and is in a state in which nothing will be printed. -/
def Mute (s : St) : Prop := s.passnumber ≤ 1 →
  s.flags.noerror = true ∧ s.flags.nolist = true ∧ s.flags.listOn = false ∧
  (∀ src ∈ s.stack, src.oldlist = false) ∧ s.lst.out = []

def Inv (s : St) : Prop := 39 ≤ s.lst.llen ∧ Mute s

/-- The part of a source entry that matters for the code. -/
def Src.strip (s : Src) : Src := { s with oldlist := false }

/-- Equal but for the listing. -/
def Fr (s₁ s₂ : St) : Prop :=
  ∃ lst bufpos curline listOn nolist nowarning stack,
    s₂ = { s₁ with lst, bufpos, curline, stack, flags := { s₁.flags with listOn, nolist, nowarning } } ∧
    s₁.stack.map Src.strip = stack.map Src.strip

theorem Fr.rfl' (s : St) : Fr s s :=
  ⟨s.lst, s.bufpos, s.curline, s.flags.listOn, s.flags.nolist, s.flags.nowarning, s.stack, rfl, rfl⟩
theorem Fr.symm {s t : St} (h : Fr s t) : Fr t s := by
  obtain ⟨_, _, _, _, _, _, _, rfl, e⟩ := h
  exact ⟨s.lst, s.bufpos, s.curline, s.flags.listOn, s.flags.nolist, s.flags.nowarning, s.stack, rfl, e.symm⟩
theorem Fr.trans {s t u : St} (h : Fr s t) (h' : Fr t u) : Fr s u := by
  obtain ⟨_, _, _, _, _, _, _, rfl, e⟩ := h
  obtain ⟨a, b, c, d, e1, f, g, rfl, e'⟩ := h'
  exact ⟨a, b, c, d, e1, f, g, rfl, e.trans e'⟩
theorem SameBut.fr {s t : St} (h : SameBut s t) : Fr s t := by
  obtain ⟨l, b, f, rfl⟩ := h
  exact ⟨l, b, s.curline, f, s.flags.nolist, s.flags.nowarning, s.stack, rfl, rfl⟩

def RR (s₁ s₂ : St) : Prop := Fr s₁ s₂ ∧ Inv s₁ ∧ Inv s₂

theorem RR.left {s t : St} (h : RR s t) : RR s s := ⟨.rfl' _, h.2.1, h.2.1⟩
theorem RR.right {s t : St} (h : RR s t) : RR t t := ⟨.rfl' _, h.2.2, h.2.2⟩

/-- Outcomes that agree. -/
def Agree : Res α → Res α → Prop
  | .ok a t₁, .ok b t₂ => a = b ∧ RR t₁ t₂
  | .err t₁, .err t₂ => RR t₁ t₂
  | .stop _ t₁, r => Inv t₁ ∧ Inv r.state
  | r, .stop _ t₂ => Inv r.state ∧ Inv t₂
  | _, _ => False

theorem Agree.inv {r r' : Res α} (h : Agree r r') : Inv r.state ∧ Inv r'.state := by
  unfold Agree at h
  split at h
  · exact h.2.2
  · exact h.2
  · exact h
  · exact h
  · exact h.elim

def RelAt (s₁ s₂ : St) (m₁ m₂ : M α) : Prop := Agree (m₁ s₁) (m₂ s₂)

class Rel (m : M α) : Prop where
  at_ : ∀ s₁ s₂, RR s₁ s₂ → RelAt s₁ s₂ m m

theorem RelAt.bind {s₁ s₂ : St} {m m' : M α} {f g : α → M β} (h : RelAt s₁ s₂ m m')
    (hf : ∀ a t₁ t₂, RR t₁ t₂ → RelAt t₁ t₂ (f a) (g a)) : RelAt s₁ s₂ (m >>= f) (m' >>= g) := by
  unfold RelAt at *
  rw [bind_run, bind_run]
  cases e1 : m s₁ <;> cases e2 : m' s₂ <;> rw [e1, e2] at h <;> simp only [Agree] at h ⊢
  · obtain ⟨rfl, h⟩ := h; exact hf _ _ _ h
  · rename_i a t1 w t2
    have h' : Inv t1 ∧ Inv t2 := h
    have r : RR t1 t1 := ⟨.rfl' _, h'.1, h'.1⟩
    have := (hf a t1 t1 r).inv.1
    revert this
    generalize f a t1 = x
    intro hx
    cases x <;> exact ⟨hx, h'.2⟩
  · exact h
  · exact h
  · rename_i w t1 a t2
    have h' : Inv t1 ∧ Inv t2 := h
    have r : RR t2 t2 := ⟨.rfl' _, h'.2, h'.2⟩
    exact ⟨h'.1, (hf a t2 t2 r).inv.2⟩
  · exact h
  · exact h

theorem Rel.bind {m : M α} {f : α → M β} (hm : Rel m) (hf : ∀ a, Rel (f a)) : Rel (m >>= f) :=
  ⟨fun s₁ s₂ h => RelAt.bind (hm.at_ s₁ s₂ h) fun a t₁ t₂ r => (hf a).at_ t₁ t₂ r⟩
theorem Rel.pure (a : α) : Rel (Pure.pure a : M α) := ⟨fun _ _ h => ⟨rfl, h⟩⟩
theorem Rel.whenM {c : Prop} [Decidable c] {a : M Unit} (ha : Rel a) : Rel (whenM c a) := by
  unfold Crasm.whenM; split; exact ha; exact Rel.pure ()
theorem Rel.modS {g : St → St} (h : ∀ s₁ s₂, RR s₁ s₂ → RR (g s₁) (g s₂)) : Rel (Crasm.modS g) :=
  ⟨fun s₁ s₂ r => ⟨rfl, h s₁ s₂ r⟩⟩

/-- The second state in terms of the first. -/
@[reducible] def var (s : St) (lst : Lst) (bufpos : Nat) (curline : Str) (listOn nolist nowarning : Bool)
    (stack : List Src) : St :=
  { s with lst, bufpos, curline, stack, flags := { s.flags with listOn, nolist, nowarning } }

theorem Rel.getS {f : St → M β}
    (h : ∀ s l b c x y z st, s.stack.map Src.strip = st.map Src.strip → Inv s → Inv (var s l b c x y z st) →
      RelAt s (var s l b c x y z st) (f s) (f (var s l b c x y z st))) : Rel (Crasm.getS >>= f) := by
  constructor
  rintro s₁ s₂ ⟨⟨l, b, c, x, y, z, st, rfl, e⟩, i1, i2⟩
  exact h s₁ l b c x y z st e i1 i2

theorem RelAt.of {s : St} {l b c x y z st} (e : s.stack.map Src.strip = st.map Src.strip) (i1 : Inv s)
    (i2 : Inv (var s l b c x y z st)) {m : M α} (h : Rel m) : RelAt s (var s l b c x y z st) m m :=
  h.at_ _ _ ⟨⟨l, b, c, x, y, z, st, rfl, e⟩, i1, i2⟩

/-- A read of fields that are the same on both sides. -/
macro "relget" : tactic => `(tactic|
  (refine Rel.getS fun s l b c x y z st e i1 i2 => ?_
   dsimp only [var]
   refine RelAt.of e i1 i2 ?_))

macro "rel" : tactic => `(tactic| repeat' (first
  | infer_instance
  | exact Rel.pure _
  | (with_reducible relget)
  | with_reducible refine Rel.bind ?_ (fun _ => ?_)
  | with_reducible refine Rel.whenM ?_
  | dsimp only
  | split))

instance (w : Stop) : Rel (stopWith w : M α) := ⟨fun _ _ r => ⟨r.2.1, r.2.2⟩⟩
instance (u : UB) : Rel (ubM u : M α) := ⟨fun _ _ r => ⟨r.2.1, r.2.2⟩⟩
instance (m : Str) : Rel (fatal m : M α) := ⟨fun _ _ r => ⟨r.2.1, r.2.2⟩⟩
instance : Rel zerobuffer := Rel.modS (by
  rintro s _ ⟨⟨l, b, c, x, y, z, st, rfl, e⟩, i1, i2⟩
  exact ⟨⟨l, 0, c, x, y, z, st, rfl, e⟩, i1, i2⟩)
instance (s pat : Str) : Rel (filterC s pat) := by
  unfold filterC
  refine Rel.getS fun s1 l b c x y z st e i1 i2 => ?_
  dsimp only [var]
  unfold RelAt
  by_cases h1 : bufSize ≤ s1.bufpos + (filter s pat).wrote
  · simp only [h1, if_true, ubM_run, Agree]
    refine ⟨i1, ?_⟩
    split
    · exact i2
    · split <;> exact i2
  · simp only [h1, if_false]
    by_cases h2 : bufSize ≤ b + (filter s pat).wrote
    · simp only [h2, if_true, ubM_run]
      cases (filter s pat).ok <;> exact ⟨i1, i2⟩
    · simp only [h2, if_false]
      cases (filter s pat).ok
      · exact ⟨rfl, ⟨l, b, c, x, y, z, st, rfl, e⟩, i1, i2⟩
      · exact ⟨rfl, ⟨l, _, c, x, y, z, st, rfl, e⟩, i1, i2⟩
instance (s pat : Str) : Rel (filter0 s pat) := by unfold filter0; rel
instance (s pat : Str) : Rel (filter1 s pat) := by unfold filter1; rel
instance (s pat : Str) : Rel (filter2 s pat) := by unfold filter2; rel

/-! ### Listing -/

/-- `m` keeps the invariants. -/
class KeepInv (m : M α) : Prop where
  inv : ∀ s, Inv s → Inv (m s).state

theorem KeepInv.bind {m : M α} {f : α → M β} (hm : KeepInv m) (hf : ∀ a, KeepInv (f a)) : KeepInv (m >>= f) := by
  constructor
  intro s hs
  have h1 := hm.inv s hs
  rw [bind_run]
  cases h : m s with
  | ok a s' => rw [h] at h1; exact (hf a).inv s' h1
  | err s' => rw [h] at h1; exact h1
  | stop w s' => rw [h] at h1; exact h1
theorem KeepInv.pure (a : α) : KeepInv (Pure.pure a : M α) := ⟨fun _ h => h⟩
theorem KeepInv.getS : KeepInv Crasm.getS := ⟨fun _ h => h⟩
theorem KeepInv.whenM {c : Prop} [Decidable c] {a : M Unit} (ha : KeepInv a) : KeepInv (whenM c a) := by
  unfold Crasm.whenM; split; exact ha; exact KeepInv.pure ()
/-- Changes of the line under construction. -/
theorem KeepInv.modLst {f : Lst → Lst} (h : ∀ l, (f l).out = l.out ∧ (f l).llen = l.llen) :
    KeepInv (modLst f) := by
  constructor
  rintro s ⟨h1, h2⟩
  refine ⟨?_, ?_⟩
  · show 39 ≤ (f s.lst).llen
    rw [(h s.lst).2]; exact h1
  · intro hp
    obtain ⟨a, b, c, d, e⟩ := h2 hp
    exact ⟨a, b, c, d, (h s.lst).1.trans e⟩
/-- Printing. -/
theorem KeepInv.print {f : Lst → Lst} (h : ∀ l, (f l).llen = l.llen) :
    ∀ s, s.flags.listOn = true → Inv s → Inv { s with lst := f s.lst } := by
  rintro s hl ⟨h1, h2⟩
  refine ⟨by rw [h]; exact h1, fun hp => ?_⟩
  have := (h2 hp).2.2.1
  rw [hl] at this
  cases this

macro "keep" : tactic => `(tactic| repeat' (first
  | infer_instance
  | exact KeepInv.pure _
  | exact KeepInv.getS
  | exact KeepInv.modLst fun _ => ⟨rfl, rfl⟩
  | with_reducible refine KeepInv.bind ?_ (fun _ => ?_)
  | with_reducible refine KeepInv.whenM ?_
  | split))

instance (w : Stop) : KeepInv (stopWith w : M α) := ⟨fun _ h => h⟩
instance (u : UB) : KeepInv (ubM u : M α) := ⟨fun _ h => h⟩
instance (m : Str) : KeepInv (fatal m : M α) := ⟨fun _ h => h⟩
theorem Rel.keep {m : M α} (h : Rel m) : KeepInv m := ⟨fun s i => (h.at_ s s ⟨.rfl' _, i, i⟩).inv.1⟩
instance (s pat : Str) : KeepInv (filterC s pat) := Rel.keep inferInstance
instance (s : Str) : KeepInv (outputraw s) := ⟨by
  intro st i
  unfold outputraw
  rw [getS_bind_run]
  split
  · rename_i hl
    refine ⟨?_, fun hp => ?_⟩
    · have h1 := i.1
      simp only [modLst, modS_run, Res.state]
      generalize hx : (if st.lst.ppos = 0 then _ else st.lst : Lst) = x
      have hx1 : x.llen = st.lst.llen := by rw [← hx]; split <;> rfl
      split <;> exact hx1 ▸ h1
    · have := (i.2 hp).2.2.1
      rw [hl] at this
      cases this
  · exact i⟩
instance : KeepInv outputEOL := by unfold outputEOL; keep
instance keep_eolLoop (n : Nat) : KeepInv (eolLoop n) := by
  induction n with
  | zero => exact KeepInv.pure _
  | succ n ih => unfold eolLoop; keep
instance : KeepInv outputEOP := ⟨by
  intro st i
  unfold outputEOP
  rw [getS_bind_run]
  split
  · split
    · exact (inferInstance : KeepInv (eolLoop _)).inv st i
    · rename_i hl _
      exact KeepInv.print (f := fun l => { l with out := c!"\n\n\n" :: l.out }) (fun _ => rfl) st hl i
  · exact i⟩
instance (c : Char) : KeepInv (putRaw c) := by unfold putRaw; keep
instance : KeepInv putSpace := by unfold putSpace; keep
instance keep_putSpaces (n : Nat) : KeepInv (putSpaces n) := by
  induction n with
  | zero => exact KeepInv.pure _
  | succ n ih => unfold putSpaces; keep
instance (n : Nat) : KeepInv (position n) := by unfold position; keep
instance keep_tryPats (t : Str) (ps : List Str) : KeepInv (tryPats t ps) := by
  induction ps with
  | nil => exact KeepInv.pure _
  | cons p ps ih => unfold tryPats; keep
instance (c : Char) : KeepInv (wrapLine c) := by unfold wrapLine; keep
instance (c : Char) : KeepInv (outputcar c) := by unfold outputcar; keep
instance keep_output (s : Str) : KeepInv (output s) := by
  induction s with
  | nil => exact KeepInv.pure _
  | cons p ps ih => unfold output; keep
instance : KeepInv outputline := by unfold outputline; keep
instance (a : Word) : KeepInv (outputaddr a) := by unfold outputaddr; keep
instance (b : Byte) : KeepInv (outputbyte b) := by unfold outputbyte; keep
instance (m : Str) : KeepInv (warning m) := by unfold warning; keep

/-- Two functions that only deal with the listing. -/
theorem RelAt.quiet {s₁ s₂ : St} {m₁ m₂ : M Unit} (q1 : Quiet m₁) (q2 : Quiet m₂) (k1 : KeepInv m₁)
    (k2 : KeepInv m₂) (r : RR s₁ s₂) : RelAt s₁ s₂ m₁ m₂ := by
  have a1 := q1.run s₁
  have a2 := q2.run s₂
  have b1 := k1.inv s₁ r.2.1
  have b2 := k2.inv s₂ r.2.2
  unfold RelAt
  cases e1 : m₁ s₁ <;> cases e2 : m₂ s₂ <;> rw [e1] at a1 b1 <;> rw [e2] at a2 b2 <;>
    simp only [Agree] <;> simp only at a1 a2
  · exact ⟨trivial, (SameBut.fr a1).symm.trans (r.1.trans a2.fr), b1, b2⟩
  · exact ⟨b1, b2⟩
  · exact ⟨b1, b2⟩
  · exact ⟨b1, b2⟩

instance {m : M Unit} [q : Quiet m] [k : KeepInv m] : Rel m := ⟨fun _ _ r => RelAt.quiet q q k k r⟩

end Crasm

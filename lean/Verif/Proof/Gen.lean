import Verif.Proof.WalkS
import Verif.Proof.FilterL

/-! Exact account of the bytes generated by functions that return normally. -/

namespace Crasm

/-- The events of generating the bytes `bs` from address `a` on, in order. -/
def byteEvents (pass : Nat) (on : Bool) : Word → List Byte → List Event
  | _, [] => []
  | a, b :: bs => .byte pass a b on :: byteEvents pass on (a + 1) bs

theorem byteEvents_append (p : Nat) (on : Bool) (bs cs : List Byte) : ∀ a : Word,
    byteEvents p on a (bs ++ cs) = byteEvents p on a bs ++ byteEvents p on (a + BitVec.ofNat 64 bs.length) cs := by
  induction bs with
  | nil => intro a; simp [byteEvents]
  | cons b bs ih =>
    intro a
    simp only [List.cons_append, byteEvents, ih, List.length_cons]
    have : a + 1 + BitVec.ofNat 64 bs.length = a + BitVec.ofNat 64 (bs.length + 1) := by
      rw [BitVec.ofNat_add, BitVec.add_assoc, BitVec.add_comm (BitVec.ofNat 64 bs.length)]
      rfl
    rw [this]

/-- Two labels that differ at most in having been referred to. -/
def SameL (l l' : Label) : Prop :=
  { l with flags := { l.flags with used := true } } = { l' with flags := { l'.flags with used := true } }

/-- Symbol tables that differ at most by references: some labels are marked as used, and names that were
    referred to without being defined have been entered as undefined. -/
def Alike (t t' : Tree) : Prop := ∀ k,
  match t.find k, t'.find k with
  | some l, some l' => SameL l l'
  | none, some l' => l'.flags.undef = true ∧ l'.flags.forward = true ∧ l'.value = 0
  | none, none => True
  | some _, none => False

theorem SameL.refl (l : Label) : SameL l l := rfl
theorem SameL.trans {a b c : Label} (h : SameL a b) (h' : SameL b c) : SameL a c := by
  unfold SameL at *; exact h.trans h'
theorem SameL.undef {a b : Label} (h : SameL a b) : b.flags.undef = a.flags.undef ∧
    b.flags.forward = a.flags.forward := by
  unfold SameL at h
  have h1 := congrArg (fun l : Label => l.flags.undef) h
  have h2 := congrArg (fun l : Label => l.flags.forward) h
  exact ⟨h1.symm, h2.symm⟩
theorem SameL.value {a b : Label} (h : SameL a b) : b.value = a.value ∧ b.type = a.type ∧
    b.modifier = a.modifier ∧ b.ptr = a.ptr := by
  unfold SameL at h
  exact ⟨(congrArg (fun l : Label => l.value) h).symm, (congrArg (fun l : Label => l.type) h).symm,
    (congrArg (fun l : Label => l.modifier) h).symm, (congrArg (fun l : Label => l.ptr) h).symm⟩

theorem Alike.refl (t : Tree) : Alike t t := by
  intro k
  cases h : t.find k <;> simp [SameL]
theorem Alike.trans {a b c : Tree} (h : Alike a b) (h' : Alike b c) : Alike a c := by
  intro k
  have h1 := h k
  have h2 := h' k
  revert h1 h2
  cases a.find k <;> cases b.find k <;> cases c.find k <;> simp
  · intro a b c h
    have := h.undef
    rw [this.1, this.2, h.value.1]
    exact ⟨a, b, c⟩
  · intro h h'; exact h.trans h'
theorem Alike.some {t t' : Tree} (h : Alike t t') {k : Str} {l : Label} (hl : t.find k = some l) :
    ∃ l', t'.find k = some l' ∧ SameL l l' := by
  have := h k
  rw [hl] at this
  revert this
  cases t'.find k with
  | none => simp
  | some l' => intro h; exact ⟨l', rfl, h⟩

theorem nstep_alike {a b : Cfg} (h : NStep a b) (hb : b.2 = .live) : Alike a.1.tree b.1.tree := by
  cases h with
  | scratch => exact .refl _
  | error0 => cases hb
  | error1 => cases hb
  | odd => cases hb
  | die => cases hb
  | use s k =>
    intro k'
    by_cases e : k' = k
    · subst e
      simp only [Tree.find_put_self]
      cases s.tree.find k' with
      | none => simp [usedLabel]
      | some l => simp [usedLabel, SameL]
    · simp only [Tree.find_put_ne _ _ e]
      exact Alike.refl _ k'

/-- Names newly entered by being referred to have the type of an address. -/
def Entered (f : Flags) (t t' : Tree) : Prop :=
  ∀ k l', t.find k = none → t'.find k = some l' → l'.type = addrType f

theorem Entered.refl (f : Flags) (t : Tree) : Entered f t t := fun _ _ h h' => by simp [h] at h'

theorem Entered.trans {f : Flags} {a b c : Tree} (h : Entered f a b) (h' : Entered f b c) (hb : Alike b c) : Entered f a c := by
  intro k l' ha hc
  cases hbk : b.find k with
  | none => exact h' k l' hbk hc
  | some l =>
    have := hb k
    rw [hbk, hc] at this
    rw [this.value.2.1]
    exact h k l ha hbk

theorem addrType_listOn (f : Flags) (b : Bool) : addrType { f with listOn := b } = addrType f := rfl

/-- `s'` is `s` after generating exactly the bytes `bs` (and possibly referring to symbols and printing). -/
structure Gen (bs : List Byte) (s s' : St) : Prop where
  /-- the bytes, in order, at consecutive addresses from the location counter on; nothing else happened -/
  log : s'.log = (byteEvents s.passnumber s.flags.codeOn s.code.pc bs).reverse ++ s.log
  pc : s'.code.pc = s.code.pc + BitVec.ofNat 64 bs.length
  advance : s'.advance = s.advance + bs.length
  flags : ∃ b, s'.flags = { s.flags with listOn := b }
  pass : s'.passnumber = s.passnumber
  segment : s'.segment = s.segment
  tree : Alike s.tree s'.tree
  entered : Entered s.flags s.tree s'.tree

theorem Gen.trans {bs cs : List Byte} {a b c : St} (h : Gen bs a b) (h' : Gen cs b c) : Gen (bs ++ cs) a c := by
  obtain ⟨f, hf⟩ := h.flags
  obtain ⟨g, hg⟩ := h'.flags
  refine ⟨?_, ?_, ?_, ⟨g, by rw [hg, hf]⟩, h'.pass.trans h.pass, h'.segment.trans h.segment,
    h.tree.trans h'.tree, h.entered.trans (by have := h'.entered; rw [hf] at this; exact this) h'.tree⟩
  · rw [h'.log, h.log, h.pass, h.pc, hf, byteEvents_append]
    simp
  · rw [h'.pc, h.pc, List.length_append, BitVec.ofNat_add, BitVec.add_assoc]
  · rw [h'.advance, h.advance, List.length_append]; omega

theorem Gen.refl (s : St) : Gen [] s s :=
  ⟨by simp [byteEvents], by simp, by simp, ⟨s.flags.listOn, rfl⟩, rfl, rfl, .refl _, .refl _ _⟩

theorem Gen.noted (s : St) (n : List (Nat × Note)) : Gen [] s { s with notes := n } :=
  ⟨by simp [byteEvents], by simp, by simp, ⟨s.flags.listOn, rfl⟩, rfl, rfl, .refl _, .refl _ _⟩

theorem SameBut.gen {s s' : St} (h : SameBut s s') : Gen [] s s' := by
  obtain ⟨l, b, f, rfl⟩ := h
  exact ⟨by simp [byteEvents], by simp, by simp, ⟨f, rfl⟩, rfl, rfl, .refl _, .refl _ _⟩

theorem nstar_alike {a b : Cfg} (h : Star NStep a b) (hb : b.2 = .live) : Alike a.1.tree b.1.tree := by
  induction h with
  | refl => exact .refl _
  | tail _ r ih => exact (ih (by cases r <;> first | rfl | cases hb)).trans (nstep_alike r hb)

theorem nstep_entered {a b : Cfg} (h : NStep a b) (hb : b.2 = .live) :
    Entered a.1.flags a.1.tree b.1.tree ∧ addrType b.1.flags = addrType a.1.flags := by
  cases h with
  | scratch => exact ⟨.refl _ _, rfl⟩
  | error0 => cases hb
  | error1 => cases hb
  | odd => cases hb
  | die => cases hb
  | use s k =>
    refine ⟨fun k' l' h h' => ?_, rfl⟩
    by_cases e : k' = k
    · subst e
      simp only [Tree.find_put_self, Option.some.injEq] at h'
      rw [← h', show s.tree.find k' = none from h]
      rfl
    · simp only [Tree.find_put_ne _ _ e] at h'
      rw [show s.tree.find k' = none from h] at h'
      cases h'

theorem Entered.of {f g : Flags} {t t' : Tree} (h : Entered f t t') (e : addrType g = addrType f) : Entered g t t' :=
  fun k l' a b => (h k l' a b).trans e.symm

theorem nstar_entered {a b : Cfg} (h : Star NStep a b) (hb : b.2 = .live) :
    Entered a.1.flags a.1.tree b.1.tree ∧ addrType b.1.flags = addrType a.1.flags := by
  induction h with
  | refl => exact ⟨.refl _ _, rfl⟩
  | tail _ r ih =>
    have i := ih (by cases r <;> first | rfl | cases hb)
    have j := nstep_entered r hb
    exact ⟨i.1.trans (j.1.of i.2.symm) (nstep_alike r hb), j.2.trans i.2⟩

theorem nwalk_gen {m : M α} (h : Walk NStep m) {s s' : St} {a : α} (hr : m s = .ok a s') : Gen [] s s' := by
  have hs := walk_nstar h hr
  have ha : Alike s.tree s'.tree := nstar_alike hs rfl
  have hn := (nstar_entered hs rfl).1
  obtain ⟨l, b, c, f, t, rfl⟩ := nframe hs
  exact ⟨by simp [byteEvents], by simp, by simp, ⟨f, rfl⟩, rfl, rfl, ha, hn⟩

theorem opened_pc (s : St) : (Code.opened s).pc = s.code.pc := by unfold Code.opened; split <;> rfl
theorem push_pc (hex : Bool) (x : Byte) (c : Code) : (c.push hex x).pc = c.pc := by
  unfold Code.push; split
  · simp only [Code.flush, Code.write]; split
    · split <;> rfl
    · rfl
  · rfl
theorem emitted_pc (s : St) (x : Byte) : (Code.emitted s x).pc = s.code.pc + 1 := by
  unfold Code.emitted
  simp only
  split
  · simp [push_pc, opened_pc]
  · simp [opened_pc]

theorem insert8_gen {x : Byte} {s s' : St} (h : insert8 x s = .ok () s') : Gen [x] s s' := by
  obtain ⟨-, l, b, f, rfl⟩ := insert8_ok h
  refine ⟨?_, ?_, ?_, ⟨f, rfl⟩, rfl, rfl, .refl _, .refl _ _⟩
  · simp [emitSt, byteEvents]
  · simp [emitSt, emitted_pc]
  · simp [emitSt]

theorem insert16_gen {x : BitVec 16} {s s' : St} (h : insert16 x s = .ok () s') :
    Gen (if s.flags.lohi then [x.setWidth 8, (x >>> 8).setWidth 8]
      else [(x >>> 8).setWidth 8, x.setWidth 8]) s s' := by
  unfold insert16 at h
  rw [getS_bind_run] at h
  cases hl : s.flags.lohi <;> simp only [hl, Bool.false_eq_true, if_false, if_true] at h ⊢
  all_goals
    obtain ⟨_, s1, h1, h2⟩ := bind_ok h
    exact (insert8_gen h1).trans (insert8_gen h2)

theorem insert32_gen {x : BitVec 32} {s s' : St} (h : insert32 x s = .ok () s') :
    Gen (if s.flags.lohi then
        [x.setWidth 8, (x >>> 8).setWidth 8, (x >>> 16).setWidth 8, (x >>> 24).setWidth 8]
      else [(x >>> 24).setWidth 8, (x >>> 16).setWidth 8, (x >>> 8).setWidth 8, x.setWidth 8]) s s' := by
  unfold insert32 at h
  rw [getS_bind_run] at h
  have e1 : (BitVec.setWidth 8 (BitVec.setWidth 16 x)) = x.setWidth 8 := by ext i; simp
  have e2 : (BitVec.setWidth 8 (BitVec.setWidth 16 x >>> 8)) = (x >>> 8).setWidth 8 := by ext i; simp; omega
  have e3 : (BitVec.setWidth 8 (BitVec.setWidth 16 (x >>> 16))) = (x >>> 16).setWidth 8 := by ext i; simp
  have e4 : (BitVec.setWidth 8 (BitVec.setWidth 16 (x >>> 16) >>> 8)) = (x >>> 24).setWidth 8 := by
    ext i; simp [← Nat.add_assoc]; omega
  cases hl : s.flags.lohi <;> simp only [hl, Bool.false_eq_true, if_false, if_true] at h ⊢
  all_goals
    obtain ⟨_, s1, h1, h2⟩ := bind_ok h
    have g1 := insert16_gen h1
    have g2 := insert16_gen h2
    obtain ⟨f, hf⟩ := g1.flags
    rw [hl] at g1
    rw [hf] at g2
    simp only [hl, Bool.false_eq_true, if_false, if_true, e1, e2, e3, e4] at g1 g2
    exact g1.trans g2

end Crasm

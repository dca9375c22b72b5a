import Verif.Props.C37

/-! What taking a line apart leaves alone. -/

namespace Crasm

theorem filter2_frame {e pat : Str} {s s' : St} {r : Option (Str × Str)} (h : filter2 e pat s = .ok r s') :
    ∃ b, s' = { s with bufpos := b } := by
  unfold filter2 at h
  obtain ⟨a, s1, h1, h2⟩ := bind_ok h
  have e1 : ∃ b, s1 = { s with bufpos := b } := by
    rw [filterC_run] at h1
    split at h1
    · cases h1
    · split at h1
      · cases h1; exact ⟨_, rfl⟩
      · cases h1; exact ⟨s.bufpos, rfl⟩
  have e2 : s1 = s' := by
    revert h2
    rcases a with _ | ⟨l, k⟩
    · intro h2; cases h2; rfl
    · match l with
      | [] => intro h2; cases h2; rfl
      | [_] => intro h2; cases h2; rfl
      | [_, _] => intro h2; cases h2; rfl
      | _ :: _ :: _ :: _ => intro h2; cases h2; rfl
  rw [← e2]
  exact e1

theorem stripLine_frame {s s' : St} {t : Str} (h : stripLine s = .ok t s') : ∃ c b, s' = { s with curline := c, bufpos := b } := by
  unfold stripLine at h
  rw [getS_bind_run] at h
  obtain ⟨r, s1, h1, h2⟩ := bind_ok h
  obtain ⟨b, rfl⟩ := filter2_frame h1
  revert h2
  cases r with
  | some r => intro h2; cases h2; exact ⟨s.curline, b, rfl⟩
  | none => intro h2; cases h2; exact ⟨_, b, rfl⟩

/-- References and remarks. -/
inductive QStep : Cfg → Cfg → Prop
  | n {a b : Cfg} (h : NStep a b) : QStep a b
  | note (s : St) (n : Note) : QStep (s, .live) ({ s with notes := (s.passnumber, n) :: s.notes }, .live)
instance (m : M α) [h : W NStep m] : W QStep m := ⟨h.walk.mono fun _ _ h => .n h⟩
instance (n : Note) : W QStep (note n) := ⟨fun s => .one (.note s n)⟩
instance (q : Cmp) (a b : Result) : W QStep (compareRes q a b) := ⟨by unfold compareRes; walk⟩
instance (o : Option Str) : W QStep (testtrue o) := ⟨by unfold testtrue; walk⟩
instance (s : Str) : W QStep (findmnemo s) := ⟨by unfold findmnemo; walk⟩
instance (l : Option Str) (s : Str) : W QStep (splitMnemo l s) := ⟨by unfold splitMnemo; walk⟩
instance (s : Str) : W QStep (splitLine s) := ⟨by unfold splitLine; walk⟩

theorem nstep_src {a b : Cfg} (h : NStep a b) (hb : b.2 = .live) : a.2 = .live := by
  cases h <;> first | rfl | cases hb

theorem qstar {a b : Cfg} (h : Star QStep a b) (hb : b.2 = .live) : a.2 = .live ∧ Alike a.1.tree b.1.tree ∧
    ∃ l p c f t n, b.1 = { a.1 with lst := l, bufpos := p, calcR := c, flags := { a.1.flags with listOn := f }, tree := t, notes := n } := by
  induction h with
  | refl => exact ⟨hb, .refl _, a.1.lst, a.1.bufpos, a.1.calcR, a.1.flags.listOn, a.1.tree, a.1.notes, rfl⟩
  | tail _ r ih =>
    cases r with
    | n r =>
      have hm := nstep_src r hb
      obtain ⟨h0, h1, l, p, c, f, t, n, e⟩ := ih hm
      refine ⟨h0, h1.trans (nstep_alike r hb), ?_⟩
      rename_i x y _
      obtain ⟨y, m⟩ := y
      obtain ⟨x, m'⟩ := x
      cases hb
      cases hm
      obtain ⟨l', p', c', f', t', e'⟩ := nframe (.one r)
      exact ⟨l', p', c', f', t', n, by dsimp only at e e' ⊢; rw [e', e]⟩
    | note s m =>
      obtain ⟨h0, h1, l, p, c, f, t, n, e⟩ := ih rfl
      exact ⟨h0, h1, l, p, c, f, t, _, by dsimp only at e ⊢; rw [e]⟩

theorem qwalk {m : M α} (h : Walk QStep m) {s s' : St} {a : α} (hr : m s = .ok a s') : s'.advance = s.advance ∧ Alike s.tree s'.tree ∧
    (GoodTree s.tree → GoodTree s'.tree) := by
  have hw := h s
  rw [hr] at hw
  obtain ⟨-, g, _, _, _, _, _, _, e⟩ := qstar hw rfl
  refine ⟨by dsimp only at e; rw [e], g, ?_⟩
  have key : ∀ {a b : Cfg}, Star QStep a b → GoodTree a.1.tree → GoodTree b.1.tree := by
    intro a b h
    induction h with
    | refl => exact id
    | tail _ r ih =>
      intro hg
      cases r with
      | n r => exact (nstep_good r).2 (ih hg)
      | note s n => exact ih hg
  exact key hw

/-- Taking the statement apart only marks names as used. -/
theorem statement_frame {s s1 : St} {f : Option Fields} (h : statement s = .ok f s1) :
    s1.segment = s.segment ∧ Alike s.tree s1.tree ∧ s1.log = s.log ∧ s1.advance = 0 ∧ s1.thiscall = s.thiscall ∧
      s1.flags.orgGv = !(starLabel s).flags.undef := by
  unfold statement at h
  rw [run_ok (startLine_eq s)] at h
  obtain ⟨t, s2, h2, h3⟩ := bind_ok h
  obtain ⟨c, b, rfl⟩ := stripLine_frame h2
  by_cases ht : t = []
  · rw [if_pos ht] at h3; cases h3
    exact ⟨rfl, .refl _, rfl, rfl, rfl, rfl⟩
  · rw [if_neg ht] at h3
    obtain ⟨f', s3, h4, h5⟩ := bind_ok h3
    cases h5
    have hw := (W.walk : Walk QStep (splitLine t)) { startedSt s with curline := c, bufpos := b }
    rw [h4] at hw
    obtain ⟨-, g, _, _, _, _, _, _, e⟩ := qstar hw rfl
    cases e
    exact ⟨rfl, g, rfl, rfl, rfl, rfl⟩

end Crasm

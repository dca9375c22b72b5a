import Verif.Props.C41

/-! The notes made in taking a line apart. -/

namespace Crasm

/-- Same names, and nothing is noted unless the word is known by dropping its suffix. -/
def Plainly (s : St) (w : Str) (e : Option (Str × Label)) (s' : St) : Prop :=
  s'.tree = s.tree ∧ s'.segment = s.segment ∧ (s'.notes = s.notes ∨ (searchlabel s w = none ∧ e.isSome))

theorem filter2_plain {t pat : Str} {s s' : St} {r : Option (Str × Str)} (h : filter2 t pat s = .ok r s') :
    s'.tree = s.tree ∧ s'.segment = s.segment ∧ s'.notes = s.notes := by
  have q := (inferInstance : Quiet (filter2 t pat)).run s
  rw [h] at q
  obtain ⟨l, b, f, rfl⟩ := q
  exact ⟨rfl, rfl, rfl⟩

theorem findmnemo_plain {w : Str} {s s' : St} {e : Option (Str × Label)} (h : findmnemo w s = .ok e s') : Plainly s w e s' := by
  unfold findmnemo at h
  rw [getS_bind_run] at h
  cases hs : searchlabel s w with
  | some l => rw [hs] at h; cases h; exact ⟨rfl, rfl, .inl rfl⟩
  | none =>
    rw [hs] at h
    obtain ⟨r, s1, h1, h⟩ := bind_ok h
    obtain ⟨q1, q2, q3⟩ := filter2_plain h1
    cases r with
    | none => cases h; exact ⟨q1, q2, .inl q3⟩
    | some p =>
      obtain ⟨a, b⟩ := p
      dsimp only at h
      cases ha : searchlabel s a with
      | none => rw [ha] at h; cases h; exact ⟨q1, q2, .inl q3⟩
      | some l =>
        rw [ha] at h
        dsimp only at h
        by_cases hm : l.modifier < 0
        · rw [if_pos hm] at h
          cases hu : usable (canon s.segment a) l with
          | none => rw [hu] at h; cases h; exact ⟨q1, q2, .inl q3⟩
          | some x => rw [hu] at h; cases h; exact ⟨q1, q2, .inr ⟨hs, rfl⟩⟩
        · rw [if_neg hm] at h
          cases h
          exact ⟨q1, q2, .inl q3⟩

theorem search_same {s s1 : St} (h1 : s1.tree = s.tree) (h2 : s1.segment = s.segment) (w : Str) : searchlabel s1 w = searchlabel s w := by
  unfold searchlabel
  rw [h1, h2]

theorem Plainly.after {s s1 s' : St} {w : Str} {e : Option (Str × Label)} (h1 : s1.tree = s.tree) (h2 : s1.segment = s.segment)
    (h3 : s1.notes = s.notes) (h : Plainly s1 w e s') : Plainly s w e s' := by
  obtain ⟨a, b, c⟩ := h
  refine ⟨a.trans h1, b.trans h2, ?_⟩
  rw [search_same h1 h2, h3] at c
  exact c

theorem splitMnemo_plain {l : Option Str} {t : Str} {s s' : St} {f : Fields} (h : splitMnemo l t s = .ok f s') : Plainly s f.mnemo f.entry s' := by
  unfold splitMnemo at h
  obtain ⟨r, s1, h1, h⟩ := bind_ok h
  obtain ⟨q1, q2, q3⟩ := filter2_plain h1
  refine .after q1 q2 q3 ?_
  have key : ∀ {w : Str} {o : Option Str}, (findmnemo w >>= fun e => (pure { label := l, mnemo := w, oper := o, entry := e } : M Fields)) s1 = .ok f s' →
      Plainly s1 f.mnemo f.entry s' := by
    intro w o h
    obtain ⟨e, s2, h2, h⟩ := bind_ok h
    cases h
    exact findmnemo_plain h2
  rcases r with _ | ⟨_ | ⟨a, as⟩, _ | ⟨b, bs⟩⟩ <;> exact key h

theorem splitLine_plain {t : Str} {s s' : St} {f : Fields} (h : splitLine t s = .ok f s') : Plainly s f.mnemo f.entry s' := by
  unfold splitLine at h
  obtain ⟨r, s1, h1, h⟩ := bind_ok h
  obtain ⟨q1, q2, q3⟩ := filter2_plain h1
  refine .after q1 q2 q3 ?_
  have key : (splitMnemo none t >>= fun f => match f.oper, f.entry with
      | some rest, none => if !checklabel f.mnemo then error c!"malformed label" else splitMnemo (some f.mnemo) rest
      | _, _ => pure f : M Fields) s1 = .ok f s' → Plainly s1 f.mnemo f.entry s' := by
    intro h
    obtain ⟨g, s2, h2, h⟩ := bind_ok h
    have hp := splitMnemo_plain h2
    obtain ⟨gl, gm, go, ge⟩ := g
    cases go with
    | none => cases h; exact hp
    | some o =>
      cases ge with
      | some e => cases h; exact hp
      | none =>
        dsimp only at h
        by_cases hc : (!checklabel gm) = true
        · rw [if_pos hc] at h
          exact (error_not_ok h).elim
        · rw [if_neg hc] at h
          obtain ⟨a, b, c⟩ := hp
          exact (splitMnemo_plain h).after a b (c.resolve_right fun h => by cases h.2)
  cases r with
  | none => exact key h
  | some p =>
    obtain ⟨l, o⟩ := p
    dsimp only at h
    by_cases hn : nospacein l = true
    · rw [if_pos hn] at h
      obtain ⟨e, s2, h2, h⟩ := bind_ok h
      by_cases hc : (!checklabel l) = true
      · rw [if_pos hc] at h
        exact (error_not_ok h).elim
      · rw [if_neg hc] at h
        cases h
        exact findmnemo_plain h2
    · rw [if_neg hn] at h
      exact key h

/-- A line is taken apart without a note, unless its mnemonic is known by dropping the suffix. -/
theorem line_plain {n : Nat} {st : Status} {s : St} {t mnemo : Str} {label oper : Option Str}
    (h : Spec.Stmt (C41.Known s) t label mnemo oper) (hl : Spec.Around t s.curline) (hlen : s.curline.length ≤ 600)
    (hm : searchlabel s mnemo ≠ none ∨ entryOf s mnemo = none) :
    ∃ s', Split s s' ∧ s'.notes = s.notes ∧ asmline (n + 1) st s =
      doFields (asmline n) n st (startsFlush s.curline) ⟨label, mnemo, oper, entryOf s mnemo⟩ s' := by
  obtain ⟨s', h1, h2⟩ := C41.C41_fields h hl hlen
  refine ⟨s', h2, ?_, ?_⟩
  · unfold statement at h1
    rw [run_ok (startLine_eq s)] at h1
    obtain ⟨x, s1, e1, h1⟩ := bind_ok h1
    have hs1 : s1.tree = s.tree ∧ s1.segment = s.segment ∧ s1.notes = s.notes := by
      unfold stripLine at e1
      rw [getS_bind_run] at e1
      obtain ⟨r, s2, e2, e1⟩ := bind_ok e1
      obtain ⟨q1, q2, q3⟩ := filter2_plain e2
      cases r with
      | none => cases e1; exact ⟨q1, q2, q3⟩
      | some p => cases e1; exact ⟨q1, q2, q3⟩
    by_cases hx : x = []
    · rw [if_pos hx] at h1
      cases h1
    · rw [if_neg hx] at h1
      obtain ⟨f, s2, e2, h1⟩ := bind_ok h1
      cases h1
      obtain ⟨-, -, c⟩ := (splitLine_plain e2).after hs1.1 hs1.2.1 hs1.2.2
      refine c.resolve_right fun hc => ?_
      rcases hm with hm | hm
      · exact hm hc.1
      · have := hc.2
        dsimp only at this
        rw [hm] at this
        cases this
  · show asmlineF (asmline n) n st s = _
    unfold asmlineF
    unfold statement at h1
    rw [run_ok (startLine_eq s)] at h1 ⊢
    rw [getS_bind_run]
    obtain ⟨x, s1, e1, h1⟩ := bind_ok h1
    rw [run_ok e1]
    by_cases hx : x = []
    · rw [if_pos hx] at h1
      cases h1
    · rw [if_neg hx] at h1 ⊢
      obtain ⟨f, s2, e2, h1⟩ := bind_ok h1
      cases h1
      rw [run_ok e2]
      rfl

end Crasm

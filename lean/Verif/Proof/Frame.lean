import Verif.Proof.WalkH
import Verif.Proof.Tree

/-! What N-steps leave alone, and where the special flags of expression results come from. -/

namespace Crasm

/-- A run of N-steps that returns normally only changes listing, work buffers, LIST and the tree. -/
theorem nframe {s s' : St} (h : Star NStep (s, .live) (s', .live)) :
    ∃ lst bufpos calcR listOn tree,
      s' = { s with lst, bufpos, calcR, tree, flags := { s.flags with listOn } } := by
  generalize ha : ((s, Mode.live) : Cfg) = a at h
  generalize hb : ((s', Mode.live) : Cfg) = b at h
  induction h generalizing s' with
  | refl => subst ha; cases hb; exact ⟨s.lst, s.bufpos, s.calcR, s.flags.listOn, s.tree, rfl⟩
  | tail _ r ih =>
    subst hb
    cases r with
    | scratch s1 lst bufpos calcR listOn =>
      obtain ⟨_, _, _, _, t, rfl⟩ := ih rfl
      exact ⟨lst, bufpos, calcR, listOn, t, rfl⟩
    | use s1 k =>
      obtain ⟨l, b, c, f, _, rfl⟩ := ih rfl
      exact ⟨l, b, c, f, _, rfl⟩

theorem usedLabel_special (s : St) (o : Option Label) :
    SpecialOk (usedLabel s o).flags (usedLabel s o).type (usedLabel s o).ptr (usedLabel s o).modifier ↔
      ∀ l, o = some l → SpecialOk l.flags l.type l.ptr l.modifier := by
  cases o with
  | none =>
    refine ⟨fun _ l h => (by cases h), fun _ => ⟨fun h => by simp [usedLabel] at h, fun h => ?_⟩⟩
    exact absurd (show addrType s.flags = .mnemo from h) (by unfold addrType; split <;> decide)
  | some l => exact ⟨fun h l' e => by cases e; exact h, fun h => h l rfl⟩

theorem good_put_iff {t : Tree} {k : Str} {x : Label}
    (h : SpecialOk x.flags x.type x.ptr x.modifier ↔ ∀ l, t.find k = some l → SpecialOk l.flags l.type l.ptr l.modifier) :
    GoodTree (t.put k x) ↔ GoodTree t := by
  constructor
  · intro g k' l' hl'
    by_cases e : k' = k
    · subst e; exact h.1 (g k' x (by simp)) l' hl'
    · exact g k' l' (by rwa [Tree.find_put_ne _ _ e])
  · intro g k' l' hl'
    by_cases e : k' = k
    · subst e
      rw [Tree.find_put_self] at hl'; cases hl'
      exact h.2 fun l hl => g _ l hl
    · exact g k' l' (by rwa [Tree.find_put_ne _ _ e] at hl')

theorem starLabel_special (s : St) :
    SpecialOk (starLabel s).flags (starLabel s).type (starLabel s).ptr (starLabel s).modifier ↔
      ∀ l, s.tree.find starKey = some l → SpecialOk l.flags l.type l.ptr l.modifier := by
  unfold starLabel
  cases s.tree.find starKey with
  | none => exact ⟨fun _ l h => (by cases h), fun _ => ⟨fun h => by simp at h, fun h => by cases h⟩⟩
  | some l => simp

theorem bumped_good {s : St} {t : Tree} (h : bumped s t) : GoodTree t ↔ GoodTree s.tree := by
  obtain ⟨v, -, rfl⟩ := h
  exact good_put_iff (starLabel_special s)

theorem nstep_good {a b : Cfg} (h : NStep a b) : GoodTree b.1.tree ↔ GoodTree a.1.tree := by
  cases h with
  | scratch => rfl
  | use s k => exact good_put_iff (usedLabel_special s _)
  | error0 => rfl
  | error1 s t h hb => exact bumped_good hb
  | odd => rfl
  | die => rfl

theorem nstar_good {a b : Cfg} (h : Star NStep a b) : GoodTree b.1.tree ↔ GoodTree a.1.tree := by
  induction h with
  | refl => rfl
  | tail _ r ih => rw [nstep_good r, ih]

/-- Results of `m` carry special flags only if the tree is to blame. -/
def Prov (m : M Result) : Prop :=
  ∀ s r s', m s = .ok r s' → GoodTree s'.tree → SpecialOk r.flags r.type r.ptr r.modifier

theorem bind_ok {m : M α} {f : α → M β} {s : St} {b : β} {s' : St} (h : (m >>= f) s = .ok b s') :
    ∃ a s1, m s = .ok a s1 ∧ f a s1 = .ok b s' := by
  rw [bind_run] at h
  cases hm : m s with
  | ok a s1 => rw [hm] at h; exact ⟨a, s1, rfl, h⟩
  | err s1 => rw [hm] at h; cases h
  | stop w s1 => rw [hm] at h; cases h

theorem Prov.bind {m : M α} {f : α → M Result} (hf : ∀ a, Prov (f a)) : Prov (m >>= f) := by
  intro s r s' h
  obtain ⟨a, s1, -, h2⟩ := bind_ok h
  exact hf a _ _ _ h2

theorem error_not_ok {msg : Str} {s s' : St} {a : α} : (error msg : M α) s ≠ .ok a s' := by
  intro h
  rcases error_run (α := α) msg s with ⟨w, s1, h', -⟩ | ⟨s1, s2, h', -⟩ <;> rw [h'] at h <;> cases h

theorem refuse_not_ok {msg : Str} {s s' : St} {a : α} : (refuse msg : M α) s ≠ .ok a s' := by
  intro h
  unfold refuse catchErr at h
  cases e : (error msg : M α) s with
  | ok a s' => exact error_not_ok e
  | stop w s' => rw [e] at h; cases h
  | err s' => rw [e] at h; cases h

theorem prov_refuse (msg : Str) : Prov (refuse msg) := fun _ _ _ h => absurd h refuse_not_ok
theorem prov_error (msg : Str) : Prov (error msg) := fun _ _ _ h => absurd h error_not_ok
theorem prov_stop (w : Stop) : Prov (stopWith w) := fun _ _ _ h => by cases h

theorem setRes_ok {tgt : Bool} {r r' : Result} {s s' : St} (h : setRes tgt r s = .ok r' s') :
    r' = r ∧ s'.tree = s.tree := by
  unfold setRes at h
  cases tgt <;> simp [whenM] at h <;> obtain ⟨rfl, rfl⟩ := h <;> exact ⟨rfl, rfl⟩

theorem prov_setRes (tgt : Bool) (r : Result) (h : SpecialOk r.flags r.type r.ptr r.modifier) : Prov (setRes tgt r) := by
  intro s r' s' h' _
  obtain ⟨rfl, -⟩ := setRes_ok h'
  exact h

theorem prov_cst (tgt : Bool) (v : Nat) : Prov (cst tgt v) := by
  unfold cst
  refine Prov.bind fun s => ?_
  exact prov_setRes _ _ ⟨fun h => by simp at h, fun h => by cases h⟩

theorem prov_cstE (tgt : Bool) (v : Except Str Nat) : Prov (cstE tgt v) := by
  unfold cstE
  split
  · exact prov_error _
  · exact prov_cst _ _

theorem findlabel_ok {n : Str} {s s' : St} {l : Label} (h : findlabel n s = .ok l s') :
    s'.tree.find (canon s.segment n) = some l := by
  unfold findlabel at h
  simp only [getS_bind_run, putLabel, modS_bind_run, pure_run] at h
  cases h
  exact Tree.find_put_self _ _ _

theorem prov_cstlabel (tgt : Bool) (n : Str) : Prov (cstlabel tgt n) := by
  intro s r s' h hg
  unfold cstlabel at h
  obtain ⟨l, s1, h1, h⟩ := bind_ok h
  obtain ⟨r1, s2, h2, h⟩ := bind_ok h
  obtain ⟨rfl, ht⟩ := setRes_ok h2
  split at h
  · exact absurd h error_not_ok
  · simp at h
    obtain ⟨rfl, rfl⟩ := h
    rw [ht] at hg
    exact hg _ l (findlabel_ok h1)

theorem special_clear {f : LFlags} {t : LType} {p : Ptr} {m : Int} (h : SpecialOk f t p m) (ht : t ≠ .mnemo) :
    f.defcond = false ∧ f.defmacro = false := by
  constructor
  · cases hd : f.defcond
    · rfl
    · exact absurd (h.1 (.inl hd)).1 ht
  · cases hd : f.defmacro
    · rfl
    · exact absurd (h.1 (.inr hd)).1 ht

theorem special_or {f g : LFlags} (hf : f.defcond = false ∧ f.defmacro = false)
    (hg : g.defcond = false ∧ g.defmacro = false) {t : LType} (ht : t ≠ .mnemo) (p : Ptr) (m : Int) : SpecialOk (f.or g) t p m := by
  refine ⟨?_, fun h => absurd h ht⟩
  simp [LFlags.or, hf.1, hf.2, hg.1, hg.2]

theorem applyOp2_special {op : Op2} {p a r : Result} (hp : SpecialOk p.flags p.type p.ptr p.modifier)
    (ha : SpecialOk a.flags a.type a.ptr a.modifier) (h : applyOp2 op p a = .ok r) :
    SpecialOk r.flags r.type r.ptr r.modifier := by
  suffices hh : p.type ≠ .mnemo ∧ a.type ≠ .mnemo ∧ r.flags = p.flags.or a.flags ∧ r.type ≠ .mnemo by
    rw [hh.2.2.1]
    exact special_or (special_clear hp hh.1) (special_clear ha hh.2.1) hh.2.2.2 _ _
  have abs2 : ∀ k : Result → OpRes, absolute2 p a k = .ok r →
      p.type = .absolute ∧ a.type = .absolute ∧ k { p with flags := p.flags.or a.flags } = .ok r := by
    intro k hk
    unfold absolute2 at hk
    split at hk
    · cases hk
    · split at hk
      · cases hk
      · simp_all
  have opt : ∀ (q : Result) (o : Option Word), ofOpt q o = .ok r → r.flags = q.flags ∧ r.type = q.type := by
    intro q o ho
    cases o with
    | none => cases ho
    | some v => cases ho; exact ⟨rfl, rfl⟩
  unfold applyOp2 at h
  cases op <;> simp only at h
  case add =>
    split at h
    · cases h
    · split at h
      · cases h; rename_i ht; simp [ht.1, ht.2]
      · split at h
        · cases h; rename_i ht; simp [ht.1, ht.2]
        · cases h
  case sub =>
    split at h
    · rename_i ht
      have := opt _ _ h
      refine ⟨?_, ?_, this.1, by rw [this.2]; exact LType.noConfusion⟩
      · rcases ht.2 with e | e <;> simp [e]
      · rcases ht.2 with e | e <;> simp [← ht.1, e]
    · split at h
      · rename_i ht
        exact ⟨by simp [ht.1], by simp [ht.2], (opt _ _ h).1, by rw [(opt _ _ h).2]; exact LType.noConfusion⟩
      · split at h
        · unfold regRange at h
          split at h
          · split at h <;> cases h
          · cases h
        · cases h
  case rlist =>
    split at h
    · cases h
    · split at h
      · cases h
      · cases h; simp_all
  case mul =>
    obtain ⟨h1, h2, h3⟩ := abs2 _ h
    exact ⟨by simp [h1], by simp [h2], (opt _ _ h3).1, by rw [(opt _ _ h3).2]; simp [h1]⟩
  all_goals
    obtain ⟨h1, h2, h3⟩ := abs2 _ h
    refine ⟨by simp [h1], by simp [h2], ?_⟩
    first
    | (cases h3; exact ⟨rfl, by simp [h1]⟩)
    | (split at h3
       · cases h3; exact ⟨rfl, by simp [h1]⟩
       · first
         | (cases h3; exact ⟨rfl, by simp [h1]⟩)
         | cases h3
         | (split at h3
            · cases h3
            · cases h3; exact ⟨rfl, by simp [h1]⟩))
    | (split at h3
       · cases h3
       · cases h3; exact ⟨rfl, by simp [h1]⟩)

theorem applyOp1_special {op : Op1} {p r : Result} (hp : SpecialOk p.flags p.type p.ptr p.modifier)
    (h : applyOp1 op p = .ok r) : SpecialOk r.flags r.type r.ptr r.modifier := by
  suffices hh : p.type ≠ .mnemo ∧ r.flags = p.flags ∧ r.type ≠ .mnemo by
    have := special_clear hp hh.1
    rw [hh.2.1]
    exact ⟨by simp [this.1, this.2], fun h => absurd h hh.2.2⟩
  unfold applyOp1 at h
  cases op <;> simp only at h <;> split at h
  case minus.isFalse => split at h <;> cases h; rename_i ht _; simp at ht; simp [ht]
  all_goals first
    | (cases h; done)
    | (cases h; rename_i ht; simp at ht; simp [ht])

theorem prov_parseConst (tgt : Bool) (e : Str) (rows : List (Str × Base)) : Prov (parseConst tgt e rows) := by
  induction rows with
  | nil =>
    unfold parseConst
    split
    · exact prov_error _
    · split
      · exact prov_cstE _ _
      · split
        · exact prov_cstE _ _
        · exact prov_error _
  | cons r rows ih =>
    obtain ⟨p, b⟩ := r
    unfold parseConst
    refine Prov.bind fun r => ?_
    split
    · exact prov_cstE _ _
    · exact ih

theorem prov_finishOp {tgt : Bool} {o : OpRes}
    (h : ∀ r, o = .ok r → SpecialOk r.flags r.type r.ptr r.modifier) : Prov (finishOp tgt o) := by
  unfold finishOp
  split
  · exact prov_setRes _ _ (h _ rfl)
  · exact Prov.bind fun _ => prov_refuse _
  · exact prov_stop _
  · exact prov_stop _

theorem walk_good {m : M α} (h : Walk NStep m) {s s' : St} {a : α} (hr : m s = .ok a s') :
    GoodTree s'.tree ↔ GoodTree s.tree := by
  have := h s
  rw [hr] at this
  exact nstar_good this

theorem prov_parse2 (n : Nat) : ∀ tgt e, Prov (parse2 n tgt e) := by
  induction n with
  | zero => intro tgt e; exact prov_stop _
  | succ n ih =>
    intro tgt e
    unfold parse2
    generalize revTable = rows
    induction rows with
    | nil =>
      unfold parseRows parseLeaf
      split
      · exact prov_cstlabel _ _
      · exact prov_parseConst _ _ _
    | cons row rows ihr =>
      cases row with
      | dya alts =>
        unfold parseRows
        refine Prov.bind fun m => ?_
        split
        · split
          · exact ihr
          · intro s r s' h hg
            obtain ⟨p, s1, h1, h⟩ := bind_ok h
            obtain ⟨a, s2, h2, h3⟩ := bind_ok h
            have g2 := (walk_good W.walk h3).1 hg
            have g1 := (walk_good W.walk h2).1 g2
            exact prov_finishOp (fun r hr =>
              applyOp2_special (ih _ _ _ _ _ h1 g1) (ih _ _ _ _ _ h2 g2) hr) _ _ _ h3 hg
        · exact ihr
      | mon pat op =>
        unfold parseRows
        refine Prov.bind fun m => ?_
        split
        · intro s r s' h hg
          obtain ⟨p, s1, h1, h3⟩ := bind_ok h
          have g1 := (walk_good W.walk h3).1 hg
          exact prov_finishOp (fun r hr => applyOp1_special (ih _ _ _ _ _ h1 g1) hr) _ _ _ h3 hg
        · exact ihr
      | paren pat =>
        unfold parseRows
        refine Prov.bind fun m => ?_
        split
        · exact ih _ _
        · exact ihr

theorem prov_parse (e : Option Str) : Prov (parse e) := by
  unfold parse
  split
  · exact prov_error _
  · exact prov_error _
  · exact Prov.bind fun _ => Prov.bind fun _ => prov_parse2 _ _ _

end Crasm

import Verif.Proof.Run

/-! The symbol tree is a search tree. -/

namespace Crasm

/-- All keys satisfy `p`. -/
def Tree.AllKeys (p : Str → Prop) : Tree → Prop
  | .leaf => True
  | .node l k _ r => p k ∧ l.AllKeys p ∧ r.AllKeys p

def Tree.Ordered : Tree → Prop
  | .leaf => True
  | .node l k _ r => l.AllKeys (fun x => scmp x k = .lt) ∧ r.AllKeys (fun x => scmp k x = .lt) ∧
      l.Ordered ∧ r.Ordered

theorem Tree.allKeys_put {p : Str → Prop} {k : Str} {x : Label} (t : Tree) (h : t.AllKeys p) (hk : p k) :
    (t.put k x).AllKeys p := by
  induction t with
  | leaf => exact ⟨hk, trivial, trivial⟩
  | node l k' v r ihl ihr =>
    obtain ⟨h1, h2, h3⟩ := h
    unfold Tree.put
    split
    · exact ⟨h1, h2, h3⟩
    · exact ⟨h1, h2, ihr h3⟩
    · exact ⟨h1, ihl h2, h3⟩

theorem Tree.ordered_put {k : Str} {x : Label} (t : Tree) (h : t.Ordered) : (t.put k x).Ordered := by
  induction t with
  | leaf => exact ⟨trivial, trivial, trivial, trivial⟩
  | node l k' v r ihl ihr =>
    obtain ⟨h1, h2, h3, h4⟩ := h
    unfold Tree.put
    split
    · exact ⟨h1, h2, h3, h4⟩
    · rename_i e
      refine ⟨h1, Tree.allKeys_put r h2 ?_, h3, ihr h4⟩
      exact scmp_swap.1 e
    · rename_i e
      exact ⟨Tree.allKeys_put l h1 e, h2, ihl h3, h4⟩

theorem Tree.allKeys_map {p : Str → Prop} {f : Label → Label} (t : Tree) (h : t.AllKeys p) :
    (t.map f).AllKeys p := by
  induction t with
  | leaf => trivial
  | node l k' v r ihl ihr => exact ⟨h.1, ihl h.2.1, ihr h.2.2⟩

theorem Tree.ordered_map {f : Label → Label} (t : Tree) (h : t.Ordered) : (t.map f).Ordered := by
  induction t with
  | leaf => trivial
  | node l k' v r ihl ihr =>
    obtain ⟨h1, h2, h3, h4⟩ := h
    exact ⟨Tree.allKeys_map l h1, Tree.allKeys_map r h2, ihl h3, ihr h4⟩

/-! ### In-order listing -/

theorem scmp_lt {a b : Str} : scmp a b = .lt ↔ a < b := by
  induction a generalizing b with
  | nil => cases b <;> simp [scmp]
  | cons x xs ih =>
    cases b with
    | nil => simp [scmp]
    | cons y ys =>
      have hlt : ∀ {p q : Char}, p < q ↔ p.toNat < q.toNat := fun {p q} => Iff.rfl
      rw [List.cons_lt_cons_iff]
      unfold scmp
      split
      · rename_i h; simp [hlt.2 h]
      · split
        · rename_i h1 h2
          simp only [hlt, h1, false_or, reduceCtorEq, false_iff]
          rintro ⟨rfl, -⟩
          omega
        · rename_i h1 h2
          have e : x = y := toNat_inj (by omega)
          subst e
          simp [ih]

theorem Tree.allKeys_toList {p : Str → Prop} (t : Tree) (h : t.AllKeys p) : ∀ e ∈ t.toList, p e.1 := by
  induction t with
  | leaf => simp [Tree.toList]
  | node l k v r ihl ihr =>
    intro e he
    simp only [Tree.toList, List.mem_append, List.mem_cons] at he
    rcases he with he | rfl | he
    · exact ihl h.2.1 e he
    · exact h.1
    · exact ihr h.2.2 e he

theorem Tree.toList_sorted (t : Tree) (h : t.Ordered) : (t.toList.map (·.1)).Pairwise (· < ·) := by
  induction t with
  | leaf => simp [Tree.toList]
  | node l k v r ihl ihr =>
    obtain ⟨h1, h2, h3, h4⟩ := h
    have g1 := Tree.allKeys_toList l h1
    have g2 := Tree.allKeys_toList r h2
    simp only [Tree.toList, List.map_append, List.map_cons, List.pairwise_append, List.pairwise_cons,
      List.mem_cons, List.mem_map]
    refine ⟨ihl h3, ⟨?_, ihr h4⟩, ?_⟩
    · rintro _ ⟨e, he, rfl⟩; exact scmp_lt.1 (g2 e he)
    · rintro _ ⟨e, he, rfl⟩ b (rfl | ⟨e', he', rfl⟩)
      · exact scmp_lt.1 (g1 e he)
      · exact scmp_lt.1 (scmp_trans (g1 e he) (g2 e' he'))

theorem Tree.mem_toList (t : Tree) (h : t.Ordered) (k : Str) (x : Label) :
    (k, x) ∈ t.toList ↔ t.find k = some x := by
  induction t with
  | leaf => simp [Tree.toList, Tree.find]
  | node l k' v r ihl ihr =>
    obtain ⟨h1, h2, h3, h4⟩ := h
    have g1 := Tree.allKeys_toList l h1
    have g2 := Tree.allKeys_toList r h2
    simp only [Tree.toList, List.mem_append, List.mem_cons, Prod.mk.injEq]
    unfold Tree.find
    split
    · rename_i e
      have e := scmp_eq.1 e
      subst e
      constructor
      · rintro (he | ⟨-, rfl⟩ | he)
        · have := g1 _ he; rw [scmp_refl] at this; cases this
        · rfl
        · have := g2 _ he; rw [scmp_refl] at this; cases this
      · intro he; cases he; simp
    · rename_i e
      rw [← ihr h4]
      constructor
      · rintro (he | ⟨rfl, -⟩ | he)
        · have := g1 _ he; rw [e] at this; cases this
        · rw [scmp_refl] at e; cases e
        · exact he
      · intro he; exact .inr (.inr he)
    · rename_i e
      rw [← ihl h3]
      constructor
      · rintro (he | ⟨rfl, -⟩ | he)
        · exact he
        · rw [scmp_refl] at e; cases e
        · have := g2 _ he; rw [scmp_swap.2 e] at this; cases this
      · intro he; exact .inl he

theorem ordered_step {a b : Cfg} (h : Step a b) (ha : a.1.tree.Ordered) : b.1.tree.Ordered := by
  cases h with
  | p h =>
    cases h with
    | h h =>
      cases h with
      | n h =>
        cases h with
        | use s k => exact Tree.ordered_put _ ha
        | error1 s t h hb => obtain ⟨v, -, rfl⟩ := hb; exact Tree.ordered_put _ ha
        | _ => exact ha
      | _ => exact ha
    | bindNew => exact Tree.ordered_put _ ha
    | bindOld => exact Tree.ordered_put _ ha
    | _ => exact ha
  | here => exact Tree.ordered_put _ ha
  | equ => exact Tree.ordered_put _ ha
  | macroName => exact Tree.ordered_put _ ha
  | macroText => exact Tree.ordered_put _ ha
  | markUsed => exact Tree.ordered_put _ ha
  | bump s t hb => obtain ⟨v, -, rfl⟩ := hb; exact Tree.ordered_put _ ha
  | _ => exact ha

theorem ordered_reach {o : Opts} {env : Env} {src : Str} {n : Nat} {c : Cfg}
    (h : Reach o (initSt env src) n c) : c.1.tree.Ordered :=
  h.inv (P := fun _ c => c.1.tree.Ordered) (by simp [initSt, Tree.Ordered]) (fun _ _ _ h ha => ordered_step h ha)
    (fun _ h => Tree.ordered_put _ h) (fun _ h => Tree.ordered_put _ (Tree.ordered_map _ h))

end Crasm

import Verif.Proof.Steps

/-! The symbol tree behaves like a map, and its in-order listing is sorted. -/

namespace Crasm

theorem toNat_inj {a b : Char} (h : a.toNat = b.toNat) : a = b := Char.ext (UInt32.toNat.inj h)

theorem scmp_refl (a : Str) : scmp a a = .eq := by
  induction a with
  | nil => rfl
  | cons c a ih => simp [scmp, ih]

theorem scmp_eq {a b : Str} : scmp a b = .eq ↔ a = b := by
  refine ⟨?_, fun h => h ▸ scmp_refl a⟩
  induction a generalizing b with
  | nil => cases b <;> simp [scmp]
  | cons c a ih =>
    cases b with
    | nil => simp [scmp]
    | cons d b =>
      simp only [scmp]
      split
      · simp
      · split
        · simp
        · intro h
          rw [ih h, toNat_inj (a := c) (b := d) (by omega)]

theorem scmp_swap {a b : Str} : scmp a b = .gt ↔ scmp b a = .lt := by
  induction a generalizing b with
  | nil => cases b <;> simp [scmp]
  | cons c a ih =>
    cases b with
    | nil => simp [scmp]
    | cons d b =>
      simp only [scmp]
      by_cases h1 : c.toNat < d.toNat
      · simp [h1]; omega
      · by_cases h2 : d.toNat < c.toNat
        · simp [h1, h2]
        · simp [h1, h2, ih]

theorem scmp_trans {a b c : Str} (h1 : scmp a b = .lt) (h2 : scmp b c = .lt) : scmp a c = .lt := by
  induction a generalizing b c with
  | nil =>
    cases b with
    | nil => simp [scmp] at h1
    | cons d b => cases c with
      | nil => simp [scmp] at h2
      | cons e c => rfl
  | cons x a ih =>
    cases b with
    | nil => simp [scmp] at h1
    | cons y b =>
      cases c with
      | nil => simp [scmp] at h2
      | cons z c =>
        simp only [scmp] at h1 h2 ⊢
        by_cases hxy : x.toNat < y.toNat
        · by_cases hyz : y.toNat < z.toNat
          · rw [if_pos (by omega)]
          · by_cases hzy : z.toNat < y.toNat
            · simp [hyz, hzy] at h2
            · rw [if_pos (by omega)]
        · by_cases hyx : y.toNat < x.toNat
          · simp [hxy, hyx] at h1
          · by_cases hyz : y.toNat < z.toNat
            · rw [if_pos (by omega)]
            · by_cases hzy : z.toNat < y.toNat
              · simp [hyz, hzy] at h2
              · simp only [hxy, hyx, hyz, hzy, if_false] at h1 h2
                rw [if_neg (by omega), if_neg (by omega)]
                exact ih h1 h2

theorem Tree.find_put (t : Tree) (k k' : Str) (x : Label) :
    (t.put k x).find k' = if k' = k then some x else t.find k' := by
  induction t with
  | leaf =>
    simp only [Tree.put, Tree.find]
    by_cases h : k' = k
    · simp [h, scmp_refl]
    · rw [if_neg h]
      split
      · rename_i h2; exact absurd (scmp_eq.1 h2) h
      · rfl
      · rfl
  | node l kk v r ihl ihr =>
    simp only [Tree.put]
    split
    · rename_i he
      have := scmp_eq.1 he; subst this
      simp only [Tree.find]
      by_cases h : k' = k
      · simp [h, scmp_refl]
      · rw [if_neg h]
        split <;> rename_i h2
        · exact absurd (scmp_eq.1 h2) h
        · rfl
        · rfl
    · rename_i hg
      simp only [Tree.find, ihr]
      by_cases h : k' = k
      · subst h; simp [hg]
      · simp [h]
    · rename_i hg
      simp only [Tree.find, ihl]
      by_cases h : k' = k
      · subst h; simp [hg]
      · simp [h]

@[simp] theorem Tree.find_put_self (t : Tree) (k : Str) (x : Label) : (t.put k x).find k = some x := by
  simp [Tree.find_put]
theorem Tree.find_put_ne (t : Tree) {k k' : Str} (x : Label) (h : k' ≠ k) :
    (t.put k x).find k' = t.find k' := by simp [Tree.find_put, h]

theorem Tree.find_map (f : Label → Label) (t : Tree) (k : Str) : (t.map f).find k = (t.find k).map f := by
  induction t with
  | leaf => rfl
  | node l kk v r ihl ihr =>
    simp only [Tree.map, Tree.find]
    split <;> simp [*]

theorem Tree.put_put (t : Tree) (k : Str) (x y : Label) : (t.put k y).put k x = t.put k x := by
  induction t with
  | leaf => simp [Tree.put, scmp_refl]
  | node l kk v r ihl ihr =>
    simp only [Tree.put]
    cases h : scmp k kk <;> simp only [Tree.put, h, ihl, ihr]

end Crasm

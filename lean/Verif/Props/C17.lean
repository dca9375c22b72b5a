import Verif.Proof.Run

/-! # C17: the symbol table is a faithful map -/

namespace Crasm

/-- The operations of the symbol table: define a name, refer to a name. -/
inductive SymOp
  | define (name : Str) (flags : LFlags) (type : LType) (value : Word)
  | refer (name : Str)

/-- A definition that succeeded. -/
structure Defn where
  flags : LFlags
  type : LType
  value : Word

/-- Perform an operation; the flag tells whether it succeeded. -/
def SymOp.run (s : St) : SymOp → St × Bool
  | .define n f t v => match deflabel n f t v s with
    | .ok _ s' => (s', true)
    | r => (r.state, false)
  | .refer n => match findlabel n s with
    | .ok _ s' => (s', true)
    | r => (r.state, false)

/-- Perform a sequence of operations; the result lists them with their success. -/
def runOps : St → List SymOp → St × List (SymOp × Bool)
  | s, [] => (s, [])
  | s, op :: ops =>
    let (s', b) := op.run s
    let (s'', tr) := runOps s' ops
    (s'', (op, b) :: tr)

/-- The last successful definition under the key `k`. -/
def lastDef (seg : Nat) (k : Str) : List (SymOp × Bool) → Option Defn
  | [] => none
  | (op, b) :: tr =>
    match lastDef seg k tr with
    | some d => some d
    | none =>
      match op with
      | .define n f t v => if b ∧ canon seg n = k then some ⟨f, t, v⟩ else none
      | .refer _ => none

/-- Is there an operation on the key `k` that succeeded? -/
def touched (seg : Nat) (k : Str) : List (SymOp × Bool) → Bool
  | [] => false
  | (.define n _ _ _, b) :: tr => (b && decide (canon seg n = k)) || touched seg k tr
  | (.refer n, b) :: tr => (b && decide (canon seg n = k)) || touched seg k tr

/-- The label has the attributes of the definition. (`used`, `forward` and `noredef` also record the earlier
    history of the name.) -/
def HasAttrs (l : Label) (d : Defn) : Prop :=
  l.type = d.type ∧ l.value = d.value ∧ l.ptr = .null ∧ l.flags.undef = d.flags.undef ∧
  l.flags.nolabel = d.flags.nolabel ∧ l.flags.deflabel = d.flags.deflabel ∧
  l.flags.defcond = d.flags.defcond ∧ l.flags.defmacro = d.flags.defmacro ∧
  (d.flags.noredef = true → l.flags.noredef = true) ∧ (d.flags.forward = true → l.flags.forward = true)

/-- Labels that differ at most in having been used. -/
def SameDef (a b : Label) : Prop := ∃ u, b = { a with flags := { a.flags with used := u } }

theorem SameDef.refl (a : Label) : SameDef a a := ⟨a.flags.used, rfl⟩
theorem SameDef.trans {a b c : Label} (h : SameDef a b) (h' : SameDef b c) : SameDef a c := by
  obtain ⟨u, rfl⟩ := h
  obtain ⟨v, rfl⟩ := h'
  exact ⟨v, rfl⟩
theorem SameDef.attrs {a b : Label} {d : Defn} (h : SameDef a b) (ha : HasAttrs a d) : HasAttrs b d := by
  obtain ⟨u, rfl⟩ := h
  exact ha

/-- The label that a mere reference enters. -/
def referred (s : St) : Label :=
  { flags := { undef := true, forward := true, noredef := true }, type := addrType s.flags }

theorem findlabel_run (n : Str) (s : St) : findlabel n s =
    .ok { (match s.tree.find (canon s.segment n) with | some l => l | none => referred s) with
          flags := { (match s.tree.find (canon s.segment n) with | some l => l | none => referred s).flags with
            used := true } }
      (s.putL (canon s.segment n)
        { (match s.tree.find (canon s.segment n) with | some l => l | none => referred s) with
          flags := { (match s.tree.find (canon s.segment n) with | some l => l | none => referred s).flags with
            used := true } }) := by
  unfold findlabel searchlabel
  rw [getS_bind_run]
  cases s.tree.find (canon s.segment n) <;> rfl

/-- One operation: the scope stays, and what happens at a key other than `*`. -/
theorem symop_run (s : St) (op : SymOp) (k : Str) (hk : k ≠ starKey) :
    (op.run s).1.segment = s.segment ∧ (op.run s).1.flags.relatif = s.flags.relatif ∧
    match op with
    | .define n f t v =>
      if (op.run s).2 ∧ canon s.segment n = k then
        ∃ l, (op.run s).1.tree.find k = some l ∧ HasAttrs l ⟨f, t, v⟩
      else (op.run s).1.tree.find k = s.tree.find k
    | .refer n =>
      (op.run s).2 = true ∧
      if canon s.segment n = k then
        ∃ l, (op.run s).1.tree.find k = some l ∧
          SameDef (match s.tree.find k with | some l => l | none => referred s) l
      else (op.run s).1.tree.find k = s.tree.find k := by
  cases op with
  | refer n =>
    simp only [SymOp.run]
    rw [findlabel_run]
    refine ⟨rfl, rfl, rfl, ?_⟩
    split
    · rename_i h
      subst h
      exact ⟨_, Tree.find_put_self _ _ _, true, rfl⟩
    · rename_i h
      exact Tree.find_put_ne _ _ (Ne.symm h)
  | define n f t v =>
    simp only
    have hrun : ∀ r, deflabel n f t v s = r → (SymOp.define n f t v).run s =
        (match r with | .ok _ s' => (s', true) | r => (r.state, false)) := by
      intro r h; subst h; rfl
    rcases deflabel_run n f t v s with ⟨msg, h⟩ | ⟨hd, h⟩
    · rcases error_run (α := Str) msg s with ⟨w, s', e, hs⟩ | ⟨s1, s', e, hs, he⟩
      · rw [hrun _ (h.trans e)]
        obtain ⟨l, b, f, rfl⟩ := hs
        exact ⟨rfl, rfl, by simp [Res.state]⟩
      · rw [hrun _ (h.trans e)]
        obtain ⟨l, b, f, rfl⟩ := hs
        rcases he with ⟨-, rfl⟩ | ⟨t, -, hb, rfl⟩
        · exact ⟨rfl, rfl, by simp [Res.state]⟩
        · refine ⟨rfl, rfl, ?_⟩
          obtain ⟨v, -, rfl⟩ := hb
          simp only [Res.state, Bool.false_eq_true, false_and, if_false]
          exact Tree.find_put_ne _ _ hk
    · rw [hrun _ h]
      refine ⟨rfl, rfl, ?_⟩
      simp only [true_and]
      split
      · rename_i h
        subst h
        refine ⟨_, Tree.find_put_self _ _ _, ?_⟩
        generalize s.tree.find (canon s.segment n) = o
        cases o <;> simp +contextual [HasAttrs, defdLabel, LFlags.or]
      · rename_i h
        exact Tree.find_put_ne _ _ (Ne.symm h)

/-- **C17.** After any sequence of definitions and references (successful or not), what is found under a name is
    what its last successful definition said; if there was none, it is what was there before (or, after a mere
    reference, an undefined entry, and nothing if the name was not mentioned). `*` is not included, as its value
    moves by itself. -/
theorem C17_map (ops : List SymOp) (s : St) (name : Str) (hk : canon s.segment name ≠ starKey) :
    match lastDef s.segment (canon s.segment name) (runOps s ops).2 with
    | some d => ∃ l, searchlabel (runOps s ops).1 name = some l ∧ HasAttrs l d
    | none =>
      match searchlabel s name with
      | some l => ∃ l', searchlabel (runOps s ops).1 name = some l' ∧ SameDef l l'
      | none =>
        if touched s.segment (canon s.segment name) (runOps s ops).2 then
          ∃ l, searchlabel (runOps s ops).1 name = some l ∧ SameDef (referred s) l
        else searchlabel (runOps s ops).1 name = none := by
  have key : ∀ (ops : List SymOp) (s : St), (runOps s ops).1.segment = s.segment ∧
      ∀ k, k ≠ starKey →
      match lastDef s.segment k (runOps s ops).2 with
      | some d => ∃ l, (runOps s ops).1.tree.find k = some l ∧ HasAttrs l d
      | none =>
        match s.tree.find k with
        | some l => ∃ l', (runOps s ops).1.tree.find k = some l' ∧ SameDef l l'
        | none =>
          if touched s.segment k (runOps s ops).2 then
            ∃ l, (runOps s ops).1.tree.find k = some l ∧ SameDef (referred s) l
          else (runOps s ops).1.tree.find k = none := by
    intro ops
    induction ops with
    | nil =>
      intro s
      refine ⟨rfl, fun k _ => ?_⟩
      simp only [runOps, lastDef, touched]
      cases s.tree.find k with
      | none => rfl
      | some l => exact ⟨l, rfl, .refl l⟩
    | cons op ops ih =>
      intro s
      have hfr := symop_run s op c!"?" (by decide)
      obtain ⟨ihs, ihk⟩ := ih (op.run s).1
      have e1 : (runOps s (op :: ops)).1 = (runOps (op.run s).1 ops).1 := rfl
      have e2 : (runOps s (op :: ops)).2 = (op, (op.run s).2) :: (runOps (op.run s).1 ops).2 := rfl
      refine ⟨by rw [e1, ihs, hfr.1], fun k hk => ?_⟩
      have h1 := ihk k hk
      obtain ⟨hseg, hrel, hop⟩ := symop_run s op k hk
      rw [e1, e2]
      rw [hseg] at h1
      have href : referred (op.run s).1 = referred s := by
        unfold referred addrType; rw [hrel]
      rw [href] at h1
      cases hl : lastDef s.segment k (runOps (op.run s).1 ops).2 with
      | some d =>
        simp only [lastDef, hl] at h1 ⊢
        exact h1
      | none =>
        simp only [lastDef, hl] at h1 ⊢
        cases op with
        | define n f t v =>
          simp only at hop ⊢
          by_cases hd : ((SymOp.define n f t v).run s).2 = true ∧ canon s.segment n = k
          · rw [if_pos hd] at hop ⊢
            obtain ⟨l, h2, h3⟩ := hop
            rw [h2] at h1
            obtain ⟨l', h4, h5⟩ := h1
            exact ⟨l', h4, h5.attrs h3⟩
          · rw [if_neg hd] at hop ⊢
            rw [hop] at h1
            simp only
            cases hf : s.tree.find k with
            | some l => rw [hf] at h1; exact h1
            | none =>
              rw [hf] at h1
              simp only [touched] at h1 ⊢
              have : (((SymOp.define n f t v).run s).2 && decide (canon s.segment n = k)) = false := by
                simpa using hd
              simp only [this, Bool.false_or]
              exact h1
        | refer n =>
          simp only at hop ⊢
          obtain ⟨ht, hop⟩ := hop
          by_cases hc : canon s.segment n = k
          · rw [if_pos hc] at hop
            obtain ⟨l, h2, h3⟩ := hop
            rw [h2] at h1
            obtain ⟨l', h4, h5⟩ := h1
            cases hf : s.tree.find k with
            | some l0 =>
              rw [hf] at h3
              exact ⟨l', h4, h3.trans h5⟩
            | none =>
              rw [hf] at h3
              simp only [touched, ht, hc, decide_true, Bool.and_self, Bool.true_or, if_true]
              exact ⟨l', h4, h3.trans h5⟩
          · rw [if_neg hc] at hop
            rw [hop] at h1
            cases hf : s.tree.find k with
            | some l => rw [hf] at h1; exact h1
            | none =>
              rw [hf] at h1
              simp only [touched, hc, decide_false, Bool.and_false, Bool.false_or] at h1 ⊢
              exact h1
  obtain ⟨hseg, hk'⟩ := key ops s
  have := hk' _ hk
  unfold searchlabel
  rw [hseg]
  exact this

/-- `b` is defined, referred to, redefined; in between `a` is referred to and defined. -/
def ops17 : List SymOp :=
  [.define c!"b" {} .absolute 1, .refer c!"a", .define c!"B" {} .absolute 2,
   .define c!"a" { noredef := true } .absolute 7, .define c!"A" {} .absolute 9, .refer c!"b"]
example :
    (lastDef 0 c!"B" (runOps (initSt { fs := fun _ => none } []) ops17).2).map (·.value) = some 2 ∧
    (lastDef 0 c!"A" (runOps (initSt { fs := fun _ => none } []) ops17).2).map (·.value) = some 7 ∧
    (searchlabel (runOps (initSt { fs := fun _ => none } []) ops17).1 c!"a").map (·.value) = some 7 := by
  decide +kernel

end Crasm

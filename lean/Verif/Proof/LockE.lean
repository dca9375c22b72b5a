import Verif.Proof.Lock

/-! Two passes side by side: the relation between the two states; symbols and expressions. -/

namespace Crasm

/-! ### Related values, symbols and states -/

/-- The opcodes of BIT, SET and RES. -/
def BitCode (m : Int) : Prop := m = toShort 0xcb40 ∨ m = toShort 0xcbc0 ∨ m = toShort 0xcb80

/-- Results of the same expression in the two passes. The value need only be the same if no forward reference is
    involved; that it is must be known in both passes, so FORWARD is the same. -/
structure Core (r1 r2 : Result) : Prop where
  undef : r2.flags.undef = r1.flags.undef
  forward : r2.flags.forward = r1.flags.forward
  type : r2.type = r1.type
  rel : r1.type ≠ .relative
  voc : r1.type = .mnemo ∨ r1.type = .macro →
    r2.flags.nolabel = r1.flags.nolabel ∧ r2.flags.deflabel = r1.flags.deflabel ∧ r2.flags.defmacro = r1.flags.defmacro ∧
    r2.flags.defcond = r1.flags.defcond ∧ r2.ptr = r1.ptr ∧
    ((r1.flags.defcond = true ∨ r1.flags.defmacro = true) ↔ ∃ p ∈ condPseudos, r1.ptr = .handler (.pseudo p)) ∧
    (r1.ptr = .handler (.hz80 .bitop) → BitCode r1.modifier)
  val : r1.flags.forward = false ∨ (r1.type ≠ .absolute ∧ r1.type ≠ .directbit) → r2.value = r1.value
  md : r1.flags.forward = false ∨ (r1.type ≠ .absolute ∧ r1.type ≠ .directbit) → r1.type ≠ .absolute → r1.type ≠ .macro →
    r2.modifier = r1.modifier

/-- A symbol as the result of an expression (operator.c:251-255). -/
def Label.res (l : Label) : Result := { flags := l.flags, type := l.type, modifier := l.modifier, ptr := l.ptr, value := l.value }

/-- The same defined symbol in the two passes. -/
structure LabRel (l1 l2 : Label) : Prop where
  core : Core l1.res l2.res
  defd : l1.flags.undef = false
  noredef : l2.flags.noredef = l1.flags.noredef

/-- `f` as it enters pass 2, but for the mark USED. -/
def Carried (f l2 : Label) : Prop := l2 = { undefOne f with flags := { (undefOne f).flags with used := l2.flags.used } }

/-- A symbol not yet defined in either pass: in pass 1 unknown or referenced only, in pass 2 left over from pass 1. -/
structure Und (F o1 o2 : Option Label) : Prop where
  fst : ∀ l, o1 = some l → l.flags.undef = true ∧ l.flags.forward = true ∧ l.flags.noredef = true ∧ l.type = .absolute ∧ l.origin = none
  snd : ∀ f, F = some f → f.origin ≠ some .pseudos ∧ ∃ l2, o2 = some l2 ∧ Carried f l2
  non : F = none → o2 = none

/-- The location counter in the two passes. -/
def StarRel (o1 o2 : Option Label) : Prop :=
  ∃ l1 l2, o1 = some l1 ∧ o2 = some l2 ∧ l1.flags.noredef = false ∧ l2.flags.noredef = false ∧
    ((l1.flags.undef = true ∧ l2.flags.undef = true ∧ l1.flags.forward = false ∧ l2.flags.forward = false) ∨
      (LabRel l1 l2 ∧ l1.value = l2.value))

def NodeRel (X : Ctx) (k : Str) (o1 o2 : Option Label) : Prop :=
  if k = starKey then StarRel o1 o2
  else Und (X.E1.tree.find k) o1 o2 ∨ ∃ l1 l2, o1 = some l1 ∧ o2 = some l2 ∧ LabRel l1 l2

def kindsOf (s : St) : List SrcKind := s.stack.map (·.kind)

/-- The two passes at the same point, at the end of a line. -/
structure PW (X : Ctx) (s1 s2 : St) : Prop where
  p1 : s1.passnumber = 1
  p2 : s2.passnumber = 2
  env : s2.env = s1.env
  main : s2.main = s1.main
  mainEof : s2.mainEof = s1.mainEof
  eof : s1.mainEof = true → s1.main = []
  kinds : kindsOf s2 = kindsOf s1
  curline : s2.curline = s1.curline
  macrolevel : s2.macrolevel = s1.macrolevel
  thiscall : s2.thiscall = s1.thiscall
  segment : s2.segment = s1.segment
  mlist : s2.flags.macrolistOn = s1.flags.macrolistOn
  clist : s2.flags.iflistOn = s1.flags.iflistOn
  rel1 : s1.flags.relatif = false
  rel2 : s2.flags.relatif = false
  cpu : s1.flags.cpuGv = false
  counts : (choicesOf 2 s2.notes).length = (choicesOf 1 s1.notes).length
  labels : labelsOf 2 s2.notes = labelsOf 1 s1.notes
  tree : ∀ k, NodeRel X k (s1.tree.find k) (s2.tree.find k)

/-- ... and within a line. -/
structure P (X : Ctx) (s1 s2 : St) : Prop extends PW X s1 s2 where
  advance : s2.advance = s1.advance
  org : s2.flags.orgGv = s1.flags.orgGv
  pc : s1.flags.orgGv = true → s2.code.pc = s1.code.pc
  star : s1.flags.orgGv = true → ∀ l, s1.tree.find starKey = some l → l.flags.undef = false

variable {X : Ctx} {s1 s2 : St}

theorem P.same {t1 t2 : St} (h : P X s1 s2) (h1 : SameBut s1 t1) (h2 : SameBut s2 t2) : P X t1 t2 := by
  obtain ⟨_, _, _, rfl⟩ := h1
  obtain ⟨_, _, _, rfl⟩ := h2
  exact { h with }

theorem PW.same {t1 t2 : St} (h : PW X s1 s2) (h1 : SameBut s1 t1) (h2 : SameBut s2 t2) : PW X t1 t2 := by
  obtain ⟨_, _, _, rfl⟩ := h1
  obtain ⟨_, _, _, rfl⟩ := h2
  exact { h with }

/-- Equal results in related states. -/
def Eqq (X : Ctx) (a b : α) (t1 t2 : St) : Prop := a = b ∧ P X t1 t2
/-- Related states, results of no interest. -/
def Ends2 (X : Ctx) {α β : Type} (_ : α) (_ : β) (t1 t2 : St) : Prop := P X t1 t2

theorem LsAt.quiet {m : M α} {m' : M β} {Q : α → β → St → St → Prop} {E : β → St → St → Prop} [q : Quiet m] [q' : Quiet m']
    (h : ∀ a b t1 t2, m s1 = .ok a t1 → m' s2 = .ok b t2 → SameBut s1 t1 → SameBut s2 t2 → Q a b t1 t2) : LsAt X s1 s2 m m' Q E := by
  intro _ _
  have h1 := q.run s1
  have h2 := q'.run s2
  cases e1 : m s1 <;> cases e2 : m' s2 <;> rw [e1] at h1 <;> rw [e2] at h2 <;> try trivial
  exact h _ _ _ _ e1 e2 h1 h2

/-- Listing: something in pass 1, something else in pass 2. -/
theorem LsAt.list {m : M α} {m' : M β} {E : β → St → St → Prop} [Quiet m] [Quiet m'] (h : P X s1 s2) : LsAt X s1 s2 m m' (Ends2 X) E :=
  LsAt.quiet fun _ _ _ _ _ _ q1 q2 => h.same q1 q2

/-- `m` does the same in both passes. -/
class Ls (m : M α) : Prop where
  run : ∀ (X : Ctx) (s1 s2 : St), P X s1 s2 → LsAt X s1 s2 m m (Eqq X) No

instance {m : M Unit} [Quiet m] : Ls m := ⟨fun _ _ _ h => (LsAt.list h).mono (fun _ _ _ _ h => ⟨rfl, h⟩) fun _ _ _ h => h⟩

theorem LsAt.eq {m : M α} [hm : Ls m] {f : α → M γ} {g : α → M δ} {Q : γ → δ → St → St → Prop} {E : δ → St → St → Prop}
    (h : P X s1 s2) (hf : ∀ a, Walk K (f a)) (hg : ∀ a, Walk K (g a))
    (hk : ∀ a t1 t2, P X t1 t2 → LsAt X t1 t2 (f a) (g a) Q E) : LsAt X s1 s2 (m >>= f) (m >>= g) Q E :=
  (hm.run X s1 s2 h).bindNo hf hg fun a b t1 t2 q => by
    obtain ⟨rfl, q⟩ := q
    exact hk a t1 t2 q

theorem Ls.bind {m : M α} {f : α → M β} (hm : Ls m) (hw : ∀ a, Walk K (f a)) (hf : ∀ a, Ls (f a)) : Ls (m >>= f) :=
  ⟨fun X s1 s2 h => LsAt.eq h hw hw fun a t1 t2 q => (hf a).run X t1 t2 q⟩
theorem Ls.pure (a : α) : Ls (Pure.pure a : M α) := ⟨fun _ _ _ h => LsAt.pure ⟨rfl, h⟩⟩
theorem Ls.whenM {c : Prop} [Decidable c] {m : M Unit} (hm : Ls m) : Ls (whenM c m) := by
  unfold Crasm.whenM; split
  · exact hm
  · exact Ls.pure ()
instance (msg : Str) : Ls (error msg : M α) := ⟨fun _ _ _ _ => LsAt.error⟩
instance {c : Prop} [Decidable c] {m : M Unit} [hm : Ls m] : Ls (whenM c m) := Ls.whenM hm
instance (w : Stop) : Ls (stopWith w : M α) := ⟨fun _ _ _ _ => LsAt.stop2⟩
instance (w : UB) : Ls (ubM w : M α) := ⟨fun _ _ _ _ => LsAt.ub2⟩
instance (w : Str) : Ls (fatal w : M α) := ⟨fun _ _ _ _ => LsAt.stop2⟩

macro "ls" : tactic => `(tactic| repeat' (first
  | infer_instance
  | exact Ls.pure _
  | with_reducible refine Ls.bind ?_ (by intro; kwalk; done) (fun _ => ?_)
  | with_reducible refine Ls.whenM ?_
  | dsimp only
  | split))

theorem filterC_val {s pat : Str} {st t : St} {r : Option (List Str × Nat)} (h : filterC s pat st = .ok r t) :
    r = if (filter s pat).ok then some ((filter s pat).caps, (filter s pat).consumed) else none := by
  unfold filterC at h
  rw [getS_bind_run] at h
  split at h
  · cases h
  · split at h
    · rename_i hk; cases h; rw [if_pos hk]
    · rename_i hk; cases h; rw [if_neg hk]

instance (s pat : Str) : Ls (filterC s pat) := ⟨fun _ _ _ h =>
  LsAt.quiet fun _ _ _ _ e1 e2 q1 q2 => ⟨(filterC_val e1).trans (filterC_val e2).symm, h.same q1 q2⟩⟩
instance (s pat : Str) : Ls (filter0 s pat) := by unfold filter0; ls
instance (s pat : Str) : Ls (filter1 s pat) := by unfold filter1; ls
instance (s pat : Str) : Ls (filter2 s pat) := by unfold filter2; ls

/-! ### Symbols -/

theorem star_canon (seg : Nat) : canon seg starKey = starKey := rfl

theorem Carried.spec {f l2 : Label} (h : Carried f l2) (ho : f.origin ≠ some .pseudos) : l2.flags.undef = true ∧
    l2.flags.forward = (f.flags.noredef && !f.flags.undef && f.flags.forward) ∧ l2.flags.noredef = f.flags.noredef ∧
    l2.type = f.type ∧ l2.origin = f.origin := by
  rw [h]
  refine ⟨?_, ?_, rfl, rfl, rfl⟩
  · show (if f.origin = some .pseudos then false else true) = true
    rw [if_neg ho]
  · show (if (!f.flags.noredef || f.flags.undef) = true then false else f.flags.forward) = _
    cases f.flags.noredef <;> cases f.flags.undef <;> simp

theorem NodeRel.ne {X : Ctx} {k : Str} {o1 o2 : Option Label} (hk : k ≠ starKey) :
    NodeRel X k o1 o2 ↔ (Und (X.E1.tree.find k) o1 o2 ∨ ∃ l1 l2, o1 = some l1 ∧ o2 = some l2 ∧ LabRel l1 l2) := by
  unfold NodeRel; rw [if_neg hk]

/-- Marking USED. -/
def Label.mark (l : Label) (u : Bool) : Label := { l with flags := { l.flags with used := u } }

theorem LabRel.mark {l1 l2 : Label} (h : LabRel l1 l2) (u1 u2 : Bool) : LabRel (l1.mark u1) (l2.mark u2) :=
  ⟨{ h.core with }, h.defd, h.noredef⟩

theorem NodeRel.mark {k : Str} {l1 l2 : Label} (h : NodeRel X k (some l1) (some l2)) (u1 u2 : Bool) :
    NodeRel X k (some (l1.mark u1)) (some (l2.mark u2)) := by
  unfold NodeRel at *
  split
  · rename_i hk
    rw [if_pos hk] at h
    obtain ⟨m1, m2, h1, h2, n1, n2, h3⟩ := h
    cases h1; cases h2
    refine ⟨_, _, rfl, rfl, n1, n2, ?_⟩
    rcases h3 with h3 | ⟨h3, h4⟩
    · exact .inl h3
    · exact .inr ⟨h3.mark u1 u2, h4⟩
  · rename_i hk
    rw [if_neg hk] at h
    rcases h with h | ⟨m1, m2, h1, h2, h3⟩
    · refine .inl ⟨fun l hl => ?_, fun f hf => ?_, fun hn => ?_⟩
      · cases hl; exact h.fst l1 rfl
      · obtain ⟨ho, m2, h2, h3⟩ := h.snd f hf
        cases h2
        refine ⟨ho, _, rfl, ?_⟩
        unfold Carried at h3 ⊢
        rw [h3]
        rfl
      · exact absurd (h.non hn) (by simp)
    · cases h1; cases h2
      exact .inr ⟨_, _, rfl, rfl, h3.mark u1 u2⟩

/-- Storing related labels under one key. -/
theorem treeRel_put {t1 t2 : Tree} (h : ∀ k, NodeRel X k (t1.find k) (t2.find k)) {k : Str} {l1 l2 : Label}
    (hl : NodeRel X k (some l1) (some l2)) : ∀ k', NodeRel X k' ((t1.put k l1).find k') ((t2.put k l2).find k') := by
  intro k'
  by_cases e : k' = k
  · subst e; rw [Tree.find_put_self, Tree.find_put_self]; exact hl
  · rw [Tree.find_put_ne _ _ e, Tree.find_put_ne _ _ e]; exact h k'

theorem P.put (h : P X s1 s2) {k : Str} {l1 l2 : Label} (hl : NodeRel X k (some l1) (some l2))
    (hs : s1.flags.orgGv = true → k = starKey → l1.flags.undef = false) : P X (s1.putL k l1) (s2.putL k l2) :=
  { h with
    tree := treeRel_put h.tree hl
    star := fun ho l hf => by
      by_cases e : starKey = k
      · have hf : (s1.tree.put k l1).find starKey = some l := hf
        rw [e, Tree.find_put_self] at hf; cases hf
        exact hs ho e.symm
      · have hf : (s1.tree.put k l1).find starKey = some l := hf
        rw [Tree.find_put_ne _ _ e] at hf
        exact h.star ho l hf }

theorem PW.put (h : PW X s1 s2) {k : Str} {l1 l2 : Label} (hl : NodeRel X k (some l1) (some l2)) :
    PW X (s1.putL k l1) (s2.putL k l2) := { h with tree := treeRel_put h.tree hl }

/-- The label returned by `findlabel`: the same in both passes, or not defined in pass 2. -/
def Found (l1 l2 : Label) : Prop := Core l1.res l2.res ∨ (l2.flags.undef = true ∧ l2.flags.forward = false)

theorem findlabel_eq (n : Str) (s : St) : findlabel n s =
    .ok (usedLabel s (s.tree.find (canon s.segment n))) (s.putL (canon s.segment n) (usedLabel s (s.tree.find (canon s.segment n)))) := by
  unfold findlabel searchlabel usedLabel
  rw [getS_bind_run]
  cases s.tree.find (canon s.segment n) <;> rfl

theorem usedLabel_some (s : St) (l : Label) : usedLabel s (some l) = l.mark true := rfl

theorem ls_findlabel (n : Str) (h : P X s1 s2) :
    LsAt X s1 s2 (findlabel n) (findlabel n) (fun l1 l2 t1 t2 => Found l1 l2 ∧ P X t1 t2) No := by
  unfold LsAt
  rw [findlabel_eq, findlabel_eq, h.segment]
  generalize canon s1.segment n = k
  intro f1 _
  have hn := h.tree k
  show Found _ _ ∧ P X _ _
  by_cases hk : k = starKey
  · have hs : StarRel (s1.tree.find k) (s2.tree.find k) := by unfold NodeRel at hn; rw [if_pos hk] at hn; exact hn
    obtain ⟨l1, l2, e1, e2, n1, n2, h3⟩ := hs
    rw [e1, e2, usedLabel_some, usedLabel_some]
    refine ⟨?_, h.put (by rw [e1, e2] at hn; exact hn.mark _ _) fun ho hk => h.star ho l1 (by rw [← hk]; exact e1)⟩
    rcases h3 with h3 | ⟨h3, -⟩
    · exact .inr ⟨h3.2.1, h3.2.2.2⟩
    · exact .inl (h3.mark _ _).core
  · rcases (NodeRel.ne hk).mp hn with hu | ⟨l1, l2, e1, e2, h3⟩
    · -- pass 1 leaves a reference; it is still there at the end of pass 1
      have hf : ∃ q, usedLabel s1 (s1.tree.find k) = q ∧ q.flags.undef = true ∧ q.flags.forward = true ∧
          q.flags.noredef = true ∧ q.type = .absolute ∧ q.origin = none := by
        refine ⟨_, rfl, ?_⟩
        cases e : s1.tree.find k with
        | none =>
          refine ⟨rfl, rfl, rfl, ?_, rfl⟩
          show addrType s1.flags = .absolute
          unfold addrType; rw [h.rel1]; rfl
        | some l => exact hu.fst l e
      obtain ⟨q, eq, q1, q2, q3, q4, q5⟩ := hf
      rw [eq] at f1 ⊢
      have f1' : K (s1.putL k q, .live) (X.E1, .live) := f1
      obtain ⟨f, hf, le⟩ := f1'.tree.old k q hk (Tree.find_put_self _ _ _)
      obtain ⟨ho, l2, e2, hc⟩ := hu.snd f hf
      obtain ⟨c1, c2, c3, c4, c5⟩ := hc.spec ho
      rw [e2, usedLabel_some]
      refine ⟨?_, h.put ?_ fun _ hk' => absurd hk' hk⟩
      · cases hd : f.flags.undef with
        | true => exact .inr ⟨c1, by show l2.flags.forward = false; rw [c2, hd]; simp⟩
        | false =>
          have hfw := le.forward q3 q2
          have hnr := le.noredef q3
          have ht := X.fwd k f hk hf hnr hfw
          left
          refine ⟨?_, ?_, ?_, ?_, ?_, ?_, ?_⟩
          · show l2.flags.undef = q.flags.undef; rw [c1, q1]
          · show l2.flags.forward = q.flags.forward; rw [c2, hd, hfw, hnr, q2]; rfl
          · show l2.type = q.type; rw [c4, ht, q4]
          · show q.type ≠ _; rw [q4]; simp
          · intro hh
            have hh : q.type = .mnemo ∨ q.type = .macro := hh
            rw [q4] at hh; simp at hh
          · intro hh
            have hh : q.flags.forward = false ∨ (q.type ≠ .absolute ∧ _) := hh
            rw [q2, q4] at hh; simp at hh
          · intro hh
            have hh : q.flags.forward = false ∨ (q.type ≠ .absolute ∧ _) := hh
            rw [q2, q4] at hh; simp at hh
      · refine (NodeRel.ne hk).mpr (.inl ⟨fun l hl => ?_, fun g hg => ?_, fun hn => ?_⟩)
        · cases hl; exact ⟨q1, q2, q3, q4, q5⟩
        · rw [hf] at hg; cases hg
          refine ⟨ho, _, rfl, ?_⟩
          unfold Carried at hc ⊢
          rw [hc]; rfl
        · rw [hf] at hn; cases hn
    · rw [e1, e2, usedLabel_some, usedLabel_some]
      refine ⟨.inl (h3.mark _ _).core, h.put (by rw [e1, e2] at hn; exact hn.mark _ _) fun _ hk' => absurd hk' hk⟩

/-! ### Expressions -/

/-- Results of one expression. -/
def ResRel (X : Ctx) (r1 r2 : Result) (t1 t2 : St) : Prop := Core r1 r2 ∧ P X t1 t2

theorem ls_setRes (tgt : Bool) {r1 r2 : Result} {E : Result → St → St → Prop} (h : P X s1 s2) (hc : Core r1 r2) :
    LsAt X s1 s2 (setRes tgt r1) (setRes tgt r2) (ResRel X) E := by
  unfold setRes
  cases tgt with
  | true => exact LsAt.modS (LsAt.pure ⟨hc, { h with }⟩)
  | false => exact LsAt.pure ⟨hc, h⟩

theorem core_abs {r1 r2 : Result} (hf : r1.flags = r2.flags) (h1 : r1.type = .absolute) (h2 : r2.type = .absolute) (hv : r2.value = r1.value) :
    Core r1 r2 := by
  refine ⟨by rw [hf], by rw [hf], by rw [h1, h2], by rw [h1]; simp, ?_, fun _ => hv, fun _ h => absurd h1 h⟩
  rw [h1]; simp

theorem ls_cst (tgt : Bool) (v : Nat) (h : P X s1 s2) : LsAt X s1 s2 (cst tgt v) (cst tgt v) (ResRel X) No := by
  unfold cst
  exact LsAt.getS (ls_setRes tgt h (core_abs rfl rfl rfl rfl))

theorem ls_cstE (tgt : Bool) (v : Except Str Nat) (h : P X s1 s2) : LsAt X s1 s2 (cstE tgt v) (cstE tgt v) (ResRel X) No := by
  unfold cstE
  split
  · exact LsAt.error
  · exact ls_cst tgt _ h

theorem ls_cstlabel (tgt : Bool) (n : Str) (h : P X s1 s2) : LsAt X s1 s2 (cstlabel tgt n) (cstlabel tgt n) (ResRel X) No := by
  unfold cstlabel
  refine (ls_findlabel n h).bindNo (by intro; kwalk) (by intro; kwalk) fun l1 l2 t1 t2 q => ?_
  obtain ⟨hf, q⟩ := q
  rcases hf with hc | ⟨hu, hw⟩
  · refine (ls_setRes tgt (E := No) q hc).bindNo (by intro; kwalk) (by intro; kwalk) fun r1 r2 u1 u2 hr => ?_
    have e1 : l2.flags.undef = l1.flags.undef := hc.undef
    have e2 : l2.flags.forward = l1.flags.forward := hc.forward
    rw [e1, e2]
    split
    · exact LsAt.error
    · exact LsAt.pure hr
  · have hx : (l2.flags.undef && !l2.flags.forward) = true := by rw [hu, hw]; rfl
    refine LsAt.bindNo (Q0 := fun _ _ _ _ => True) ?_ (by intro; kwalk) (by intro; kwalk) fun r1 r2 u1 u2 _ => ?_
    · intro _ _
      unfold setRes
      cases tgt <;> trivial
    · rw [if_pos hx]; exact LsAt.error

/-- The operators. -/
theorem core_or {p1 p2 a1 a2 : Result} (hp : Core p1 p2) (ha : Core a1 a2) {r1 r2 : Result}
    (h1 : r1.flags = p1.flags.or a1.flags) (h2 : r2.flags = p2.flags.or a2.flags) (ht : r2.type = r1.type)
    (hn : r1.type = .absolute ∨ r1.type = .regs ∨ r1.type = .directbit)
    (hv : (p1.flags.forward = false ∧ a1.flags.forward = false) ∨ r1.type = .regs → r2.value = r1.value)
    (hm : (p1.flags.forward = false ∧ a1.flags.forward = false) ∨ r1.type = .regs → r1.type ≠ .absolute → r2.modifier = r1.modifier) : Core r1 r2 := by
  have key : (r1.flags.forward = false ∨ (r1.type ≠ .absolute ∧ r1.type ≠ .directbit)) →
      (p1.flags.forward = false ∧ a1.flags.forward = false) ∨ r1.type = .regs := by
    intro h
    rcases h with h | h
    · left
      rw [h1] at h
      exact Bool.or_eq_false_iff.mp h
    · right
      rcases hn with h' | h' | h'
      · exact absurd h' h.1
      · exact h'
      · exact absurd h' h.2
  refine ⟨?_, ?_, ht, ?_, ?_, fun h => hv (key h), fun h h' _ => hm (key h) h'⟩
  · rw [h1, h2]; show (_ || _) = (_ || _); rw [hp.undef, ha.undef]
  · rw [h1, h2]; show (_ || _) = (_ || _); rw [hp.forward, ha.forward]
  · rcases hn with h | h | h <;> rw [h] <;> simp
  · rcases hn with h | h | h <;> rw [h] <;> simp

theorem ofOpt_ok {r r' : Result} {o : Option Word} (h : ofOpt r o = .ok r') : ∃ v, o = some v ∧ r' = { r with value := v } := by
  unfold ofOpt at h
  cases o with
  | none => cases h
  | some v => cases h; exact ⟨v, rfl, rfl⟩

theorem absolute2_oks {p a r : Result} {k : Result → OpRes} (h : absolute2 p a k = .ok r) :
    p.type = .absolute ∧ a.type = .absolute ∧ k { p with flags := p.flags.or a.flags } = .ok r := by
  unfold absolute2 at h
  split at h
  · cases h
  · rename_i h1
    split at h
    · cases h
    · rename_i h2
      exact ⟨Decidable.of_not_not h1, Decidable.of_not_not h2, h⟩

theorem core_absolute2 {p1 p2 a1 a2 r1 r2 : Result} (hp : Core p1 p2) (ha : Core a1 a2) {k1 k2 : Result → OpRes}
    (h1 : absolute2 p1 a1 k1 = .ok r1) (h2 : absolute2 p2 a2 k2 = .ok r2)
    (hk : ∀ q, p1.type = .absolute → k1 q = .ok r1 → r1.flags = q.flags ∧ r1.type = q.type)
    (hk' : ∀ q, p2.type = .absolute → k2 q = .ok r2 → r2.flags = q.flags ∧ r2.type = q.type)
    (hv : p2.value = p1.value → a2.value = a1.value → ∀ q q', k1 q = .ok r1 → k2 q' = .ok r2 → q.value = p1.value → q'.value = p1.value →
      r2.value = r1.value) : Core r1 r2 := by
  obtain ⟨t1, u1, e1⟩ := absolute2_oks h1
  obtain ⟨t2, u2, e2⟩ := absolute2_oks h2
  obtain ⟨f1, g1⟩ := hk _ t1 e1
  obtain ⟨f2, g2⟩ := hk' _ t2 e2
  have g1 : r1.type = p1.type := g1
  have g2 : r2.type = p2.type := g2
  refine core_or hp ha f1 f2 (by rw [g1, g2, t1, t2]) (.inl (by rw [g1, t1])) (fun h => ?_) (fun _ h => absurd (by rw [g1, t1]) h)
  rcases h with ⟨x, y⟩ | h
  · have vp := hp.val (.inl x)
    exact hv vp (ha.val (.inl y)) _ _ e1 e2 rfl vp
  · rw [g1, t1] at h; cases h

theorem core_op2 {op : Op2} {p1 p2 a1 a2 r1 r2 : Result} (hp : Core p1 p2) (ha : Core a1 a2)
    (h1 : applyOp2 op p1 a1 = .ok r1) (h2 : applyOp2 op p2 a2 = .ok r2) : Core r1 r2 := by
  cases op with
  | rlist =>
    unfold applyOp2 at h1 h2
    dsimp only at h1 h2
    split at h1
    · cases h1
    · rename_i c1
      split at h1
      · cases h1
      · rename_i c2
        split at h2
        · cases h2
        · split at h2
          · cases h2
          · cases h1; cases h2
            have c1 : p1.type = .regs := Decidable.of_not_not c1
            have c2 : a1.type = .regs := Decidable.of_not_not c2
            refine core_or hp ha rfl rfl hp.type (.inr (.inl c1)) (fun _ => ?_) fun _ _ => ?_
            · show p2.value ||| a2.value = p1.value ||| a1.value
              rw [hp.val (.inr (by rw [c1]; simp)), ha.val (.inr (by rw [c2]; simp))]
            · exact hp.md (.inr (by rw [c1]; simp)) (by rw [c1]; simp) (by rw [c1]; simp)
  | add =>
    unfold applyOp2 at h1 h2
    dsimp only at h1 h2
    cases e1 : addS p1.value a1.value with
    | none => rw [e1] at h1; cases h1
    | some v1 =>
      cases e2 : addS p2.value a2.value with
      | none => rw [e2] at h2; cases h2
      | some v2 =>
        rw [e1] at h1; rw [e2] at h2
        dsimp only at h1 h2
        have nr : ¬ (p1.type = .absolute ∧ a1.type = .relative) := fun h => ha.rel h.2
        rw [hp.type, ha.type] at h2
        by_cases c : p1.type = .absolute ∧ a1.type = .absolute
        · rw [if_pos c] at h1 h2
          cases h1; cases h2
          refine core_or hp ha rfl rfl rfl (.inl rfl) (fun h => ?_) (fun _ h => absurd rfl h)
          rcases h with ⟨x, y⟩ | h
          · rw [hp.val (.inl x), ha.val (.inl y), e1] at e2
            exact (Option.some.inj e2).symm
          · cases h
        · rw [if_neg c, if_neg nr] at h1; cases h1
  | sub =>
    unfold applyOp2 at h1 h2
    dsimp only at h1 h2
    rw [hp.type, ha.type] at h2
    by_cases c : p1.type = a1.type ∧ (p1.type = .relative ∨ p1.type = .absolute)
    · rw [if_pos c] at h1 h2
      obtain ⟨v1, e1, rfl⟩ := ofOpt_ok h1
      obtain ⟨v2, e2, rfl⟩ := ofOpt_ok h2
      refine core_or hp ha rfl rfl rfl (.inl rfl) (fun h => ?_) (fun _ h => absurd rfl h)
      rcases h with ⟨x, y⟩ | h
      · rw [hp.val (.inl x), ha.val (.inl y), e1] at e2
        exact (Option.some.inj e2).symm
      · cases h
    · rw [if_neg c] at h1
      have nr : ¬ (p1.type = .relative ∧ a1.type = .absolute) := fun h => hp.rel h.1
      rw [if_neg nr] at h1
      split at h1
      · unfold regRange at h1
        split at h1
        · split at h1 <;> cases h1
        · cases h1
      · cases h1
  | mul =>
    unfold applyOp2 at h1 h2
    dsimp only at h1 h2
    refine core_absolute2 hp ha h1 h2 (fun q _ h => ?_) (fun q _ h => ?_) fun vp va q q' h h' hq hq' => ?_
    · obtain ⟨v, -, rfl⟩ := ofOpt_ok h; exact ⟨rfl, rfl⟩
    · obtain ⟨v, -, rfl⟩ := ofOpt_ok h; exact ⟨rfl, rfl⟩
    · obtain ⟨v, e, rfl⟩ := ofOpt_ok h
      obtain ⟨v', e', rfl⟩ := ofOpt_ok h'
      rw [vp, va, e] at e'
      exact (Option.some.inj e').symm
  | div =>
    unfold applyOp2 at h1 h2
    dsimp only at h1 h2
    refine core_absolute2 hp ha h1 h2 (fun q _ h => ?_) (fun q _ h => ?_) fun vp va q q' h h' hq hq' => ?_
    · split at h
      · cases h; exact ⟨rfl, rfl⟩
      · split at h
        · cases h
        · cases h; exact ⟨rfl, rfl⟩
    · split at h
      · cases h; exact ⟨rfl, rfl⟩
      · split at h
        · cases h
        · cases h; exact ⟨rfl, rfl⟩
    · rw [va, vp] at h'
      by_cases c : a1.value = 0
      · rw [if_pos c] at h h'
        cases h; cases h'
        rw [hq, hq']
      · rw [if_neg c] at h h'
        by_cases c' : p1.value = BitVec.intMin 64 ∧ a1.value = -1#64
        · rw [if_pos c'] at h; cases h
        · rw [if_neg c'] at h h'
          cases h; cases h'; rfl
  | or =>
    unfold applyOp2 at h1 h2
    dsimp only at h1 h2
    refine core_absolute2 hp ha h1 h2 (fun q _ h => by cases h; exact ⟨rfl, rfl⟩) (fun q _ h => by cases h; exact ⟨rfl, rfl⟩)
      fun vp va q q' h h' hq hq' => by cases h; cases h'; simp only [vp, va]
  | and =>
    unfold applyOp2 at h1 h2
    dsimp only at h1 h2
    refine core_absolute2 hp ha h1 h2 (fun q _ h => by cases h; exact ⟨rfl, rfl⟩) (fun q _ h => by cases h; exact ⟨rfl, rfl⟩)
      fun vp va q q' h h' hq hq' => by cases h; cases h'; simp only [vp, va]
  | xor =>
    unfold applyOp2 at h1 h2
    dsimp only at h1 h2
    refine core_absolute2 hp ha h1 h2 (fun q _ h => by cases h; exact ⟨rfl, rfl⟩) (fun q _ h => by cases h; exact ⟨rfl, rfl⟩)
      fun vp va q q' h h' hq hq' => by cases h; cases h'; simp only [vp, va]
  | lsh =>
    unfold applyOp2 at h1 h2
    dsimp only at h1 h2
    refine core_absolute2 hp ha h1 h2 (fun q _ h => ?_) (fun q _ h => ?_) fun vp va q q' h h' hq hq' => ?_
    · split at h
      · cases h; exact ⟨rfl, rfl⟩
      · cases h
    · split at h
      · cases h; exact ⟨rfl, rfl⟩
      · cases h
    · split at h
      · split at h'
        · cases h; cases h'; simp only [vp, va]
        · cases h'
      · cases h
  | rsh =>
    unfold applyOp2 at h1 h2
    dsimp only at h1 h2
    refine core_absolute2 hp ha h1 h2 (fun q _ h => ?_) (fun q _ h => ?_) fun vp va q q' h h' hq hq' => ?_
    · split at h
      · cases h; exact ⟨rfl, rfl⟩
      · cases h
    · split at h
      · cases h; exact ⟨rfl, rfl⟩
      · cases h
    · split at h
      · split at h'
        · cases h; cases h'; simp only [vp, va]
        · cases h'
      · cases h
  | bit =>
    unfold applyOp2 at h1 h2
    dsimp only at h1 h2
    obtain ⟨t1, u1, e1⟩ := absolute2_oks h1
    obtain ⟨t2, u2, e2⟩ := absolute2_oks h2
    dsimp only at e1 e2
    split at e1
    · cases e1
    · split at e2
      · cases e2
      · cases e1; cases e2
        refine core_or hp ha rfl rfl rfl (.inr (.inr rfl)) (fun h => ?_) (fun h _ => ?_)
        · rcases h with ⟨x, y⟩ | h
          · exact hp.val (.inl x)
          · cases h
        · rcases h with ⟨x, y⟩ | h
          · show (a2.value.setWidth 16).toInt = (a1.value.setWidth 16).toInt
            rw [ha.val (.inl y)]
          · cases h

theorem core_unary {p1 p2 r1 r2 : Result} (hp : Core p1 p2) (h1 : r1.flags = p1.flags) (h2 : r2.flags = p2.flags)
    (t1 : r1.type = .absolute) (t2 : r2.type = .absolute) (hv : p1.flags.forward = false → r2.value = r1.value) : Core r1 r2 := by
  refine ⟨by rw [h1, h2, hp.undef], by rw [h1, h2, hp.forward], by rw [t1, t2], by rw [t1]; simp, by rw [t1]; simp, fun h => ?_,
    fun _ h => absurd t1 h⟩
  rcases h with h | h
  · exact hv (by rw [h1] at h; exact h)
  · exact absurd t1 h.1

theorem core_op1 {op : Op1} {p1 p2 r1 r2 : Result} (hp : Core p1 p2) (h1 : applyOp1 op p1 = .ok r1) (h2 : applyOp1 op p2 = .ok r2) :
    Core r1 r2 := by
  have ty := hp.type
  cases op <;> unfold applyOp1 at h1 h2 <;> dsimp only at h1 h2
  case minus =>
    split at h1
    · cases h1
    · rename_i c1
      split at h2
      · cases h2
      · rename_i c2
        split at h1
        · cases h1
        · split at h2
          · cases h2
          · cases h1; cases h2
            exact core_unary hp rfl rfl (Decidable.of_not_not c1) (Decidable.of_not_not c2) fun h => by
              show -p2.value = -p1.value; rw [hp.val (.inl h)]
  case not =>
    split at h1
    · cases h1
    · rename_i c1
      split at h2
      · cases h2
      · rename_i c2
        cases h1; cases h2
        exact core_unary hp rfl rfl (Decidable.of_not_not c1) (Decidable.of_not_not c2) fun h => by
          show ~~~p2.value = ~~~p1.value; rw [hp.val (.inl h)]
  case bitnumb =>
    split at h1
    · cases h1
    · rename_i c1
      split at h2
      · cases h2
      · cases h1; cases h2
        refine core_unary hp rfl rfl rfl rfl fun h => ?_
        have c1 : p1.type = .directbit := Decidable.of_not_not c1
        show BitVec.ofInt 64 p2.modifier = BitVec.ofInt 64 p1.modifier
        rw [hp.md (.inl h) (by rw [c1]; simp) (by rw [c1]; simp)]
  case bitaddr =>
    split at h1
    · cases h1
    · split at h2
      · cases h2
      · cases h1; cases h2
        exact core_unary hp rfl rfl rfl rfl fun h => hp.val (.inl h)
  case lo =>
    split at h1
    · cases h1
    · rename_i c1
      split at h2
      · cases h2
      · rename_i c2
        cases h1; cases h2
        exact core_unary hp rfl rfl (Decidable.of_not_not c1) (Decidable.of_not_not c2) fun h => by
          show p2.value &&& 0xff = p1.value &&& 0xff; rw [hp.val (.inl h)]
  case hi =>
    split at h1
    · cases h1
    · rename_i c1
      split at h2
      · cases h2
      · rename_i c2
        cases h1; cases h2
        exact core_unary hp rfl rfl (Decidable.of_not_not c1) (Decidable.of_not_not c2) fun h => by
          show p2.value.sshiftRight 8 &&& 0xff = p1.value.sshiftRight 8 &&& 0xff; rw [hp.val (.inl h)]

theorem ls_finishOp (tgt : Bool) {o1 o2 : OpRes} (h : P X s1 s2) (hc : ∀ r1 r2, o1 = .ok r1 → o2 = .ok r2 → Core r1 r2) :
    LsAt X s1 s2 (finishOp tgt o1) (finishOp tgt o2) (ResRel X) No := by
  cases o2 with
  | err msg r =>
    intro _ f2
    cases e : finishOp tgt (.err msg r) s2 with
    | ok a t =>
      unfold finishOp at e
      obtain ⟨_, _, _, e2⟩ := bind_ok e
      exact absurd e2 refuse_not_ok
    | err t => cases finishOp tgt o1 s1 <;> trivial
    | stop w t => cases finishOp tgt o1 s1 <;> trivial
  | ub u => exact LsAt.ub2
  | hang => exact LsAt.stop2
  | ok r2 =>
    cases o1 with
    | ok r1 => exact ls_setRes tgt h (hc r1 r2 rfl rfl)
    | ub u => exact LsAt.ub1
    | hang => exact LsAt.stop1
    | err msg r =>
      have e : ∀ s, finishOp tgt (.err msg r) s = refuse msg { s with calcR := if tgt then r else s.calcR } := by
        intro s; cases tgt <;> rfl
      intro f1 f2
      rw [e] at f1 ⊢
      have := LsAt.refuse1 (X := X) (s1 := { s1 with calcR := if tgt then r else s1.calcR }) (s2 := s2) (m := setRes tgt r2) (msg := msg)
        (Q := ResRel X) (E := No) h.p1
      exact this f1 f2

theorem ls_parseConst (tgt : Bool) (e : Str) (rows : List (Str × Base)) :
    ∀ {s1 s2}, P X s1 s2 → LsAt X s1 s2 (parseConst tgt e rows) (parseConst tgt e rows) (ResRel X) No := by
  induction rows with
  | nil =>
    intro s1 s2 h
    unfold parseConst
    cases e with
    | nil => exact LsAt.error
    | cons c s =>
      dsimp only
      split
      · exact ls_cstE tgt _ h
      · split
        · exact ls_cstE tgt _ h
        · exact LsAt.error
  | cons r rows ih =>
    intro s1 s2 h
    obtain ⟨pat, b⟩ := r
    unfold parseConst
    refine LsAt.eq h (by intro; kwalk) (by intro; kwalk) fun r t1 t2 q => ?_
    split
    · exact ls_cstE tgt _ q
    · exact ih q

theorem ls_parseLeaf (tgt : Bool) (e : Str) (h : P X s1 s2) : LsAt X s1 s2 (parseLeaf tgt e) (parseLeaf tgt e) (ResRel X) No := by
  unfold parseLeaf
  split
  · exact ls_cstlabel tgt e h
  · exact ls_parseConst tgt e _ h

instance ls_firstMatch (e : Str) (alts : List (Str × Op2)) : Ls (firstMatch e alts) := by
  induction alts with
  | nil => exact Ls.pure _
  | cons a alts ih => obtain ⟨pat, op⟩ := a; unfold firstMatch; ls

theorem ls_parseRows (rec : Bool → Str → M Result) (hw : ∀ t e, Walk NStep (rec t e))
    (hr : ∀ t e s1 s2, P X s1 s2 → LsAt X s1 s2 (rec t e) (rec t e) (ResRel X) No) (tgt : Bool) (e : Str) (rows : List Ent) :
    ∀ {s1 s2}, P X s1 s2 → LsAt X s1 s2 (parseRows rec tgt e rows) (parseRows rec tgt e rows) (ResRel X) No := by
  have kw : ∀ t e, Walk K (rec t e) := fun t e => (hw t e).mono fun _ _ h => K.n h
  have kr : ∀ rows, Walk K (parseRows rec tgt e rows) := fun rows => (walk_parseRows rec hw tgt e rows).mono fun _ _ h => K.n h
  have kf : ∀ (t1 t2 : Bool) (a b : Str) (op : Op2), Walk K (do let p ← rec t1 a; let q ← rec t2 b; finishOp tgt (applyOp2 op p q)) :=
    fun t1 t2 a b op => Walk.bind (kw _ _) fun _ => Walk.bind (kw _ _) fun _ => W.walk
  induction rows with
  | nil => intro s1 s2 h; exact ls_parseLeaf tgt _ h
  | cons r rows ih =>
    intro s1 s2 h
    have wk : ∀ (o : Option (Str × Str × Op2)), Walk K (match o with
        | some (c1, c2, op) => if c1 = [] ∨ c2 = [] then parseRows rec tgt e rows
          else do let p ← rec tgt c2; let a ← rec false c1; finishOp tgt (applyOp2 op p a)
        | none => parseRows rec tgt e rows) := by
      intro o
      split
      · split
        · exact kr _
        · exact kf _ _ _ _ _
      · exact kr _
    have wm : ∀ (op : Op1) (o : Option Str), Walk K (match o with
        | some (c :: ca) => (do let p ← rec tgt (c :: ca); finishOp tgt (applyOp1 op p) : M Result)
        | _ => parseRows rec tgt e rows) := by
      intro op o
      split
      · exact Walk.bind (kw _ _) fun _ => W.walk
      · exact kr _
    have wp : ∀ (o : Option Str), Walk K (match o with
        | some (c :: ca) => rec tgt (c :: ca)
        | _ => parseRows rec tgt e rows) := by
      intro o
      split
      · exact kw _ _
      · exact kr _
    cases r with
    | dya alts =>
      unfold parseRows
      refine LsAt.eq h wk wk fun o t1 t2 q => ?_
      cases o with
      | none => exact ih q
      | some x =>
        obtain ⟨c1, c2, op⟩ := x
        dsimp only
        split
        · exact ih q
        · refine (hr tgt c2 t1 t2 q).bindNo (fun _ => Walk.bind (kw _ _) fun _ => W.walk) (fun _ => Walk.bind (kw _ _) fun _ => W.walk)
            fun p1 p2 u1 u2 hp => ?_
          refine (hr false c1 u1 u2 hp.2).bindNo (fun _ => W.walk) (fun _ => W.walk) fun a1 a2 v1 v2 ha => ?_
          exact ls_finishOp tgt ha.2 fun r1 r2 e1 e2 => core_op2 hp.1 ha.1 e1 e2
    | mon pat op =>
      unfold parseRows
      refine LsAt.eq h (wm op) (wm op) fun o t1 t2 q => ?_
      split
      · refine (hr tgt _ t1 t2 q).bindNo (fun _ => W.walk) (fun _ => W.walk) fun p1 p2 u1 u2 hp => ?_
        exact ls_finishOp tgt hp.2 fun r1 r2 e1 e2 => core_op1 hp.1 e1 e2
      · exact ih q
    | paren pat =>
      unfold parseRows
      refine LsAt.eq h wp wp fun o t1 t2 q => ?_
      split
      · exact hr _ _ _ _ q
      · exact ih q

theorem ls_parse2 (n : Nat) : ∀ tgt e s1 s2, P X s1 s2 → LsAt X s1 s2 (parse2 n tgt e) (parse2 n tgt e) (ResRel X) No := by
  induction n with
  | zero => intro _ _ _ _ _; exact LsAt.stop2
  | succ n ih => intro tgt e s1 s2 h; exact ls_parseRows _ (walk_parse2 n) ih tgt e _ h

theorem ls_parse (o : Option Str) (h : P X s1 s2) : LsAt X s1 s2 (parse o) (parse o) (ResRel X) No := by
  unfold parse
  split
  · exact LsAt.error
  · exact LsAt.error
  · refine LsAt.eq h (by intro; kwalk) (by intro; kwalk) fun r t1 t2 q => ?_
    refine LsAt.eq q (by intro; kwalk) (by intro; kwalk) fun r t1 t2 q => ?_
    exact ls_parse2 _ _ _ _ _ q

theorem ls_checktype {r1 r2 : Result} (t : LType) (hc : Core r1 r2) (h : P X s1 s2) :
    LsAt X s1 s2 (checktype r1 t) (checktype r2 t) (fun _ _ t1 t2 => r1.type = t ∧ P X t1 t2) No := by
  unfold checktype
  rw [hc.type]
  split
  · rename_i ht; exact LsAt.pure ⟨ht, h⟩
  · exact LsAt.error

/-- Absolute results. -/
def AbsRel (X : Ctx) (r1 r2 : Result) (t1 t2 : St) : Prop := r1.type = .absolute ∧ Core r1 r2 ∧ P X t1 t2

theorem ls_parseAbs (o : Option Str) (h : P X s1 s2) : LsAt X s1 s2 (parseAbs o) (parseAbs o) (AbsRel X) No := by
  unfold parseAbs
  refine (ls_parse o h).bindNo (by intro; kwalk) (by intro; kwalk) fun r1 r2 t1 t2 q => ?_
  refine (ls_checktype .absolute q.1 q.2).bindNo (by intro; kwalk) (by intro; kwalk) fun _ _ u1 u2 q' => ?_
  exact LsAt.pure ⟨q'.1, q.1, q'.2⟩

end Crasm

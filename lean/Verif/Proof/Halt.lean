import Verif.Proof.CalmH
import Verif.Proof.Source

/-!
The assembler reads its source once: a measure of what is left to read in the open texts, compared from the bottom
of the stack, gets smaller with every line. So every loop and every nesting of lines comes to an end.
-/

namespace Crasm

/-! ### Texts left to read -/

def SrcKind.left : SrcKind → Nat
  | .file t e => t.length + (if e then 0 else 1)
  | .macro _ _ ls => ls.length

def mainLeft (s : St) : Nat := s.main.length + (if s.mainEof then 0 else 1)

/-- What is left to read in each open text, the main file first. -/
def pending (s : St) : List Nat := mainLeft s :: s.stack.reverse.map (·.kind.left)

/-- The lists differ, and at the first difference `a` has the smaller number. -/
def Less (a b : List Nat) : Prop := ∃ p x y t u, a = p ++ x :: t ∧ b = p ++ y :: u ∧ x < y

/-- From `a` to `b` something has been read, or texts have been opened, or nothing happened. -/
def After (a b : List Nat) : Prop := a <+: b ∨ Less b a

theorem less_cons {x y : Nat} {t u : List Nat} : Less (x :: t) (y :: u) ↔ x < y ∨ (x = y ∧ Less t u) := by
  constructor
  · rintro ⟨p, x', y', t', u', h1, h2, h3⟩
    cases p with
    | nil => cases h1; cases h2; exact .inl h3
    | cons a p => cases h1; cases h2; exact .inr ⟨rfl, p, x', y', t', u', rfl, rfl, h3⟩
  · rintro (h | ⟨rfl, p, x', y', t', u', rfl, rfl, h⟩)
    · exact ⟨[], x, y, t, u, rfl, rfl, h⟩
    · exact ⟨x :: p, x', y', t', u', rfl, rfl, h⟩

theorem not_less_nil {a : List Nat} : ¬ Less a [] := by
  rintro ⟨p, x, y, t, u, -, h, -⟩
  cases p <;> cases h
theorem nil_not_less {a : List Nat} : ¬ Less [] a := by
  rintro ⟨p, x, y, t, u, h, -, -⟩
  cases p <;> cases h

theorem Less.trans {a b c : List Nat} (h : Less a b) (h' : Less b c) : Less a c := by
  induction a generalizing b c with
  | nil => exact absurd h nil_not_less
  | cons x a ih =>
    cases b with
    | nil => exact absurd h not_less_nil
    | cons y b =>
      cases c with
      | nil => exact absurd h' not_less_nil
      | cons z c =>
        rw [less_cons] at *
        rcases h with h | ⟨rfl, h⟩
        · rcases h' with h' | ⟨rfl, -⟩
          · exact .inl (by omega)
          · exact .inl h
        · rcases h' with h' | ⟨rfl, h'⟩
          · exact .inl h'
          · exact .inr ⟨rfl, ih h h'⟩

theorem less_prefix {a b c : List Nat} (h : Less a b) (hp : a <+: c) : Less c b := by
  obtain ⟨p, x, y, t, u, rfl, rfl, hx⟩ := h
  obtain ⟨r, rfl⟩ := hp
  exact ⟨p, x, y, t ++ r, u, by simp, rfl, hx⟩

/-- Something less than a longer list is less than its beginning, or begins with it. -/
theorem prefix_less {a b c : List Nat} (hp : a <+: b) (h : Less c b) : After a c := by
  induction a generalizing b c with
  | nil => exact .inl List.nil_prefix
  | cons x a ih =>
    obtain ⟨r, rfl⟩ := hp
    cases c with
    | nil => exact absurd h nil_not_less
    | cons z c =>
      rw [List.cons_append, less_cons] at h
      rcases h with h | ⟨rfl, h⟩
      · exact .inr (less_cons.2 (.inl h))
      · rcases ih (List.prefix_append a r) h with h1 | h1
        · exact .inl (List.cons_prefix_cons.2 ⟨rfl, h1⟩)
        · exact .inr (less_cons.2 (.inr ⟨rfl, h1⟩))

theorem After.refl (a : List Nat) : After a a := .inl (List.prefix_refl a)
theorem After.trans {a b c : List Nat} (h : After a b) (h' : After b c) : After a c := by
  rcases h with h | h
  · rcases h' with h' | h'
    · exact .inl (h.trans h')
    · exact prefix_less h h'
  · rcases h' with h' | h'
    · exact .inr (less_prefix h h')
    · exact .inr (h'.trans h)
theorem Less.after {a b c : List Nat} (h : Less b a) (h' : After b c) : Less c a := by
  rcases h' with h' | h'
  · exact less_prefix h h'
  · exact h'.trans h

/-- Texts opened above a level do not matter to it. -/
theorem After.cut {a b : List Nat} {x : Nat} (h : After (a ++ [x]) b) : After a (b.take a.length) := by
  rcases h with h | h
  · obtain ⟨r, rfl⟩ := h
    left
    simp
  · induction a generalizing b with
    | nil => exact .inl (by simp)
    | cons y a ih =>
      cases b with
      | nil => exact absurd h nil_not_less
      | cons z b =>
        rw [List.cons_append, less_cons] at h
        rw [List.length_cons, List.take_succ_cons]
        rcases h with h | ⟨rfl, h⟩
        · exact .inr (less_cons.2 (.inl h))
        · rcases ih h with h1 | h1
          · exact .inl (List.cons_prefix_cons.2 ⟨rfl, h1⟩)
          · exact .inr (less_cons.2 (.inr ⟨rfl, h1⟩))

/-- From `b` to `a` something has been read or texts have been opened. -/
def Down (a b : List Nat) : Prop := Less a b ∨ (b <+: a ∧ b.length < a.length)

theorem Down.after {a b c : List Nat} (h : Down c b) (h' : After a b) : Down c a := by
  rcases h with h | ⟨h, hl⟩
  · rcases h' with h' | h'
    · rcases prefix_less h' h with h1 | h1
      · by_cases e : a.length < c.length
        · exact .inr ⟨h1, e⟩
        · obtain ⟨r, rfl⟩ := h1
          obtain ⟨q, rfl⟩ := h'
          have : r = [] := by cases r <;> simp at e ⊢
          subst this
          exfalso
          clear e
          induction a with
          | nil =>
            rw [List.append_nil] at h
            exact nil_not_less h
          | cons x a ih =>
            refine ih ?_
            rw [List.append_nil, List.cons_append, less_cons] at h
            rcases h with h | h
            · omega
            · simpa using h.2
      · exact .inl h1
    · exact .inl (h.trans h')
  · rcases h' with h' | h'
    · exact .inr ⟨h'.trans h, by have := h'.length_le; omega⟩
    · exact .inl (less_prefix h' h)

theorem Less.down {a b : List Nat} (h : Less a b) : Down a b := .inl h
theorem Down.up {a b : List Nat} (h : Down a b) : After b a := by
  rcases h with h | h
  · exact .inr h
  · exact .inl h.1
theorem Down.then {a b c : List Nat} (h : Down b a) (h' : After b c) : Down c a := by
  rcases h with h | ⟨h, hl⟩
  · exact .inl (h.after h')
  · rcases h' with h' | h'
    · exact .inr ⟨h.trans h', by have := h'.length_le; omega⟩
    · rcases prefix_less h h' with h1 | h1
      · refine .inr ⟨h1, ?_⟩
        obtain ⟨p, x, y, t, u, rfl, rfl, hx⟩ := h'
        obtain ⟨q, hq⟩ := h
        obtain ⟨r, hr⟩ := h1
        by_cases e : a.length < (p ++ x :: t).length
        · exact e
        · have e1 : r = [] := by
            have := congrArg List.length hr
            rw [List.length_append] at this
            cases r with
            | nil => rfl
            | cons _ _ => rw [List.length_cons] at this; omega
          subst e1
          rw [List.append_nil] at hr
          subst hr
          exfalso
          rw [List.append_assoc, List.append_cancel_left_eq, List.cons_append] at hq
          cases hq
          omega
      · exact .inl h1

theorem down_cons {x y : Nat} {t u : List Nat} : Down (x :: t) (y :: u) ↔ x < y ∨ (x = y ∧ Down t u) := by
  unfold Down
  rw [less_cons, List.cons_prefix_cons]
  constructor
  · rintro ((h | h) | ⟨⟨rfl, h⟩, h'⟩)
    · exact .inl h
    · exact .inr ⟨h.1, .inl h.2⟩
    · exact .inr ⟨rfl, .inr ⟨h, by simpa using h'⟩⟩
  · rintro (h | ⟨rfl, h | h⟩)
    · exact .inl (.inl h)
    · exact .inl (.inr ⟨rfl, h⟩)
    · exact .inr ⟨⟨rfl, h.1⟩, by simpa using h.2⟩

theorem nil_not_down {a : List Nat} : ¬ Down [] a := by
  rintro (h | h)
  · exact nil_not_less h
  · simp at h

theorem acc_down (n : Nat) : ∀ l : List Nat, l.length ≤ n → Acc (fun a b => a.length ≤ n ∧ Down a b) l := by
  induction n with
  | zero =>
    intro l hl
    refine ⟨_, fun a h => ?_⟩
    obtain rfl : a = [] := List.length_eq_zero_iff.1 (by omega)
    exact absurd h.2 nil_not_down
  | succ n ih =>
    have key : ∀ x : Nat, ∀ t : List Nat, t.length ≤ n →
        Acc (fun a b => a.length ≤ n + 1 ∧ Down a b) (x :: t) := by
      intro x
      induction x using Nat.strongRecOn with
      | ind x ihx =>
        intro t ht
        have := ih t ht
        induction this with
        | intro t _ iht =>
          refine ⟨_, fun a ha => ?_⟩
          obtain ⟨h1, h2⟩ := ha
          cases a with
          | nil => exact absurd h2 nil_not_down
          | cons y u =>
            rw [List.length_cons] at h1
            rcases down_cons.1 h2 with h3 | ⟨rfl, h3⟩
            · exact ihx y h3 u (by omega)
            · exact iht u ⟨by omega, h3⟩ (by omega)
    intro l hl
    cases l with
    | nil =>
      refine ⟨_, fun a h => ?_⟩
      cases a with
      | nil => exact absurd h.2 nil_not_down
      | cons y u => exact key y u (by have := h.1; simpa using this)
    | cons x t => exact key x t (by simpa using hl)

/-! ### The stack of open texts -/

def Src.isFile (x : Src) : Bool := match x.kind with | .file _ _ => true | .macro _ _ _ => false

/-- The stack from the innermost macro on. -/
def deep (st : List Src) : List Src := st.dropWhile Src.isFile

/-- What lies below the innermost macro is the same in both states. -/
def Keep (s s' : St) : Prop :=
  (deep s.stack = [] ∧ deep s'.stack = []) ∨
  ∃ m m' r, deep s.stack = m :: r ∧ deep s'.stack = m' :: r

theorem Keep.of_eq {s s' : St} (h : deep s'.stack = deep s.stack) : Keep s s' := by
  cases e : deep s.stack with
  | nil => exact .inl ⟨e, by rw [h, e]⟩
  | cons m r => exact .inr ⟨m, m, r, e, by rw [h, e]⟩
theorem Keep.refl (s : St) : Keep s s := .of_eq rfl
theorem Keep.trans {a b c : St} (h : Keep a b) (h' : Keep b c) : Keep a c := by
  rcases h with ⟨h1, h2⟩ | ⟨m, m', r, h1, h2⟩
  · rcases h' with ⟨h3, h4⟩ | ⟨n, n', q, h3, h4⟩
    · exact .inl ⟨h1, h4⟩
    · rw [h2] at h3; cases h3
  · rcases h' with ⟨h3, h4⟩ | ⟨n, n', q, h3, h4⟩
    · rw [h2] at h3; cases h3
    · rw [h2] at h3; cases h3; exact .inr ⟨m, n', r, h1, h4⟩

/-- Ten texts at most are open, and a file that has been read to its end is empty. -/
def Fit (s : St) : Prop := s.stack.length ≤ 9 ∧ (s.mainEof = true → s.main = [])

/-- Nothing is left. -/
def Ended (s : St) : Prop := s.stack = [] ∧ s.mainEof = true ∧ s.main = []

theorem Fit.len {s : St} (h : Fit s) : (pending s).length ≤ 10 := by
  have := h.1
  simp [pending]; omega

/-- The current line has been noted. -/
def Cur (s : St) : Prop := ∃ p d, Event.line p d s.curline ∈ s.log

/-- A line with a minus sign has been read. -/
def Minus (s : St) : Prop := ∃ p d x, Event.line p d x ∈ s.log ∧ '-' ∈ x

/-- What a function that reads no line does to the source. -/
def Mv (s s' : St) : Prop := (Fit s → Fit s') ∧ Keep s s' ∧ After (pending s) (pending s')

theorem mv_same {s s' : St} (h1 : s'.stack = s.stack) (h2 : s'.main = s.main) (h3 : s'.mainEof = s.mainEof) :
    Mv s s' := by
  have : pending s' = pending s := by unfold pending mainLeft; rw [h1, h2, h3]
  refine ⟨fun h => ?_, .of_eq (by rw [h1]), this ▸ After.refl _⟩
  unfold Fit at *
  rw [h1, h2, h3]; exact h

instance : PreP Mv where
  refl s := mv_same rfl rfl rfl
  trans h h' := ⟨fun h0 => h'.1 (h.1 h0), h.2.1.trans h'.2.1, h.2.2.trans h'.2.2⟩
  step := by
    intro a b h
    cases h with
    | h h =>
      cases h with
      | n h => cases h <;> exact mv_same rfl rfl rfl
      | emit s x ho hc => exact mv_same rfl rfl rfl
      | lohi s b => exact mv_same rfl rfl rfl
      | note s n => exact mv_same rfl rfl rfl
    | push s src hd hk =>
      obtain ⟨name, text, h1, h2⟩ := hk
      refine ⟨fun h => ⟨?_, h.2⟩, ?_, ?_⟩
      · show s.stack.length + 1 ≤ 9
        have : maxSourceDeep = 10 := rfl
        omega
      · refine .of_eq ?_
        show deep (src :: s.stack) = deep s.stack
        unfold deep
        rw [List.dropWhile_cons, if_pos]
        unfold Src.isFile; rw [h2]
      · left
        show pending s <+: mainLeft s :: (src :: s.stack).reverse.map (·.kind.left)
        simp [pending]
    | _ => exact mv_same rfl rfl rfl

instance : PreL Mv where
  tree _ _ := mv_same rfl rfl rfl
  errs _ _ := mv_same rfl rfl rfl
  notes _ _ := mv_same rfl rfl rfl
  advance _ _ := mv_same rfl rfl rfl
  start := ⟨fun s => by rw [startLine_eq]; exact mv_same rfl rfl rfl⟩

/-! ### Reading a line -/

theorem fgets_shrinks (n : Nat) (t : Str) {l r : Str} {e : Bool} (h : fgets n t = (l, r, e)) :
    r.length ≤ t.length ∧ (e = true → r = []) ∧ (0 < n → e = false → r.length < t.length) := by
  induction n generalizing t l r e with
  | zero => cases t <;> (cases h; exact ⟨Nat.le_refl _, by simp, by simp⟩)
  | succ n ih =>
    cases t with
    | nil => cases h; exact ⟨Nat.le_refl _, by simp, by simp⟩
    | cons c t =>
      unfold fgets at h
      split at h
      · cases h; simp
      · cases e1 : fgets n t with
        | mk l' re =>
          obtain ⟨r', e'⟩ := re
          rw [e1] at h
          cases h
          obtain ⟨h1, h2, h3⟩ := ih t e1
          exact ⟨by simp; omega, h2, fun _ _ => by simp; omega⟩

theorem popEnds_parts (st : List Src) : ∀ s : St, s.stack = st → ∃ gone, st = gone ++ (popEnds st s).stack ∧
    (∀ x ∈ gone, x.isFile = true) ∧ (popEnds st s).main = s.main ∧ (popEnds st s).mainEof = s.mainEof := by
  induction st with
  | nil => intro s h; exact ⟨[], by unfold popEnds; simp [h], by simp, rfl, rfl⟩
  | cons src rest ih =>
    obtain ⟨ol, op, onum, kind⟩ := src
    intro s hs
    cases kind with
    | «macro» a b c => exact ⟨[], by unfold popEnds; simp [hs], by simp, rfl, rfl⟩
    | file t e =>
      cases e with
      | false => exact ⟨[], by unfold popEnds; simp [hs], by simp, rfl, rfl⟩
      | true =>
        unfold popEnds
        obtain ⟨gone, h1, h2, h3, h4⟩ := ih { s with stack := rest, linenumber := onum, lineprefix := op,
                                                     flags := { s.flags with listOn := ol } } rfl
        refine ⟨⟨ol, op, onum, .file t true⟩ :: gone, ?_, ?_, h3, h4⟩
        · rw [List.cons_append, ← h1]
        · intro x hx
          rcases List.mem_cons.1 hx with rfl | hx
          · rfl
          · exact h2 x hx

theorem deep_gone {gone rest : List Src} (h : ∀ x ∈ gone, x.isFile = true) : deep (gone ++ rest) = deep rest := by
  unfold deep
  induction gone with
  | nil => rfl
  | cons x gone ih =>
    rw [List.cons_append, List.dropWhile_cons, if_pos (h x (by simp))]
    exact ih fun y hy => h y (by simp [hy])

/-- `takeLine` sets the line and notes it. -/
theorem takeLine_reads (raw : Str) (s : St) :
    (∃ s', takeLine raw s = .ok () s' ∧ Cur s' ∧ s'.curline = (lineText raw).filter keepChar ∧
      s'.stack = s.stack ∧ s'.main = s.main ∧ s'.mainEof = s.mainEof) ∨
    (∃ w s', takeLine raw s = .stop w s' ∧ w ≠ .fuel ∧ w ≠ .hang) := by
  have t : Tame (takeLine raw) := by unfold takeLine; tame
  have t := t.run s
  rcases takeLine_run raw s with ⟨w, s', k, e, -⟩ | ⟨s', e, l, b, f, rfl⟩
  · rw [e] at t
    exact .inr ⟨w, s', e, t.1, fun h => absurd (t.2 h) (by simp)⟩
  · exact .inl ⟨_, e, ⟨_, _, List.mem_cons_self⟩, rfl, rfl, rfl, rfl⟩

/-- What reading a line does to the source. -/
structure Read (s s' : St) : Prop where
  fit : Fit s'
  cur : Cur s'
  keep : Keep s s'
  less : Less (pending s') (pending s) ∨ (Ended s' ∧ s'.curline = [])

theorem linegets_read {s : St} (hf : Fit s) :
    (∃ s', linegets s = .ok () s' ∧ Read s s') ∨
    (∃ w s', linegets s = .stop w s' ∧ w ≠ .fuel ∧ w ≠ .hang) := by
  unfold linegets
  rw [modS_bind_run, getS_bind_run]
  obtain ⟨gone, h1, h2, h3, h4⟩ := popEnds_parts s.stack s rfl
  have htop := popEnds_top s.stack s rfl
  generalize popEnds s.stack s = s1 at h1 h3 h4 htop
  have hd : deep s.stack = deep s1.stack := by rw [h1]; exact deep_gone h2
  cases hs : s1.stack with
  | nil =>
    simp only
    cases hg : fgets (lineMax - 1) s1.main with
    | mk l re =>
      obtain ⟨r, e⟩ := re
      simp only
      obtain ⟨g1, g2, g3⟩ := fgets_shrinks _ _ hg
      rcases takeLine_reads l s1 with ⟨s2, h5, h6, h7, h8, h9, h10⟩ | ⟨w, s2, h5, h6⟩
      · left
        refine ⟨{ s2 with main := r, mainEof := s2.mainEof || e }, by rw [bind_run, h5]; rfl, ?_⟩
        have hst : s2.stack = [] := h8.trans hs
        have hm : s2.mainEof = true → r = [] := by
          intro h
          rw [h10, h4] at h
          have := hf.2 h
          rw [← h3] at this
          rw [this] at hg
          cases hg; rfl
        refine ⟨⟨by show s2.stack.length ≤ 9; rw [hst]; simp, ?_⟩, h6, ?_, ?_⟩
        · intro h
          show r = []
          have h : (s2.mainEof || e) = true := h
          rw [Bool.or_eq_true] at h
          rcases h with h | h
          · exact hm h
          · exact g2 h
        · refine .of_eq ?_
          show deep s2.stack = _
          rw [h8, hd]
        · by_cases he : s.mainEof = true
          · right
            have hr := hm (by rw [h10, h4]; exact he)
            refine ⟨⟨hst, ?_, hr⟩, ?_⟩
            · show (s2.mainEof || e) = true
              rw [h10, h4, he]; rfl
            · show s2.curline = []
              rw [h7]
              have := hf.2 he
              rw [← h3] at this
              rw [this] at hg
              cases hg; rfl
          · left
            have he' : s.mainEof = false := by simpa using he
            have hlev : pending { s2 with main := r, mainEof := s2.mainEof || e } =
                [r.length + if e then 0 else 1] := by
              simp [pending, mainLeft, hst, h10, h4, he']
            rw [hlev]
            unfold pending mainLeft
            refine less_cons.2 (.inl ?_)
            rw [he']
            rw [h3] at g1 g3
            cases e with
            | true => simp; omega
            | false => have := g3 (by decide) rfl; simp; omega
      · right
        exact ⟨w, s2, by rw [bind_run, h5], h6⟩
  | cons src rest =>
    have hlev : ∀ x : Src, ∀ s' : St, s'.stack = x :: rest → s'.main = s1.main → s'.mainEof = s1.mainEof →
        x.kind.left < src.kind.left → Less (pending s') (pending s) := by
      intro x s' e1 e2 e3 hlt
      refine ⟨mainLeft s :: rest.reverse.map (·.kind.left), x.kind.left, src.kind.left, [],
        (gone.reverse.map (·.kind.left)), ?_, ?_, hlt⟩
      · unfold pending mainLeft
        rw [e1, e2, e3, h3, h4]
        simp
      · unfold pending
        rw [h1, hs]
        simp
    have hlen : (src :: rest).length ≤ 9 := by
      have := hf.1
      rw [h1, hs] at this
      simp at this ⊢
      omega
    have hdeep : ∀ x : Src, x.isFile = src.isFile → ∀ s' : St, s'.stack = x :: rest → Keep s s' := by
      intro x hx s' e1
      unfold Keep
      rw [hd, hs, e1]
      unfold deep
      rw [List.dropWhile_cons, List.dropWhile_cons, hx]
      cases src.isFile with
      | true =>
        simp only [if_true]
        cases rest.dropWhile Src.isFile with
        | nil => exact .inl ⟨rfl, rfl⟩
        | cons m r => exact .inr ⟨m, m, r, rfl, rfl⟩
      | false => exact .inr ⟨src, x, rest, rfl, rfl⟩
    simp only
    cases hk : src.kind with
    | file t e =>
      simp only
      cases hg : fgets (lineMax - 1) t with
      | mk l re =>
        obtain ⟨r, e'⟩ := re
        simp only
        obtain ⟨g1, g2, g3⟩ := fgets_shrinks _ _ hg
        have he : e = false := by
          cases e with
          | false => rfl
          | true => exact absurd hk (htop src rest hs t)
        rcases takeLine_reads l s1 with ⟨s2, h5, h6, h7, h8, h9, h10⟩ | ⟨w, s2, h5, h6⟩
        · left
          refine ⟨{ s2 with stack := { src with kind := .file r e' } :: rest }, by rw [bind_run, h5]; rfl, ?_⟩
          refine ⟨⟨hlen, ?_⟩, h6, ?_, .inl ?_⟩
          · show s2.mainEof = true → s2.main = []
            rw [h9, h10, h3, h4]; exact hf.2
          · exact hdeep { src with kind := .file r e' } (by simp [Src.isFile, hk]) _ rfl
          · refine hlev { src with kind := .file r e' } _ rfl h9 h10 ?_
            rw [hk, he]
            cases e' with
            | true => simp [SrcKind.left]; omega
            | false => have := g3 (by decide) rfl; simp [SrcKind.left]; omega
        · right
          exact ⟨w, s2, by rw [bind_run, h5], h6⟩
    | «macro» args all lines =>
      cases lines with
      | nil => right; exact ⟨_, _, rfl, by simp, by simp⟩
      | cons l ls =>
        simp only
        cases hx : expandLine args all false [] l with
        | mk out cut =>
          rw [modS_bind_run]
          simp only
          rw [modS_bind_run]
          have q : Quiet (whenM (cut = true) (warning c!"Too long line")) := by quiet
          have t : Tame (whenM (cut = true) (warning c!"Too long line")) := by tame
          generalize hs2 : ({ { s1 with stack := { src with kind := .macro args all ls } :: rest } with
            curline := out.reverse, log := .line s1.passnumber (rest.length + 1) out.reverse :: s1.log } : St) = s2
          have q := q.run s2
          have t := t.run s2
          revert q t
          cases whenM (cut = true) (warning c!"Too long line") s2 with
          | ok u s3 =>
            intro q _
            left
            refine ⟨s3, rfl, ?_⟩
            obtain ⟨a, b, c, rfl⟩ := q
            subst hs2
            refine ⟨⟨hlen, ?_⟩, ⟨_, _, List.mem_cons_self⟩, ?_, .inl ?_⟩
            · show s1.mainEof = true → s1.main = []
              rw [h3, h4]; exact hf.2
            · exact hdeep { src with kind := .macro args all ls } (by simp [Src.isFile, hk]) _ rfl
            · refine hlev { src with kind := .macro args all ls } _ rfl rfl rfl ?_
              rw [hk]
              simp [SrcKind.left]
          | err s3 => intro q; exact q.elim
          | stop w s3 => intro _ t; right; exact ⟨w, s3, rfl, t.1, fun h => absurd (t.2 h) (by simp)⟩

end Crasm

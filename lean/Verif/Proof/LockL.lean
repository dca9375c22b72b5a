import Verif.Proof.LockP
import Verif.Proof.RelL

/-! Two passes side by side: source lines, conditionals and macros. -/

namespace Crasm

variable {X : Ctx} {s1 s2 : St}

/-! ### Rules for the states between lines -/

/-- Equal results in states related as at the end of a line. -/
def EqW (X : Ctx) (a b : α) (t1 t2 : St) : Prop := a = b ∧ PW X t1 t2
def EndsW (X : Ctx) {α β : Type} (_ : α) (_ : β) (t1 t2 : St) : Prop := PW X t1 t2

theorem LsAt.listW {m : M α} {m' : M β} {E : β → St → St → Prop} [Quiet m] [Quiet m'] (h : PW X s1 s2) :
    LsAt X s1 s2 m m' (EndsW X) E := LsAt.quiet fun _ _ _ _ _ _ q1 q2 => h.same q1 q2

/-- `m` does the same in both passes. -/
class LsW (m : M α) : Prop where
  run : ∀ (X : Ctx) (s1 s2 : St), PW X s1 s2 → LsAt X s1 s2 m m (EqW X) No

instance {m : M Unit} [Quiet m] : LsW m := ⟨fun _ _ _ h => (LsAt.listW h).mono (fun _ _ _ _ h => ⟨rfl, h⟩) fun _ _ _ h => h⟩

theorem LsAt.eqW {m : M α} [hm : LsW m] {f : α → M γ} {g : α → M δ} {Q : γ → δ → St → St → Prop} {E : δ → St → St → Prop}
    (h : PW X s1 s2) (hf : ∀ a, Walk K (f a)) (hg : ∀ a, Walk K (g a))
    (hk : ∀ a t1 t2, PW X t1 t2 → LsAt X t1 t2 (f a) (g a) Q E) : LsAt X s1 s2 (m >>= f) (m >>= g) Q E :=
  (hm.run X s1 s2 h).bindNo hf hg fun a b t1 t2 q => by
    obtain ⟨rfl, q⟩ := q
    exact hk a t1 t2 q

theorem LsW.bind {m : M α} {f : α → M β} (hm : LsW m) (hw : ∀ a, Walk K (f a)) (hf : ∀ a, LsW (f a)) : LsW (m >>= f) :=
  ⟨fun X s1 s2 h => LsAt.eqW h hw hw fun a t1 t2 q => (hf a).run X t1 t2 q⟩
theorem LsW.pure (a : α) : LsW (Pure.pure a : M α) := ⟨fun _ _ _ h => LsAt.pure ⟨rfl, h⟩⟩
instance (msg : Str) : LsW (error msg : M α) := ⟨fun _ _ _ _ => LsAt.error⟩
instance (w : Stop) : LsW (stopWith w : M α) := ⟨fun _ _ _ _ => LsAt.stop2⟩

instance (s pat : Str) : LsW (filterC s pat) := ⟨fun _ _ _ h =>
  LsAt.quiet fun _ _ _ _ e1 e2 q1 q2 => ⟨(filterC_val e1).trans (filterC_val e2).symm, h.same q1 q2⟩⟩
instance (s pat : Str) : LsW (filter2 s pat) := by
  unfold filter2
  refine LsW.bind inferInstance (by intro; kwalk) fun r => ?_
  split
  · exact LsW.pure _
  · exact LsW.pure _

theorem LsAt.afterW {m : M α} {m' : M β} [Quiet m] [Quiet m'] {f : α → M γ} {g : β → M δ} {Q : γ → δ → St → St → Prop}
    {E : δ → St → St → Prop} (h : PW X s1 s2) (hf : ∀ a, Walk K (f a)) (hg : ∀ b, Walk K (g b))
    (hk : ∀ a b t1 t2, PW X t1 t2 → LsAt X t1 t2 (f a) (g b) Q E) : LsAt X s1 s2 (m >>= f) (m' >>= g) Q E :=
  (LsAt.listW h).bindNo hf hg hk

theorem LsAt.walkAt {m : M α} {m' : M β} {f : α → M γ} {g : β → M δ} {Q0 : α → β → St → St → Prop}
    {Q : γ → δ → St → St → Prop} {E : δ → St → St → Prop}
    (h : LsAt X s1 s2 m m' Q0 No) (hf : ∀ a t, m s1 = .ok a t → At K t (f a)) (hg : ∀ b t, m' s2 = .ok b t → At K t (g b))
    (hk : ∀ a b t1 t2, Q0 a b t1 t2 → LsAt X t1 t2 (f a) (g b) Q E) : LsAt X s1 s2 (m >>= f) (m' >>= g) Q E := by
  have left : ∀ {α β : Type} {E : St} {s : St} {m : M α} {f : α → M β}, (∀ a t, m s = .ok a t → At K t (f a)) →
      FinAt E ((m >>= f) s) → FinAt E (m s) := by
    intro α β E s m f hf h
    rw [bind_run] at h
    revert h
    cases e : m s with
    | ok a t =>
      intro h
      have hw := hf a t e
      unfold At at hw
      simp only at h
      revert h hw
      cases f a t with
      | ok b u => intro h hw; exact (K.star hw).trans h
      | err u => intro h hw; exact (K.star hw).trans h
      | stop w u => intro h _; exact h.elim
    | err t => exact id
    | stop w t => exact id
  intro h1 h2
  have p := h (left hf h1) (left hg h2)
  revert h1 h2 p
  rw [bind_run, bind_run]
  cases m s1 with
  | ok a t1 =>
    cases m' s2 with
    | ok b t2 => intro h1 h2 p; exact hk a b t1 t2 p h1 h2
    | err t2 => intro h1 _ _; simp only; cases f a t1 <;> trivial
    | stop w t2 => intro _ h2 _; exact h2.elim
  | err t1 =>
    cases m' s2 with
    | ok b t2 => intro _ _ p; exact p.elim
    | err t2 => intro _ _ _; trivial
    | stop w t2 => intro _ h2 _; exact h2.elim
  | stop w t1 => intro h1; exact h1.elim

/-! ### Source lines -/

theorem popEnds_rel (st1 : List Src) : ∀ (st2 : List Src) (s1 s2 : St), s1.stack = st1 → s2.stack = st2 → PW X s1 s2 →
    PW X (popEnds st1 s1) (popEnds st2 s2) := by
  induction st1 with
  | nil =>
    intro st2 s1 s2 h1 h2 h
    have hk := h.kinds
    unfold kindsOf at hk
    rw [h1, h2] at hk
    cases st2 with
    | nil => exact h
    | cons a b => simp at hk
  | cons src rest ih =>
    intro st2 s1 s2 h1 h2 h
    have hk := h.kinds
    unfold kindsOf at hk
    rw [h1, h2] at hk
    cases st2 with
    | nil => simp at hk
    | cons src2 rest2 =>
      obtain ⟨ol, op, on, kind⟩ := src
      obtain ⟨ol2, op2, on2, kind2⟩ := src2
      simp only [List.map_cons, List.cons.injEq] at hk
      obtain ⟨rfl, hk⟩ := hk
      cases kind2 with
      | «macro» a b c => unfold popEnds; exact h
      | file t e =>
        cases e with
        | false => unfold popEnds; exact h
        | true =>
          unfold popEnds
          refine ih rest2 _ _ rfl rfl ?_
          exact { h with kinds := hk }

theorem fgets_eof (n : Nat) : ∀ s l r, fgets n s = (l, r, true) → r = [] := by
  induction n with
  | zero => intro s l r h; cases h
  | succ n ih =>
    intro s l r h
    cases s with
    | nil => cases h; rfl
    | cons c s =>
      unfold fgets at h
      split at h
      · cases h
      · generalize hf : fgets n s = x at h
        obtain ⟨l', r', e'⟩ := x
        simp only [Prod.mk.injEq] at h
        obtain ⟨-, rfl, rfl⟩ := h
        exact ih _ _ _ hf

theorem ls_takeLine (raw : Str) (h : PW X s1 s2) : LsAt X s1 s2 (takeLine raw) (takeLine raw) (EndsW X) No := by
  intro _ _
  rcases takeLine_run raw s1 with ⟨w, s', k, e1, -⟩ | ⟨t1, e1, q1⟩
  · rw [e1]; trivial
  · rcases takeLine_run raw s2 with ⟨w, s', k, e2, -⟩ | ⟨t2, e2, q2⟩
    · rw [e1, e2]; trivial
    · rw [e1, e2]
      refine PW.same ?_ q1 q2
      exact { h with curline := rfl }

theorem walkK_stack (f : St → List Src) : Walk K (modS fun s => { s with stack := f s }) :=
  walkK_modS (fun _ => rfl) (fun _ => rfl) (fun _ => rfl) (fun _ => rfl)

theorem ls_linegets (h : PW X s1 s2) : LsAt X s1 s2 linegets linegets (EndsW X) No := by
  unfold LsAt
  rw [linegets_eq, linegets_eq]
  have hp := popEnds_rel s1.stack s2.stack s1 s2 rfl rfl h
  revert hp
  generalize popEnds s1.stack s1 = s1
  generalize popEnds s2.stack s2 = s2
  intro h
  show LsAt X s1 s2 linegetsRest linegetsRest (EndsW X) No
  unfold linegetsRest
  refine LsAt.getS ?_
  have hk := h.kinds
  unfold kindsOf at hk
  cases h1 : s1.stack with
  | nil =>
    rw [h1] at hk
    have h2 : s2.stack = [] := by
      cases e : s2.stack with
      | nil => rfl
      | cons a b => rw [e] at hk; simp at hk
    rw [h2, h.main]
    dsimp only
    generalize hf : fgets (lineMax - 1) s1.main = x
    obtain ⟨l, r, e⟩ := x
    dsimp only
    have hr : (s1.mainEof || e) = true → r = [] := by
      intro he
      cases e with
      | true => exact fgets_eof _ _ _ _ hf
      | false =>
        rw [Bool.or_false] at he
        rw [h.eof he] at hf
        cases hf
    intro f1 f2
    have w : ∀ u : Unit, Walk K (modS fun s => { s with main := r, mainEof := s.mainEof || e }) :=
      fun _ => walkK_modS (fun _ => rfl) (fun _ => rfl) (fun _ => rfl) (fun _ => rfl)
    have k1 := finAt_left w f1
    have k2 := finAt_left w f2
    revert f1 f2 k1 k2
    rw [bind_run, bind_run]
    rcases takeLine_run l s1 with ⟨w, s', k, e1, -⟩ | ⟨t1, e1, q1⟩
    · rw [e1]; intro f1; exact f1.elim
    · rcases takeLine_run l s2 with ⟨w, s', k, e2, -⟩ | ⟨t2, e2, q2⟩
      · rw [e1, e2]; intro _ f2; exact f2.elim
      · rw [e1, e2]
        intro _ _ _ _
        obtain ⟨_, _, _, rfl⟩ := q1
        obtain ⟨_, _, _, rfl⟩ := q2
        exact { h with
          curline := rfl
          main := rfl
          mainEof := congrArg (· || e) h.mainEof
          eof := hr }
  | cons src rest =>
    rw [h1] at hk
    cases h2 : s2.stack with
    | nil => rw [h2] at hk; simp at hk
    | cons src2 rest2 =>
      rw [h2] at hk
      simp only [List.map_cons, List.cons.injEq] at hk
      obtain ⟨hk1, hk2⟩ := hk
      dsimp only
      rw [hk1]
      cases hs : src.kind with
      | file t e0 =>
        dsimp only
        generalize hf : fgets (lineMax - 1) t = x
        obtain ⟨l, r, e⟩ := x
        dsimp only
        refine (ls_takeLine l h).bindNo (fun _ => walkK_stack _) (fun _ => walkK_stack _) fun _ _ t1 t2 q => ?_
        intro _ _
        refine { (show PW X t1 t2 from q) with kinds := ?_ }
        show SrcKind.file r e :: rest2.map (·.kind) = SrcKind.file r e :: rest.map (·.kind)
        rw [hk2]
      | «macro» args all lines =>
        dsimp only
        cases lines with
        | nil => exact LsAt.ub2
        | cons l ls =>
          dsimp only
          refine LsAt.modS ?_
          generalize expandLine args all false [] l = x
          obtain ⟨out, cut⟩ := x
          dsimp only
          refine LsAt.modS ?_
          haveI : ∀ (c : Prop) [Decidable c] (m : M Unit) [Quiet m], Quiet (whenM c m) := fun c _ m _ => quiet_when
          refine LsAt.listW ?_
          refine { h with curline := rfl, kinds := ?_ }
          show SrcKind.macro args all ls :: rest2.map (·.kind) = SrcKind.macro args all ls :: rest.map (·.kind)
          rw [hk2]

/-! ### The start of a line -/

theorem ls_startLine (h : PW X s1 s2) {E : Unit → St → St → Prop} : LsAt X s1 s2 startLine startLine (Ends2 X) E := by
  unfold LsAt
  rw [startLine_eq, startLine_eq]
  intro _ _
  obtain ⟨l1, l2, e1, e2, n1, n2, h3⟩ := h.star
  have q1 : starLabel s1 = l1 := by unfold starLabel; rw [e1]; rfl
  have q2 : starLabel s2 = l2 := by unfold starLabel; rw [e2]; rfl
  have hu : l2.flags.undef = l1.flags.undef := by
    rcases h3 with ⟨a, b, -⟩ | ⟨h3, -⟩
    · rw [a, b]
    · exact h3.core.undef
  have hpc : ∀ (s : St) (l : Label), starLabel s = l → l.flags.undef = false → (startedSt s).code.pc = l.value := by
    intro s l hl hu
    unfold startedSt
    simp only [hl, hu, Bool.false_eq_true, if_false]
    split
    · rename_i hv; exact hv.symm
    · rfl
  have hw : PW X (startedSt s1) (startedSt s2) := { h with }
  refine { hw with advance := rfl, org := ?_, pc := ?_, star := ?_ }
  · show (!(starLabel s2).flags.undef) = (!(starLabel s1).flags.undef)
    rw [q1, q2, hu]
  · intro ho
    have ho : (!(starLabel s1).flags.undef) = true := ho
    rw [q1] at ho
    have u1 : l1.flags.undef = false := by cases e : l1.flags.undef with | false => rfl | true => rw [e] at ho; cases ho
    rw [hpc s1 l1 q1 u1, hpc s2 l2 q2 (hu.trans u1)]
    rcases h3 with ⟨a, -⟩ | ⟨-, h3⟩
    · rw [u1] at a; cases a
    · exact h3.symm
  · intro ho l hl
    have ho : (!(starLabel s1).flags.undef) = true := ho
    have hl : s1.tree.find starKey = some l := hl
    rw [e1] at hl; cases hl
    rw [q1] at ho
    cases e : l1.flags.undef with | false => rfl | true => rw [e] at ho; cases ho

theorem ls_stripLine (h : P X s1 s2) : LsAt X s1 s2 stripLine stripLine (Eqq X) No := by
  unfold stripLine
  refine LsAt.getS ?_
  rw [h.curline]
  refine LsAt.eq h (by intro; kwalk) (by intro; kwalk) fun r t1 t2 q => ?_
  split
  · exact LsAt.pure ⟨rfl, q⟩
  · exact LsAt.modS (LsAt.pure ⟨rfl, { q with curline := rfl }⟩)

end Crasm

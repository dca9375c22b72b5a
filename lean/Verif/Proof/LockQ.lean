import Verif.Proof.LockO
import Verif.Proof.CodeInv

/-! Two passes side by side: the loop over the lines, and how the passes start. -/

namespace Crasm

variable {X : Ctx} {s1 s2 : St}

/-! ### The line read after an error at the end of the source -/

/-- Nothing that matters has changed. -/
def Kept (s t : St) : Prop := t.notes = s.notes ∧ t.tree = s.tree ∧ t.mainEof = s.mainEof ∧ t.stack = s.stack ∧
  bytesOf t.log = bytesOf s.log

theorem Kept.trans {a b c : St} (h : Kept a b) (h' : Kept b c) : Kept a c :=
  ⟨h'.1.trans h.1, h'.2.1.trans h.2.1, h'.2.2.1.trans h.2.2.1, h'.2.2.2.1.trans h.2.2.2.1, h'.2.2.2.2.trans h.2.2.2.2⟩

theorem SameBut.kept {s t : St} (h : SameBut s t) : Kept s t := by obtain ⟨_, _, _, rfl⟩ := h; exact ⟨rfl, rfl, rfl, rfl, rfl⟩

/-- Outcome of running on an empty line. -/
def Idles (s : St) (Q : α → St → Prop) : Res α → Prop
  | .ok a t => Kept s t ∧ Q a t
  | .err _ => False
  | .stop _ _ => True

theorem Idles.bind {m : M α} {f : α → M β} {s : St} {Q : α → St → Prop} {Q' : β → St → Prop} (h : Idles s Q (m s))
    (hf : ∀ a t, Kept s t → Q a t → Idles t Q' (f a t)) : Idles s Q' ((m >>= f) s) := by
  rw [bind_run]
  revert h
  cases m s with
  | ok a t =>
    intro ⟨k, q⟩
    have := hf a t k q
    show Idles s Q' (f a t)
    revert this
    cases f a t with
    | ok b u => intro ⟨k', q'⟩; exact ⟨k.trans k', q'⟩
    | err u => exact id
    | stop w u => exact id
  | err t => exact fun h => h.elim
  | stop w t => exact fun _ => trivial

theorem Idles.quiet {m : M α} [q : Quiet m] {s : St} {Q : α → St → Prop} (h : ∀ a t, m s = .ok a t → SameBut s t → Q a t) :
    Idles s Q (m s) := by
  have hq := q.run s
  revert hq
  cases e : m s with
  | ok a t => exact fun hq => ⟨SameBut.kept hq, h a t e hq⟩
  | err t => exact id
  | stop w t => exact fun _ => trivial

theorem filter2_empty {s t : St} {r : Option (Str × Str)} (h : filter2 [] c!"_?_;?" s = .ok r t) : r = none := by
  unfold filter2 at h
  obtain ⟨r0, t0, h0, h⟩ := bind_ok h
  have e := filterC_val h0
  have e' : r0 = none := e.trans (by decide +kernel)
  subst e'
  cases h
  rfl

theorem idle_asmline (n : Nat) (st : Status) (s : St) (hc : s.curline = []) : Idles s (fun r _ => r = .cont) (asmline n st s) := by
  cases n with
  | zero => exact trivial
  | succ n =>
    show Idles s _ ((startLine >>= _) s)
    refine Idles.bind (Q := fun _ t => t.curline = []) ?_ fun _ t _ hc => ?_
    · rw [startLine_eq]; exact ⟨⟨rfl, rfl, rfl, rfl, rfl⟩, hc⟩
    · rw [getS_bind_run]
      refine Idles.bind (Q := fun r _ => r = []) ?_ fun r u _ hr => ?_
      · unfold stripLine
        rw [getS_bind_run, hc]
        refine Idles.bind (Q := fun r _ => r = none) (Idles.quiet fun a t e _ => filter2_empty e) fun r u _ hr => ?_
        subst hr
        exact ⟨⟨rfl, rfl, rfl, rfl, rfl⟩, rfl⟩
      · subst hr
        rw [if_pos rfl]
        haveI : Quiet (whenM (st.lst = true) outputline) := quiet_when
        refine Idles.bind (Q := fun _ _ => True) (Idles.quiet fun _ _ _ _ => trivial) fun _ u _ _ => ?_
        exact ⟨⟨rfl, rfl, rfl, rfl, rfl⟩, rfl⟩

theorem idle_passBody (n : Nat) (s : St) (hst : s.stack = []) (hm : s.main = []) (he : s.mainEof = true) :
    Idles s (fun _ _ => True) (passBody n s) := by
  unfold passBody
  refine Idles.bind (Q := fun _ t => t.curline = []) ?_ fun _ t _ hc => ?_
  · rw [linegets_eq, hst]
    show Idles s _ (linegetsRest s)
    unfold linegetsRest
    rw [getS_bind_run, hst, hm]
    show Idles s _ ((takeLine [] >>= _) s)
    rw [bind_run]
    rcases takeLine_run [] s with ⟨w, s', k, e1, -⟩ | ⟨t1, e1, q1⟩
    · rw [e1]; trivial
    · rw [e1]
      obtain ⟨_, _, _, rfl⟩ := q1
      refine ⟨⟨rfl, rfl, ?_, rfl, rfl⟩, rfl⟩
      show (s.mainEof || _) = s.mainEof
      rw [he]; rfl
  · refine Idles.bind (idle_asmline n _ t hc) fun r u _ hr => ?_
    subst hr
    exact ⟨⟨rfl, rfl, rfl, rfl, rfl⟩, trivial⟩

theorem idle_passLoop (fuel n : Nat) (s : St) (hst : s.stack = []) (hm : s.main = []) (he : s.mainEof = true) :
    Idles s (fun _ _ => True) (passLoop fuel n false s) := by
  cases n with
  | zero => exact trivial
  | succ n =>
    unfold passLoop
    rw [getS_bind_run]
    rw [if_neg (by simp)]
    refine Idles.bind (Q := fun b _ => b = true) ?_ fun b t k hb => ?_
    · have := idle_passBody fuel s hst hm he
      unfold catchErr
      rw [bind_run]
      revert this
      cases passBody fuel s with
      | ok a t => intro ⟨k, _⟩; exact ⟨k, rfl⟩
      | err t => exact fun h => h.elim
      | stop w t => exact fun _ => trivial
    · subst hb
      cases n with
      | zero => exact trivial
      | succ n =>
        unfold passLoop
        rw [getS_bind_run, if_pos (by rw [k.2.2.1, he]; rfl)]
        exact ⟨⟨rfl, rfl, rfl, rfl, rfl⟩, trivial⟩

/-! ### The loop -/

/-- What holds at the ends of the two passes. -/
def Finals (X : Ctx) (t1 t2 : St) : Prop :=
  labelsOf 2 t2.notes = labelsOf 1 t1.notes ∧ ∀ k, NodeRel X k (t1.tree.find k) (t2.tree.find k)

theorem ls_passLoop (fuel n : Nat) : ∀ b s1 s2, PW X s1 s2 → (∀ t, passLoop fuel n true s2 = .ok () t → t.stack = []) →
    LsAt X s1 s2 (passLoop fuel n b) (passLoop fuel n true) (fun _ _ t1 t2 => Finals X t1 t2) No := by
  induction n with
  | zero => intro b s1 s2 _ _; exact LsAt.stop2
  | succ n ih =>
    intro b s1 s2 h hend
    haveI : ∀ b, W Step (passLoop fuel n b) := fun b => ⟨walk_passLoop fuel n b⟩
    have go : ¬ (true && s2.mainEof) = true → LsAt X s1 s2
        (do let again ← catchErr (do passBody fuel; pure true) (do bumpErr; pure false); passLoop fuel n again)
        (do let again ← catchErr (do passBody fuel; pure true) (do bumpErr; pure false); passLoop fuel n again)
        (fun _ _ t1 t2 => Finals X t1 t2) No := by
      intro hne
      refine (ls_again fuel h).runs.bindNo (by intro; kwalk) (by intro; kwalk) fun a b t1 t2 hh => ?_
      obtain ⟨⟨rfl, q⟩, -, e2⟩ := hh
      refine ih a t1 t2 q fun t e => hend t ?_
      unfold passLoop
      rw [getS_bind_run, if_neg hne, bind_run, e2]
      exact e
    by_cases he : s2.mainEof = true
    · have he1 : s1.mainEof = true := by rw [← h.mainEof]; exact he
      have e2 : passLoop fuel (n + 1) true s2 = .ok () s2 := by
        unfold passLoop
        rw [getS_bind_run, if_pos (by rw [he]; rfl)]
        rfl
      have hst : s1.stack = [] := by
        have := kinds_length h
        rw [hend s2 e2] at this
        exact List.length_eq_zero_iff.mp this.symm
      cases b with
      | true =>
        intro _ _
        have e1 : passLoop fuel (n + 1) true s1 = .ok () s1 := by
          unfold passLoop
          rw [getS_bind_run, if_pos (by rw [he1]; rfl)]
          rfl
        rw [e1, e2]
        exact ⟨h.labels, h.tree⟩
      | false =>
        intro _ _
        rw [e2]
        have hi := idle_passLoop fuel (n + 1) s1 hst (h.eof he1) he1
        revert hi
        cases passLoop fuel (n + 1) false s1 with
        | ok a t =>
          intro ⟨⟨k1, k2, _⟩, _⟩
          refine ⟨?_, ?_⟩
          · rw [k1]; exact h.labels
          · rw [k2]; exact h.tree
        | err t => exact fun h => h.elim
        | stop w t => exact fun _ => trivial
    · have he1 : ¬ s1.mainEof = true := by rw [← h.mainEof]; exact he
      unfold passLoop
      refine LsAt.getS ?_
      rw [if_neg (by simp [he1]), if_neg (by simp [he])]
      exact go (by simp [he])

end Crasm

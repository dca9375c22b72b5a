import Verif.Proof.LockM

/-! Two passes side by side: macros, statements, lines. -/

namespace Crasm

variable {X : Ctx} {s1 s2 : St}

theorem at_k {s : St} {m : M α} (h : At Step s m) : At K s m := by
  unfold At Out at *
  split <;> rename_i heq <;> rw [heq] at h <;> exact h.mono fun _ _ => K.s

theorem LsAt.runs {m : M α} {m' : M β} {Q : α → β → St → St → Prop} {E : β → St → St → Prop} (h : LsAt X s1 s2 m m' Q E) :
    LsAt X s1 s2 m m' (fun a b t1 t2 => Q a b t1 t2 ∧ m s1 = .ok a t1 ∧ m' s2 = .ok b t2) E := by
  intro f1 f2
  have p := h f1 f2
  revert p
  cases e1 : m s1 <;> cases e2 : m' s2 <;> intro p
  · exact ⟨p, rfl, rfl⟩
  all_goals exact p

/-! ### Macro definitions -/

theorem macroLoop_tree (st : Status) (n : Nat) : ∀ acc s s' r, macroLoop st n acc s = .ok r s' → s'.tree = s.tree := by
  induction n with
  | zero => intro acc s s' r h; cases h
  | succ n ih =>
    intro acc s s' r h
    unfold macroLoop at h
    obtain ⟨_, s1, h1, h⟩ := bind_ok h
    cases h1
    obtain ⟨_, s2, h2, h⟩ := bind_ok h
    have e2 := linegets_tree h2
    replace e2 : s2.tree = s.tree := e2
    rw [getS_bind_run] at h
    rw [← e2]
    have qt : ∀ {α : Type} {m : M α} [Quiet m] {a : α} {s t : St}, m s = .ok a t → t.tree = s.tree := by
      intro α m q a s t e
      have := q.run s
      rw [e] at this
      exact SameBut.tree this
    split at h
    · exact absurd h error_not_ok
    · obtain ⟨l, s3, h3, h⟩ := bind_ok h
      haveI : ∀ (c : Prop) [Decidable c] (m : M Unit) [Quiet m], Quiet (whenM c m) := fun c _ m _ => quiet_when
      have e3 : s3.tree = s2.tree := by
        obtain ⟨r, s3', h31, h32⟩ := bind_ok h3
        rw [← qt h31]
        revert h32
        cases r <;> intro h32 <;> cases h32 <;> rfl
      obtain ⟨_, s4, h4, h⟩ := bind_ok h
      obtain ⟨q, s5, h5, h⟩ := bind_ok h
      rw [← e3, ← qt h4, ← qt h5]
      revert h
      cases q with
      | none => exact ih _ _ _ _
      | some ab => intro h; cases h; rfl

theorem ls_macroLoop (st : Status) (n : Nat) : ∀ acc s1 s2, PW X s1 s2 →
    LsAt X s1 s2 (macroLoop st n acc) (macroLoop st n acc) (EqW X) No := by
  induction n with
  | zero => intro acc s1 s2 _; exact LsAt.stop2
  | succ n ih =>
    intro acc s1 s2 h
    haveI : ∀ (c : Prop) [Decidable c] (m : M Unit) [Quiet m], Quiet (whenM c m) := fun c _ m _ => quiet_when
    unfold macroLoop
    refine LsAt.afterW h (by intro; kwalk) (by intro; kwalk) fun _ _ s1 s2 h => ?_
    refine (ls_linegets h).bindNo (by intro; kwalk) (by intro; kwalk) fun _ _ t1 t2 q => ?_
    have q : PW X t1 t2 := q
    refine LsAt.getS ?_
    rw [q.mainEof, q.curline]
    split
    · exact LsAt.error
    · refine LsAt.bindNo (Q0 := EqW X) ?_ (by intro; kwalk) (by intro; kwalk) fun a b u1 u2 hh => ?_
      · refine LsAt.eqW q (by intro; kwalk) (by intro; kwalk) fun r u1 u2 q => ?_
        split
        · exact LsAt.pure ⟨rfl, q⟩
        · exact LsAt.pure ⟨rfl, q⟩
      · obtain ⟨rfl, q⟩ := hh
        refine LsAt.afterW q (by intro; kwalk) (by intro; kwalk) fun _ _ v1 v2 q => ?_
        refine LsAt.eqW q (by intro; kwalk) (by intro; kwalk) fun r w1 w2 q => ?_
        split
        · exact LsAt.pure ⟨rfl, q⟩
        · exact ih _ _ _ q

/-- A macro whose text is still to come. -/
def Fresh (s : St) (k : Str) : Prop :=
  ∃ l, s.tree.find k = some l ∧ l.flags.undef = false ∧ l.type = .macro ∧ l.ptr = .null

theorem ls_setLines (k : Str) (ls : List Str) (h : PW X s1 s2) (hf : Fresh s1 k) {E : Unit → St → St → Prop} :
    LsAt X s1 s2 (setLines k ls) (setLines k ls) (EndsW X) E := by
  obtain ⟨l1, e1, u1, ty, pt⟩ := hf
  have hn := h.tree k
  have key : ∃ l2, s2.tree.find k = some l2 ∧ LabRel l1 l2 ∧ (k = starKey → l1.flags.noredef = false ∧ l2.flags.noredef = false ∧ l1.value = l2.value) := by
    unfold NodeRel at hn
    split at hn
    · obtain ⟨m1, l2, g1, g2, n1, n2, h3⟩ := hn
      rw [e1] at g1; cases g1
      rcases h3 with ⟨a, -⟩ | ⟨h3, h4⟩
      · rw [u1] at a; cases a
      · exact ⟨l2, g2, h3, fun _ => ⟨n1, n2, h4⟩⟩
    · rename_i hk
      rcases hn with hu | ⟨m1, l2, g1, g2, h3⟩
      · have := (hu.fst l1 e1).1
        rw [u1] at this; cases this
      · rw [e1] at g1; cases g1
        exact ⟨l2, g2, h3, fun h => absurd h hk⟩
  obtain ⟨l2, e2, hl, hst⟩ := key
  have hl' : LabRel { l1 with ptr := .lines ls } { l2 with ptr := .lines ls } := by
    refine ⟨⟨hl.core.undef, hl.core.forward, hl.core.type, hl.core.rel, fun ht => ?_, hl.core.val, hl.core.md⟩, hl.defd, hl.noredef⟩
    obtain ⟨a, b, c, d, e, f, g⟩ := hl.core.voc ht
    refine ⟨a, b, c, d, rfl, ?_, fun hh => by cases hh⟩
    refine ⟨fun hh => ?_, fun ⟨p, _, hh⟩ => by cases hh⟩
    obtain ⟨p, -, hp⟩ := f.mp hh
    have hp : l1.ptr = _ := hp
    rw [pt] at hp; cases hp
  have hput : NodeRel X k (some { l1 with ptr := .lines ls }) (some { l2 with ptr := .lines ls }) := by
    unfold NodeRel
    split
    · rename_i hk
      obtain ⟨n1, n2, hv⟩ := hst hk
      exact ⟨_, _, rfl, rfl, n1, n2, .inr ⟨hl', hv⟩⟩
    · exact .inr ⟨_, _, rfl, rfl, hl'⟩
  unfold setLines
  refine LsAt.getS ?_
  rw [e1, e2]
  exact fun _ _ => h.put hput

/-- macro.c:444-492: the text of a macro. -/
def defTail (st : Status) (fuel : Nat) (key : Option Str) : M RC := do
  let (lines, a, b) ← macroLoop st fuel []
  if a ≠ [] ∨ b ≠ [] then error c!"illegal ENDM instruction"
  else do
    (match key with
      | none => pure ()
      | some k => setLines k lines)
    pure .cont

/-- macro.c:430-440: the name of a macro. -/
def defHead (st : Status) (label : Str) : M (Option Str) :=
  if st.act then do
    let k ← deflabel (label.take LABLEN) {} .macro 0
    pure (some k)
  else pure none

theorem xMacro_eq (fuel : Nat) (st : Status) (label : Str) (oper : Option Str) : xMacro fuel st (some label) oper = (do
    let s ← getS
    if oper.isSome then error c!"no operand allowed in macro statement"
    else if s.macrolevel ≠ 0 then error c!"nested macro definition"
    else do
      whenM (st.lst) (outputline)
      defHead st label >>= defTail st fuel) := rfl

theorem macroHead_ok {st : Status} {label : Str} {s t : St} {key : Option Str} (h : defHead st label s = .ok key t) :
    ∀ k, key = some k → Fresh t k := by
  intro k e
  subst e
  unfold defHead at h
  split at h
  · obtain ⟨k', s3, h3, h4⟩ := bind_ok h
    cases h4
    rcases deflabel_run (label.take LABLEN) {} .macro 0 s with ⟨msg, h⟩ | ⟨hd, h⟩
    · rw [h] at h3; exact absurd h3 error_not_ok
    · rw [h] at h3; cases h3
      exact ⟨_, Tree.find_put_self .., rfl, rfl, rfl⟩
  · cases h

theorem at_macroTail (st : Status) (fuel : Nat) (key : Option Str) (s : St) (hk : ∀ k, key = some k → Fresh s k) :
    At Step s (defTail st fuel key) := by
  unfold defTail
  refine At.bind At.w fun r s3 _ h3 => ?_
  obtain ⟨lines, a, b⟩ := r
  dsimp only
  split
  · exact At.w
  · refine At.bind ?_ fun _ _ _ _ => At.walk (Walk.pure _)
    cases key with
    | none => exact At.walk (Walk.pure _)
    | some k =>
      obtain ⟨l, hl, -, ht, -⟩ := hk k rfl
      exact at_setLines k lines s3 ⟨l, by rw [macroLoop_tree _ _ _ _ _ _ h3]; exact hl, ht⟩

theorem walk_macroBody (fuel : Nat) (st : Status) (label : Str) : Walk Step (defHead st label >>= defTail st fuel) := by
  intro s
  show At Step s _
  refine At.bind ?_ fun key s2 _ h2 => at_macroTail st fuel key s2 (macroHead_ok h2)
  unfold defHead
  split
  · refine At.bind ?_ fun _ _ _ _ => At.walk (Walk.pure _)
    rcases deflabel_run (label.take LABLEN) {} .macro 0 s with ⟨msg, h⟩ | ⟨hd, h⟩
    · exact At.of_eq h At.w
    · exact At.ok h (.one (.macroName s _ hd))
  · exact At.walk (Walk.pure _)

theorem core_macro (m1 m2 : Int) : Core { flags := {}, type := .macro, value := 0, modifier := m1, ptr := .null }
    { flags := {}, type := .macro, value := 0, modifier := m2, ptr := .null } := by
  refine ⟨rfl, rfl, rfl, by simp, fun _ => ⟨rfl, rfl, rfl, rfl, rfl, ⟨fun h => ?_, fun ⟨p, _, h⟩ => by cases h⟩, fun h => by cases h⟩,
    fun _ => rfl, fun _ _ h => absurd rfl h⟩
  rcases h with h | h <;> cases h

theorem ls_macroHead (st : Status) (label : Str) (h : P X s1 s2) : LsAt X s1 s2 (defHead st label) (defHead st label) (Eqq X) No := by
  unfold defHead
  split
  · refine (ls_deflabel h core_macro rfl fun _ => ⟨rfl, rfl⟩).bindNo (by intro; kwalk) (by intro; kwalk) fun a b t1 t2 q => ?_
    obtain ⟨rfl, q⟩ := q
    exact LsAt.pure ⟨rfl, q⟩
  · exact LsAt.pure ⟨rfl, h⟩

theorem ls_macroTail (st : Status) (fuel : Nat) (key : Option Str) (h : PW X s1 s2) (hf : ∀ k, key = some k → Fresh s1 k)
    (hf2 : ∀ k, key = some k → Fresh s2 k) :
    LsAt X s1 s2 (defTail st fuel key) (defTail st fuel key) (EqW X) No := by
  unfold defTail
  have hw : ∀ s, (∀ k, key = some k → Fresh s k) → ∀ lines t r, macroLoop st fuel [] s = .ok r t →
      At Step t (match key with
              | none => pure ()
              | some k => setLines k lines) := by
    intro s hf lines t r h3
    cases key with
    | none => exact At.walk (Walk.pure _)
    | some k =>
      obtain ⟨l, hl, -, ht, -⟩ := hf k rfl
      exact at_setLines k lines t ⟨l, by rw [macroLoop_tree _ _ _ _ _ _ h3]; exact hl, ht⟩
  refine LsAt.walkAt (ls_macroLoop st fuel [] s1 s2 h).runs (fun r t e => ?_) (fun r t e => ?_) fun r r' t1 t2 hh => ?_
  · obtain ⟨lines, a, b⟩ := r
    dsimp only
    refine at_k ?_
    split
    · exact At.w
    · exact At.bind (hw s1 hf lines t _ e) fun _ _ _ _ => At.walk (Walk.pure _)
  · obtain ⟨lines, a, b⟩ := r
    dsimp only
    refine at_k ?_
    split
    · exact At.w
    · exact At.bind (hw s2 hf2 lines t _ e) fun _ _ _ _ => At.walk (Walk.pure _)
  obtain ⟨⟨rfl, q⟩, h1, h2⟩ := hh
  obtain ⟨lines, a, b⟩ := r
  dsimp only
  split
  · exact LsAt.error
  · refine LsAt.bindNo (Q0 := EndsW X) ?_ (by intro; kwalk) (by intro; kwalk) fun _ _ u1 u2 q => LsAt.pure ⟨rfl, q⟩
    cases key with
    | none => exact LsAt.pure q
    | some k =>
      refine ls_setLines k lines q ?_
      obtain ⟨l, hl, a, b, c⟩ := hf k rfl
      exact ⟨l, by rw [macroLoop_tree _ _ _ _ _ _ h1]; exact hl, a, b, c⟩

theorem ls_xMacro (fuel : Nat) (st : Status) (label oper : Option Str) (h : P X s1 s2) :
    LsAt X s1 s2 (xMacro fuel st label oper) (xMacro fuel st label oper) (EqW X) No := by
  cases label with
  | none => exact LsAt.ub2
  | some label =>
    rw [xMacro_eq]
    refine LsAt.getS ?_
    rw [h.macrolevel]
    split
    · exact LsAt.error
    · split
      · exact LsAt.error
      · haveI : ∀ (c : Prop) [Decidable c] (m : M Unit) [Quiet m], Quiet (whenM c m) := fun c _ m _ => quiet_when
        refine LsAt.after h (fun _ => (walk_macroBody fuel st label).k) (fun _ => (walk_macroBody fuel st label).k)
          fun _ _ t1 t2 q => ?_
        refine LsAt.walkAt (ls_macroHead st label q).runs (fun a t e => at_k (at_macroTail _ _ _ _ (macroHead_ok e)))
          (fun a t e => at_k (at_macroTail _ _ _ _ (macroHead_ok e))) fun a b u1 u2 hh => ?_
        obtain ⟨⟨rfl, q⟩, h1, h2⟩ := hh
        exact ls_macroTail st fuel a q.toPW (macroHead_ok h1) (macroHead_ok h2)

/-! ### Macro calls -/

theorem ls_macroArgs (n : Nat) : ∀ acc o, LsW (macroArgs n acc o) := by
  induction n with
  | zero => intro acc o; exact inferInstanceAs (LsW (stopWith _))
  | succ n ih =>
    intro acc o
    unfold macroArgs
    split
    · exact LsW.pure _
    · split
      · infer_instance
      · refine LsW.bind inferInstance (by intro; kwalk) fun r => ?_
        split
        · exact ih _ _
        · exact LsW.pure _

theorem nodeRel_mark1 {k : Str} {o1 o2 : Option Label} (h : NodeRel X k o1 o2) :
    NodeRel X k (o1.map (·.mark true)) (o2.map (·.mark true)) := by
  cases o1 with
  | some l1 =>
    cases o2 with
    | some l2 => exact h.mark true true
    | none =>
      unfold NodeRel at *
      split
      · rename_i hk
        rw [if_pos hk] at h
        obtain ⟨_, _, _, e, _⟩ := h; cases e
      · rename_i hk
        rw [if_neg hk] at h
        rcases h with h | ⟨_, _, _, e, _⟩
        · refine .inl ⟨fun l hl => ?_, fun f hf => ?_, fun hn => rfl⟩
          · cases hl; exact h.fst l1 rfl
          · obtain ⟨_, _, e, _⟩ := h.snd f hf; cases e
        · cases e
  | none =>
    cases o2 with
    | none => exact h
    | some l2 =>
      unfold NodeRel at *
      split
      · rename_i hk
        rw [if_pos hk] at h
        obtain ⟨_, _, e, _⟩ := h; cases e
      · rename_i hk
        rw [if_neg hk] at h
        rcases h with h | ⟨_, _, e, _⟩
        · refine .inl ⟨fun l hl => (by cases hl), fun f hf => ?_, fun hn => ?_⟩
          · obtain ⟨ho, m2, h2, h3⟩ := h.snd f hf
            cases h2
            refine ⟨ho, _, rfl, ?_⟩
            unfold Carried at h3 ⊢
            rw [h3]; rfl
          · exact absurd (h.non hn) (by simp)
        · cases e

theorem markUsed_find (k k' : Str) (s : St) : ∃ t, markUsed k s = .ok () { s with tree := t } ∧
    t.find k' = if k' = k then (s.tree.find k').map (·.mark true) else s.tree.find k' := by
  have e0 : markUsed k s = .ok () (match s.tree.find k with
    | some l => s.putL k (l.mark true)
    | none => s) := rfl
  rw [e0]
  cases h : s.tree.find k with
  | none =>
    refine ⟨s.tree, rfl, ?_⟩
    split
    · rename_i e; subst e; rw [h]; rfl
    · rfl
  | some l =>
    refine ⟨s.tree.put k (l.mark true), rfl, ?_⟩
    split
    · rename_i e; subst e; rw [Tree.find_put_self, h]; rfl
    · rename_i e; rw [Tree.find_put_ne _ _ e]

theorem ls_markUsed (k : Str) (h : PW X s1 s2) {E : Unit → St → St → Prop} :
    LsAt X s1 s2 (markUsed k) (markUsed k) (EndsW X) E := by
  intro _ _
  obtain ⟨t1, e1, -⟩ := markUsed_find k k s1
  obtain ⟨t2, e2, -⟩ := markUsed_find k k s2
  rw [e1, e2]
  refine { h with tree := fun k' => ?_ }
  obtain ⟨t1', e1', g1⟩ := markUsed_find k k' s1
  obtain ⟨t2', e2', g2⟩ := markUsed_find k k' s2
  rw [e1] at e1'
  rw [e2] at e2'
  have q1 : t1 = t1' := congrArg (fun r : Res Unit => r.state.tree) e1'
  have q2 : t2 = t2' := congrArg (fun r : Res Unit => r.state.tree) e2'
  show NodeRel X k' (t1.find k') (t2.find k')
  rw [q1, q2, g1, g2]
  split
  · exact nodeRel_mark1 (h.tree k')
  · exact h.tree k'

section
variable {self : Status → M RC}

theorem ls_macroRun (hs : SelfLs X self) (hw : ∀ st, Walk Step (self st)) (st : Status) (n : Nat) :
    ∀ s1 s2, PW X s1 s2 → LsAt X s1 s2 (macroRun self st n) (macroRun self st n) (EqW X) No := by
  induction n with
  | zero => intro s1 s2 _; exact LsAt.stop2
  | succ n ih =>
    intro s1 s2 h
    haveI : W Step (macroRun self st n) := ⟨walk_macroRun hw st n⟩
    haveI : ∀ st, W Step (self st) := fun st => ⟨hw st⟩
    unfold macroRun
    refine (LsAt.rescue (E := No) h.p2 (by kwalk) ?_).bindNo (by intro; kwalk) (by intro; kwalk) fun a b t1 t2 hh => ?_
    · exact (ls_linegets h).bindNo (by intro; kwalk) (by intro; kwalk) fun _ _ t1 t2 q => hs st t1 t2 q
    · obtain ⟨rfl, q⟩ := hh
      split
      · exact ih t1 t2 q
      · exact LsAt.pure ⟨rfl, q⟩

theorem kinds_length (h : PW X s1 s2) : s2.stack.length = s1.stack.length := by
  have := congrArg List.length h.kinds
  unfold kindsOf at this
  simpa using this

theorem ls_macrocall (hs : SelfLs X self) (hw : ∀ st, Walk Step (self st)) (n : Nat) (k : Str) (l1 l2 : Label) (st : Status)
    (o : Option Str) (hp : l2.ptr = l1.ptr) (h : PW X s1 s2) :
    LsAt X s1 s2 (macrocall self n k l1 st o) (macrocall self n k l2 st o) (EndsW X) No := by
  haveI : ∀ st n, W Step (macroRun self st n) := fun st n => ⟨walk_macroRun hw st n⟩
  haveI : ∀ (c : Prop) [Decidable c] (m : M Unit) [Quiet m], Quiet (whenM c m) := fun c _ m _ => quiet_when
  haveI := fun n acc o => ls_macroArgs n acc o
  -- the three parts after the arguments
  have hw3 : ∀ (s0 : St) (r : RC), Walk K (do
      modS fun s => { s with
        macrolevel := s.macrolevel - 1, linenumber := s0.linenumber, lineprefix := s0.lineprefix,
        flags := { s.flags with listOn := s0.flags.listOn },
        stack := s.stack.drop (s.stack.length - s0.stack.length), segment := s0.segment }
      if r ≠ .endm ∧ r ≠ .exitm then Crasm.error c!"ELSE or ENDC illegal here"
      else do
        let s ← getS
        if !s.flags.macrolistOn then do
          modS fun s => { s with curline := s0.curline }
          whenM (st.lst) (outputline)
        else pure () : M Unit) := by
    intro s0 r; kwalk
  have hw2 : ∀ (s0 : St) (l : Label) (args : List Str), Walk K (match l.ptr with
    | .lines ls => do
      whenM (s0.flags.macrolistOn && st.lst) (outputline)
      modS fun s => { s with
        stack := { oldlist := s0.flags.listOn, oldprefix := s0.lineprefix, oldlinnum := s0.linenumber,
                   kind := .macro args ((orEmpty o).take 59) ls } :: s.stack,
        lineprefix := some 'M', macrolevel := s.macrolevel + 1,
        thiscall := s.thiscall + 1, segment := s.thiscall + 1,
        log := .opened s.passnumber (s.stack.length + 1) (.macro args ((orEmpty o).take 59) ls) :: s.log }
      let r ← macroRun self (st.and ⟨s0.flags.macrolistOn, true⟩) n
      modS fun s => { s with
        macrolevel := s.macrolevel - 1, linenumber := s0.linenumber, lineprefix := s0.lineprefix,
        flags := { s.flags with listOn := s0.flags.listOn },
        stack := s.stack.drop (s.stack.length - s0.stack.length), segment := s0.segment }
      if r ≠ .endm ∧ r ≠ .exitm then Crasm.error c!"ELSE or ENDC illegal here"
      else do
        let s ← getS
        if !s.flags.macrolistOn then do
          modS fun s => { s with curline := s0.curline }
          whenM (st.lst) (outputline)
        else pure ()
    | _ => ubM .nullMacro : M Unit) := by
    intro s0 l args
    split
    · rename_i ls _
      refine Walk.bind (by kwalk) fun _ => Walk.bind ?_ fun _ => Walk.bind W.walk fun r => hw3 s0 r
      exact walkK_push _ (fun s => .opened s.passnumber (s.stack.length + 1) (.macro args ((orEmpty o).take 59) ls))
        (fun _ => rfl) (fun _ => rfl) (fun _ => rfl) (fun _ => rfl)
    · exact W.walk
  unfold macrocall
  refine (ls_markUsed k h (E := No)).bindNo ?_ ?_ fun _ _ s1 s2 h => ?_
  · intro _; exact Walk.bind W.walk fun _ => Walk.bind Walk.getS fun s0 => Walk.bind W.walk fun a => hw2 s0 l1 a
  · intro _; exact Walk.bind W.walk fun _ => Walk.bind Walk.getS fun s0 => Walk.bind W.walk fun a => hw2 s0 l2 a
  have h : PW X s1 s2 := h
  refine (ls_checkDepth (Q := EndsW X) (E := No) h).bindNo ?_ ?_ fun _ _ s1 s2 h => ?_
  · intro _; exact Walk.bind Walk.getS fun s0 => Walk.bind W.walk fun a => hw2 s0 l1 a
  · intro _; exact Walk.bind Walk.getS fun s0 => Walk.bind W.walk fun a => hw2 s0 l2 a
  have h : PW X s1 s2 := h
  refine LsAt.getS ?_
  dsimp only
  refine LsAt.eqW h (fun a => hw2 s1 l1 a) (fun a => hw2 s2 l2 a) fun args t1 t2 q => ?_
  rw [hp]
  cases l1.ptr with
  | lines ls =>
    dsimp only
    refine LsAt.afterW q ?_ ?_ fun _ _ t1 t2 q => ?_
    · intro _
      refine Walk.bind ?_ fun _ => Walk.bind W.walk fun r => hw3 s1 r
      exact walkK_push _ (fun s => .opened s.passnumber (s.stack.length + 1) (.macro args ((orEmpty o).take 59) ls))
        (fun _ => rfl) (fun _ => rfl) (fun _ => rfl) (fun _ => rfl)
    · intro _
      refine Walk.bind ?_ fun _ => Walk.bind W.walk fun r => hw3 s2 r
      exact walkK_push _ (fun s => .opened s.passnumber (s.stack.length + 1) (.macro args ((orEmpty o).take 59) ls))
        (fun _ => rfl) (fun _ => rfl) (fun _ => rfl) (fun _ => rfl)
    refine LsAt.modS ?_
    rw [h.mlist]
    refine (ls_macroRun hs hw _ n _ _ ?_).bindNo (fun r => hw3 s1 r) (fun r => hw3 s2 r) fun r r' u1 u2 hh => ?_
    · refine { q with kinds := ?_, macrolevel := ?_, thiscall := ?_, segment := ?_ }
      · show _ :: t2.stack.map (·.kind) = _ :: t1.stack.map (·.kind)
        rw [show t2.stack.map (·.kind) = t1.stack.map (·.kind) from q.kinds]
      · exact congrArg (· + 1) q.macrolevel
      · exact congrArg (· + 1) q.thiscall
      · exact congrArg (· + 1) q.thiscall
    · obtain ⟨rfl, q⟩ := hh
      have q' : PW X { u1 with
            macrolevel := u1.macrolevel - 1, linenumber := s1.linenumber, lineprefix := s1.lineprefix,
            flags := { u1.flags with listOn := s1.flags.listOn },
            stack := u1.stack.drop (u1.stack.length - s1.stack.length), segment := s1.segment }
          { u2 with
            macrolevel := u2.macrolevel - 1, linenumber := s2.linenumber, lineprefix := s2.lineprefix,
            flags := { u2.flags with listOn := s2.flags.listOn },
            stack := u2.stack.drop (u2.stack.length - s2.stack.length), segment := s2.segment } := by
        refine { q with kinds := ?_, macrolevel := ?_, segment := h.segment }
        · show (u2.stack.drop (u2.stack.length - s2.stack.length)).map (·.kind) =
            (u1.stack.drop (u1.stack.length - s1.stack.length)).map (·.kind)
          rw [kinds_length q, kinds_length h, List.map_drop, List.map_drop,
            show u2.stack.map (·.kind) = u1.stack.map (·.kind) from q.kinds]
        · exact congrArg (· - 1) q.macrolevel
      refine LsAt.bindNo (Q0 := EndsW X) (fun _ _ => q') (by intro; kwalk) (by intro; kwalk) fun _ _ v1 v2 q => ?_
      have q : PW X v1 v2 := q
      split
      · exact LsAt.error
      · refine LsAt.getS ?_
        rw [q.mlist]
        split
        · refine LsAt.modS ?_
          have q' : PW X { v1 with curline := s1.curline } { v2 with curline := s2.curline } := { q with curline := h.curline }
          exact LsAt.listW q'
        · exact LsAt.pure q
  | _ => exact LsAt.ub2

end

end Crasm

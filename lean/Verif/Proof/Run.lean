import Verif.Proof.WalkL

/-! The shape of a whole run. -/

namespace Crasm

/-- The state in which a run ends, however it ends. -/
def Res.state : Res α → St
  | .ok _ s => s
  | .err s => s
  | .stop _ s => s

/-- The state in which pass `n` starts reading lines. -/
def passStart (n : Nat) (s : St) : St :=
  { s with
    main := s.source, mainEof := false,
    flags := { s.flags with codeOn := true, listOn := s.flags.listOn || !s.flags.nolist,
                            macrolistOn := false, iflistOn := true },
    macrolevel := 0, thiscall := 0, segment := 0, linenumber := 0, lineprefix := none,
    tree := s.tree.put starKey
      (let l := usedLabel s (s.tree.find starKey)
       { l with flags := { l.flags with undef := true, noredef := false, forward := false } }),
    passnumber := n, errnumber := 0 }

theorem passInit_run (n : Nat) (s : St) : passInit n s = .ok () (passStart n s) := by
  unfold passInit
  have hc : ∀ m, canon m starKey = starKey := fun _ => rfl
  simp only [findlabel, searchlabel, putLabel, bind_run, getS_run, modS_run, pure_run,
    hc, Tree.put_put, passStart]
  cases h : s.tree.find starKey <;> rfl

theorem passLoop_ok_or_stop (fuel n : Nat) : ∀ b s s', passLoop fuel n b s ≠ .err s' := by
  induction n with
  | zero => intro b s s' h; simp [passLoop] at h
  | succ n ih =>
    intro b s s' h
    unfold passLoop at h
    rw [getS_bind_run] at h
    split at h
    · cases h
    · rw [bind_run] at h
      split at h
      · exact ih _ _ _ h
      · rename_i s1 h1
        unfold catchErr at h1
        split at h1
        · simp [bumpErr] at h1
        · rename_i hr
          exact hr _ h1
      · cases h

/-- crasm.c:185-205: between the passes. -/
def betweenPasses (o : Opts) (s : St) : St :=
  { s with flags := pass2Flags o s.flags, tree := s.tree.map undefOne }

/-- crasm.c:207-215: after the passes. -/
def afterPasses (s : St) : St :=
  { s with
    code := if s.code.file.isSome then s.code.close s.flags.codeHex else s.code,
    flags := { s.flags with listOn := true } }

theorem walk_pass {fuel n : Nat} {s s' : St} (h : pass fuel n s = .ok () s') :
    Star Step (passStart n s, .live) (s', .live) := by
  unfold pass at h
  rw [bind_run, passInit_run] at h
  have := walk_passLoop fuel fuel true (passStart n s)
  simp only at h
  rw [h] at this
  exact this

theorem pass_not_err {fuel n : Nat} {s s' : St} : pass fuel n s ≠ .err s' := by
  unfold pass
  rw [bind_run, passInit_run]
  exact passLoop_ok_or_stop _ _ _ _ _

/-- `m` does not call error(). -/
def NoErr (m : M α) : Prop := ∀ s s', m s ≠ .err s'

theorem NoErr.bind {m : M α} {f : α → M β} (hm : NoErr m) (hf : ∀ a, NoErr (f a)) : NoErr (m >>= f) := by
  intro s s' h
  rw [bind_run] at h
  split at h
  · exact hf _ _ _ h
  · rename_i h1; exact hm _ _ h1
  · cases h

theorem Quiet.noErr {m : M α} (h : Quiet m) : NoErr m := by
  intro s s' e
  have := h.run s
  rw [e] at this
  exact this

theorem noErr_modS (f : St → St) : NoErr (modS f) := by intro s s' h; cases h

theorem noErr_bindAll (t : TableId) (es : List Entry) (is : List Nat) : NoErr (bindAll t es is) := by
  induction is with
  | nil => intro s s' h; cases h
  | cons i is ih =>
    unfold bindAll
    refine NoErr.bind ?_ fun _ => ih
    split
    · unfold bindOne
      refine NoErr.bind (by intro s s' h; cases h) fun s => ?_
      dsimp only
      split
      · split
        · exact noErr_modS _
        · exact Quiet.noErr inferInstance
      · exact noErr_modS _
    · intro s s' h; cases h

theorem SameBut.tree {s s' : St} (h : SameBut s s') : s'.tree = s.tree := by
  obtain ⟨_, _, _, rfl⟩ := h; rfl
theorem SameBut.code {s s' : St} (h : SameBut s s') : s'.code = s.code := by
  obtain ⟨_, _, _, rfl⟩ := h; rfl

instance (t : Str) : Quiet (resultLine t) := by unfold resultLine; quiet
instance : Quiet result := by unfold result; quiet
instance (k : Str) (l : Label) : Quiet (printlabel k l) := by
  unfold printlabel
  refine Quiet.bind Quiet.getS fun _ => Quiet.bind (by quiet) fun _ => Quiet.bind Quiet.getS fun _ => ?_
  dsimp only
  split
  · exact Quiet.pure _
  · exact Quiet.bind inferInstance fun _ => Quiet.bind (by quiet) fun _ => Quiet.bind inferInstance fun _ =>
      Quiet.bind inferInstance fun _ => Quiet.bind inferInstance fun _ => Quiet.bind inferInstance fun _ =>
      inferInstance
instance quiet_printlabels (ls : List (Str × Label)) : Quiet (printlabels ls) := by
  induction ls with
  | nil => exact Quiet.pure _
  | cons e ls ih => obtain ⟨k, l⟩ := e; unfold printlabels; quiet
instance : Quiet xref := by unfold xref; quiet

/-- The configurations met while setting up the vocabulary (phase 0), in pass 1 and in pass 2. -/
inductive Reach (o : Opts) (s0 : St) : Nat → Cfg → Prop
  | init {c : Cfg} (h : Star PStep (s0, .live) c) : Reach o s0 0 c
  | pass1 {sA : St} {c : Cfg} (hA : Reach o s0 0 (sA, .live)) (h : Star Step (passStart 1 sA, .live) c) :
      Reach o s0 1 c
  | pass2 {sB : St} {c : Cfg} (hB : Reach o s0 1 (sB, .live))
      (h : Star Step (passStart 2 (betweenPasses o sB), .live) c) : Reach o s0 2 c

theorem Star.inv {R : Cfg → Cfg → Prop} {P : Cfg → Prop} (hs : ∀ a b, R a b → P a → P b) {a b : Cfg}
    (h : Star R a b) (h0 : P a) : P b := by
  induction h with
  | refl => exact h0
  | tail _ r ih => exact hs _ _ r ih

/-- Invariants of a run. -/
theorem Reach.inv {o : Opts} {s0 : St} {P : Nat → Cfg → Prop} (h0 : P 0 (s0, .live))
    (hs : ∀ n a b, Step a b → P n a → P n b)
    (h1 : ∀ s, P 0 (s, .live) → P 1 (passStart 1 s, .live))
    (h2 : ∀ s, P 1 (s, .live) → P 2 (passStart 2 (betweenPasses o s), .live))
    {n : Nat} {c : Cfg} (h : Reach o s0 n c) : P n c := by
  induction h with
  | init h => exact (h.mono fun _ _ h => .p h).inv (hs 0) h0
  | pass1 _ h ih => exact h.inv (hs 1) (h1 _ ih)
  | pass2 _ h ih => exact h.inv (hs 2) (h2 _ ih)

theorem init_out (s0 : St) : Out PStep s0 (initLabelList .pseudos pseudos s0) := walk_init .pseudos s0

theorem pass_out (fuel n : Nat) (s : St) : Out Step (passStart n s) (pass fuel n s) := by
  unfold pass
  rw [bind_run, passInit_run]
  exact walk_passLoop fuel fuel true (passStart n s)

/-- A whole run that gets to its end: the vocabulary is set up, then two passes over the source. -/
theorem assemble_ok {fuel : Nat} {o : Opts} {s0 s : St} {u : Unit} (h : assemble fuel o s0 = .ok u s) :
    ∃ sC, Reach o s0 2 (sC, .live) ∧ s = afterPasses sC := by
  unfold assemble at h
  obtain ⟨_, sA, hA, h⟩ := bind_ok h
  obtain ⟨_, sB, hB, h⟩ := bind_ok h
  obtain ⟨_, sB', hB', h⟩ := bind_ok h
  cases hB'
  obtain ⟨_, sB', hB', h⟩ := bind_ok h
  cases hB'
  obtain ⟨_, sC, hC, h⟩ := bind_ok h
  refine ⟨sC, .pass2 (.pass1 (.init ?_) (walk_pass hB)) (walk_pass hC), ?_⟩
  · have := init_out s0
    rw [hA] at this
    exact this
  · simp only [modS_bind_run, modFlags, modS_run] at h
    cases h
    unfold afterPasses
    split <;> rfl

/-- A run that stops early. -/
theorem assemble_stop {fuel : Nat} {o : Opts} {s0 s : St} {w : Stop} (h : assemble fuel o s0 = .stop w s) :
    ∃ n, Reach o s0 n (s, .dead) := by
  unfold assemble at h
  have h0 := init_out s0
  rw [bind_run] at h
  split at h
  · rename_i u sA hA
    rw [hA] at h0
    have h1 := pass_out fuel 1 sA
    rw [bind_run] at h
    split at h
    · rename_i u sB hB
      rw [hB] at h1
      rw [bind_run] at h
      simp only [modFlags, modS_run] at h
      rw [bind_run] at h
      simp only [undeflabels, modS_run] at h
      have h2 := pass_out fuel 2 (betweenPasses o sB)
      change (pass fuel 2 >>= _) (betweenPasses o sB) = _ at h
      rw [bind_run] at h
      split at h
      · cases h
      · cases h
      · rename_i hC
        cases h
        rw [hC] at h2
        exact ⟨2, .pass2 (.pass1 (.init h0) h1) h2⟩
    · cases h
    · rename_i hB
      cases h
      rw [hB] at h1
      exact ⟨1, .pass1 (.init h0) h1⟩
  · cases h
  · rename_i hA
    cases h
    rw [hA] at h0
    exact ⟨0, .init h0⟩

theorem assemble_not_err {fuel : Nat} {o : Opts} : NoErr (assemble fuel o) := by
  unfold assemble
  refine NoErr.bind (noErr_bindAll _ _ _) fun _ => ?_
  refine NoErr.bind (fun _ _ => pass_not_err) fun _ => ?_
  refine NoErr.bind (noErr_modS _) fun _ => ?_
  refine NoErr.bind (noErr_modS _) fun _ => ?_
  refine NoErr.bind (fun _ _ => pass_not_err) fun _ => ?_
  refine NoErr.bind (noErr_modS _) fun _ => ?_
  exact noErr_modS _

end Crasm

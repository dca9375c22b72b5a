import Verif.Proof.Stmt

/-!
  **C18** Position labels and keywords cannot be redefined.
-/

namespace Crasm

/-- A symbol that is defined for good: the address of a line, or a keyword. -/
def Fixed (l : Label) : Prop := l.flags.undef = false ∧ l.flags.noredef = true ∧ l.type ≠ .macro

theorem SameL.fixed {l l' : Label} (h : SameL l l') (hl : Fixed l) : Fixed l' := by
  have h3 : l'.flags.noredef = l.flags.noredef := (congrArg (fun l : Label => l.flags.noredef) h).symm
  exact ⟨h.undef.1.trans hl.1, h3.trans hl.2.1, by rw [h.value.2.1]; exact hl.2.2⟩

/-! ## Nothing changes it -/

theorem put_same {t : Tree} {k k' : Str} {l x : Label} (hl : t.find k = some l) (hx : k = k' → SameL l x) :
    ∃ l', (t.put k' x).find k = some l' ∧ SameL l l' := by
  by_cases e : k = k'
  · subst e; exact ⟨x, Tree.find_put_self _ _ _, hx rfl⟩
  · exact ⟨l, by rw [Tree.find_put_ne _ _ e]; exact hl, .refl _⟩

theorem bumped_same {s : St} {t : Tree} {k : Str} {l : Label} (hk : k ≠ starKey) (hl : s.tree.find k = some l) (hb : bumped s t) :
    ∃ l', t.find k = some l' ∧ SameL l l' := by
  obtain ⟨v, -, rfl⟩ := hb
  exact put_same hl fun e => absurd e hk

theorem nstep_same {a b : Cfg} {k : Str} {l : Label} (hk : k ≠ starKey) (hl : a.1.tree.find k = some l) (h : NStep a b) :
    ∃ l', b.1.tree.find k = some l' ∧ SameL l l' := by
  cases h with
  | scratch => exact ⟨l, hl, .refl _⟩
  | use s k' => exact put_same hl fun e => by subst e; simp only at hl; rw [hl]; exact rfl
  | error0 => exact ⟨l, hl, .refl _⟩
  | error1 s t h hb => exact bumped_same hk hl hb
  | odd => exact ⟨l, hl, .refl _⟩
  | die => exact ⟨l, hl, .refl _⟩

theorem defOk_fixed {l : Label} {o : Option Label} {b : Bool} (hf : Fixed l) (ho : o = some l) (hd : defOk o b) : False := by
  rcases hd l ho with h | h
  · rw [hf.1] at h; cases h
  · rw [hf.2.1] at h; cases h.1

theorem step_same {a b : Cfg} {k : Str} {l : Label} (hk : k ≠ starKey) (hl : a.1.tree.find k = some l) (hf : Fixed l) (h : Step a b) :
    ∃ l', b.1.tree.find k = some l' ∧ SameL l l' := by
  cases h with
  | p h =>
    cases h with
    | h h =>
      cases h with
      | n h => exact nstep_same hk hl h
      | emit s x ho hc => exact ⟨l, hl, .refl _⟩
      | lohi s b => exact ⟨l, hl, .refl _⟩
      | note s n => exact ⟨l, hl, .refl _⟩
    | flags => exact ⟨l, hl, .refl _⟩
    | sect => exact ⟨l, hl, .refl _⟩
    | bindNew s t e he hn =>
      refine put_same hl fun e => ?_
      subst e
      simp only at hl
      rw [hl] at hn; cases hn
    | bindOld s t e he q hq ho hu =>
      refine put_same hl fun e => ?_
      subst e
      simp only at hl
      rw [hl] at hq; cases hq
      rw [hf.1] at hu; cases hu
    | misc => exact ⟨l, hl, .refl _⟩
    | push => exact ⟨l, hl, .refl _⟩
  | here s name hne horg hd => exact put_same hl fun e => (defOk_fixed hf (e ▸ hl) hd).elim
  | equ s name flags type modifier ptr value hff hd hp => exact put_same hl fun e => (defOk_fixed hf (e ▸ hl) hd).elim
  | macroName s name hd => exact put_same hl fun e => (defOk_fixed hf (e ▸ hl) hd).elim
  | macroText s k' q hq ht ls =>
    refine put_same hl fun e => ?_
    subst e
    simp only at hl
    rw [hl] at hq; cases hq
    exact absurd ht hf.2.2
  | markUsed s k' q hq =>
    refine put_same hl fun e => ?_
    subst e
    simp only at hl
    rw [hl] at hq; cases hq
    exact rfl
  | bump s t hb => exact bumped_same hk hl hb
  | start0 => exact ⟨l, hl, .refl _⟩
  | start1 => exact ⟨l, hl, .refl _⟩
  | enter => exact ⟨l, hl, .refl _⟩
  | leave => exact ⟨l, hl, .refl _⟩
  | readMain => exact ⟨l, hl, .refl _⟩
  | readFile => exact ⟨l, hl, .refl _⟩
  | readMacro => exact ⟨l, hl, .refl _⟩
  | call => exact ⟨l, hl, .refl _⟩
  | drop => exact ⟨l, hl, .refl _⟩
  | caught => exact ⟨l, hl, .refl _⟩

theorem star_same {a b : Cfg} {k : Str} {l : Label} (hk : k ≠ starKey) (hl : a.1.tree.find k = some l) (hf : Fixed l) (h : Star Step a b) :
    ∃ l', b.1.tree.find k = some l' ∧ SameL l l' := by
  induction h with
  | refl => exact ⟨l, hl, .refl _⟩
  | tail _ r ih =>
    obtain ⟨l1, h1, h2⟩ := ih
    obtain ⟨l2, h3, h4⟩ := step_same hk h1 (h2.fixed hf) r
    exact ⟨l2, h3, h2.trans h4⟩

theorem walk_same {m : M α} (hw : Walk Step m) {s : St} {k : Str} {l : Label} (hk : k ≠ starKey) (hl : s.tree.find k = some l) (hf : Fixed l) :
    ∃ l', (m s).state.tree.find k = some l' ∧ SameL l l' := by
  have := hw s
  revert this
  cases m s with
  | ok a s' => intro h; exact star_same (a := (s, .live)) hk hl hf h
  | err s' => intro h; exact star_same (a := (s, .live)) hk hl hf h
  | stop w s' => intro h; exact star_same (a := (s, .live)) hk hl hf h

/-- **C18**, unchanged (1): no line changes a fixed symbol: value, kind, and being fixed stay, whether the line is
    accepted or rejected, and whatever it leads to (macro expansions, conditional blocks). -/
theorem C18_kept_line (n : Nat) (st : Status) (s : St) {k : Str} {l : Label} (hk : k ≠ c!"*") (hl : s.tree.find k = some l) (hf : Fixed l) :
    ∃ l', (asmline n st s).state.tree.find k = some l' ∧ Fixed l' ∧ l'.value = l.value ∧ l'.type = l.type ∧
      l'.modifier = l.modifier ∧ l'.ptr = l.ptr := by
  obtain ⟨l', h1, h2⟩ := walk_same (walk_asmline n st) hk hl hf
  exact ⟨l', h1, h2.fixed hf, h2.value.1, h2.value.2.1, h2.value.2.2.1, h2.value.2.2.2⟩

/-- **C18**, unchanged (2): nor does anything else in the rest of the pass. -/
theorem C18_kept (fuel n : Nat) (b : Bool) (s : St) {k : Str} {l : Label} (hk : k ≠ c!"*") (hl : s.tree.find k = some l) (hf : Fixed l) :
    ∃ l', (passLoop fuel n b s).state.tree.find k = some l' ∧ Fixed l' ∧ l'.value = l.value ∧ l'.type = l.type ∧
      l'.modifier = l.modifier ∧ l'.ptr = l.ptr := by
  obtain ⟨l', h1, h2⟩ := walk_same (walk_passLoop fuel n b) hk hl hf
  exact ⟨l', h1, h2.fixed hf, h2.value.1, h2.value.2.1, h2.value.2.2.1, h2.value.2.2.2⟩

/-! ## Attempts are rejected -/

/-- The name denotes a fixed symbol. -/
def Taken (name : Str) (s : St) : Prop := ∃ l, searchlabel s name = some l ∧ Fixed l

theorem Taken.alike {name : Str} {s s' : St} (h : Taken name s) (hs : s'.segment = s.segment) (ht : Alike s.tree s'.tree) : Taken name s' := by
  obtain ⟨l, h1, h2⟩ := h
  obtain ⟨l', h3, h4⟩ := ht.some h1
  exact ⟨l', by unfold searchlabel; rw [hs]; exact h3, h4.fixed h2⟩

/-- `m` does not succeed when the name is taken. -/
def Refuses (name : Str) (m : M α) : Prop := ∀ s, Taken name s → ∀ a s', m s ≠ .ok a s'

theorem Refuses.left {name : Str} {m : M α} {f : α → M β} (h : Refuses name m) : Refuses name (m >>= f) := by
  intro s ht a s' hr
  obtain ⟨b, s1, h1, -⟩ := bind_ok hr
  exact h s ht b s1 h1
theorem Refuses.right {name : Str} {m : M α} {f : α → M β} (hm : Walk NStep m) (h : ∀ a, Refuses name (f a)) : Refuses name (m >>= f) := by
  intro s ht a s' hr
  obtain ⟨b, s1, h1, h2⟩ := bind_ok hr
  have g := nwalk_gen hm h1
  exact h b s1 (ht.alike g.segment g.tree) a s' h2
theorem Refuses.whenNote {name : Str} {c : Prop} [Decidable c] (n : Note) {f : Unit → M β} (h : ∀ a, Refuses name (f a)) :
    Refuses name (whenM c (note n) >>= f) := by
  unfold whenM
  split
  · intro s ht a s' hr
    exact h () { s with notes := (s.passnumber, n) :: s.notes } ht a s' hr
  · exact h ()
theorem refuses_error (name msg : Str) : Refuses name (error msg : M α) := fun _ _ _ _ h => error_not_ok h

theorem refuses_deflabel (name : Str) (fl : LFlags) (ty : LType) (v : Word) : Refuses name (deflabel name fl ty v) := by
  intro s ht a s' h
  obtain ⟨l, h1, h2⟩ := ht
  rcases deflabel_run name fl ty v s with ⟨msg, e⟩ | ⟨hd, e⟩
  · rw [e] at h; exact error_not_ok h
  · exact defOk_fixed h2 h1 hd

theorem refuses_here (name : Str) : Refuses name (herelabel name) := by
  unfold herelabel
  split
  · exact refuses_error _ _
  · intro s ht a s' h
    rw [getS_bind_run] at h
    split at h
    · exact (refuses_deflabel name _ _ _).left s ht a s' h
    · exact error_not_ok h

theorem refuses_equ (name : Str) (o : Option Str) : Refuses name (xEqu (some name) o) := by
  unfold xEqu
  refine Refuses.right W.walk fun r => ?_
  refine Refuses.right (fun s => NStep.scr) fun _ => ?_
  refine Refuses.right (by walk) fun _ => ?_
  refine Refuses.whenNote _ fun _ => ?_
  exact (refuses_deflabel name _ _ _).left

theorem canon_take (seg : Nat) (name : Str) : canon seg (name.take LABLEN) = canon seg name := by
  have h48 : LABLEN = 48 := rfl
  have take : ∀ p q : Str, (p ++ q.take 48).take 48 = (p ++ q).take 48 := by
    intro p q
    rw [List.take_append, List.take_append, List.take_take]
    congr 2
    omega
  unfold canon
  rw [h48, List.map_take, take]
  cases name with
  | nil => rfl
  | cons c cs =>
    by_cases h : c = '.'
    · subst h; rfl
    · congr 2
      split
      · rename_i heq; injection heq with h1 _; exact absurd h1 h
      · split
        · rename_i heq; injection heq with h1 _; exact absurd h1 h
        · rfl

theorem refuses_macro (name : Str) (fuel : Nat) (st : Status) (hst : st.act = true) (o : Option Str) : Refuses name (xMacro fuel st (some name) o) := by
  have hd : Refuses name (deflabel (name.take LABLEN) {} .macro 0) := by
    intro s ht
    refine refuses_deflabel (name.take LABLEN) _ _ _ s ?_
    obtain ⟨l, h1, h2⟩ := ht
    exact ⟨l, by unfold searchlabel; rw [canon_take]; exact h1, h2⟩
  intro s ht a s' h
  unfold xMacro at h
  change (getS >>= _) s = _ at h
  rw [getS_bind_run] at h
  split at h
  · exact error_not_ok h
  · split at h
    · exact error_not_ok h
    · revert h
      refine Refuses.right (by walk) (fun _ => ?_) s ht a s'
      exact hd.left.left

/-- The ways in which the entry of a mnemonic treats the label of its line: it leaves it to be defined as the
    address of the line, or it is EQU, or it is MACRO. -/
def Definer (lab : Label) : Prop :=
  lab.flags.deflabel = false ∨
  (lab.ptr = .handler (.pseudo .equ) ∧ lab.type = .mnemo ∧ lab.flags.defcond = false ∧ lab.flags.defmacro = false) ∨
  (lab.ptr = .handler (.pseudo .macro) ∧ (lab.flags.defcond = true ∨ lab.flags.defmacro = true))

instance (lab : Label) : Decidable (Definer lab) := by unfold Definer; infer_instance

/-- Every entry of the vocabularies is of one of these kinds (and so is every macro). -/
theorem C18_covers : (∀ e ∈ pseudos ++ C6800.m6800 ++ C6800.m6801 ++ C6502.m6502 ++ C6502.m65c02 ++ Z80.mz80, Definer e.label) := by
  decide +kernel

theorem status_round (st : Status) : Status.ofInt st.toInt = st := by
  obtain ⟨a, b⟩ := st
  cases a <;> cases b <;> rfl

/-- **C18**, rejected: a line that attempts to define a name that is taken - as the address of the line, by EQU or
    `=`, or by MACRO - is never accepted. -/
theorem C18_rejected (n : Nat) (lst : Bool) (s s1 : St) (f : Fields) (hf : statement s = .ok (some f) s1) (x : Str)
    (hx : (f.entry = none ∧ f.mnemo = x) ∨ (f.label = some x ∧ ∃ key lab, f.entry = some (key, lab) ∧ Definer lab))
    {l : Label} (hl : searchlabel s x = some l) (hl2 : Fixed l) (rc : RC) (s' : St) : asmline n ⟨lst, true⟩ s ≠ .ok rc s' := by
  cases n with
  | zero => intro h; cases h
  | succ n =>
    obtain ⟨fl, h1, -, -⟩ := statement_run (n := n) (st := ⟨lst, true⟩) hf
    rw [h1]
    have fr := statement_frame hf
    have ht : Taken x s1 := Taken.alike ⟨l, hl, hl2⟩ fr.1 fr.2.1
    suffices h : Refuses x (doFields (asmline n) n ⟨lst, true⟩ fl f) from h s1 ht rc s'
    unfold doFields
    rcases hx with ⟨h2, h3⟩ | ⟨h2, key, lab, h3, h4⟩
    · rw [h2]
      dsimp only
      split
      · rw [h3]
        exact Refuses.left (refuses_here x)
      · exact refuses_error _ _
    · rw [h3, h2]
      dsimp only
      split
      · exact refuses_error _ _
      · rcases h4 with h4 | h4 | h4
        · rw [h4]
          exact Refuses.left (refuses_here x)
        · obtain ⟨p1, p2, p3, p4⟩ := h4
          have rest : Refuses x (execLine (asmline n) n ⟨lst, true⟩ (some x) f.oper key lab) := by
            unfold execLine
            rw [p3, p4, if_neg (by decide), if_neg (by rw [p2]; decide), if_pos p2, p1]
            exact Refuses.left (Refuses.left (Refuses.left (refuses_equ x _)))
          cases hd : lab.flags.deflabel
          · exact Refuses.left (refuses_here x)
          · exact Refuses.right (by walk) fun _ => rest
        · obtain ⟨p1, p2⟩ := h4
          have rest : Refuses x (execLine (asmline n) n ⟨lst, true⟩ (some x) f.oper key lab) := by
            unfold execLine
            rw [if_pos (by simpa using p2), p1]
            exact refuses_macro x n _ (by rw [status_round]) _
          cases hd : lab.flags.deflabel
          · exact Refuses.left (refuses_here x)
          · exact Refuses.right (by walk) fun _ => rest

/-- **C18**, reported: whenever a line is rejected, the last thing that happened is that an error was reported. -/
theorem C18_reported (n : Nat) (st : Status) (s s' : St) (h : asmline n st s = .err s') :
    ∃ shown before, s'.log = .error s'.passnumber shown :: before := by
  have hw := walk_asmline n st s
  rw [h] at hw
  change Star Step (s, .live) (s', .pend) at hw
  have key : ∀ {c : Cfg}, Star Step (s, .live) c → c.2 = .pend → ∃ shown before, c.1.log = .error c.1.passnumber shown :: before := by
    intro c hc
    induction hc with
    | refl => intro e; cases e
    | tail _ r ih =>
      intro e
      cases r with
      | p r =>
        cases r with
        | h r =>
          cases r with
          | n r =>
            cases r with
            | error0 => exact ⟨_, _, rfl⟩
            | error1 => exact ⟨_, _, rfl⟩
            | odd => exact ih rfl
            | _ => cases e
          | _ => cases e
        | _ => cases e
      | _ => cases e
  exact key hw rfl

/-! ## What is fixed -/

theorem here_ok {x : Str} {s s' : St} (h : herelabel x s = .ok () s') :
    canon s.segment x ≠ starKey ∧ ∃ l, s'.tree.find (canon s.segment x) = some l ∧ Fixed l ∧ l.value = (starLabel s).value := by
  unfold herelabel at h
  split at h
  · exact (error_not_ok h).elim
  · rename_i hx
    rw [getS_bind_run] at h
    split at h
    · obtain ⟨k, s1, h1, h2⟩ := bind_ok h
      refine ⟨fun e => hx (canon_star e), ?_⟩
      rcases deflabel_run x { noredef := true } (addrType s.flags) (starLabel s).value s with ⟨msg, e⟩ | ⟨-, e⟩
      · rw [e] at h1; exact (error_not_ok h1).elim
      · rw [e] at h1
        injection h1 with h3 h4
        subst h4
        have g := (nwalk_gen (m := whenM (!s.flags.codeOn) (echoAddr (starLabel s).value)) (by walk) h2).tree
        obtain ⟨l', g1, g2⟩ := g.some (Tree.find_put_self _ _ _)
        refine ⟨l', g1, g2.fixed ⟨?_, ?_, ?_⟩, ?_⟩
        · unfold defdLabel LFlags.or; simp
        · unfold defdLabel LFlags.or; simp
        · unfold defdLabel addrType; dsimp only; split <;> (try split) <;> decide
        · rw [g2.value.1]; rfl
    · exact (error_not_ok h).elim

/-- **C18**, what is fixed (1): the name that an accepted line has defined as its address is fixed, and stands for the
    location counter with which the line began. -/
theorem C18_established (n : Nat) (lst : Bool) (s s1 s' : St) (f : Fields) (rc : RC) {q : Label} (hs : s.tree.find c!"*" = some q) (hf : statement s = .ok (some f) s1) (x : Str)
    (hx : (f.entry = none ∧ f.mnemo = x) ∨ (f.label = some x ∧ ∃ key lab, f.entry = some (key, lab) ∧ lab.flags.deflabel = false))
    (h : asmline n ⟨lst, true⟩ s = .ok rc s') :
    ∃ l, s'.tree.find (canon s.segment x) = some l ∧ Fixed l ∧ l.value = q.value := by
  cases n with
  | zero => cases h
  | succ n =>
    obtain ⟨fl, h1, -, -⟩ := statement_run (n := n) (st := ⟨lst, true⟩) hf
    rw [h1] at h
    have fr := statement_frame hf
    have hs : s.tree.find starKey = some q := hs
    have hstar : (starLabel s1).value = q.value := by
      unfold starLabel
      obtain ⟨q', e1, e2⟩ := fr.2.1.some hs
      rw [e1]
      exact e2.value.1
    unfold doFields at h
    rcases hx with ⟨h2, h3⟩ | ⟨h2, key, lab, h3, h4⟩
    · rw [h2] at h
      dsimp only at h
      split at h
      · obtain ⟨_, s2, g1, g2⟩ := bind_ok h
        rw [h3] at g1
        obtain ⟨hk, l, g3, g4, g5⟩ := here_ok g1
        rw [fr.1] at hk g3
        obtain ⟨l', g6, g7⟩ := walk_same (m := (do whenM lst outputline; pure RC.cont : M RC)) (by walk) hk g3 g4
        rw [g2] at g6
        exact ⟨l', g6, g7.fixed g4, by rw [g7.value.1, g5, hstar]⟩
      · exact (error_not_ok h).elim
    · rw [h3] at h
      dsimp only at h
      split at h
      · exact (error_not_ok h).elim
      · rw [h2, h4] at h
        obtain ⟨_, s2, g1, g2⟩ := bind_ok h
        change herelabel x s1 = _ at g1
        obtain ⟨hk, l, g3, g4, g5⟩ := here_ok g1
        rw [fr.1] at hk g3
        have hw := walk_herelabel x s1
        rw [g1] at hw
        have ha : s2.advance = 0 := (astar_advance hw rfl).trans fr.2.2.2.1
        have hw := at_execLine (walk_asmline n) n ⟨lst, true⟩ (some x) f.oper key lab s2 ha
        unfold At at hw
        rw [g2] at hw
        obtain ⟨l', g6, g7⟩ := star_same (a := (s2, .live)) hk g3 g4 hw
        exact ⟨l', g6, g7.fixed g4, by rw [g7.value.1, g5, hstar]⟩

/-- Symbols that come from a vocabulary. -/
def GoodK (t : Tree) : Prop := ∀ k l, t.find k = some l → l.origin ≠ none →
  k ≠ starKey ∧ l.flags.noredef = true ∧ (l.origin = some .pseudos → Fixed l)

theorem GoodK.put {t : Tree} (h : GoodK t) {k : Str} {x : Label}
    (hx : x.origin ≠ none → k ≠ starKey ∧ x.flags.noredef = true ∧ (x.origin = some .pseudos → Fixed x)) : GoodK (t.put k x) := by
  intro k' l hl
  by_cases e : k' = k
  · subst e
    rw [Tree.find_put_self] at hl
    cases hl
    exact hx
  · rw [Tree.find_put_ne _ _ e] at hl
    exact h k' l hl

theorem GoodK.same {t : Tree} (h : GoodK t) {k : Str} {l x : Label} (hl : t.find k = some l) (e : SameL l x) : GoodK (t.put k x) := by
  refine h.put fun ho => ?_
  have h1 : x.origin = l.origin := (congrArg (fun l : Label => l.origin) e).symm
  have h2 : x.flags.noredef = l.flags.noredef := (congrArg (fun l : Label => l.flags.noredef) e).symm
  rw [h1] at ho ⊢
  obtain ⟨a, b, c⟩ := h k l hl ho
  exact ⟨a, h2.trans b, fun hp => e.fixed (c hp)⟩

theorem GoodK.new {t : Tree} (h : GoodK t) {k : Str} {x : Label} (hx : x.origin = none) : GoodK (t.put k x) :=
  h.put fun ho => absurd hx ho

theorem GoodK.star {t : Tree} (h : GoodK t) {x : Label} (hx : ∀ l, t.find starKey = some l → x.origin = l.origin)
    (hn : t.find starKey = none → x.origin = none) : GoodK (t.put starKey x) := by
  refine h.put fun ho => ?_
  cases hf : t.find starKey with
  | none => exact absurd (hn hf) ho
  | some l => exact absurd rfl (h _ l hf (by rw [← hx l hf]; exact ho)).1

theorem GoodK.defd {t : Tree} (h : GoodK t) {k : Str} {fl : LFlags} {ty : LType} {v : Word} (hd : defOk (t.find k) fl.noredef) (x : Label)
    (ho : x.origin = (defdLabel (t.find k) fl ty v).origin) (hn : x.flags.noredef = (defdLabel (t.find k) fl ty v).flags.noredef) :
    GoodK (t.put k x) := by
  cases hf : t.find k with
  | none => rw [hf] at ho; exact h.new ho
  | some q =>
    rw [hf] at ho hn
    refine h.put fun hx => ?_
    rw [ho] at hx ⊢
    obtain ⟨a, b, c⟩ := h k q hf hx
    refine ⟨a, ?_, fun hp => ?_⟩
    · rw [hn]; unfold defdLabel LFlags.or; simp [b]
    · exact (defOk_fixed (c hp) hf hd).elim

theorem tables_fixed : ∀ e ∈ tableOf .pseudos, Fixed e.label := by
  intro e he; unfold Fixed; revert e; decide +kernel
theorem tables_noredef (t : TableId) : ∀ e ∈ tableOf t, e.label.flags.noredef = true ∧ e.name ≠ starKey := by
  cases t <;> decide +kernel

theorem goodK_step {a b : Cfg} (h : Step a b) (g : GoodK a.1.tree) : GoodK b.1.tree := by
  have hb : ∀ {s : St} {t : Tree}, GoodK s.tree → bumped s t → GoodK t := by
    intro s t g hb
    obtain ⟨v, -, rfl⟩ := hb
    refine GoodK.star g (fun l hl => ?_) (fun hn => ?_)
    · simp [starLabel, hl]
    · simp [starLabel, hn]
  cases h with
  | p h =>
    cases h with
    | h h =>
      cases h with
      | n h =>
        cases h with
        | scratch => exact g
        | use s k' =>
          cases hf : s.tree.find k' with
          | none => exact GoodK.new g rfl
          | some q => exact GoodK.same g hf rfl
        | error0 => exact g
        | error1 s t h hb' => exact hb g hb'
        | odd => exact g
        | die => exact g
      | note => exact g
      | emit s x ho hc => exact g
      | lohi s b => exact g
    | flags => exact g
    | sect => exact g
    | bindNew s t e he hn =>
      have ht := tables_noredef t e he
      refine GoodK.put g fun _ => ⟨fun e => ht.2 (canon_star e), ht.1, fun hp => ?_⟩
      cases hp
      exact tables_fixed e he
    | bindOld s t e he q hq ho hu =>
      refine GoodK.put g fun hx => ?_
      obtain ⟨a, b, c⟩ := g _ _ hq hx
      exact ⟨a, b, fun hp => absurd (c hp).1 (by rw [hu]; decide)⟩
    | misc => exact g
    | push => exact g
  | here s name hne horg hd => exact GoodK.defd g hd _ rfl rfl
  | equ s name flags type modifier ptr value hff hd hp => exact GoodK.defd (v := value) g (by rw [hff.1]; exact hd) _ rfl rfl
  | macroName s name hd => exact GoodK.defd g hd _ rfl rfl
  | macroText s k' q hq ht ls =>
    refine GoodK.put g fun hx => ?_
    obtain ⟨a, b, c⟩ := g _ _ hq hx
    exact ⟨a, b, fun hp => absurd ht (c hp).2.2⟩
  | markUsed s k' q hq => exact GoodK.same g hq rfl
  | bump s t hb' => exact hb g hb'
  | start0 => exact g
  | start1 => exact g
  | enter => exact g
  | leave => exact g
  | readMain => exact g
  | readFile => exact g
  | readMacro => exact g
  | call => exact g
  | drop => exact g
  | caught => exact g

theorem goodK_pass (n : Nat) (s : St) (g : GoodK s.tree) : GoodK (passStart n s).tree := by
  refine GoodK.star g (fun l hl => ?_) (fun hn => ?_)
  · rw [hl]; rfl
  · rw [hn]; rfl

theorem goodK_between (o : Opts) (s : St) (g : GoodK s.tree) : GoodK (betweenPasses o s).tree := by
  intro k l hl
  change (s.tree.map undefOne).find k = some l at hl
  rw [Tree.find_map] at hl
  cases hf : s.tree.find k with
  | none => rw [hf] at hl; cases hl
  | some q =>
    rw [hf] at hl
    cases hl
    intro ho
    obtain ⟨a, b, c⟩ := g k q hf ho
    refine ⟨a, b, fun hp => ⟨?_, b, (c hp).2.2⟩⟩
    have hp : q.origin = some .pseudos := hp
    unfold undefOne
    simp [hp]

theorem goodK_reach {o : Opts} {env : Env} {src : Str} {n : Nat} {c : Cfg} (h : Reach o (initSt env src) n c) : GoodK c.1.tree :=
  Reach.inv (P := fun _ c => GoodK c.1.tree) (fun k l hl => (by cases hl)) (fun _ _ _ r => goodK_step r) (fun s => goodK_pass 1 s)
    (fun s g => goodK_pass 2 _ (goodK_between o s g)) h

/-- **C18**, what is fixed (2): in every state of a run a keyword - a name that a vocabulary has entered in the symbol
    table - is fixed: those of the assembler's directives always, those of a processor as long as they are defined
    and have not been turned into a macro before the CPU directive of the pass. -/
theorem C18_keyword {o : Opts} {env : Env} {src : Str} {n : Nat} {c : Cfg} (h : Reach o (initSt env src) n c) {k : Str} {l : Label}
    (hl : c.1.tree.find k = some l) :
    (l.origin = some .pseudos → k ≠ c!"*" ∧ Fixed l) ∧
    (l.origin ≠ none → l.flags.undef = false → l.type ≠ .macro → k ≠ c!"*" ∧ Fixed l) := by
  have g := goodK_reach h k l hl
  refine ⟨fun hp => ?_, fun hp hu ht => ?_⟩
  · obtain ⟨a, b, c⟩ := g (by rw [hp]; decide)
    exact ⟨a, c hp⟩
  · obtain ⟨a, b, c⟩ := g hp
    exact ⟨a, hu, b, ht⟩

/-! ## Concrete cases -/

/-- In pass 1, `foo` is the address of line 2; each further definition of it, and of a keyword, is rejected. -/
def redefs : Str := c!"*=$100\nfoo db 1\nfoo db 2\nfoo = 7\nfoo\nfoo macro\n endm\ndb = 3\nasc macro\n endm\nequ\nafter db 3\n"

example : (match assemble 60 { scode := some c!"o", list := false } (initSt { fs := fun _ => none } redefs) with
    | .ok _ s => (s.errnumber, (s.tree.find c!"FOO").map (·.value), (s.tree.find c!"AFTER").map (·.value))
    | _ => (0, none, none)) = (7, some 0x100, some 0x101) := by decide +kernel

/-- The hypotheses of `C18_rejected` hold for lines 3 to 6 of it. -/
example : ((List.range 4).all fun i => match statement (afterLines redefs (2 + i)) with
    | .ok (some f) _ => (match searchlabel (afterLines redefs (2 + i)) c!"foo" with
        | some l => !l.flags.undef && l.flags.noredef && l.type != .macro
        | none => false) &&
        (match f.entry with
         | none => f.mnemo == c!"foo"
         | some (_, lab) => f.label == some c!"foo" && decide (Definer lab))
    | _ => false) = true := by decide +kernel

end Crasm

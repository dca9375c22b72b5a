import Verif.Proof.Nest
import Verif.Props.C27

/-!
  **C26** Skipped conditional text has no effect.
-/

namespace Crasm
open _root_.Spec (Kind Nested)

/-! ## What is always true of the symbol table -/

/-- Only IF, ELSE, ENDC, MACRO, ENDM and EXITM are marked as executed in skipped text, and `*` is a symbol. -/
structure Sane (s : St) : Prop where
  good : GoodTree s.tree
  star : (s.tree.find starKey).isSome = true

theorem good_put {t : Tree} {k : Str} {x : Label} (h : GoodTree t) (hx : SpecialOk x.flags x.type x.ptr x.modifier) : GoodTree (t.put k x) := by
  intro k' l hl
  by_cases e : k' = k
  · subst e
    rw [Tree.find_put_self] at hl
    cases hl
    exact hx
  · rw [Tree.find_put_ne _ _ e] at hl
    exact h k' l hl

def specialB (flags : LFlags) (type : LType) (ptr : Ptr) : Bool :=
  !(flags.defcond || flags.defmacro) || (type = .mnemo && match ptr with
    | .handler (.pseudo p) => condPseudos.contains p
    | _ => false)

theorem specialB_ok {flags : LFlags} {type : LType} {ptr : Ptr} {m : Int} (h : specialB flags type ptr = true) (hl : type = .mnemo → Listed flags ptr m) :
    SpecialOk flags type ptr m := by
  refine ⟨fun hc => ?_, hl⟩
  unfold specialB at h
  have hc' : (flags.defcond || flags.defmacro) = true := by simpa using hc
  rw [hc'] at h
  simp only [Bool.not_true, Bool.false_or, Bool.and_eq_true, decide_eq_true_eq] at h
  refine ⟨h.1, ?_⟩
  obtain ⟨-, h⟩ := h
  split at h
  · next p => exact ⟨p, by simpa using h, rfl⟩
  · cases h

theorem tables_special : ∀ t, ∀ e ∈ tableOf t, specialB e.label.flags e.label.type e.label.ptr = true := by
  intro t
  cases t <;> decide +kernel

theorem special_plain {l : Label} (h : l.flags.defcond = false ∧ l.flags.defmacro = false) (ht : l.type ≠ .mnemo) :
    SpecialOk l.flags l.type l.ptr l.modifier := by
  refine ⟨fun hc => ?_, fun h => absurd h ht⟩
  rw [h.1, h.2] at hc
  simp at hc

theorem star_put {t : Tree} {k : Str} {x : Label} (h : (t.find starKey).isSome = true) : ((t.put k x).find starKey).isSome = true := by
  by_cases e : starKey = k
  · subst e; rw [Tree.find_put_self]; rfl
  · rw [Tree.find_put_ne _ _ e]; exact h

theorem good_step {a b : Cfg} (h : Step a b) (ha : GoodTree a.1.tree) : GoodTree b.1.tree := by
  cases h with
  | p h =>
    cases h with
    | h h =>
      cases h with
      | n h => exact (nstep_good h).2 ha
      | emit s x => exact ha
      | lohi s => exact ha
      | note s => exact ha
    | bindNew s t e he hn => exact good_put ha (specialB_ok (tables_special t e he) fun h => ⟨t, e, he, h, rfl, rfl, rfl⟩)
    | bindOld s t e he l hl => exact good_put ha (ha _ l hl)
    | _ => exact ha
  | here s name =>
    exact good_put ha (special_plain ⟨rfl, rfl⟩ (show addrType s.flags ≠ .mnemo by unfold addrType; split <;> decide))
  | equ s name flags type modifier ptr value hf hd hp => exact good_put ha (hp ha)
  | macroName s name => exact good_put ha (special_plain ⟨rfl, rfl⟩ (show LType.macro ≠ .mnemo by decide))
  | macroText s k l hl ht =>
    refine good_put ha ⟨fun hc => ?_, fun h => ?_⟩
    · have := ((ha k l hl).1 hc).1
      rw [ht] at this; cases this
    · rw [show ({ l with ptr := _ } : Label).type = l.type from rfl, ht] at h; cases h
  | markUsed s k l hl => exact good_put ha (ha k l hl)
  | bump s t hb => exact (bumped_good hb).2 ha
  | _ => exact ha

theorem star_step {a b : Cfg} (h : Step a b) (ha : (a.1.tree.find starKey).isSome = true) : (b.1.tree.find starKey).isSome = true := by
  have bump : ∀ {s : St} {t}, bumped s t → (s.tree.find starKey).isSome = true → (t.find starKey).isSome = true := by
    rintro s t ⟨v, -, rfl⟩ h
    exact star_put h
  cases h with
  | p h =>
    cases h with
    | h h =>
      cases h with
      | n h =>
        cases h with
        | use => exact star_put ha
        | error1 s t h hb => exact bump hb ha
        | _ => exact ha
      | _ => exact ha
    | bindNew => exact star_put ha
    | bindOld => exact star_put ha
    | _ => exact ha
  | here => exact star_put ha
  | equ => exact star_put ha
  | macroName => exact star_put ha
  | macroText => exact star_put ha
  | markUsed => exact star_put ha
  | bump s t hb => exact bump hb ha
  | _ => exact ha

theorem passStart_good {n : Nat} {s : St} (h : GoodTree s.tree) : GoodTree (passStart n s).tree := by
  refine good_put h ?_
  cases hf : s.tree.find starKey with
  | none =>
    exact special_plain ⟨rfl, rfl⟩ (show addrType _ ≠ .mnemo by unfold addrType; split <;> decide)
  | some l => exact h _ l hf

/-- In both passes every state is `Sane`. -/
theorem sane_reach {o : Opts} {env : Env} {src : Str} {n : Nat} {c : Cfg} (h : Reach o (initSt env src) n c) (hn : n ≠ 0) : Sane c.1 := by
  have := h.inv (P := fun n c => GoodTree c.1.tree ∧ (n ≠ 0 → (c.1.tree.find starKey).isSome = true))
    ⟨fun k l hl => by simp [initSt, Tree.find] at hl, fun h => absurd rfl h⟩
    (fun n a b hs ha => ⟨good_step hs ha.1, fun hn => star_step hs (ha.2 hn)⟩)
    (fun s ha => ⟨passStart_good ha.1, fun _ => by simp [passStart]⟩)
    (fun s ha => ⟨passStart_good fun k l hl => by
        simp only [betweenPasses, Tree.find_map] at hl
        cases hf : s.tree.find k with
        | none => rw [hf] at hl; cases hl
        | some x =>
          rw [hf] at hl
          cases hl
          exact ha.1 k x hf, fun _ => by simp [passStart]⟩)
  exact ⟨this.1, this.2 hn⟩

/-! ## ELSE -/

theorem ifElse_rc {self : Status → M RC} {fuel : Nat} {st : Status} {taken : Bool} {old : Option Char} {s s' : St} {r : RC}
    (h : ifElse self fuel st taken old s = .ok r s') : r = .cont ∨ r = .exitm := by
  unfold ifElse at h
  rw [getS_bind_run] at h
  obtain ⟨_, s1, -, h⟩ := bind_ok h
  obtain ⟨r1, s2, -, h⟩ := bind_ok h
  rw [modS_bind_run] at h
  revert h
  split
  · intro h; exact absurd h error_not_ok
  · intro h
    obtain ⟨_, s3, -, h⟩ := bind_ok h
    cases h
    split
    · exact .inr rfl
    · exact .inl rfl

theorem xIf_rc {self : Status → M RC} {fuel : Nat} {st : Status} {o : Option Str} {s s' : St} {r : RC}
    (h : xIf self fuel st o s = .ok r s') : r = .cont ∨ r = .exitm := by
  unfold xIf at h
  obtain ⟨b, s1, -, h⟩ := bind_ok h
  rw [getS_bind_run] at h
  obtain ⟨_, s2, -, h⟩ := bind_ok h
  rw [getS_bind_run] at h
  obtain ⟨_, s3, -, h⟩ := bind_ok h
  obtain ⟨r1, s4, -, h⟩ := bind_ok h
  rw [modS_bind_run] at h
  revert h
  split
  · intro h; exact absurd h error_not_ok
  · intro h
    obtain ⟨_, s5, -, h⟩ := bind_ok h
    revert h
    cases r1 with
    | endc => intro h; cases h; exact .inl rfl
    | exitm => intro h; cases h; exact .inr rfl
    | _ => exact ifElse_rc

theorem xMacro_rc {fuel : Nat} {st : Status} {l o : Option Str} {s s' : St} {r : RC} (h : xMacro fuel st l o s = .ok r s') : r = .cont := by
  unfold xMacro at h
  cases l with
  | none => cases h
  | some l =>
    dsimp only at h
    rw [getS_bind_run] at h
    revert h
    split
    · intro h; exact absurd h error_not_ok
    · split
      · intro h; exact absurd h error_not_ok
      · intro h
        obtain ⟨_, s1, -, h⟩ := bind_ok h
        obtain ⟨key, s2, -, h⟩ := bind_ok h
        obtain ⟨⟨ls, a, b⟩, s3, -, h⟩ := bind_ok h
        revert h
        dsimp only
        split
        · intro h; exact absurd h error_not_ok
        · intro h
          obtain ⟨_, s4, -, h⟩ := bind_ok h
          cases h; rfl

theorem execLine_else {self : Status → M RC} {fuel : Nat} {st : Status} {l o : Option Str} {k : Str} {lab : Label} {s s' : St}
    (hg : SpecialOk lab.flags lab.type lab.ptr lab.modifier) (h : execLine self fuel st l o k lab s = .ok .else_ s') : s' = s := by
  unfold execLine at h
  by_cases hc : (lab.flags.defcond || lab.flags.defmacro) = true
  · rw [if_pos hc] at h
    obtain ⟨-, p, hp, hptr⟩ := hg.1 (by simpa using hc)
    rw [hptr] at h
    dsimp only at h
    unfold callHandler at h
    dsimp only at h
    rw [ofInt_toInt] at h
    simp only [condPseudos, List.mem_cons, List.not_mem_nil, or_false] at hp
    have ends : ∀ {msg rc}, rc ≠ .else_ → macroEnd msg rc st o s = .ok .else_ s' → s' = s := by
      intro msg rc hne h
      unfold macroEnd at h
      revert h
      split
      · intro h; exact absurd h error_not_ok
      · intro h
        rw [getS_bind_run] at h
        obtain ⟨_, s1, -, h⟩ := bind_ok h
        revert h
        split
        · intro h; cases h; exact absurd rfl hne
        · intro h; cases h
    rcases hp with rfl | rfl | rfl | rfl | rfl | rfl
    · rcases xIf_rc h with h | h <;> cases h
    · dsimp only at h
      unfold xElse at h
      revert h
      split
      · intro h; exact absurd h error_not_ok
      · intro h; cases h; rfl
    · dsimp only at h
      unfold xEndc at h
      revert h
      split
      · intro h; exact absurd h error_not_ok
      · intro h; cases h
    · cases xMacro_rc h
    · exact ends (by simp) h
    · exact ends (by simp) h
  · rw [if_neg hc] at h
    revert h
    split
    · split
      · intro h; exact absurd h error_not_ok
      · intro h
        obtain ⟨_, s1, -, h⟩ := bind_ok h
        cases h
    · split
      · intro h
        obtain ⟨_, s1, -, h⟩ := bind_ok h
        obtain ⟨_, s1, -, h⟩ := bind_ok h
        obtain ⟨_, s1, -, h⟩ := bind_ok h
        cases h
      · intro h; cases h

/-- After the line ELSE the line counter stands at 0. -/
theorem asmline_else {n : Nat} {st : Status} {s s' : St} (hg : GoodTree s.tree) (h : asmline n st s = .ok .else_ s') :
    s'.advance = 0 := by
  cases n with
  | zero => cases h
  | succ n =>
    change asmlineF (asmline n) n st s = _ at h
    unfold asmlineF at h
    rw [run_ok (startLine_eq s), getS_bind_run] at h
    obtain ⟨t, s2, h2, h3⟩ := bind_ok h
    obtain ⟨c, b, rfl⟩ := stripLine_frame h2
    by_cases ht : t = []
    · rw [if_pos ht] at h3
      obtain ⟨_, s3, -, h4⟩ := bind_ok h3
      cases h4
    · rw [if_neg ht] at h3
      obtain ⟨f, s3, h4, h5⟩ := bind_ok h3
      have a3 : s3.advance = 0 := (qwalk W.walk h4).1
      have hf := splitLine_entry h4
      clear h h2 h3 h4
      unfold doFields at h5
      revert h5
      cases he : f.entry with
      | none =>
        dsimp only
        split
        · intro h
          obtain ⟨_, s4, -, h⟩ := bind_ok h
          obtain ⟨_, s5, -, h⟩ := bind_ok h
          cases h
        · intro h; exact absurd h error_not_ok
      | some e =>
        obtain ⟨key, lab⟩ := e
        dsimp only
        split
        · intro h; exact absurd h error_not_ok
        · intro h
          obtain ⟨_, s4, h6, h7⟩ := bind_ok h
          obtain ⟨k, hk⟩ := hf key lab he
          rw [execLine_else (hg k lab hk) h7]
          revert h6
          cases f.label with
          | none =>
            dsimp only
            intro h6
            exact (nwalk_advance (by walk) h6).trans a3
          | some l =>
            dsimp only
            unfold whenM
            split
            · intro h6; exact (herelabel_advance h6).trans a3
            · intro h6; cases h6; exact a3

theorem sane_star {a b : Cfg} (h : Star Step a b) (ha : Sane a.1) : Sane b.1 := by
  induction h with
  | refl => exact ha
  | tail _ r ih => exact ⟨good_step r ih.good, star_step r ih.star⟩

theorem sane_ok {m : M α} (h : Walk Step m) {s s' : St} {a : α} (hm : m s = .ok a s') (hs : Sane s) : Sane s' := by
  have := h s
  rw [hm] at this
  exact sane_star (a := (s, .live)) this hs

theorem Ready.sane {s : St} (h : Ready s) : Sane s := ⟨h.good, h.star⟩

/-- When a branch ends with ELSE, all is ready for the next line. -/
theorem ifLoop_else (n : Nat) (st : Status) : ∀ k s s', Sane s → ifLoop (asmline n) st k s = .ok .else_ s' → Ready s' := by
  intro k
  induction k with
  | zero => intro s s' _ h; cases h
  | succ k ih =>
    intro s s' hs h
    unfold ifLoop at h
    obtain ⟨q, s1, h1, h2⟩ := bind_ok h
    haveI : W Step (asmline n st) := ⟨walk_asmline n st⟩
    have hs1 : Sane s1 := sane_ok (m := catchErr (ifRound (asmline n) st) (do bumpErr; pure (.rc .cont)))
      (walk_catch (by unfold ifRound; walk) (by walk)) h1 hs
    revert h2
    cases q with
    | eof => intro h2; exact absurd h2 error_not_ok
    | rc r =>
      cases r with
      | cont => exact ih s1 s' hs1
      | endc => intro h2; cases h2
      | endm => intro h2; cases h2
      | exitm => intro h2; cases h2
      | else_ =>
        intro h2
        cases h2
        refine ⟨?_, hs1.good, hs1.star⟩
        clear ih h
        unfold catchErr at h1
        cases e : ifRound (asmline n) st s with
        | stop w s2 => rw [e] at h1; cases h1
        | err s2 => rw [e] at h1; cases h1
        | ok a s2 =>
          rw [e] at h1
          cases h1
          unfold ifRound at e
          obtain ⟨_, s3, h3, h4⟩ := bind_ok e
          have hs3 : Sane s3 := sane_ok W.walk h3 hs
          rw [getS_bind_run] at h4
          revert h4
          split
          · intro h4; cases h4
          · intro h4
            obtain ⟨r, s4, h5, h6⟩ := bind_ok h4
            revert h6
            split
            · intro h6; cases h6
            · intro h6
              cases h6
              exact asmline_else hs3.good h5

/-! ## The property -/

/-- What `Still` says, in terms of what was observed: no byte was generated, no symbol changed (the location counter is
    the symbol `*`), and neither did the processor, the scope of local names or the source being read. -/
theorem C26_untouched {s s' : St} (h : Still s s') : bytesOf s'.log = bytesOf s.log ∧ (∀ k, s'.tree.find k = s.tree.find k) ∧
    starLabel s' = starLabel s ∧ s'.cpuflag = s.cpuflag ∧ s'.segment = s.segment ∧ s'.thiscall = s.thiscall := by
  refine ⟨?_, h.find, by unfold starLabel; rw [h.find], h.cpuflag, h.segment, h.thiscall⟩
  obtain ⟨new, e, hp⟩ := h.log
  rw [e]
  have : bytesOf new = [] := by
    unfold bytesOf
    rw [List.filterMap_eq_nil_iff]
    intro e he
    have := hp e he
    cases e with
    | byte => cases this
    | _ => rfl
  unfold bytesOf at this ⊢
  rw [List.filterMap_append, this]
  rfl

/-- **C26** (a line). Whatever a line says, when it is in text that is not assembled it changes nothing, whether it is
    accepted or reported as wrong. Unless an error was reported, it is ELSE or ENDC and takes nothing with it, or
    the loop that reads lines goes on and the line together with those read by it is complete: with an IF up to
    its ENDC, a macro definition up to its end. -/
theorem C26_line (n : Nat) {st : Status} (ha : st.act = false) {s : St} (hr : Ready s) :
    (∀ r s', asmline n st s = .ok r s' → Still s s' ∧ ∃ new, s'.log = new ++ s.log ∧ (NoErrors new → Piece s s.curline new r)) ∧
      ∀ s', asmline n st s = .err s' → Still s s' := by
  have b := (sk_asmline n st ha).run s
  refine ⟨fun r s' h => ?_, fun s' h => ?_⟩
  · exact ⟨(sk_asmline n st ha).ok h hr, asmline_skips n st ha s r s' hr h⟩
  · rw [h] at b; exact b hr

theorem walk_statement : Walk Step statement := by
  haveI : W Step stripLine := ⟨walk_a walk_stripLine⟩
  haveI : W Step startLine := ⟨fun s => by
    obtain ⟨s1, h1, -, hw⟩ := startLine_run s
    rw [h1]; exact hw⟩
  unfold statement
  walk

/-- A line with IF, wherever it is met in a program, is executed by `xIf`, and everything is ready for it. -/
theorem C26_met {n : Nat} {st : Status} {s s1 : St} (hs : Sane s) {f : Fields} {k : Str} {lab : Label}
    (h : statement s = .ok (some f) s1) (he : f.entry = some (k, lab)) (hk : kindOf (some f) = .if_) (hl : f.label = none)
    (hd : lab.flags.deflabel = false) : asmline (n + 1) st s = xIf (asmline n) n st f.oper s1 ∧ Ready s1 := by
  have fr := statement_frame h
  have hs1 : Sane s1 := sane_ok walk_statement h hs
  refine ⟨?_, fr.2.2.2.1, hs1.good, hs1.star⟩
  have hc : (lab.flags.defcond || lab.flags.defmacro) = true ∧ lab.ptr = .handler (.pseudo .if_) := by
    unfold kindOf at hk
    dsimp only at hk
    rw [he] at hk
    dsimp only at hk
    split at hk
    · next hc =>
      refine ⟨hc, ?_⟩
      split at hk <;> first | assumption | cases hk
    · cases hk
  show asmlineF (asmline n) n st s = _
  unfold asmlineF
  unfold statement at h
  rw [run_ok (startLine_eq s)] at h
  rw [run_ok (startLine_eq s), getS_bind_run]
  obtain ⟨t, s2, h2, h3⟩ := bind_ok h
  rw [run_ok h2]
  by_cases ht : t = []
  · rw [if_pos ht] at h3; cases h3
  · rw [if_neg ht] at h3 ⊢
    obtain ⟨f', s3, h4, h5⟩ := bind_ok h3
    cases h5
    rw [run_ok h4]
    unfold doFields
    rw [he]
    dsimp only
    rw [hl, if_neg (by simp)]
    have e0 : whenM (lab.flags.deflabel = true) (error c!"label required here") s1 = .ok () s1 := by
      unfold whenM
      rw [hd]
      rfl
    rw [run_ok e0]
    unfold execLine
    rw [if_pos hc.1, hc.2]
    dsimp only
    unfold callHandler
    dsimp only
    rw [ofInt_toInt]

/-- The test of IF leaves everything ready. -/
theorem testtrue_ready {o : Option Str} {s s1 : St} {b : Bool} (hr : Ready s) (h : testtrue o s = .ok b s1) : Ready s1 := by
  obtain ⟨h1, ha, hg⟩ := qwalk W.walk h
  refine ⟨h1.trans hr.adv, hg hr.good, ?_⟩
  have := ha starKey
  have hs := hr.star
  revert this hs
  cases s.tree.find starKey <;> cases s1.tree.find starKey <;> simp

/-- **C26** (the first branch). When the test of IF comes out false, the lines up to ELSE or ENDC have no effect, and if they
    have no errors that is the ELSE or ENDC belonging to this IF. -/
theorem C26_false {n fuel : Nat} {lst : Bool} {o : Option Str} {s s1 s' : St} {r : RC} (hr : Ready s) (ht : testtrue o s = .ok false s1)
    (h : xIf (asmline n) fuel ⟨lst, true⟩ o s = .ok r s') :
    ∃ s2 new r1, Still s1 s2 ∧ s2.log = new ++ s1.log ∧ (NoErrors new → Upto s1 new r1) ∧
      (r1 = .endc ∧ r = .cont ∧ s' = s2 ∨
        r1 = .else_ ∧ (∃ old, ifElse (asmline n) fuel ⟨lst, true⟩ false old s2 = .ok r s') ∨ ¬ NoErrors new) := by
  have hr1 := testtrue_ready hr ht
  unfold xIf at h
  rw [if_pos rfl, run_ok ht, getS_bind_run] at h
  have ha' : ((⟨lst, true⟩ : Status).and (branchStatus false s1.flags.iflistOn)).act = false := rfl
  generalize (⟨lst, true⟩ : Status).and (branchStatus false s1.flags.iflistOn) = st1 at h ha'
  obtain ⟨_, s2, h1, h2⟩ := bind_ok h
  have t1 := (inferInstance : B Sk (ifList ⟨lst, true⟩)).ok h1 hr1
  have l1 := (ifList_log h1).1
  rw [getS_bind_run] at h2
  generalize s2.lineprefix = old at h2
  obtain ⟨_, s3, h3, h4⟩ := bind_ok h2
  have t3 := t1.trans ((inferInstance : B Sk (markSkipped ⟨lst, true⟩ false)).ok h3 (t1.ready hr1))
  have l3 : s3.log = s1.log := by
    rw [← l1]
    unfold markSkipped whenM at h3
    cases h3; rfl
  obtain ⟨r1, s4, h5, h6⟩ := bind_ok h4
  have t4 := t3.trans ((sk_ifLoop (sk_asmline n) ha' fuel).ok h5 (t3.ready hr1))
  obtain ⟨new, g1, g2⟩ := ifLoop_skips (asmline_skips n) (sk_asmline n) (walk_asmline n) ha' fuel _ r1 s4 (t3.ready hr1) h5
  rw [l3] at g1
  rw [modS_bind_run] at h6
  clear h h1 h2 h3 h4 h5
  by_cases hc : r1 = .endm
  · rw [if_pos hc] at h6; exact absurd h6 error_not_ok
  · rw [if_neg hc] at h6
    have t5 : Still s4 { s4 with lineprefix := old } := (sk_prefix old).ok (s := s4) rfl (t4.ready hr1)
    obtain ⟨_, s5, h7, h8⟩ := bind_ok h6
    have t6 := t4.trans (t5.trans ((inferInstance : B Sk (ifList ⟨lst, true⟩)).ok h7 (t5.ready (t4.ready hr1))))
    have l6 : s5.log = new ++ s1.log := by rw [(ifList_log h7).1]; exact g1
    refine ⟨s5, new, r1, t6, l6, fun hn => (g2 hn).of t3.names, ?_⟩
    have other : r1 ≠ .endc → r1 ≠ .else_ → ¬ NoErrors new := by
      intro n1 n2 hn
      obtain ⟨_, _, _, _, ⟨h, -⟩ | ⟨h, -⟩⟩ := g2 hn
      · exact n1 h
      · exact n2 h
    revert h8
    cases r1 with
    | endm => exact absurd rfl hc
    | endc => intro h8; cases h8; exact .inl ⟨rfl, rfl, rfl⟩
    | else_ => intro h8; exact .inr (.inl ⟨rfl, old, h8⟩)
    | cont => intro _; exact .inr (.inr (other (by simp) (by simp)))
    | exitm => intro _; exact .inr (.inr (other (by simp) (by simp)))

theorem ifLoop_not_cont {self : Status → M RC} {st : Status} (n : Nat) : ∀ s s', ifLoop self st n s ≠ .ok .cont s' := by
  induction n with
  | zero => intro s s' h; cases h
  | succ n ih =>
    intro s s' h
    unfold ifLoop at h
    obtain ⟨q, s1, -, h2⟩ := bind_ok h
    revert h2
    cases q with
    | eof => intro h2; exact absurd h2 error_not_ok
    | rc r =>
      cases r with
      | cont => exact ih s1 s'
      | _ => intro h2; cases h2

/-- **C26** (the second branch). When the test of IF comes out true, the first branch is assembled by `ifLoop`; if it ends with
    ELSE, the lines between that and ENDC have no effect, and if they have no errors that is the ENDC belonging
    to this IF. -/
theorem C26_true {n fuel : Nat} {lst : Bool} {o : Option Str} {s s1 s' : St} {r : RC} (hr : Ready s) (ht : testtrue o s = .ok true s1)
    (h : xIf (asmline n) fuel ⟨lst, true⟩ o s = .ok r s') :
    ∃ s2 s3 r1, Still s1 s2 ∧ ifLoop (asmline n) ⟨lst, true⟩ fuel s2 = .ok r1 s3 ∧
      (r1 = .endc ∧ r = .cont ∨ r1 = .exitm ∧ r = .exitm ∨
        r1 = .else_ ∧ Still s3 s' ∧ ∃ new, s'.log = new ++ s3.log ∧ (NoErrors new → r = .cont ∧ Upto s3 new .endc)) := by
  have hr1 := testtrue_ready hr ht
  unfold xIf at h
  rw [if_pos rfl, run_ok ht, getS_bind_run] at h
  have ha' : (⟨lst, true⟩ : Status).and (branchStatus true s1.flags.iflistOn) = ⟨lst, true⟩ := by
    simp [Status.and, branchStatus]
  rw [ha'] at h
  obtain ⟨_, s2, h1, h2⟩ := bind_ok h
  have t1 := (inferInstance : B Sk (ifList ⟨lst, true⟩)).ok h1 hr1
  rw [getS_bind_run] at h2
  generalize s2.lineprefix = old at h2
  obtain ⟨_, s3, h3, h4⟩ := bind_ok h2
  have t3 := t1.trans ((inferInstance : B Sk (markSkipped ⟨lst, true⟩ true)).ok h3 (t1.ready hr1))
  obtain ⟨r1, s4, h5, h6⟩ := bind_ok h4
  refine ⟨s3, s4, r1, t3, h5, ?_⟩
  have hready := ifLoop_else n ⟨lst, true⟩ fuel s3 s4 (t3.ready hr1).sane
  have hcont : r1 ≠ .cont := fun e => ifLoop_not_cont fuel s3 s4 (e ▸ h5)
  rw [modS_bind_run] at h6
  clear h h1 h2 h3 h4
  by_cases hc : r1 = .endm
  · rw [if_pos hc] at h6; exact absurd h6 error_not_ok
  · rw [if_neg hc] at h6
    obtain ⟨_, s5, h7, h8⟩ := bind_ok h6
    revert h8
    cases r1 with
    | endm => exact absurd rfl hc
    | cont => exact absurd rfl hcont
    | endc => intro h8; cases h8; exact .inl ⟨rfl, rfl⟩
    | exitm => intro h8; cases h8; exact .inr (.inl ⟨rfl, rfl⟩)
    | else_ =>
      intro h8
      have hr4 := hready h5
      have t5 : Still s4 { s4 with lineprefix := old } := (sk_prefix old).ok (s := s4) rfl hr4
      have t6 := t5.trans ((inferInstance : B Sk (ifList ⟨lst, true⟩)).ok h7 (t5.ready hr4))
      have l6 : s5.log = s4.log := (ifList_log h7).1
      obtain ⟨g1, new, g2, g3⟩ := ifElse_skips (asmline_skips n) (sk_asmline n) (walk_asmline n) (by simp) (t6.ready hr4) h8
      refine .inr (.inr ⟨rfl, t6.trans g1, new, by rw [g2, l6], fun hn => ?_⟩)
      exact ⟨(g3 hn).1, (g3 hn).2.of t6.names⟩

/-! ## Examples -/

/-- The lines of this program that set it up, up to the line IF. -/
def skipSource : Str := c!" CPU 6502\n*=$1000\nzero = 0\n IF zero\nbad LDA #1\n IF 1\nworse = 5\n* = $2000\n ELSE\n DB 7\n ENDC\nmac MACRO\n ENDC\n ENDM\n ELSE\ngood LDA #2\n ENDC\nnext RTS\n"

def ifReport (src : Str) (k : Nat) : Option (Kind × Bool × Bool × Int × Option Bool) :=
  match statement (afterLines src k) with
  | .ok (some f) s1 => some (kindOf (some f), f.label.isNone, f.entry.any fun e => !e.2.flags.deflabel, s1.advance,
      match testtrue f.oper s1 with
      | .ok b _ => some b
      | _ => none)
  | _ => none

/-- The hypotheses of `C26_met` and `C26_false` are met by the fourth line; that all states are `Sane` is `sane_reach`. -/
example : ifReport skipSource 3 = some (.if_, true, true, 0, some false) := by decide +kernel

/-- Those of `C26_true`. -/
example : ifReport c!" IF 1\n ELSE\n ENDC\n" 0 = some (.if_, true, true, 0, some true) := by decide +kernel

/-- What is assembled of it: nothing of the skipped text, in which an IF with its ELSE and a macro definition with an ENDC
    are skipped as wholes. -/
example : secondPass skipSource = some [0x60, 0x02, 0xa9] := by decide +kernel

/-- Text that is skipped can be wrong: a mnemonic that is not known is reported there, too, so that no code is
    left. This is why the theorems speak of errors. -/
theorem C26_reports : (match assemble 60 { scode := some c!"o", list := false }
    (initSt { fs := fun _ => none } c!" CPU 6502\n*=$1000\n IF 0\n LDQ #1\n ENDC\n RTS\n") with
    | .ok _ s => some s.errnumber
    | _ => none) = some 1 := by decide +kernel

end Crasm

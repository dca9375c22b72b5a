import Verif.Proof.Settle
import Verif.Proof.Fuel

/-! Every line, every pass and the whole run settle. -/

namespace Crasm

/-! ### Macro calls -/

theorem settles_macroRun (st : Status) : ∀ s, Fit s → Later s → deep s.stack ≠ [] →
    Settles [] (fun n k => macroRun (asmline n) st k) s Any := by
  intro s hf
  have wf := acc_down 10 (pending s) hf.len
  generalize hp : pending s = p at wf
  induction wf generalizing s with
  | intro p _ ih =>
    subst hp
    intro hl hd
    have ih : ∀ s', Less (pending s') (pending s) → Fit s' → Keep s s' →
        Settles [] (fun n k => macroRun (asmline n) st k) s' Any := by
      intro s' h1 h2 h3
      refine ih (pending s') ⟨h2.len, h1.down⟩ s' h2 rfl (hl.after (.inr h1)) ?_
      rcases h3 with ⟨h3, -⟩ | ⟨m, m', r, -, h3⟩
      · exact absurd h3 hd
      · rw [h3]; simp
    have notEnded : ∀ s', Keep s s' → ¬ Ended s' := by
      rintro s' (⟨h, -⟩ | ⟨m, m', r, -, h⟩) he
      · exact hd h
      · rw [he.1] at h; cases h
    refine Settles.shift ?_
    rcases linegets_read hf with ⟨s1, h1, hr⟩ | ⟨w, s1, h1, hw⟩
    · have hless : Less (pending s1) (pending s) := by
        rcases hr.less with h | h
        · exact h
        · exact absurd h.1 (notEnded s1 hr.keep)
      obtain ⟨N, r, h2, h3⟩ := hl s1 hless.down hr.fit hr.cur st
      have h2 : ∀ n k, N ≤ n → N ≤ k → asmline n st s1 = r := h2
      have h3' := h3.from hr.keep (.inr hless)
      have hrun : ∀ n k, macroRun (asmline n) st (k + 1) s =
          ((catchErr (asmline n st) (do bumpErr; pure .cont) : M RC) >>= fun r => match r with
            | .cont => macroRun (asmline n) st k
            | r => pure r) s1 := by
        intro n k
        rw [macroRun, bind_run, bind_run]
        have : catchErr (do linegets; asmline n st) (do bumpErr; pure .cont) s =
            catchErr (asmline n st) (do bumpErr; pure .cont) s1 := by
          unfold catchErr
          rw [bind_run, h1]
        rw [this]
        rfl
      have go : ∀ s2, Less (pending s2) (pending s) → Fit s2 → Keep s s2 →
          (∀ n k, N ≤ n → N ≤ k → catchErr (asmline n st) (do bumpErr; pure .cont) s1 = .ok .cont s2) →
          Settles [] (fun n k => macroRun (asmline n) st (k + 1)) s Any := by
        intro s2 e1 e2 e3 e4
        obtain ⟨N', r', h4, h5⟩ := ih s2 e1 e2 e3
        refine ⟨max N N', r', fun n k hn hk => ?_, h5.from e3 (.inr e1)⟩
        show macroRun (asmline n) st (k + 1) s = _
        rw [hrun, bind_run, e4 n k (by omega) (by omega)]
        exact h4 n k (by omega) (by omega)
      cases r with
      | ok rc s2 =>
        have hc : ∀ n k, N ≤ n → N ≤ k → catchErr (asmline n st) (do bumpErr; pure .cont) s1 = .ok rc s2 := by
          intro n k hn hk
          unfold catchErr
          rw [h2 n k hn hk]
        by_cases e : rc = .cont
        · subst e
          exact go s2 (hless.after h3.2.2.2) h3.2.1 h3'.2.2.1 hc
        · refine ⟨N, .ok rc s2, fun n k hn hk => ?_, trivial, h3'.2⟩
          show macroRun (asmline n) st (k + 1) s = _
          rw [hrun, bind_run, hc n k hn hk]
          cases rc <;> first | exact absurd rfl e | rfl
      | err s2 =>
        have hst : Unread s2 { s2 with errnumber := s2.errnumber + 1 } := ⟨rfl, rfl, rfl⟩
        refine go { s2 with errnumber := s2.errnumber + 1 } ?_ (hst.fit h3.1) (h3'.2.1.trans hst.mv.2.1) ?_
        · rw [hst.pending]
          rcases h3.2.2 with h | h
          · exact hless.after h
          · exact absurd h (notEnded s2 h3'.2.1)
        · intro n k hn hk
          unfold catchErr
          rw [h2 n k hn hk]
          rfl
      | stop w s2 =>
        refine ⟨N, .stop w s2, fun n k hn hk => ?_, h3'⟩
        show macroRun (asmline n) st (k + 1) s = _
        rw [hrun, bind_run]
        unfold catchErr
        rw [h2 n k hn hk]
    · refine ⟨0, .stop w s1, fun n k hn hk => ?_, hw.1, fun e => absurd e hw.2⟩
      show macroRun (asmline n) st (k + 1) s = _
      rw [macroRun, bind_run]
      unfold catchErr
      rw [bind_run, h1]

/-- From the opening of the expansion to the end of it. -/
theorem settles_expansion {s : St} (hf : Fit s) (hl : Later s) (hd : s.stack.length + 1 < maxSourceDeep)
    (st : Status) (g h : St → St) {tail : RC → M Unit} {src : Src} {len : Nat} (hk : src.isFile = false)
    (hg : (g s).stack = src :: s.stack ∧ (g s).main = s.main ∧ (g s).mainEof = s.mainEof)
    (hh : ∀ s', (h s').stack = s'.stack.drop (s'.stack.length - len) ∧ (h s').main = s'.main ∧
      (h s').mainEof = s'.mainEof)
    (hlen : len = s.stack.length) [∀ r, B Mv (tail r)] [∀ r, Tame (tail r)] :
    Settles [] (fun n k => modS g >>= fun _ => macroRun (asmline n) st k >>= fun r => modS h >>= fun _ => tail r)
      s Any := by
  have hp : pending (g s) = pending s ++ [src.kind.left] := by
    unfold pending mainLeft
    rw [hg.1, hg.2.1, hg.2.2]
    simp
  have hdeep : deep (g s).stack = src :: s.stack := by
    rw [hg.1]
    unfold deep
    rw [List.dropWhile_cons, if_neg (by rw [hk]; simp)]
  have hf4 : Fit (g s) := by
    refine ⟨?_, ?_⟩
    · rw [hg.1]
      have : maxSourceDeep = 10 := rfl
      rw [List.length_cons]; omega
    · rw [hg.2.1, hg.2.2]; exact hf.2
  have hl4 : Later (g s) := hl.after (by rw [hp]; exact .inl (List.prefix_append _ _))
  obtain ⟨N, r, h1, h2⟩ := settles_macroRun st (g s) hf4 hl4 (by rw [hdeep]; simp)
  have h1 : ∀ n k, N ≤ n → N ≤ k → macroRun (asmline n) st k (g s) = r := h1
  have hnr : ∀ n k s', macroRun (asmline n) st k (g s) ≠ .err s' := by
    intro n k
    generalize g s = s0
    induction k generalizing s0 with
    | zero => intro s' h; cases h
    | succ k ih =>
      intro s' h
      rw [macroRun, bind_run] at h
      revert h
      unfold catchErr
      cases (linegets >>= fun _ => asmline n st) s0 with
      | ok rc s2 =>
        simp only
        cases rc <;> first | exact ih s2 s' | (intro h; cases h)
      | err s2 => exact ih _ s'
      | stop w s2 => intro h; cases h
  cases r with
  | ok rc s5 =>
    have hk5 : ∃ m', deep s5.stack = m' :: s.stack := by
      rcases h2.2.2.1 with ⟨e, -⟩ | ⟨m, m', q, e1, e2⟩
      · rw [hdeep] at e; cases e
      · rw [hdeep] at e1; cases e1; exact ⟨m', e2⟩
    obtain ⟨m', hk5⟩ := hk5
    obtain ⟨fs, hfs⟩ : ∃ fs, s5.stack = fs ++ m' :: s.stack := by
      refine ⟨s5.stack.takeWhile Src.isFile, ?_⟩
      rw [← hk5]
      exact (List.takeWhile_append_dropWhile).symm
    have hst : (h s5).stack = s.stack := by
      rw [(hh s5).1, hfs, hlen, List.length_append, List.length_cons]
      have : fs.length + (s.stack.length + 1) - s.stack.length = (fs ++ [m']).length := by
        rw [List.length_append]; simp; omega
      rw [this, show fs ++ m' :: s.stack = (fs ++ [m']) ++ s.stack by simp, List.drop_left]
    have hf6 : Fit (h s5) := by
      refine ⟨by rw [hst]; exact hf.1, ?_⟩
      rw [(hh s5).2.1, (hh s5).2.2]; exact h2.2.1.2
    have ha6 : After (pending s) (pending (h s5)) := by
      have e : pending (h s5) = (pending s5).take (pending s).length := by
        unfold pending mainLeft
        rw [hst, (hh s5).2.1, (hh s5).2.2, hfs]
        simp
      rw [e]
      refine After.cut (x := src.kind.left) ?_
      rw [← hp]
      exact h2.2.2.2
    have hk6 : Keep s (h s5) := .of_eq (by rw [hst])
    obtain ⟨N', r', h3, h4⟩ := settles_const (m := tail rc) (t := []) (Q := Any) Tame.calm hf6
    refine ⟨max N N', r', fun n k hn hk => ?_, h4.from hk6 ha6⟩
    show (macroRun (asmline n) st k >>= fun r => modS h >>= fun _ => tail r) (g s) = r'
    rw [bind_run, h1 n k (by omega) (by omega)]
    exact h3 n k (by omega) (by omega)
  | err s5 => exact absurd (h1 N N (by omega) (by omega)) (hnr N N s5)
  | stop w s5 =>
    refine ⟨N, .stop w s5, fun n k hn hk => ?_, h2⟩
    show (macroRun (asmline n) st k >>= fun r => modS h >>= fun _ => tail r) (g s) = _
    rw [bind_run, h1 n k (by omega) (by omega)]

/-- The end of a macro call. -/
def macroTail (st : Status) (curline : Str) (r : RC) : M Unit :=
  if r ≠ .endm ∧ r ≠ .exitm then error c!"ELSE or ENDC illegal here"
  else do
    let s ← getS
    if !s.flags.macrolistOn then do
      modS fun s => { s with curline }
      whenM (st.lst) (outputline)
    else pure ()

instance (st : Status) (c : Str) (r : RC) : Tame (macroTail st c r) := by unfold macroTail; tame
instance (st : Status) (c : Str) (r : RC) : B Mv (macroTail st c r) := by
  unfold macroTail
  split
  · infer_instance
  · refine B.bind B.getS fun s => ?_
    split
    · exact B.bind (big_curline _) fun _ => inferInstance
    · exact B.pure _

theorem settles_macrocall {s : St} (hf : Fit s) (hl : Later s) (key : Str) (lab : Label) (st : Status)
    (o : Option Str) : Settles [] (fun n k => macrocall (asmline n) k key lab st o) s Any := by
  unfold macrocall
  refine Settles.first (Q := Any) Tame.calm hf fun _ s1 _ f1 a1 => ?_
  by_cases hd : s1.stack.length + 1 < maxSourceDeep
  · have hcd : checkDepth s1 = .ok () s1 := by
      unfold checkDepth whenM
      rw [getS_bind_run, if_neg (by omega)]
      rfl
    have skip : ∀ {α} {f : Nat → Nat → Unit → M α}, Settles [] (fun n k => f n k ()) s1 Any →
        Settles [] (fun n k => checkDepth >>= f n k) s1 Any := by
      rintro α f ⟨N, r, e1, e2⟩
      refine ⟨N, r, fun n k hn hk => ?_, e2⟩
      show (checkDepth >>= f n k) s1 = r
      rw [bind_run, hcd]
      exact e1 n k hn hk
    refine skip ?_
    refine Settles.getS ?_
    refine Settles.still (Q := Any) (tame_macroArgs _ _ _ (by omega)).calm f1 fun args s2 _ h2 => ?_
    cases lab.ptr with
    | lines ls =>
      refine Settles.still (Q := Any) (Calm.whenM Tame.calm) (h2.fit f1) fun _ s3 _ h3 => ?_
      have h13 := h2.trans h3
      refine settles_expansion (h13.fit f1) (hl.after (a1.trans h13.mv.2.2)) (by rw [h13.1]; exact hd) _
        (fun s => { s with
          stack := { oldlist := s1.flags.listOn, oldprefix := s1.lineprefix, oldlinnum := s1.linenumber,
                     kind := .macro args ((orEmpty o).take 59) ls } :: s.stack,
          lineprefix := some 'M', macrolevel := s.macrolevel + 1,
          thiscall := s.thiscall + 1, segment := s.thiscall + 1,
          log := .opened s.passnumber (s.stack.length + 1) (.macro args ((orEmpty o).take 59) ls) :: s.log })
        (fun s => { s with
          macrolevel := s.macrolevel - 1, linenumber := s1.linenumber, lineprefix := s1.lineprefix,
          flags := { s.flags with listOn := s1.flags.listOn },
          stack := s.stack.drop (s.stack.length - s1.stack.length), segment := s1.segment })
        (tail := macroTail st s1.curline)
        (src := { oldlist := s1.flags.listOn, oldprefix := s1.lineprefix, oldlinnum := s1.linenumber,
                  kind := .macro args ((orEmpty o).take 59) ls })
        rfl ⟨rfl, rfl, rfl⟩ (fun s' => ⟨rfl, rfl, rfl⟩) (by rw [h13.1])
    | _ => exact settles_const (m := ubM .nullMacro) Tame.calm (h2.fit f1)
  · have hcd : checkDepth s1 = .stop (.fatal c!"too many nested INCLUDEs and MACROs") s1 := by
      unfold checkDepth whenM
      rw [getS_bind_run, if_pos (by omega)]
      rfl
    refine ⟨0, .stop (.fatal c!"too many nested INCLUDEs and MACROs") s1, fun n k _ _ => ?_, by simp, by simp⟩
    show (checkDepth >>= _) s1 = _
    rw [bind_run, hcd]

/-! ### Statements -/

instance (o : Option Str) : Tame (xList o) := by unfold xList; infer_instance
instance (o : Option Str) : Tame (xMlist o) := by unfold xMlist; infer_instance
instance (o : Option Str) : Tame (xClist o) := by unfold xClist; infer_instance
instance (o : Option Str) : Tame (xIlist o) := by unfold xIlist; infer_instance

theorem settles_unit {t : Str} {m : M Unit} {s : St} [B Mv m] (hc : Calm t m Any) (hf : Fit s) :
    Settles t (fun _ _ => (do m; pure .cont : M RC)) s Any :=
  settles_const (hb := by big) (Calm.bind hc fun _ _ => Calm.pure trivial) hf

instance (o : Option Str) : B Mv (xDs o) := by
  unfold xDs
  refine B.bind (B.ofWalk (by walk)) fun p => ?_
  obtain ⟨o', init⟩ := p
  dsimp only
  refine B.bind (B.ofWalk (by walk)) fun r => ?_
  split
  · big
  · exact B.bind inferInstance fun _ => B.bind inferInstance fun _ => B.modS fun s => PreL.advance s _

theorem settles_callHandler {t : Str} {s : St} (hf : Fit s) (hl : Later s) (h : Handler) (arg : Int)
    (l o : Option Str) (ho : Sub (orEmpty o) t) :
    Settles t (fun n k => callHandler (asmline n) k h arg l o) s Any := by
  cases h with
  | h6800 h => exact settles_unit (C6800.calm_call h arg o ho) hf
  | h6502 h => exact settles_unit (C6502.calm_call h arg o ho) hf
  | hz80 h => exact settles_unit (Z80.calm_call h arg o ho) hf
  | pseudo p =>
    cases p with
    | equ => exact settles_unit (calm_xEqu l o ho) hf
    | dc => exact settles_unit (calm_dcLoop arg _ o (by omega) ho) hf
    | ds => exact settles_unit (calm_xDs o ho) hf
    | page => exact settles_unit (calm_xPage o ho) hf
    | skip => exact settles_unit (calm_xSkip o ho) hf
    | if_ => exact settles_xIf hf hl _ o ho
    | «macro» => exact (settles_xMacro hf _ l o).mono
    | else_ => exact settles_const (m := xElse o) Tame.calm hf
    | endc => exact settles_const (m := xEndc o) Tame.calm hf
    | endm => exact settles_const (m := xEndm _ o) Tame.calm hf
    | exitm => exact settles_const (m := xExitm _ o) Tame.calm hf
    | asc => exact settles_unit (m := xAsc o) Tame.calm hf
    | align => exact settles_unit (m := xAlign o) Tame.calm hf
    | clist => exact settles_unit (m := xClist o) Tame.calm hf
    | code => exact settles_unit (m := xCode true o) Tame.calm hf
    | cpu => exact settles_unit (m := xCpu o) Tame.calm hf
    | dummy => exact settles_unit (m := xCode false o) Tame.calm hf
    | fail => exact settles_unit (m := xFail o) Tame.calm hf
    | ilist => exact settles_unit (m := xIlist o) Tame.calm hf
    | «include» => exact settles_unit (m := xInclude o) Tame.calm hf
    | list => exact settles_unit (m := xList o) Tame.calm hf
    | mlist => exact settles_unit (m := xMlist o) Tame.calm hf
    | nam => exact settles_unit (m := xNam o) Tame.calm hf
    | output => exact settles_unit (m := xOutput o) Tame.calm hf

theorem settles_execLine {t : Str} {s : St} (hf : Fit s) (hl : Later s) (st : Status) (l o : Option Str)
    (ho : Sub (orEmpty o) t) (key : Str) (lab : Label) :
    Settles t (fun n k => execLine (asmline n) k st l o key lab) s Any := by
  unfold execLine
  by_cases h1 : (lab.flags.defcond || lab.flags.defmacro) = true
  · simp only [if_pos h1]
    cases lab.ptr with
    | handler h => exact settles_callHandler hf hl h _ l o ho
    | _ => exact settles_const (m := ubM .nullHandler) Tame.calm hf
  · simp only [if_neg h1]
    by_cases h2 : lab.type = .macro
    · simp only [if_pos h2]
      by_cases h3 : (l.isSome && decide ((orEmpty o).take 5 = c!"MACRO")) = true
      · simp only [if_pos h3]; exact settles_error hf
      · simp only [if_neg h3]
        by_cases h4 : st.act = true
        · simp only [if_pos h4]
          exact Settles.mono (Settles.bind (settles_macrocall hf hl key lab st o) fun _ s' _ f' _ =>
            settles_pure f' trivial)
        · simp only [if_neg h4]
          exact settles_unit (Calm.whenM Tame.calm) hf
    · simp only [if_neg h2]
      by_cases h3 : lab.type = .mnemo
      · simp only [if_pos h3]
        have tail : ∀ s', Fit s' → Settles t (fun _ _ => (do
            bumpStar
            whenM (st.lst) (outputline)
            pure .cont : M RC)) s' Any := fun s' f' =>
          settles_const (hb := by big) (Tame.calm (h := by tame)) f'
        refine Settles.bind (Q := Any) ?_ fun _ s' _ f' _ => tail s' f'
        unfold whenM
        by_cases h4 : st.act = true
        · simp only [if_pos h4]
          cases lab.ptr with
          | handler h =>
            exact Settles.bind (settles_callHandler hf hl h _ l o ho) fun _ s' _ f' _ => settles_pure f' trivial
          | _ => exact settles_const (m := ubM .nullHandler) Tame.calm hf
        · simp only [if_neg h4]
          exact settles_pure hf trivial
      · simp only [if_neg h3]
        exact settles_const (m := fatal _) Tame.calm hf

theorem settles_doFields {t : Str} {s : St} (hf : Fit s) (hl : Later s) (st : Status) (flush : Bool) (f : Fields)
    (ho : Sub (orEmpty f.oper) t) :
    Settles t (fun n k => doFields (asmline n) k st flush f) s Any := by
  unfold doFields
  cases f.entry with
  | none =>
    simp only
    by_cases h1 : (flush && f.label.isNone && f.oper.isNone) = true
    · simp only [if_pos h1]
      exact settles_const (hb := by big) (Tame.calm (h := by tame)) hf
    · simp only [if_neg h1]; exact settles_error hf
  | some e =>
    obtain ⟨key, lab⟩ := e
    simp only
    by_cases h1 : (lab.flags.nolabel && f.label.isSome) = true
    · simp only [if_pos h1]; exact settles_error hf
    · simp only [if_neg h1]
      cases f.label with
      | none =>
        exact Settles.first (Q := Any) (Calm.whenM Tame.calm) hf fun _ s' _ f' a' =>
          settles_execLine f' (hl.after a') st _ _ ho key lab
      | some l =>
        exact Settles.first (Q := Any) (Calm.whenM Tame.calm) hf fun _ s' _ f' a' =>
          settles_execLine f' (hl.after a') st _ _ ho key lab

/-! ### Lines -/

theorem step_log {a b : Cfg} (h : Step a b) : ∀ e ∈ a.1.log, e ∈ b.1.log := by
  intro e he
  cases h with
  | p h =>
    cases h with
    | h h =>
      cases h with
      | n h => cases h <;> first | exact he | exact List.mem_cons_of_mem _ he
      | emit s x ho hc => exact List.mem_cons_of_mem _ he
      | lohi s b => exact he
      | note s n => exact he
    | push s src hd hk => exact List.mem_cons_of_mem _ he
    | _ => exact he
  | _ => first | exact he | exact List.mem_cons_of_mem _ he
theorem star_log {a b : Cfg} (h : Star Step a b) : ∀ e ∈ a.1.log, e ∈ b.1.log := by
  induction h with
  | refl => exact fun e h => h
  | tail _ r ih => exact fun e h => step_log r e (ih e h)

theorem rtrim_mem {s : Str} {c : Char} (h : c ∈ rtrim s) : c ∈ s := by
  unfold rtrim at h
  rw [List.mem_reverse] at h
  exact List.mem_reverse.1 ((List.dropWhile_sublist _).subset h)

/-- What is left of the line. -/
theorem stripLine_calm (s : St) :
    match stripLine s with
    | .ok a _ => Sub a s.curline
    | .err _ => True
    | .stop w _ => w ≠ .fuel ∧ w ≠ .hang := by
  unfold stripLine
  rw [getS_bind_run, bind_run]
  have h := calm_filter2 (t := []) s.curline c!"_?_;?" s
  revert h
  cases filter2 s.curline c!"_?_;?" s with
  | ok r s' =>
    intro h
    rcases r with _ | ⟨a, b⟩
    · intro h
      exact rtrim_mem ((List.dropWhile_sublist _).subset h)
    · exact fun h' => (h a b rfl).1.1 _ h'
  | err s' => intro _; trivial
  | stop w s' => intro h; exact ⟨h.1, fun e => absurd (h.2 e) (by simp)⟩

theorem calm_splitMnemo {t : Str} (l : Option Str) (s : Str) (hs : Sub s t) :
    Calm t (splitMnemo l s) fun f => Sub (orEmpty f.oper) t ∧ Sub f.mnemo t := by
  unfold splitMnemo
  refine Calm.bind (calm_filter2 s _) fun r hr => ?_
  split
  · rename_i m ms o os
    have := (hr _ _ rfl).1
    refine Calm.bind (Q := Any) Tame.calm fun e _ => Calm.pure ⟨fun h => hs (this.2 _ h), fun h => hs (this.1 _ h)⟩
  · exact Calm.bind (Q := Any) Tame.calm fun e _ => Calm.pure ⟨sub_none, hs⟩

theorem calm_splitLine {t : Str} (s : Str) (hs : Sub s t) :
    Calm t (splitLine s) fun f => Sub (orEmpty f.oper) t := by
  unfold splitLine
  refine Calm.bind (calm_filter2 s _) fun eq hr => ?_
  have htail : Calm t (do
      let f ← splitMnemo none s
      match f.oper, f.entry with
      | some rest, none =>
        if !checklabel f.mnemo then error c!"malformed label"
        else splitMnemo (some f.mnemo) rest
      | _, _ => pure f : M Fields) fun f => Sub (orEmpty f.oper) t := by
    refine Calm.bind (calm_splitMnemo none s hs) fun f hf => ?_
    split
    · rename_i rest e1 e2
      split
      · exact calm_error
      · have : Sub rest t := by
          have := hf.1
          rw [e1] at this
          exact this
        exact (calm_splitMnemo _ _ this).weaken fun _ h => h.1
    · exact Calm.pure hf.1
  rcases eq with _ | ⟨l, o⟩
  · exact htail
  · simp only
    by_cases hn : nospacein l = true
    · simp only [if_pos hn]
      refine Calm.bind (Q := Any) Tame.calm fun e _ => ?_
      split
      · exact calm_error
      · exact Calm.pure fun h => hs ((hr _ _ rfl).1.2 _ h)
    · simp only [if_neg hn]
      exact htail

theorem settles_asmlineF {s : St} (hf : Fit s) (hl : Later s) (st : Status) :
    Settles s.curline (fun n k => asmlineF (asmline n) k st) s Any := by
  unfold asmlineF
  have hst : Mv s (startedSt s) := by
    have := (inferInstance : B Mv startLine).run s
    rw [startLine_eq] at this
    exact this
  have hc : (startedSt s).curline = s.curline := rfl
  have hf1 := hst.1 hf
  have h := stripLine_calm (startedSt s)
  have hb := (inferInstance : B Mv stripLine).run (startedSt s)
  rw [hc] at h
  revert h hb
  cases e : stripLine (startedSt s) with
  | ok t s2 =>
    intro h hb
    have hf2 := hb.1 hf1
    have hl2 : Later s2 := hl.after (hst.2.2.trans hb.2.2)
    have main : Settles s.curline (fun n k => if t = [] then do
          whenM (st.lst) (outputline)
          pure .cont
        else do
          let f ← splitLine t
          doFields (asmline n) k st (startsFlush (startedSt s).curline) f) s2 Any := by
      by_cases ht : t = []
      · simp only [if_pos ht]
        exact settles_unit (Calm.whenM Tame.calm) hf2
      · simp only [if_neg ht]
        exact Settles.first (calm_splitLine t h) hf2 fun f s3 hq f3 a3 =>
          settles_doFields f3 (hl2.after a3) st _ f hq
    obtain ⟨N, r, h1, h2⟩ := main
    refine ⟨N, r, fun n k hn hk => ?_, h2.from (hst.2.1.trans hb.2.1) (hst.2.2.trans hb.2.2)⟩
    show (startLine >>= fun _ => getS >>= fun s => stripLine >>= fun t => _) s = r
    rw [bind_run, startLine_eq]
    show (getS >>= _) (startedSt s) = _
    rw [getS_bind_run]
    show (stripLine >>= _) (startedSt s) = _
    rw [bind_run, e]
    exact h1 n k hn hk
  | err s2 =>
    intro h hb
    refine ⟨0, .err s2, fun n k hn hk => ?_, hb.1 hf1, hst.2.1.trans hb.2.1, .inl (hst.2.2.trans hb.2.2)⟩
    show (startLine >>= fun _ => getS >>= fun s => stripLine >>= fun t => _) s = _
    rw [bind_run, startLine_eq]
    show (getS >>= _) (startedSt s) = _
    rw [getS_bind_run]
    show (stripLine >>= _) (startedSt s) = _
    rw [bind_run, e]
  | stop w s2 =>
    intro h hb
    refine ⟨0, .stop w s2, fun n k hn hk => ?_, h.1, fun e => absurd e h.2⟩
    show (startLine >>= fun _ => getS >>= fun s => stripLine >>= fun t => _) s = _
    rw [bind_run, startLine_eq]
    show (getS >>= _) (startedSt s) = _
    rw [getS_bind_run]
    show (stripLine >>= _) (startedSt s) = _
    rw [bind_run, e]

theorem settles_asmline : ∀ s, Fit s → Cur s → ∀ st, Settles [] (fun n _ => asmline n st) s Any := by
  intro s hf
  have wf := acc_down 10 (pending s) hf.len
  generalize hp : pending s = p at wf
  induction wf generalizing s with
  | intro p _ ih =>
    subst hp
    intro hc st
    have hl : Later s := fun s1 h1 h2 h3 st => ih (pending s1) ⟨h2.len, h1⟩ s1 h2 rfl h3 st
    obtain ⟨N, r, h1, h2⟩ := settles_asmlineF hf hl st
    have h1 : ∀ n, N + 1 ≤ n → asmline n st s = r := by
      intro n hn
      obtain ⟨j, rfl⟩ : ∃ j, n = j + 1 := ⟨n - 1, by omega⟩
      exact h1 j j (by omega) (by omega)
    refine ⟨N + 1, r, fun n k hn _ => h1 n hn, ?_⟩
    cases r with
    | ok a s' => exact h2
    | err s' => exact h2
    | stop w s' =>
      refine ⟨h2.1, fun e => .inr ?_⟩
      rcases h2.2 e with h | h
      · obtain ⟨p, d, hm⟩ := hc
        have hw := walk_asmline (N + 1) st s
        rw [h1 (N + 1) (Nat.le_refl _)] at hw
        exact ⟨p, d, s.curline, star_log hw _ hm, h⟩
      · exact h

/-! ### Passes -/

/-- An empty line does nothing. -/
theorem asmline_empty {s : St} (h : s.curline = []) (st : Status) :
    (∃ s', (∀ n, 1 ≤ n → asmline n st s = .ok .cont s') ∧ Unread s s') ∨
    (∃ w s', (∀ n, 1 ≤ n → asmline n st s = .stop w s') ∧ w ≠ .fuel ∧ w ≠ .hang) := by
  have h1 : (startedSt s).curline = [] := h
  have hst : Unread s (startedSt s) := ⟨rfl, rfl, rfl⟩
  have start : ∀ n, 1 ≤ n → asmline n st s = (stripLine >>= fun t => if t = [] then do
          whenM (st.lst) (outputline)
          pure .cont
        else do
          let f ← splitLine t
          doFields (asmline (n - 1)) (n - 1) st (startsFlush (startedSt s).curline) f) (startedSt s) := by
    intro n hn
    obtain ⟨n, rfl⟩ : ∃ j, n = j + 1 := ⟨n - 1, by omega⟩
    show asmlineF (asmline n) n st s = _
    unfold asmlineF
    rw [bind_run, startLine_eq]
    show (getS >>= _) (startedSt s) = _
    rw [getS_bind_run]
    rfl
  have hstrip : (∃ s2, stripLine (startedSt s) = .ok [] s2 ∧ Unread (startedSt s) s2) ∨
      (∃ w s2, stripLine (startedSt s) = .stop w s2 ∧ w ≠ .fuel ∧ w ≠ .hang) := by
    unfold stripLine
    rw [getS_bind_run, bind_run, h1]
    have h := calm_filter2 (t := []) [] c!"_?_;?" (startedSt s)
    have hq := (inferInstance : Quiet (filter2 [] c!"_?_;?")).run (startedSt s)
    revert h hq
    cases filter2 [] c!"_?_;?" (startedSt s) with
    | ok r s' =>
      intro h hq
      obtain ⟨a, b, c, rfl⟩ := hq
      left
      rcases r with _ | ⟨a, b⟩
      · exact ⟨_, rfl, rfl, rfl, rfl⟩
      · have := (h a b rfl).1.1
        have : a = [] := by
          cases a with
          | nil => rfl
          | cons x a => exact absurd (this x List.mem_cons_self) (by simp)
        subst this
        exact ⟨_, rfl, rfl, rfl, rfl⟩
    | err s' => intro _ hq; exact hq.elim
    | stop w s' => intro h _; exact .inr ⟨w, s', rfl, h.1, fun e => absurd (h.2 e) (by simp)⟩
  rcases hstrip with ⟨s2, e1, e2⟩ | ⟨w, s2, e1, e2⟩
  · have hq := (by quiet : Quiet (whenM (st.lst = true) outputline)).run s2
    have ht := (by tame : Tame (whenM (st.lst = true) outputline)).run s2
    have fin : ∀ n, 1 ≤ n → asmline n st s = (whenM (st.lst = true) outputline >>= fun _ => pure .cont) s2 := by
      intro n hn
      rw [start n hn, bind_run, e1]
      rfl
    revert hq ht
    cases e3 : whenM (st.lst = true) outputline s2 with
    | ok u s3 =>
      intro hq _
      have hs3 : Unread s2 s3 := by
        obtain ⟨a, b, c, rfl⟩ := hq
        exact ⟨rfl, rfl, rfl⟩
      left
      exact ⟨s3, fun n hn => by rw [fin n hn, bind_run, e3]; rfl, hst.trans (e2.trans hs3)⟩
    | err s3 => intro hq; exact hq.elim
    | stop w s3 =>
      intro _ ht
      right
      exact ⟨w, s3, fun n hn => by rw [fin n hn, bind_run, e3], ht.1, fun e => absurd (ht.2 e) (by simp)⟩
  · right
    exact ⟨w, s2, fun n hn => by rw [start n hn, bind_run, e1], e2⟩

/-- How a pass ends. -/
def PassEnd : Res Unit → Prop
  | .ok _ s' => Fit s'
  | .err _ => False
  | .stop w s' => w ≠ .fuel ∧ (w = .hang → Minus s')

def Passes (b : Bool) (s : St) : Prop :=
  ∃ N r, (∀ n k, N ≤ n → N ≤ k → passLoop n k b s = r) ∧ PassEnd r

theorem passLoop_done {s : St} (hf : Fit s) (he : s.mainEof = true) : Passes true s := by
  refine ⟨1, .ok () s, fun n k _ hk => ?_, hf⟩
  obtain ⟨k, rfl⟩ : ∃ j, k = j + 1 := ⟨k - 1, by omega⟩
  unfold passLoop
  rw [getS_bind_run, if_pos (by simp [he])]
  rfl

/-- One round that is made. -/
theorem passLoop_round {b : Bool} {s : St} (hn : ¬ (b && s.mainEof) = true) (n k : Nat) :
    passLoop n (k + 1) b s =
      (catchErr (do passBody n; pure true) (do bumpErr; pure false) >>= fun a => passLoop n k a) s := by
  rw [passLoop, getS_bind_run, if_neg hn]

theorem passes_next {b : Bool} {s : St} (hn : ¬ (b && s.mainEof) = true) {a : Bool} {s' : St} {N : Nat}
    (h : ∀ n, N ≤ n → catchErr (do passBody n; pure true) (do bumpErr; pure false) s = .ok a s')
    (hp : Passes a s') : Passes b s := by
  obtain ⟨N', r, h1, h2⟩ := hp
  refine ⟨max N N' + 1, r, fun n k hn' hk => ?_, h2⟩
  obtain ⟨k, rfl⟩ : ∃ j, k = j + 1 := ⟨k - 1, by omega⟩
  rw [passLoop_round hn, bind_run, h n (by omega)]
  exact h1 n k (by omega) (by omega)

theorem passes_stop {b : Bool} {s : St} (hn : ¬ (b && s.mainEof) = true) {w : Stop} {s' : St} {N : Nat}
    (h : ∀ n, N ≤ n → passBody n s = .stop w s') (hp : w ≠ .fuel ∧ (w = .hang → Minus s')) : Passes b s := by
  refine ⟨N + 1, .stop w s', fun n k hn' hk => ?_, hp⟩
  obtain ⟨k, rfl⟩ : ∃ j, k = j + 1 := ⟨k - 1, by omega⟩
  rw [passLoop_round hn, bind_run]
  unfold catchErr
  rw [bind_run, h n (by omega)]

/-- After the end of the source at most one more round is made. -/
theorem passes_blank {b : Bool} {s s1 : St} (hn : ¬ (b && s.mainEof) = true) (h1 : linegets s = .ok () s1)
    (hf : Fit s1) (he : Ended s1) (hc : s1.curline = []) : Passes b s := by
  rcases asmline_empty hc ⟨true, true⟩ with ⟨s2, h2, h3⟩ | ⟨w, s2, h2, h3⟩
  · refine passes_next hn (a := true) (s' := s2) (N := 1) (fun n hn' => ?_)
      (passLoop_done (h3.fit hf) (h3.ended he).2.1)
    have : passBody n s = .ok () s2 := by
      unfold passBody
      rw [bind_run, h1]
      show (asmline n ⟨true, true⟩ >>= _) s1 = _
      rw [bind_run, h2 n hn']
      rfl
    unfold catchErr
    rw [bind_run, this]
    rfl
  · refine passes_stop hn (N := 1) (w := w) (s' := s2) (fun n hn' => ?_) ⟨h3.1, fun e => absurd e h3.2⟩
    unfold passBody
    rw [bind_run, h1]
    show (asmline n ⟨true, true⟩ >>= _) s1 = _
    rw [bind_run, h2 n hn']

theorem passes_ended {s : St} (hf : Fit s) (he : Ended s) (b : Bool) : Passes b s := by
  cases b with
  | true => exact passLoop_done hf he.2.1
  | false =>
    have hn : ¬ (false && s.mainEof) = true := by simp
    rcases linegets_read hf with ⟨s1, h1, hr⟩ | ⟨w, s1, h1, hw⟩
    · rcases hr.less with h | h
      · exact absurd h (ended_less he)
      · exact passes_blank hn h1 hr.fit h.1 h.2
    · refine passes_stop hn (N := 0) (w := w) (s' := s1) (fun n _ => ?_) ⟨hw.1, fun e => absurd e hw.2⟩
      unfold passBody
      rw [bind_run, h1]

theorem passes_all : ∀ s, Fit s → ∀ b, Passes b s := by
  intro s hf
  have wf := acc_down 10 (pending s) hf.len
  generalize hp : pending s = p at wf
  induction wf generalizing s with
  | intro p _ ih =>
    subst hp
    intro b
    have ih : ∀ s', Less (pending s') (pending s) → Fit s' → ∀ b, Passes b s' := fun s' h1 h2 b =>
      ih (pending s') ⟨h2.len, h1.down⟩ s' h2 rfl b
    by_cases hn : (b && s.mainEof) = true
    · rw [Bool.and_eq_true] at hn
      rw [hn.1]
      exact passLoop_done hf hn.2
    · rcases linegets_read hf with ⟨s1, h1, hr⟩ | ⟨w, s1, h1, hw⟩
      · rcases hr.less with hless | h
        · obtain ⟨N, r, h2, h3⟩ := settles_asmline s1 hr.fit hr.cur ⟨true, true⟩
          have h2 : ∀ n, N ≤ n → asmline n ⟨true, true⟩ s1 = r := fun n hn => h2 n n hn hn
          have body : ∀ n, passBody n s = (asmline n ⟨true, true⟩ >>= fun r =>
              whenM (r ≠ .cont) (error c!"ELSE, ENDC, ENDM, EXITM illegal here")) s1 := by
            intro n
            unfold passBody
            rw [bind_run, h1]
          have failed : ∀ s2, (After (pending s1) (pending s2) ∨ Ended s2) → Fit s2 →
              (∀ n, N ≤ n → passBody n s = .err s2) → Passes b s := by
            intro s2 e1 e2 e3
            have hst : Unread s2 { s2 with errnumber := s2.errnumber + 1 } := ⟨rfl, rfl, rfl⟩
            refine passes_next hn (a := false) (s' := { s2 with errnumber := s2.errnumber + 1 }) (N := N)
              (fun n hn' => ?_) ?_
            · unfold catchErr
              rw [bind_run, e3 n hn']
              rfl
            · rcases e1 with h | h
              · refine ih _ ?_ (hst.fit e2) _
                rw [hst.pending]
                exact hless.after h
              · exact passes_ended (hst.fit e2) (hst.ended h) _
          cases r with
          | ok rc s2 =>
            by_cases hc : rc = .cont
            · refine passes_next hn (a := true) (s' := s2) (N := N) (fun n hn' => ?_)
                (ih s2 (hless.after h3.2.2.2) h3.2.1 true)
              unfold catchErr
              rw [bind_run, body, bind_run, h2 n hn', hc]
              rfl
            · have e : ∀ n, N ≤ n → passBody n s =
                  (error c!"ELSE, ENDC, ENDM, EXITM illegal here" : M Unit) s2 := by
                intro n hn'
                rw [body, bind_run, h2 n hn']
                show whenM (rc ≠ .cont) _ s2 = _
                unfold whenM
                rw [if_pos hc]
              rcases error_ends (α := Unit) (msg := c!"ELSE, ENDC, ENDM, EXITM illegal here") (s := s2)
                with ⟨s3, e2, e3⟩ | ⟨w, s3, e2, e3⟩
              · refine failed s3 ?_ (e3.fit h3.2.1) fun n hn' => (e n hn').trans e2
                rw [e3.pending]
                exact .inl h3.2.2.2
              · exact passes_stop hn (N := N) (fun n hn' => (e n hn').trans e2) ⟨e3.1, fun e => absurd e e3.2⟩
          | err s2 =>
            refine failed s2 h3.2.2 h3.1 fun n hn' => ?_
            rw [body, bind_run, h2 n hn']
          | stop w s2 =>
            refine passes_stop hn (N := N) (w := w) (s' := s2) (fun n hn' => ?_)
              ⟨h3.1, fun e => (h3.2 e).resolve_left (by simp)⟩
            rw [body, bind_run, h2 n hn']
        · exact passes_blank hn h1 hr.fit h.1 h.2
      · refine passes_stop hn (N := 0) (w := w) (s' := s1) (fun n _ => ?_) ⟨hw.1, fun e => absurd e hw.2⟩
        unfold passBody
        rw [bind_run, h1]

end Crasm

import Verif.Proof.Whole

/-! C34: the error count is the number of errors of pass 2. -/

namespace Crasm

/-- Number of calls of error() in pass `p`. -/
def errorsIn (p : Nat) (log : List Event) : Nat :=
  log.countP fun
    | .error q _ => q = p
    | _ => false

/-- The error messages shown are those of pass 2. -/
def ShownIn2 (log : List Event) : Prop := ∀ p b, Event.error p b ∈ log → b = (p == 2)

def ErrInv (n : Nat) (c : Cfg) : Prop :=
  n ≤ 2 ∧ c.1.passnumber = n ∧ c.1.flags.noerror = (n != 2) ∧
  (∀ p b, Event.error p b ∈ c.1.log → p ≤ n ∧ b = (p == 2)) ∧
  (c.2 = .live → c.1.errnumber = errorsIn n c.1.log) ∧
  (c.2 = .pend → c.1.errnumber + 1 = errorsIn n c.1.log)

theorem errInv_error {n : Nat} {s : St} (t : Tree) (h : ErrInv n (s, .live)) :
    ErrInv n ({ s with tree := t, log := .error s.passnumber (!s.flags.noerror) :: s.log }, .pend) := by
  obtain ⟨h0, h1, h2, h3, h4, -⟩ := h
  simp only at h1 h2 h3 h4
  refine ⟨h0, h1, h2, ?_, (by simp), ?_⟩
  · intro p b hm
    simp only [List.mem_cons] at hm
    rcases hm with hm | hm
    · cases hm
      refine ⟨by omega, ?_⟩
      rw [h1, h2]
      simp [bne]
    · exact h3 p b hm
  · intro _
    simp [errorsIn, h1, h4]

theorem errInv_step {n : Nat} {a b : Cfg} (h : Step a b) (ha : ErrInv n a) : ErrInv n b := by
  have keep : ∀ {s s' : St}, ErrInv n (s, .live) → s'.passnumber = s.passnumber →
      s'.flags.noerror = s.flags.noerror → s'.errnumber = s.errnumber →
      (∃ e, s'.log = e :: s.log ∧ ∀ p b, e ≠ .error p b) ∨ s'.log = s.log → ErrInv n (s', .live) := by
    rintro s s' ⟨h0, h1, h2, h3, h4, -⟩ e1 e2 e3 e4
    refine ⟨h0, e1.trans h1, e2.trans h2, ?_, ?_, (by simp)⟩
    · intro p b hm
      rcases e4 with ⟨e, e4, hne⟩ | e4
      · simp only [e4, List.mem_cons] at hm
        rcases hm with hm | hm
        · exact absurd hm.symm (hne p b)
        · exact h3 p b hm
      · simp only [e4] at hm; exact h3 p b hm
    · intro _
      have h4 := h4 rfl
      simp only at h4 ⊢
      rw [e3, h4]
      rcases e4 with ⟨e, e4, hne⟩ | e4
      · rw [e4]
        unfold errorsIn
        rw [List.countP_cons]
        cases e with
        | error p b => exact absurd rfl (hne p b)
        | _ => rfl
      · rw [e4]
  cases h with
  | p h =>
    cases h with
    | h h =>
      cases h with
      | n h =>
        cases h with
        | error0 s h => exact errInv_error s.tree ha
        | error1 s t h hb => exact errInv_error t ha
        | odd s =>
          obtain ⟨h0, h1, h2, h3, h4, h5⟩ := ha
          exact ⟨h0, h1, h2, h3, by simp, h5⟩
        | die s =>
          obtain ⟨h0, h1, h2, h3, -, -⟩ := ha
          exact ⟨h0, h1, h2, h3, by simp, by simp⟩
        | _ => exact keep ha rfl rfl rfl (.inr rfl)
      | emit s x => exact keep ha rfl rfl rfl (.inl ⟨_, rfl, by simp⟩)
      | note s => exact keep ha rfl rfl rfl (.inr rfl)
      | lohi s => exact keep ha rfl rfl rfl (.inr rfl)
    | flags s f c hf => exact keep ha rfl hf.2.2.2.2.1 rfl (.inr rfl)
    | push s src hd => exact keep ha rfl rfl rfl (.inl ⟨_, rfl, by simp⟩)
    | _ => exact keep ha rfl rfl rfl (.inr rfl)
  | call s src hd => exact keep ha rfl rfl rfl (.inl ⟨_, rfl, by simp⟩)
  | readMain s hs => exact keep ha rfl rfl rfl (.inl ⟨_, rfl, by simp⟩)
  | readFile s => exact keep ha rfl rfl rfl (.inl ⟨_, rfl, by simp⟩)
  | readMacro s => exact keep ha rfl rfl rfl (.inl ⟨_, rfl, by simp⟩)
  | caught s =>
    obtain ⟨h0, h1, h2, h3, -, h4⟩ := ha
    exact ⟨h0, h1, h2, h3, fun _ => h4 rfl, by simp⟩
  | _ => exact keep ha rfl rfl rfl (.inr rfl)

theorem errInv_reach {o : Opts} {env : Env} {src : Str} {n : Nat} {c : Cfg}
    (h : Reach o (initSt env src) n c) : ErrInv n c := by
  have none : ∀ {n : Nat} {log : List Event}, (∀ p b, Event.error p b ∈ log → p ≤ n ∧ b = (p == 2)) →
      errorsIn (n + 1) log = 0 := by
    intro n log h
    unfold errorsIn
    rw [List.countP_eq_zero]
    intro e he
    cases e with
    | error p b => have := (h p b he).1; simp; omega
    | _ => simp
  refine h.inv (P := ErrInv) ?_ (fun _ _ _ h ha => errInv_step h ha) ?_ ?_
  · simp [ErrInv, initSt, pass1Flags, errorsIn]
  · rintro s ⟨-, h1, h2, h3, -, -⟩
    refine ⟨by omega, rfl, h2, fun p b hm => ⟨Nat.le_succ_of_le (h3 p b hm).1, (h3 p b hm).2⟩,
      fun _ => (none h3).symm, by simp⟩
  · rintro s ⟨-, h1, h2, h3, -, -⟩
    exact ⟨by omega, rfl, rfl, fun p b hm => ⟨Nat.le_succ_of_le (h3 p b hm).1, (h3 p b hm).2⟩,
      fun _ => (none h3).symm, by simp⟩

/-- After a run that gets to its end, `errnumber`, the number printed after "ERRORS:" (xref.c:145), is the
    number of calls of error() in pass 2. The message of such a call is shown in pass 2 and not in pass 1. -/
theorem C34_error_count (fuel : Nat) (o : Opts) (env : Env) (src : Str) (s : St)
    (h : assemble fuel o (initSt env src) = .ok () s) :
    s.errnumber = errorsIn 2 s.log ∧ ∀ p b, Event.error p b ∈ s.log → b = (p == 2) := by
  obtain ⟨sC, hr, rfl⟩ := assemble_ok h
  obtain ⟨-, -, -, h3, h4, -⟩ := errInv_reach hr
  exact ⟨h4 rfl, fun p b hm => (h3 p b hm).2⟩

/-- Also in runs that stop early, messages of pass 1 are not shown and those of pass 2 are. -/
theorem C34_shown_in_pass2 (fuel : Nat) (o : Opts) (env : Env) (src : Str) :
    ∀ p b, Event.error p b ∈ (assemble fuel o (initSt env src)).state.log → b = (p == 2) := by
  cases h : assemble fuel o (initSt env src) with
  | ok u s => exact (C34_error_count fuel o env src s h).2
  | err s => exact absurd h (assemble_not_err _ _)
  | stop w s =>
    obtain ⟨n, hr⟩ := assemble_stop h
    obtain ⟨-, -, -, h3, -, -⟩ := errInv_reach hr
    exact fun p b hm => (h3 p b hm).2

/-- A call of error() outside pass 1 (`noerror` off) that returns to its setjmp has printed the message,
    with the line number, on a line of its own, whatever the listing options are. -/
theorem C34_message_printed (msg : Str) (s s' : St) (hn : s.flags.noerror = false)
    (h : (error msg : M α) s = .err s') :
    (diagText c!" ERROR: " s.linenumber msg ++ ['\n']) ∈ s'.lst.out := by
  unfold error at h
  rw [getS_bind_run] at h
  simp only [hn, Bool.not_false, whenM, if_true] at h
  rw [bind_run] at h
  split at h
  · rename_i a s1 h1
    have hm := reportError_ok h1
    have g : Grows (do
        outputline
        (if s.advance ≠ 0 then bumpStar else Pure.pure ())
        modS fun s_1 => { s_1 with
          flags := { s_1.flags with listOn := s.flags.listOn },
          log := .error s_1.passnumber true :: s_1.log }
        (throwErr : M α)) := by
      refine Grows.bind inferInstance fun _ => Grows.bind ?_ fun _ => Grows.bind ⟨fun _ => ⟨[], rfl⟩⟩ fun _ =>
        ⟨fun _ => ⟨[], rfl⟩⟩
      grows
    obtain ⟨x, hx⟩ := g.out s1
    rw [h] at hx
    simp only [Res.state] at hx
    rw [hx]
    exact List.mem_append_right _ hm
  · rename_i h1
    exact absurd h1 (Quiet.noErr inferInstance _ _)
  · cases h

/-- The number printed after "ERRORS:" by a run that completes is the number of calls of error() in pass 2. -/
theorem C34_count_printed (f : Nat) (env : Env) (o : Opts) (name out : Str) (file : CodeFile)
    (h : crasm f env o name = .exit 0 out file) :
    ∃ src s, env.fs name = some src ∧ assemble f o (initSt env src) = .ok () s ∧
      (c!"ERRORS:    " ++ padLeft 4 (digits (errorsIn 2 s.log)) ++ ['\n']) <:+: out := by
  obtain ⟨src, hs, h⟩ := crasm_exit0 h
  obtain ⟨s, ha, hf, t1, -, -⟩ := finish_exit0 (inv_initSt env src) rfl h
  refine ⟨src, s, hs, ha, ?_⟩
  rw [← (C34_error_count f o env src s ha).1]
  exact t1

/-- Pass 1 prints nothing at all, however it ends. -/
theorem C34_pass1_silent (f : Nat) (env : Env) (src : Str) (sA : St)
    (h : initLabelList .pseudos pseudos (initSt env src) = .ok () sA) :
    (pass f 1 sA).state.lst.out = [] := by
  have hi := (pass1_inv (fuel := f) (inv_initSt env src) rfl h).2
  refine (hi.2 ?_).2.2.2.2
  have hw := pass_out f 1 sA
  cases hp : pass f 1 sA with
  | ok u s => rw [hp] at hw; exact Nat.le_of_eq (star_pass hw)
  | err s => exact absurd hp pass_not_err
  | stop w s => rw [hp] at hw; exact Nat.le_of_eq (star_pass hw)

/-- A program with two errors: an instruction without operand and an unknown mnemonic. Both are raised in each
    pass, and counted once. -/
def twoErrors : Str := c!" cpu 6502\n *= $100\n lda\n foo 3\n db 1\n"
example : (match assemble 60 {} (initSt { fs := fun _ => none } twoErrors) with
    | .ok _ s => (s.errnumber, errorsIn 1 s.log, errorsIn 2 s.log) | _ => (0, 0, 0)) = (2, 2, 2) := by
  decide +kernel

end Crasm

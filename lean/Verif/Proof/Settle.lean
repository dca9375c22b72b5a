import Verif.Proof.Halt

/-! A part of the program settles if with enough fuel it always has the same outcome. -/

namespace Crasm

/-- The state of the source files is the same. -/
def Unread (s s' : St) : Prop := s'.stack = s.stack ∧ s'.main = s.main ∧ s'.mainEof = s.mainEof

theorem Unread.mv {s s' : St} (h : Unread s s') : Mv s s' := mv_same h.1 h.2.1 h.2.2
theorem Unread.refl (s : St) : Unread s s := ⟨rfl, rfl, rfl⟩
theorem Unread.trans {a b c : St} (h : Unread a b) (h' : Unread b c) : Unread a c :=
  ⟨h'.1.trans h.1, h'.2.1.trans h.2.1, h'.2.2.trans h.2.2⟩
theorem Unread.pending {s s' : St} (h : Unread s s') : pending s' = pending s := by
  unfold Crasm.pending mainLeft; rw [h.1, h.2.1, h.2.2]
theorem Unread.fit {s s' : St} (h : Unread s s') (hf : Fit s) : Fit s' := h.mv.1 hf
theorem Unread.ended {s s' : St} (h : Unread s s') (he : Ended s) : Ended s' :=
  ⟨h.1.trans he.1, h.2.2.trans he.2.1, h.2.1.trans he.2.2⟩

theorem still_star {a b : Cfg} (h : Star HStep a b) : Unread a.1 b.1 := by
  induction h with
  | refl => exact Unread.refl _
  | tail _ r ih =>
    refine ih.trans ?_
    cases r with
    | n r => cases r <;> exact ⟨rfl, rfl, rfl⟩
    | emit s x ho hc => exact ⟨rfl, rfl, rfl⟩
    | lohi s b => exact ⟨rfl, rfl, rfl⟩
    | note s n => exact ⟨rfl, rfl, rfl⟩

theorem still_ok {m : M α} [W HStep m] {s s' : St} {a : α} (h : m s = .ok a s') : Unread s s' := by
  have := (W.walk (R := HStep) (m := m)) s
  rw [h] at this
  exact still_star this
theorem still_err {m : M α} [W HStep m] {s s' : St} (h : m s = .err s') : Unread s s' := by
  have := (W.walk (R := HStep) (m := m)) s
  rw [h] at this
  exact still_star this

/-- What a part of the program does to the source, how it may stop, and what it returns. -/
def Post (t : Str) (s : St) (Q : α → Prop) : Res α → Prop
  | .ok a s' => Q a ∧ Fit s' ∧ Keep s s' ∧ After (pending s) (pending s')
  | .err s' => Fit s' ∧ Keep s s' ∧ (After (pending s) (pending s') ∨ Ended s')
  | .stop w s' => w ≠ .fuel ∧ (w = .hang → '-' ∈ t ∨ Minus s')

def Settles (t : Str) (m : Nat → Nat → M α) (s : St) (Q : α → Prop) : Prop :=
  ∃ N r, (∀ n k, N ≤ n → N ≤ k → m n k s = r) ∧ Post t s Q r

theorem Post.weaken {t t' : Str} {s : St} {Q Q' : α → Prop} {r : Res α} (h : Post t s Q r) (ht : Sub t t')
    (hq : ∀ a, Q a → Q' a) : Post t' s Q' r := by
  cases r with
  | ok a s' => exact ⟨hq a h.1, h.2⟩
  | err s' => exact h
  | stop w s' => exact ⟨h.1, fun e => (h.2 e).imp ht id⟩

theorem Settles.weaken {t t' : Str} {m : Nat → Nat → M α} {s : St} {Q Q' : α → Prop} (h : Settles t m s Q)
    (ht : Sub t t') (hq : ∀ a, Q a → Q' a) : Settles t' m s Q' := by
  obtain ⟨N, r, h1, h2⟩ := h
  exact ⟨N, r, h1, h2.weaken ht hq⟩

/-- Going on from a state reached before. -/
theorem Post.from {t : Str} {s s' : St} {Q : α → Prop} {r : Res α} (hk : Keep s s')
    (ha : After (pending s) (pending s')) (h : Post t s' Q r) : Post t s Q r := by
  cases r with
  | ok a s2 => exact ⟨h.1, h.2.1, hk.trans h.2.2.1, ha.trans h.2.2.2⟩
  | err s2 => exact ⟨h.1, hk.trans h.2.1, h.2.2.imp ha.trans id⟩
  | stop w s2 => exact h

theorem settles_const {t : Str} {m : M α} {s : St} {Q : α → Prop} [hb : B Mv m] (hc : Calm t m Q) (hf : Fit s) :
    Settles t (fun _ _ => m) s Q := by
  refine ⟨0, m s, fun _ _ _ _ => rfl, ?_⟩
  have h1 := hb.run s
  have h2 := hc s
  revert h1 h2
  cases m s with
  | ok a s' => intro h1 h2; exact ⟨h2, h1.1 hf, h1.2.1, h1.2.2⟩
  | err s' => intro h1 _; exact ⟨h1.1 hf, h1.2.1, .inl h1.2.2⟩
  | stop w s' => intro _ h2; exact ⟨h2.1, fun e => .inl (h2.2 e)⟩

theorem Settles.bind {t : Str} {m : Nat → Nat → M α} {f : Nat → Nat → α → M β} {s : St} {Q : α → Prop}
    {R : β → Prop} (hm : Settles t m s Q)
    (hf : ∀ a s', Q a → Fit s' → After (pending s) (pending s') → Settles t (fun n k => f n k a) s' R) :
    Settles t (fun n k => m n k >>= f n k) s R := by
  obtain ⟨N, r, h1, h2⟩ := hm
  cases r with
  | ok a s' =>
    obtain ⟨N', r', h3, h4⟩ := hf a s' h2.1 h2.2.1 h2.2.2.2
    refine ⟨max N N', r', fun n k hn hk => ?_, h4.from h2.2.2.1 h2.2.2.2⟩
    show (m n k >>= f n k) s = r'
    rw [bind_run, h1 n k (by omega) (by omega)]
    exact h3 n k (by omega) (by omega)
  | err s' =>
    refine ⟨N, .err s', fun n k hn hk => ?_, h2⟩
    show (m n k >>= f n k) s = _
    rw [bind_run, h1 n k hn hk]
  | stop w s' =>
    refine ⟨N, .stop w s', fun n k hn hk => ?_, h2⟩
    show (m n k >>= f n k) s = _
    rw [bind_run, h1 n k hn hk]

/-- The usual case: first something that reads no line. -/
theorem Settles.first {t : Str} {m : M α} {f : Nat → Nat → α → M β} {s : St} {Q : α → Prop} {R : β → Prop}
    [B Mv m] (hc : Calm t m Q) (hs : Fit s)
    (hf : ∀ a s', Q a → Fit s' → After (pending s) (pending s') → Settles t (fun n k => f n k a) s' R) :
    Settles t (fun n k => m >>= f n k) s R :=
  Settles.bind (m := fun _ _ => m) (settles_const hc hs) hf

theorem settles_error {t : Str} {msg : Str} {s : St} {Q : α → Prop} (hf : Fit s) :
    Settles t (fun _ _ => (error msg : M α)) s Q := settles_const calm_error hf

theorem settles_pure {t : Str} {a : α} {s : St} {Q : α → Prop} (hf : Fit s) (h : Q a) :
    Settles t (fun _ _ => (Pure.pure a : M α)) s Q := by
  haveI : B Mv (Pure.pure a : M α) := B.pure a
  exact settles_const (Calm.pure h) hf

instance {R : Cfg → Cfg → Prop} {c : Prop} [Decidable c] {m : M Unit} [h : W R m] : W R (whenM c m) :=
  ⟨Walk.whenM h.walk⟩
instance {R : St → St → Prop} [Pre R] {c : Prop} [Decidable c] {m : M Unit} [h : B R m] : B R (whenM c m) :=
  B.whenM h

/-! ### Loops over lines -/

instance : Tame bumpErr := Tame.modS _

/-- Every line read from a later state settles. -/
def Later (s : St) : Prop := ∀ s1, Down (pending s1) (pending s) → Fit s1 → Cur s1 → ∀ st,
  Settles [] (fun n _ => asmline n st) s1 Any

theorem Later.after {s s' : St} (h : Later s) (ha : After (pending s) (pending s')) : Later s' :=
  fun s1 h1 => h s1 (h1.after ha)

theorem ended_pending {s : St} (h : Ended s) : pending s = [0] := by
  obtain ⟨h1, h2, h3⟩ := h
  simp [pending, mainLeft, h1, h2, h3]

theorem ended_less {s : St} {l : List Nat} (h : Ended s) : ¬ Less l (pending s) := by
  rw [ended_pending h]
  intro h
  cases l with
  | nil => exact nil_not_less h
  | cons x l =>
    rcases less_cons.1 h with h | ⟨-, h⟩
    · omega
    · exact not_less_nil h

theorem error_ends {msg : Str} {s : St} : (∃ s', (error msg : M α) s = .err s' ∧ Unread s s') ∨
    (∃ w s', (error msg : M α) s = .stop w s' ∧ w ≠ .fuel ∧ w ≠ .hang) := by
  have h := (Tame.run : Calm [] (error msg : M α) Any) s
  have h2 := (fun s' h => still_err (m := (error msg : M α)) (s := s) (s' := s') h)
  have h3 : ∀ a s', (error msg : M α) s ≠ .ok a s' := fun a s' => error_not_ok
  revert h h2 h3
  cases (error msg : M α) s with
  | ok a s' => intro _ _ h3; exact absurd rfl (h3 a s')
  | err s' => intro _ h2 _; exact .inl ⟨s', rfl, h2 s' rfl⟩
  | stop w s' => intro h _ _; exact .inr ⟨w, s', rfl, h.1, fun e => absurd (h.2 e) (by simp)⟩

theorem bumpErr_run (s : St) : bumpErr s = .ok () { s with errnumber := s.errnumber + 1 } := rfl

/-- At the end of the source, IF gives up. -/
theorem ifLoop_ended {self : Nat → Status → M RC} {s0 s : St} (hk0 : Keep s0 s) (hf : Fit s) (he : Ended s)
    (st : Status) :
    ∃ N r, (∀ n k, N ≤ n → N ≤ k → ifLoop (self n) st k s = r) ∧ Post [] s0 Any r := by
  rcases linegets_read hf with ⟨s1, h1, hr⟩ | ⟨w, s1, h1, hw⟩
  · have he1 : Ended s1 := by
      rcases hr.less with h | h
      · exact absurd h (ended_less he)
      · exact h.1
    have hround : ∀ n, catchErr (ifRound (self n) st) (do bumpErr; pure (.rc .cont)) s = .ok .eof s1 := by
      intro n
      have : ifRound (self n) st s = .ok .eof s1 := by
        unfold ifRound
        rw [bind_run, h1]
        show (getS >>= _) s1 = _
        rw [getS_bind_run]
        rw [if_pos he1.2.1]
        rfl
      unfold catchErr
      rw [this]
    have heq : ∀ n k, 1 ≤ k → ifLoop (self n) st k s = (error c!"Unexpected End of File" : M RC) s1 := by
      intro n k hk
      obtain ⟨k, rfl⟩ : ∃ j, k = j + 1 := ⟨k - 1, by omega⟩
      unfold ifLoop
      rw [bind_run, hround n]
    rcases error_ends (α := RC) (msg := c!"Unexpected End of File") (s := s1) with ⟨s2, h2, h3⟩ | ⟨w, s2, h2, h3⟩
    · refine ⟨1, .err s2, fun n k _ hk => (heq n k hk).trans h2, h3.fit hr.fit,
        hk0.trans (hr.keep.trans h3.mv.2.1), .inr ?_⟩
      exact h3.ended he1
    · exact ⟨1, .stop w s2, fun n k _ hk => (heq n k hk).trans h2, h3.1, fun e => absurd e h3.2⟩
  · refine ⟨1, .stop w s1, fun n k _ hk => ?_, hw.1, fun e => absurd e hw.2⟩
    obtain ⟨k, rfl⟩ : ∃ j, k = j + 1 := ⟨k - 1, by omega⟩
    show ifLoop (self n) st (k + 1) s = _
    unfold ifLoop
    have : ifRound (self n) st s = .stop w s1 := by unfold ifRound; rw [bind_run, h1]
    rw [bind_run]
    unfold catchErr
    rw [this]

theorem settles_ifLoop (st : Status) : ∀ s, Fit s → Later s →
    Settles [] (fun n k => ifLoop (asmline n) st k) s Any := by
  intro s hf
  have acc := acc_down 10 (pending s) hf.len
  generalize hp : pending s = p at acc
  induction acc generalizing s with
  | intro p _ ih =>
    subst hp
    intro hl
    have ih : ∀ s', Down (pending s') (pending s) → Fit s' →
        Settles [] (fun n k => ifLoop (asmline n) st k) s' Any := fun s' h1 h2 =>
      ih (pending s') ⟨h2.len, h1⟩ s' h2 rfl (hl.after h1.up)
    rcases linegets_read hf with ⟨s1, h1, hr⟩ | ⟨w, s1, h1, hw⟩
    · by_cases hE : s1.mainEof = true
      · have heq : ∀ n k, 1 ≤ k → ifLoop (asmline n) st k s = (error c!"Unexpected End of File" : M RC) s1 := by
          intro n k hk
          obtain ⟨k, rfl⟩ : ∃ j, k = j + 1 := ⟨k - 1, by omega⟩
          have : ifRound (asmline n) st s = .ok .eof s1 := by
            unfold ifRound
            rw [bind_run, h1]
            show (getS >>= _) s1 = _
            rw [getS_bind_run, if_pos hE]
            rfl
          unfold ifLoop
          rw [bind_run]
          unfold catchErr
          rw [this]
        rcases error_ends (α := RC) (msg := c!"Unexpected End of File") (s := s1)
          with ⟨s2, h2, h3⟩ | ⟨w, s2, h2, h3⟩
        · refine ⟨1, .err s2, fun n k _ hk => (heq n k hk).trans h2, h3.fit hr.fit, hr.keep.trans h3.mv.2.1, ?_⟩
          rcases hr.less with h | h
          · left; rw [h3.pending]; exact .inr h
          · right; exact h3.ended h.1
        · exact ⟨1, .stop w s2, fun n k _ hk => (heq n k hk).trans h2, h3.1, fun e => absurd e h3.2⟩
      · have hless : Less (pending s1) (pending s) := by
          rcases hr.less with h | h
          · exact h
          · exact absurd h.1.2.1 hE
        have hround : ∀ n, ifRound (asmline n) st s =
            (asmline n st >>= fun r => pure (Round.rc (if !st.act && r = .exitm then .cont else r))) s1 := by
          intro n
          unfold ifRound
          rw [bind_run, h1]
          show (getS >>= _) s1 = _
          rw [getS_bind_run, if_neg hE]
        obtain ⟨N, r, h2, h3⟩ := hl s1 hless.down hr.fit hr.cur st
        have h2 : ∀ n k, N ≤ n → N ≤ k → asmline n st s1 = r := h2
        have h3' := h3.from hr.keep (.inr hless)
        cases r with
        | ok rc s2 =>
          have hd : Less (pending s2) (pending s) := hless.after h3.2.2.2
          have hstep : ∀ n k, N ≤ n → N ≤ k → catchErr (ifRound (asmline n) st)
              (do bumpErr; pure (.rc .cont)) s = .ok (.rc (if !st.act && rc = .exitm then .cont else rc)) s2 := by
            intro n k hn hk
            unfold catchErr
            rw [hround n, bind_run, h2 n k hn hk]
            rfl
          generalize (if !st.act && rc = .exitm then RC.cont else rc) = rc' at hstep
          obtain ⟨N', r', h4, h5⟩ := ih s2 hd.down h3.2.1
          by_cases hc : rc' = .cont
          · subst hc
            refine ⟨max N N' + 1, r', fun n k hn hk => ?_, h5.from h3'.2.2.1 h3'.2.2.2⟩
            obtain ⟨k, rfl⟩ : ∃ j, k = j + 1 := ⟨k - 1, by omega⟩
            show ifLoop (asmline n) st (k + 1) s = r'
            unfold ifLoop
            rw [bind_run, hstep n k (by omega) (by omega)]
            exact h4 n k (by omega) (by omega)
          · refine ⟨N + 1, .ok rc' s2, fun n k hn hk => ?_, trivial, h3'.2⟩
            obtain ⟨k, rfl⟩ : ∃ j, k = j + 1 := ⟨k - 1, by omega⟩
            show ifLoop (asmline n) st (k + 1) s = _
            unfold ifLoop
            rw [bind_run, hstep n k (by omega) (by omega)]
            cases rc' <;> first | exact absurd rfl hc | rfl
        | err s2 =>
          have hstep : ∀ n k, N ≤ n → N ≤ k → catchErr (ifRound (asmline n) st)
              (do bumpErr; pure (.rc .cont)) s = .ok (.rc .cont) { s2 with errnumber := s2.errnumber + 1 } := by
            intro n k hn hk
            unfold catchErr
            rw [hround n, bind_run, h2 n k hn hk]
            rfl
          have hsti : Unread s2 { s2 with errnumber := s2.errnumber + 1 } := ⟨rfl, rfl, rfl⟩
          generalize { s2 with errnumber := s2.errnumber + 1 } = s3 at hstep hsti
          have hgo : ∃ N r, (∀ n k, N ≤ n → N ≤ k → ifLoop (asmline n) st k s3 = r) ∧ Post [] s Any r := by
            rcases h3.2.2 with h | h
            · have hd : Less (pending s3) (pending s) := by rw [hsti.pending]; exact hless.after h
              obtain ⟨N', r', h4, h5⟩ := ih s3 hd.down (hsti.fit h3.1)
              exact ⟨N', r', h4, h5.from (h3'.2.1.trans hsti.mv.2.1) (.inr hd)⟩
            · exact ifLoop_ended (self := asmline) (h3'.2.1.trans hsti.mv.2.1) (hsti.fit h3.1) (hsti.ended h) st
          obtain ⟨N', r', h4, h5⟩ := hgo
          refine ⟨max N N' + 1, r', fun n k hn hk => ?_, h5⟩
          obtain ⟨k, rfl⟩ : ∃ j, k = j + 1 := ⟨k - 1, by omega⟩
          show ifLoop (asmline n) st (k + 1) s = r'
          unfold ifLoop
          rw [bind_run, hstep n k (by omega) (by omega)]
          exact h4 n k (by omega) (by omega)
        | stop w s2 =>
          refine ⟨N + 1, .stop w s2, fun n k hn hk => ?_, h3'⟩
          obtain ⟨k, rfl⟩ : ∃ j, k = j + 1 := ⟨k - 1, by omega⟩
          show ifLoop (asmline n) st (k + 1) s = _
          unfold ifLoop
          rw [bind_run]
          unfold catchErr
          rw [hround n, bind_run, h2 n k (by omega) (by omega)]
    · refine ⟨1, .stop w s1, fun n k _ hk => ?_, hw.1, fun e => absurd e hw.2⟩
      obtain ⟨k, rfl⟩ : ∃ j, k = j + 1 := ⟨k - 1, by omega⟩
      show ifLoop (asmline n) st (k + 1) s = _
      unfold ifLoop
      have : ifRound (asmline n) st s = .stop w s1 := by unfold ifRound; rw [bind_run, h1]
      rw [bind_run]
      unfold catchErr
      rw [this]

/-! ### More ways to put parts together -/

theorem Settles.getS {t : Str} {f : Nat → Nat → St → M β} {s : St} {R : β → Prop}
    (h : Settles t (fun n k => f n k s) s R) : Settles t (fun n k => Crasm.getS >>= f n k) s R := h

theorem Settles.shift {t : Str} {m : Nat → Nat → M α} {s : St} {Q : α → Prop}
    (h : Settles t (fun n k => m n (k + 1)) s Q) : Settles t m s Q := by
  obtain ⟨N, r, h1, h2⟩ := h
  refine ⟨N + 1, r, fun n k hn hk => ?_, h2⟩
  obtain ⟨k, rfl⟩ : ∃ j, k = j + 1 := ⟨k - 1, by omega⟩
  exact h1 n k (by omega) (by omega)

/-- First something that does not touch the source files. -/
theorem Settles.still {t : Str} {m : M α} {f : Nat → Nat → α → M β} {s : St} {Q : α → Prop} {R : β → Prop}
    [W HStep m] (hc : Calm t m Q) (hs : Fit s)
    (hf : ∀ a s', Q a → Unread s s' → Settles t (fun n k => f n k a) s' R) :
    Settles t (fun n k => m >>= f n k) s R := by
  have h := hc s
  have h1 := fun a s' (h : m s = .ok a s') => still_ok h
  have h2 := fun s' (h : m s = .err s') => still_err h
  cases e : m s with
  | ok a s' =>
    rw [e] at h
    have hst := h1 a s' e
    obtain ⟨N, r, h3, h4⟩ := hf a s' h hst
    refine ⟨N, r, fun n k hn hk => ?_, h4.from hst.mv.2.1 hst.mv.2.2⟩
    show (m >>= f n k) s = r
    rw [bind_run, e]
    exact h3 n k hn hk
  | err s' =>
    have hst := h2 s' e
    refine ⟨0, .err s', fun n k hn hk => ?_, hst.fit hs, hst.mv.2.1, .inl hst.mv.2.2⟩
    show (m >>= f n k) s = _
    rw [bind_run, e]
  | stop w s' =>
    rw [e] at h
    refine ⟨0, .stop w s', fun n k hn hk => ?_, h.1, fun e => .inl (h.2 e)⟩
    show (m >>= f n k) s = _
    rw [bind_run, e]

/-- First a line is read. -/
theorem Settles.read {t : Str} {f : Nat → Nat → Unit → M β} {s : St} {R : β → Prop} (hs : Fit s)
    (hf : ∀ s1, Read s s1 → ∃ N r, (∀ n k, N ≤ n → N ≤ k → f n k () s1 = r) ∧ Post t s R r) :
    Settles t (fun n k => linegets >>= f n k) s R := by
  rcases linegets_read hs with ⟨s1, h1, hr⟩ | ⟨w, s1, h1, hw⟩
  · obtain ⟨N, r, h2, h3⟩ := hf s1 hr
    refine ⟨N, r, fun n k hn hk => ?_, h3⟩
    show (linegets >>= f n k) s = r
    rw [bind_run, h1]
    exact h2 n k hn hk
  · refine ⟨0, .stop w s1, fun n k hn hk => ?_, hw.1, fun e => absurd e hw.2⟩
    show (linegets >>= f n k) s = _
    rw [bind_run, h1]

/-- After a line that was there. -/
theorem Settles.went {t : Str} {m : Nat → Nat → M α} {s s1 : St} {R : α → Prop} (hr : Read s s1)
    (hl : Less (pending s1) (pending s)) (h : Settles t m s1 R) :
    ∃ N r, (∀ n k, N ≤ n → N ≤ k → m n k s1 = r) ∧ Post t s R r := by
  obtain ⟨N, r, h1, h2⟩ := h
  exact ⟨N, r, h1, h2.from hr.keep (.inr hl)⟩

/-- The error at the end of the source. -/
theorem Settles.eof {t msg : Str} {s s1 : St} {R : α → Prop} (hr : Read s s1) :
    ∃ N r, (∀ n k : Nat, N ≤ n → N ≤ k → (error msg : M α) s1 = r) ∧ Post t s R r := by
  rcases error_ends (α := α) (msg := msg) (s := s1) with ⟨s2, h2, h3⟩ | ⟨w, s2, h2, h3⟩
  · refine ⟨0, .err s2, fun n k _ hk => h2, h3.fit hr.fit, hr.keep.trans h3.mv.2.1, ?_⟩
    rcases hr.less with h | h
    · left; rw [h3.pending]; exact .inr h
    · right; exact h3.ended h.1
  · exact ⟨0, .stop w s2, fun n k _ hk => h2, h3.1, fun e => absurd e h3.2⟩

theorem Settles.mono {t : Str} {m : Nat → Nat → M α} {s : St} (h : Settles [] m s Any) : Settles t m s Any :=
  h.weaken sub_nil fun _ h => h

/-! ### Macro definitions -/

theorem settles_macroLoop (st : Status) : ∀ s, Fit s → ∀ acc,
    Settles [] (fun _ k => macroLoop st k acc) s Any := by
  intro s hf
  have wf := acc_down 10 (pending s) hf.len
  generalize hp : pending s = p at wf
  induction wf generalizing s with
  | intro p _ ih =>
    subst hp
    intro acc
    refine Settles.shift ?_
    simp only [macroLoop]
    refine Settles.still (Q := Any) Tame.calm hf fun _ s0 _ hs0 => ?_
    refine Settles.read (hs0.fit hf) fun s1 hr => ?_
    by_cases hE : s1.mainEof = true
    · have := Settles.eof (α := List Str × Str × Str) (t := []) (msg := c!"Unexpected End of File") (R := Any) hr
      obtain ⟨N, r, h1, h2⟩ := this
      refine ⟨N, r, fun n k hn hk => ?_, h2⟩
      show (getS >>= _) s1 = _
      rw [getS_bind_run, if_pos hE]
      exact h1 n k hn hk
    · have hless : Less (pending s1) (pending s0) := by
        rcases hr.less with h | h
        · exact h
        · exact absurd h.1.2.1 hE
      refine Settles.went hr hless ?_
      refine Settles.getS ?_
      simp only [if_neg hE]
      haveI : W NStep (do
          match ← filter2 s1.curline c!"?_;?" with
          | some (s1, _) => pure s1
          | none => pure s1.curline : M Str) := ⟨by walk⟩
      refine Settles.still (Q := Any) ?_ hr.fit fun l s2 _ h2 => ?_
      · exact Tame.calm (h := by tame)
      · refine Settles.still (Q := Any) (Calm.whenM Tame.calm) (h2.fit hr.fit) fun _ s3 _ h3 => ?_
        refine Settles.still (Q := Any) Tame.calm (h3.fit (h2.fit hr.fit)) fun x s4 _ h4 => ?_
        have hf4 := h4.fit (h3.fit (h2.fit hr.fit))
        rcases x with _ | ⟨a, b⟩
        · have e : pending s4 = pending s1 := by rw [h4.pending, h3.pending, h2.pending]
          refine ih (pending s4) ⟨hf4.len, ?_⟩ s4 hf4 rfl _
          rw [e, ← hs0.pending]
          exact hless.down
        · exact settles_pure hf4 trivial

instance : Tame startLine := by unfold startLine; tame
instance (st : Status) : Tame (ifList st) := by unfold ifList; tame
instance (st : Status) (b : Bool) : Tame (markSkipped st b) := by unfold markSkipped; tame
instance (k : Str) (ls : List Str) : Tame (setLines k ls) := by unfold setLines; tame
instance (o : Option Str) : Tame (xElse o) := by unfold xElse; tame
instance (o : Option Str) : Tame (xEndc o) := by unfold xEndc; tame
instance (m : Str) (r : RC) (st : Status) (o : Option Str) : Tame (macroEnd m r st o) := by unfold macroEnd; tame
instance (st : Status) (o : Option Str) : Tame (xExitm st o) := by unfold xExitm; tame
instance (st : Status) (o : Option Str) : Tame (xEndm st o) := by unfold xEndm; tame
instance : Tame checkDepth := by unfold checkDepth; tame
instance (o : Option Str) : Tame (xInclude o) := by unfold xInclude; tame
instance (l : Str) : Tame (herelabel l) := by unfold herelabel; tame
instance (k : Str) : Tame (markUsed k) := Tame.modS _
instance (m : Str) : Tame (findmnemo m) := by unfold findmnemo; tame

theorem tame_macroArgs (n : Nat) : ∀ acc o, o.length < n → Tame (macroArgs n acc o) := by
  induction n with
  | zero => intro _ _ h; omega
  | succ n ih =>
    intro acc o hn
    unfold macroArgs
    split
    · exact Tame.pure _
    · split
      · infer_instance
      · refine ⟨Calm.bind (calm_filter2 _ _) fun r hr => ?_⟩
        rcases r with _ | ⟨a, b⟩
        · exact Calm.pure trivial
        · have := (hr a b rfl).2 (by decide)
          exact (ih _ _ (by omega)).run

theorem settles_xMacro {s : St} (hf : Fit s) (st : Status) (l o : Option Str) :
    Settles [] (fun _ k => xMacro k st l o) s Any := by
  unfold xMacro
  cases l with
  | none => exact settles_const (m := ubM .nullLabel) Tame.calm hf
  | some label =>
    refine Settles.getS ?_
    by_cases h1 : o.isSome = true
    · simp only [if_pos h1]; exact settles_error hf
    · simp only [if_neg h1]
      by_cases h2 : s.macrolevel ≠ 0
      · simp only [if_pos h2]; exact settles_error hf
      · simp only [if_neg h2]
        refine Settles.first (Q := Any) (Calm.whenM Tame.calm) hf fun _ s1 _ f1 _ => ?_
        haveI : B Mv (if st.act = true then do
            let k ← deflabel (label.take LABLEN) {} .macro 0
            pure (some k)
          else pure none : M (Option Str)) := by big
        refine Settles.first (Q := Any) (Tame.calm (h := by tame)) f1 fun key s2 _ f2 _ => ?_
        refine Settles.bind (settles_macroLoop st s2 f2 []) fun x s3 _ f3 _ => ?_
        obtain ⟨lines, a, b⟩ := x
        simp only
        by_cases h3 : a ≠ [] ∨ b ≠ []
        · simp only [if_pos h3]; exact settles_error f3
        · simp only [if_neg h3]
          exact settles_const (hb := by big) (Tame.calm (h := by tame)) f3

/-! ### Conditionals -/

theorem settles_ifElse {s : St} (hf : Fit s) (hl : Later s) (st : Status) (b : Bool) (o : Option Char) :
    Settles [] (fun n k => ifElse (asmline n) k st b o) s Any := by
  unfold ifElse
  refine Settles.getS ?_
  refine Settles.first (Q := Any) Tame.calm hf fun _ s1 _ f1 a1 => ?_
  refine Settles.bind (settles_ifLoop _ s1 f1 (hl.after a1)) fun r s2 _ f2 _ => ?_
  haveI : B Mv (do
      modS fun s => { s with lineprefix := o }
      if r = .endm ∨ r = .else_ then error c!"ELSE or ENDM illegal here"
      else do
        ifList st
        pure (if r = .exitm then .exitm else .cont) : M RC) := by
    refine B.bind (big_prefix _) fun _ => ?_
    big
  exact settles_const (Tame.calm (h := by tame)) f2

theorem settles_xIf {t : Str} {s : St} (hf : Fit s) (hl : Later s) (st : Status) (o : Option Str)
    (ho : Sub (orEmpty o) t) : Settles t (fun n k => xIf (asmline n) k st o) s Any := by
  unfold xIf
  haveI : B Mv (if st.act = true then testtrue o else pure false) := by big
  refine Settles.first (Q := Any) ?_ hf fun taken s1 _ f1 a1 => ?_
  · split
    · exact calm_testtrue o ho
    · exact Calm.pure trivial
  · refine Settles.mono ?_
    refine Settles.getS ?_
    refine Settles.first (Q := Any) Tame.calm f1 fun _ s2 _ f2 a2 => ?_
    refine Settles.getS ?_
    refine Settles.first (Q := Any) Tame.calm f2 fun _ s3 _ f3 a3 => ?_
    have l3 := hl.after (a1.trans (a2.trans a3))
    refine Settles.bind (settles_ifLoop _ s3 f3 l3) fun r s4 _ f4 a4 => ?_
    haveI : B Mv (modS fun s => { s with lineprefix := s2.lineprefix }) := big_prefix _
    refine Settles.first (Q := Any) Calm.modS f4 fun _ s5 _ f5 a5 => ?_
    by_cases h1 : r = .endm
    · simp only [if_pos h1]; exact settles_error f5
    · simp only [if_neg h1]
      refine Settles.first (Q := Any) Tame.calm f5 fun _ s6 _ f6 a6 => ?_
      have l6 := l3.after (a4.trans (a5.trans a6))
      cases r with
      | endc => exact settles_pure f6 trivial
      | exitm => exact settles_pure f6 trivial
      | _ => exact settles_ifElse f6 l6 _ _ _

end Crasm

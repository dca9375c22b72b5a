import Verif.Proof.Lay
import Verif.Proof.Skip

/-!
Between the lines of the source the line buffer holds no more than the left margin. The listing of a line therefore
never runs into the right margin, and only two of the calls of fatal() are ever reached.
-/

namespace Crasm

/-- No more than the margin is in the line buffer. -/
def Thin (l : Lst) : Prop := l.lpos ≤ NMARGIN ∧ l.line.length = l.lpos ∧ 39 ≤ l.llen

/-- The messages with which fatal() ends a pass. -/
def dire : List Str := [c!"too many nested INCLUDEs and MACROs", c!"can't open scode file"]

/-- A way of stopping that is no other fatal error. -/
def Mild : Stop → Prop
  | .fatal m => m ∈ dire
  | _ => True

theorem mild_of {v : Stop} (h : ∀ m, v ≠ .fatal m) : Mild v := by
  cases v with
  | fatal m => exact absurd rfl (h m)
  | _ => trivial

def Slims (r : Res α) : Prop :=
  match r with
  | .ok _ s => Thin s.lst
  | .err s => Thin s.lst
  | .stop w _ => Mild w

class Slim (m : M α) : Prop where
  run : ∀ s, Thin s.lst → Slims (m s)

theorem Slim.bindAt {m : M α} {f : α → M β} {s : St} (hm : Slims (m s))
    (hf : ∀ a s1, m s = .ok a s1 → Thin s1.lst → Slims (f a s1)) : Slims ((m >>= f) s) := by
  rw [bind_run]
  revert hm hf
  cases m s with
  | ok a s1 => intro hm hf; exact hf a s1 rfl hm
  | err s1 => intro hm _; exact hm
  | stop w1 s1 => intro hm _; exact hm
theorem Slim.bind {m : M α} {f : α → M β} (hm : Slim m) (hf : ∀ a, Slim (f a)) : Slim (m >>= f) :=
  ⟨fun s h => Slim.bindAt (hm.run s h) fun a s1 _ h1 => (hf a).run s1 h1⟩
theorem Slim.pure (a : α) : Slim (Pure.pure a : M α) := ⟨fun _ h => h⟩
theorem Slim.getS : Slim Crasm.getS := ⟨fun _ h => h⟩
theorem Slim.modS {g : St → St} (h : ∀ s, Thin s.lst → Thin (g s).lst) : Slim (Crasm.modS g) := ⟨fun s => h s⟩
theorem Slim.same {g : St → St} (h : ∀ s, (g s).lst = s.lst) : Slim (Crasm.modS g) := .modS fun s => by rw [h]; exact id
theorem Slim.whenM {c : Prop} [Decidable c] {a : M Unit} (ha : Slim a) : Slim (whenM c a) := by
  unfold Crasm.whenM; split
  · exact ha
  · exact Slim.pure _
theorem Slim.catchErr {m h : M α} (hm : Slim m) (hh : Slim h) : Slim (catchErr m h) := by
  constructor
  intro s h0
  have h1 := hm.run s h0
  unfold Crasm.catchErr
  revert h1
  cases m s with
  | ok a s1 => exact id
  | err s1 => exact fun h1 => hh.run s1 h1
  | stop w1 s1 => exact id

macro "slim" : tactic => `(tactic| repeat' (first
  | infer_instance
  | exact Slim.pure _
  | exact Slim.getS
  | exact Slim.same fun _ => rfl
  | with_reducible refine Slim.bind ?_ (fun _ => ?_)
  | with_reducible refine Slim.whenM ?_
  | dsimp only
  | split))

instance (u : UB) : Slim (ubM u : M α) := ⟨fun _ _ => trivial⟩
theorem slim_ub {u : UB} (_ : u ≠ .lineBuffer) : Slim (ubM u : M α) := inferInstance
instance : Slim (fatal c!"too many nested INCLUDEs and MACROs" : M α) := ⟨fun _ _ => by show _ ∈ dire; decide⟩
instance : Slim (fatal c!"can't open scode file" : M α) := ⟨fun _ _ => by show _ ∈ dire; decide⟩
instance : Slim (stopWith .fuel : M α) := ⟨fun _ _ => trivial⟩
instance : Slim (stopWith .hang : M α) := ⟨fun _ _ => trivial⟩
instance : Slim (throwErr : M α) := ⟨fun _ h => h⟩
instance (f : Flags → Flags) : Slim (modFlags f) := Slim.same fun _ => rfl
instance (f : Code → Code) : Slim (modCode f) := Slim.same fun _ => rfl
instance : Slim zerobuffer := Slim.same fun _ => rfl

/-! ### filter.c, output.c, error() -/

instance (s pat : Str) : Slim (filterC s pat) := by unfold filterC; slim
instance (s pat : Str) : Slim (filter0 s pat) := by unfold filter0; slim
instance (s pat : Str) : Slim (filter1 s pat) := by unfold filter1; slim
instance (s pat : Str) : Slim (filter2 s pat) := by unfold filter2; slim

theorem printed_line (t : Str) (l : Lst) : (printed t l).lpos = l.lpos ∧ (printed t l).line = l.line ∧ (printed t l).llen = l.llen := by
  unfold printed
  dsimp only
  split <;> split <;> exact ⟨rfl, rfl, rfl⟩
instance (t : Str) : Slim (outputraw t) := by
  unfold outputraw
  refine .bind .getS fun s => ?_
  split
  · refine .modS fun s h => ?_
    obtain ⟨e1, e2, e3⟩ := printed_line t s.lst
    show Thin (printed t s.lst)
    unfold Thin
    rw [e1, e2, e3]
    exact h
  · exact .pure _

/-- Whatever is in the line buffer, it is empty afterwards. -/
theorem eol_ok (s : St) : ∃ s', outputEOL s = .ok () s' ∧ s'.lst.lpos = 0 ∧ s'.lst.line = [] ∧ s'.lst.llen = s.lst.llen := by
  have h1 : ∃ s1, outputraw s.lst.line.reverse s = .ok () s1 ∧ s1.lst.llen = s.lst.llen := by
    unfold outputraw
    rw [getS_bind_run]
    by_cases h : s.flags.listOn = true
    · rw [if_pos h]
      exact ⟨_, rfl, (printed_line _ _).2.2⟩
    · rw [if_neg h]
      exact ⟨_, rfl, rfl⟩
  obtain ⟨s1, h1, e1⟩ := h1
  unfold outputEOL
  rw [getS_bind_run, bind_run, h1]
  exact ⟨_, rfl, rfl, rfl, e1⟩
theorem eol_thin {s s' : St} (hl : 39 ≤ s.lst.llen) (h : outputEOL s = .ok () s') : Thin s'.lst := by
  obtain ⟨s1, h1, e1, e2, e3⟩ := eol_ok s
  rw [h1] at h
  cases h
  exact ⟨by rw [e1]; exact Nat.zero_le _, by rw [e1, e2]; rfl, by rw [e3]; exact hl⟩
instance : Slim outputEOL := ⟨fun s h => by
  obtain ⟨s1, h1, -⟩ := eol_ok s
  rw [h1]
  exact eol_thin h.2.2 h1⟩
instance slim_eolLoop (n : Nat) : Slim (eolLoop n) := by
  induction n with
  | zero => exact Slim.pure _
  | succ n ih => unfold eolLoop; slim
instance : Slim eject := .modS fun _ h => h
instance : Slim outputEOP := by unfold outputEOP; slim

/-- The line buffer has room for what is put in the margin. -/
def Fits (l : Lst) : Prop := l.line.length = l.lpos ∧ 39 ≤ l.llen

theorem space_fits {s : St} (h : Fits s.lst) (hp : s.lst.lpos < 39) :
    ∃ s', putSpace s = .ok () s' ∧ s'.lst = { s.lst with line := ' ' :: s.lst.line, lpos := s.lst.lpos + 1 } := by
  obtain ⟨h1, h2⟩ := h
  unfold putSpace
  rw [getS_bind_run, if_pos (by omega)]
  unfold putRaw
  rw [getS_bind_run, if_neg (by omega)]
  exact ⟨_, rfl, rfl⟩
theorem car_fits {c : Char} {s : St} (h : Fits s.lst) (hp : s.lst.lpos < 39) (hc : isspace c = false ∧ isprint c = true ∨ c = ' ') :
    ∃ s', outputcar c s = .ok () s' ∧ s'.lst = { s.lst with line := c :: s.lst.line, lpos := s.lst.lpos + 1 } := by
  have h0 := h
  obtain ⟨h1, h2⟩ := h
  rcases hc with ⟨c1, c2⟩ | rfl
  · unfold outputcar
    rw [if_pos (by rw [c1]; rfl)]
    have e1 : ¬ s.lst.llen ≤ s.lst.lpos := by omega
    have e2 : (isprint c || !isascii c) = true := by rw [c2]; rfl
    rw [getS_bind_run, bind_run]
    unfold whenM
    rw [if_neg e1, if_pos e2]
    show ∃ s', putRaw c s = .ok () s' ∧ _
    unfold putRaw
    rw [getS_bind_run, if_neg (by omega)]
    exact ⟨_, rfl, rfl⟩
  · unfold outputcar
    exact space_fits h0 hp
/-- The text appears as it is. -/
theorem output_fits (t : Str) : ∀ {s : St}, Fits s.lst → s.lst.lpos + t.length ≤ 39 → (∀ c ∈ t, isspace c = false ∧ isprint c = true ∨ c = ' ') →
    ∃ s', output t s = .ok () s' ∧ s'.lst = { s.lst with line := t.reverse ++ s.lst.line, lpos := s.lst.lpos + t.length } := by
  induction t with
  | nil => intro s _ _ _; exact ⟨s, rfl, rfl⟩
  | cons c t ih =>
    intro s h hl hc
    rw [List.length_cons] at hl
    obtain ⟨s1, h1, e1⟩ := car_fits h (by omega) (hc c (.head _))
    obtain ⟨s2, h2, e2⟩ := ih (s := s1) (by rw [e1]; exact ⟨congrArg (· + 1) h.1, h.2⟩) (by rw [e1]; show s.lst.lpos + 1 + t.length ≤ 39; omega) fun x hx => hc x (.tail _ hx)
    refine ⟨s2, ?_, ?_⟩
    · unfold output
      rw [bind_run, h1]
      exact h2
    · rw [e2, e1]
      simp only [List.reverse_cons, List.append_assoc, List.singleton_append, List.length_cons]
      congr 1
      omega

theorem hexDigit_shown (n : Nat) : isspace (hexDigit n) = false ∧ isprint (hexDigit n) = true := by
  have : ∀ k : Fin 16, isspace (hexDigit k.val) = false ∧ isprint (hexDigit k.val) = true := by decide
  have h := this ⟨n % 16, by omega⟩
  have e : hexDigit (n % 16) = hexDigit n := by unfold hexDigit; simp
  rw [← e]
  exact h
theorem hexField_length (n a : Nat) : (hexField n a).length = n := by
  induction n with
  | zero => rfl
  | succ n ih => simp [hexField, ih]
theorem hexField_shown (n a : Nat) : ∀ c ∈ hexField n a, isspace c = false ∧ isprint c = true := by
  induction n with
  | zero => intro c h; cases h
  | succ n ih =>
    intro c h
    unfold hexField at h
    rcases List.mem_cons.1 h with rfl | h
    · exact hexDigit_shown _
    · exact ih c h
theorem addrDigits_le (f : Flags) : addrDigits f ≤ 8 := by unfold addrDigits; split <;> (try split) <;> omega
theorem addr_fits {a : Word} {s : St} (h : Fits s.lst) (hp : s.lst.lpos ≤ 30) :
    ∃ s', outputaddr a s = .ok () s' ∧
      s'.lst = { s.lst with line := (hexField (addrDigits s.flags) a.toNat ++ c!" ").reverse ++ s.lst.line, lpos := s.lst.lpos + (addrDigits s.flags + 1) } := by
  have := addrDigits_le s.flags
  obtain ⟨s', h1, h2⟩ := output_fits (hexField (addrDigits s.flags) a.toNat ++ c!" ") (s := s) h (by simp [hexField_length]; omega) (by
    intro c hc
    rcases List.mem_append.1 hc with hc | hc
    · exact .inl (hexField_shown _ _ c hc)
    · exact .inr (by simpa using hc))
  refine ⟨s', h1, ?_⟩
  rw [h2]
  simp [hexField_length]

instance (b : Byte) : Slim (outputbyte b) := ⟨fun s h => by
  have fits : ∀ {l : Lst}, Thin l → Fits l := fun h => h.2
  have low : ∀ {s : St}, Thin s.lst → s.lst.lpos ≤ 18 → ∀ w, Slims ((do
      output (hexField 2 b.toNat)
      modLst fun l => { l with mypc := w }) s) := by
    intro s h hl w
    obtain ⟨s1, h1, e1⟩ := output_fits (hexField 2 b.toNat) (s := s) (fits h) (by simp [hexField_length]; omega) fun c hc => .inl (hexField_shown _ _ c hc)
    rw [bind_run, h1]
    show Thin { s1.lst with mypc := w }
    rw [e1]
    refine ⟨?_, ?_, h.2.2⟩
    · show s.lst.lpos + _ ≤ 21
      rw [hexField_length]
      omega
    · show (_ ++ s.lst.line).length = s.lst.lpos + _
      rw [List.length_append, List.length_reverse, h.2.1, Nat.add_comm]
  unfold outputbyte
  rw [getS_bind_run]
  split
  · unfold whenM
    split
    · rename_i hl
      obtain ⟨s1, h1, e1⟩ := output_fits c!"..." (s := s) (fits h) (by show s.lst.lpos + 3 ≤ 39; have : s.lst.lpos ≤ 21 - 3 := hl; omega) (by decide)
      rw [h1]
      show Thin s1.lst
      rw [e1]
      refine ⟨?_, ?_, h.2.2⟩
      · show s.lst.lpos + 3 ≤ 21
        have : s.lst.lpos ≤ 21 - 3 := hl
        omega
      · show (_ ++ s.lst.line).length = s.lst.lpos + 3
        rw [List.length_append, List.length_reverse, h.2.1, Nat.add_comm]
        rfl
    · exact h
  · refine Slim.bindAt ((Slim.whenM inferInstance).run s h) fun _ s1 h1 t1 => ?_
    have l1 : s1.lst.lpos ≤ 18 := by
      unfold whenM at h1
      split at h1
      · rw [(eol_pos h1).1]; omega
      · rename_i hn
        cases h1
        have : ¬ 21 - 3 < s.lst.lpos := hn
        omega
    rw [getS_bind_run]
    refine Slim.bindAt ((Slim.whenM inferInstance).run s1 t1) fun _ s2 h2 t2 => ?_
    have l2 : s2.lst.lpos ≤ 18 := by
      unfold whenM at h2
      split at h2
      · rw [(eol_pos h2).1]; omega
      · cases h2; exact l1
    rw [getS_bind_run]
    unfold whenM
    split
    · rename_i h0
      obtain ⟨s3, h3, e3⟩ := addr_fits (a := s2.code.pc) (s := s2) (fits t2) (by omega)
      rw [bind_run, h3]
      have := addrDigits_le s2.flags
      refine low ?_ ?_ _
      · rw [e3]
        refine ⟨?_, ?_, t2.2.2⟩
        · show s2.lst.lpos + _ ≤ 21
          omega
        · show (_ ++ s2.lst.line).length = s2.lst.lpos + _
          rw [List.length_append, List.length_reverse, t2.2.1, List.length_append, hexField_length, Nat.add_comm]
          rfl
      · rw [e3]
        show s2.lst.lpos + _ ≤ 18
        omega
    · exact low t2 l2 _⟩

instance (v : Word) : Slim (echoAddr v) := ⟨fun s h => by
  unfold echoAddr
  rw [getS_bind_run]
  split
  · rename_i hc
    have hl := h.2.2
    have ep : position 2 s = putSpaces 2 s := by
      unfold position
      rw [getS_bind_run, if_neg (by omega), hc.2]
    rw [bind_run, ep]
    obtain ⟨s1, h1, e1⟩ := space_fits (s := s) h.2 (by omega)
    obtain ⟨s2, h2, e2⟩ := space_fits (s := s1) (by rw [e1]; exact ⟨congrArg (· + 1) h.2.1, h.2.2⟩) (by rw [e1]; show s.lst.lpos + 1 < 39; omega)
    have e12 : putSpaces 2 s = .ok () s2 := by
      show (putSpace >>= fun _ => putSpace >>= fun _ => pure ()) s = _
      rw [bind_run, h1]
      show (putSpace >>= fun _ => pure ()) s1 = _
      rw [bind_run, h2]
      rfl
    rw [e12]
    have f2 : Fits s2.lst := by rw [e2, e1]; exact ⟨congrArg (· + 1 + 1) h.2.1, h.2.2⟩
    have p2 : s2.lst.lpos = 2 := by rw [e2, e1]; show s.lst.lpos + 1 + 1 = 2; omega
    obtain ⟨s3, h3, e3⟩ := addr_fits (a := v) (s := s2) f2 (by omega)
    show Slims (outputaddr v s2)
    rw [h3]
    have := addrDigits_le s2.flags
    show Thin s3.lst
    rw [e3]
    refine ⟨?_, ?_, f2.2⟩
    · show s2.lst.lpos + _ ≤ 21
      omega
    · show (_ ++ s2.lst.line).length = s2.lst.lpos + _
      rw [List.length_append, List.length_reverse, f2.1, List.length_append, hexField_length, Nat.add_comm]
      rfl
  · exact h⟩

theorem wide_step {n : Nat} {a b : Lst} (h : LStep n a b) (ha : 39 ≤ a.llen) : 39 ≤ b.llen := by
  cases h with
  | print s hs => rw [(printed_line _ _).2.2]; exact ha
  | page p w f hp h1 h2 => exact h1
  | _ => exact ha
theorem wide_star {n : Nat} {a b : Lst} (h : LStar n a b) (ha : 39 ≤ a.llen) : 39 ≤ b.llen := by
  induction h with
  | refl => exact ha
  | tail _ r ih => exact wide_step r ih

/-! ### What is looked up -/

theorem usable_kind {k key : Str} {l lab : Label} (h : usable k l = some (key, lab)) : lab.type = .mnemo ∨ lab.type = .macro := by
  unfold usable at h
  split at h
  · rename_i hc
    cases h
    simp only [Bool.and_eq_true, Bool.or_eq_true, decide_eq_true_eq] at hc
    exact hc.2
  · cases h
theorem findmnemo_kind {n : Str} {s s' : St} {key : Str} {lab : Label} (h : findmnemo n s = .ok (some (key, lab)) s') :
    lab.type = .mnemo ∨ lab.type = .macro := by
  unfold findmnemo at h
  rw [getS_bind_run] at h
  cases h1 : searchlabel s n with
  | some l =>
    rw [h1] at h
    dsimp only at h
    injection h with h2 h3
    exact usable_kind h2
  | none =>
    rw [h1] at h
    dsimp only at h
    obtain ⟨r, s1, h2, h3⟩ := bind_ok h
    cases r with
    | none => cases h3
    | some r =>
      obtain ⟨a, b⟩ := r
      dsimp only at h3
      cases h4 : searchlabel s a with
      | none => rw [h4] at h3; cases h3
      | some l =>
        rw [h4] at h3
        dsimp only at h3
        split at h3
        · obtain ⟨_, s2, h5, h6⟩ := bind_ok h3
          injection h6 with h7 h8
          exact usable_kind h7
        · cases h3
theorem splitMnemo_kind {l : Option Str} {t : Str} {s s' : St} {f : Fields} (h : splitMnemo l t s = .ok f s') :
    ∀ key lab, f.entry = some (key, lab) → lab.type = .mnemo ∨ lab.type = .macro := by
  unfold splitMnemo at h
  obtain ⟨r, s1, h1, h2⟩ := bind_ok h
  revert h2
  split
  all_goals
    intro h2
    obtain ⟨e, s2, h3, h4⟩ := bind_ok h2
    cases h4
    intro key lab he
    dsimp only at he
    subst he
    exact findmnemo_kind h3
theorem splitLine_kind {t : Str} {s s' : St} {f : Fields} (h : splitLine t s = .ok f s') :
    ∀ key lab, f.entry = some (key, lab) → lab.type = .mnemo ∨ lab.type = .macro := by
  rw [splitLine_eq] at h
  obtain ⟨eq, s1, h1, h2⟩ := bind_ok h
  have p1 : ∀ {l o}, splitEqu l o s1 = .ok f s' → ∀ key lab, f.entry = some (key, lab) → lab.type = .mnemo ∨ lab.type = .macro := by
    intro l o h2
    obtain ⟨e, s2, h3, h4⟩ := bind_ok h2
    revert h4
    split
    · intro h4; exact absurd h4 (error_not_ok)
    · intro h4
      cases h4
      intro key lab he
      dsimp only at he
      subst he
      exact findmnemo_kind h3
  have p2 : splitRest t s1 = .ok f s' → ∀ key lab, f.entry = some (key, lab) → lab.type = .mnemo ∨ lab.type = .macro := by
    intro h2
    obtain ⟨f1, s2, h3, h4⟩ := bind_ok h2
    have base := splitMnemo_kind h3
    revert h4
    cases ho : f1.oper with
    | none => intro h4; cases h4; exact base
    | some o =>
      cases he : f1.entry with
      | some e => intro h4; cases h4; rw [he] at base ⊢; exact base
      | none =>
        dsimp only
        split
        · intro h4; exact absurd h4 (error_not_ok)
        · intro h4
          exact splitMnemo_kind h4
  revert h2
  cases eq with
  | none => exact p2
  | some p =>
    obtain ⟨l, o⟩ := p
    dsimp only
    split
    · exact p1
    · exact p2

/-! ### A line of the listing -/

theorem filterWild_consumed (n : Nat) : ∀ (segs : List Str) (q : Quote) (t : Str), (filterWild n segs q t).consumed ≤ n := by
  intro segs
  induction segs with
  | nil => intro q t; exact Nat.zero_le _
  | cons seg segs ih =>
    intro q t
    unfold filterWild
    split
    · exact Nat.zero_le _
    · exact Nat.sub_le _ _
    · rename_i seg' segs' heq
      injection heq with e1 e2
      subst e1 e2
      split
      · exact Nat.sub_le _ _
      · dsimp only
        split
        · exact Nat.sub_le _ _
        · exact ih _ _
theorem filter_consumed (t p : Str) : (filter t p).consumed ≤ t.length := by
  unfold filter
  split
  split
  · exact Nat.zero_le _
  · exact filterWild_consumed _ _ _ _
theorem filterC_consumed {t p : Str} {s s' : St} {c : List Str} {k : Nat} (h : filterC t p s = .ok (some (c, k)) s') : k ≤ t.length := by
  unfold filterC at h
  rw [getS_bind_run] at h
  split at h
  · cases h
  · split at h
    · cases h; exact filter_consumed _ _
    · cases h
theorem filterC_stop {t p : Str} {s s' : St} {w : Stop} (h : filterC t p s = .stop w s') : w = .ub .filterBuffer := by
  unfold filterC at h
  rw [getS_bind_run] at h
  split at h
  · cases h; rfl
  · split at h <;> cases h

/-- The line buffer is not longer than a line, and continuation lines do not start at its end. -/
def Snug (w : Nat) (l : Lst) : Prop := l.llen = w ∧ 39 ≤ w ∧ l.line.length ≤ l.lpos ∧ l.line.length ≤ w ∧ l.lastoffset < w

def Snugs (w : Nat) (r : Res α) : Prop :=
  match r with
  | .ok _ s => Snug w s.lst
  | .err s => Snug w s.lst
  | .stop v _ => ∀ m, v ≠ .fatal m

theorem Snugs.bind {m : M α} {f : α → M β} {s : St} (hm : Snugs w (m s))
    (hf : ∀ a s1, m s = .ok a s1 → Snug w s1.lst → Snugs w (f a s1)) : Snugs w ((m >>= f) s) := by
  rw [bind_run]
  revert hm hf
  cases m s with
  | ok a s1 => intro hm hf; exact hf a s1 rfl hm
  | err s1 => intro hm _; exact hm
  | stop w1 s1 => intro hm _; exact hm

theorem snug_raw {w : Nat} (c : Char) {s : St} (h : Snug w s.lst) (hp : s.lst.lpos < w) : Snugs w (putRaw c s) := by
  obtain ⟨h1, h2, h3, h4, h5⟩ := h
  unfold putRaw
  rw [getS_bind_run]
  split
  · rintro m ⟨⟩
  · refine ⟨h1, h2, ?_, ?_, h5⟩
    · show s.lst.line.length + 1 ≤ s.lst.lpos + 1
      omega
    · show s.lst.line.length + 1 ≤ w
      omega
theorem snug_space {w : Nat} {s : St} (h : Snug w s.lst) : Snugs w (putSpace s) := by
  unfold putSpace
  rw [getS_bind_run]
  split
  · rename_i hp
    exact snug_raw _ h (by rw [← h.1]; exact hp)
  · exact ⟨h.1, h.2.1, Nat.le_succ_of_le h.2.2.1, h.2.2.2⟩
theorem snug_spaces {w : Nat} (n : Nat) : ∀ {s : St}, Snug w s.lst → Snugs w (putSpaces n s) := by
  induction n with
  | zero => exact fun h => h
  | succ n ih =>
    intro s h
    unfold putSpaces
    exact .bind (snug_space h) fun _ s1 _ h1 => ih h1
theorem snug_position {w n : Nat} {s : St} (h : Snug w s.lst) (hn : n < w) : Snugs w (position n s) := by
  unfold position
  rw [getS_bind_run, if_neg (by rw [h.1]; omega)]
  exact snug_spaces _ h
theorem snug_filter {w : Nat} (t p : Str) {s : St} (h : Snug w s.lst) : Snugs w (filterC t p s) := by
  cases e : filterC t p s with
  | ok a s1 => show Snug w s1.lst; rw [filterC_lst e]; exact h
  | err s1 =>
    have := (inferInstance : Quiet (filterC t p)).run s
    rw [e] at this
    exact this.elim
  | stop v s1 => rw [filterC_stop e]; rintro m ⟨⟩
theorem snug_try {w : Nat} {t : Str} (ht : t.length < w) (ps : List Str) : ∀ {s : St}, Snug w s.lst → Snugs w (tryPats t ps s) := by
  induction ps with
  | nil => exact fun h => h
  | cons p ps ih =>
    intro s h
    unfold tryPats
    refine .bind (snug_filter t p h) fun r s1 h1 g1 => ?_
    rcases r with _ | ⟨c, k⟩
    · exact ih g1
    · exact snug_position g1 (Nat.lt_of_le_of_lt (filterC_consumed h1) ht)
theorem snug_eol {w : Nat} {s : St} (h : Snug w s.lst) : Snugs w (outputEOL s) := by
  obtain ⟨h1, h2, h3, h4, h5⟩ := h
  have hr : ∃ s1, outputraw s.lst.line.reverse s = .ok () s1 ∧ s1.lst.llen = s.lst.llen ∧ s1.lst.lastoffset = s.lst.lastoffset := by
    unfold outputraw
    rw [getS_bind_run]
    by_cases h : s.flags.listOn = true
    · rw [if_pos h]
      refine ⟨_, rfl, (printed_line _ _).2.2, ?_⟩
      show (printed _ s.lst).lastoffset = _
      unfold printed
      dsimp only
      split <;> split <;> rfl
    · rw [if_neg h]
      exact ⟨_, rfl, rfl, rfl⟩
  obtain ⟨s1, e1, e2, e3⟩ := hr
  unfold outputEOL
  rw [getS_bind_run, bind_run, e1]
  exact ⟨e2.trans h1, h2, Nat.zero_le _, Nat.zero_le _, by show s1.lst.lastoffset < w; omega⟩
theorem snug_wrap {w : Nat} (c : Char) {s : St} (h : Snug w s.lst) : Snugs w (wrapLine c s) := by
  have hr : ∀ u s', wrapLine c s = .ok u s' → Room s'.lst := fun _ _ h => wrap_room h
  revert hr
  unfold wrapLine
  rw [getS_bind_run]
  intro hr
  have ht : (s.lst.line.reverse.drop LMARGIN).length < w := by
    have h1 := h.2.2.2.1
    have h2 := h.2.1
    rw [List.length_drop, List.length_reverse]
    show s.lst.line.length - 28 < w
    omega
  have key : ∀ {m : M Unit} {s : St}, (∀ u s', (m >>= fun _ => modLst fun l => { l with lastoffset := l.lpos }) s = .ok u s' → Room s'.lst) → Snugs w (m s) →
      Snugs w ((m >>= fun _ => modLst fun l => { l with lastoffset := l.lpos }) s) := by
    intro m s hr h
    rw [bind_run] at hr ⊢
    revert hr h
    cases m s with
    | ok a s1 =>
      intro hr h
      obtain ⟨h1, h2, h3, h4, h5⟩ := h
      have := hr _ _ rfl
      refine ⟨h1, h2, h3, h4, ?_⟩
      have : 0 < s1.lst.llen → s1.lst.lpos < s1.lst.llen := this
      show s1.lst.lpos < w
      omega
    | err s1 => exact fun _ h => h
    | stop v s1 => exact fun _ h => h
  have stepK' : ∀ {α : Type} {m : M α} {f : α → M Unit} {s : St}, (∀ u s', (m >>= f) s = .ok u s' → Room s'.lst) → Snugs w (m s) →
      (∀ a s1, m s = .ok a s1 → Snug w s1.lst → (∀ u s', f a s1 = .ok u s' → Room s'.lst) → Snugs w (f a s1)) → Snugs w ((m >>= f) s) := by
    intro α m f s hr hm hf
    refine .bind hm fun a s1 h1 g1 => hf a s1 h1 g1 fun u s' h2 => hr u s' ?_
    rw [bind_run, h1]
    exact h2
  refine stepK' hr (snug_eol h) fun _ s1 h1 g1 hr => ?_
  refine stepK' hr (snug_filter _ _ g1) fun r s2 h2 g2 hr => ?_
  refine key hr ?_
  rcases r with _ | ⟨d, k⟩
  · dsimp only
    split
    · exact snug_position g2 (by have := h.2.1; show 28 < w; omega)
    · split
      · exact snug_position g2 h.2.2.2.2
      · exact snug_try ht _ g2
  · exact snug_position g2 (Nat.lt_of_le_of_lt (filterC_consumed h2) ht)
theorem snug_car {w : Nat} (c : Char) {s : St} (h : Snug w s.lst) : Snugs w (outputcar c s) := by
  unfold outputcar
  split
  · rw [getS_bind_run]
    have hw : Snugs w (whenM (s.lst.llen ≤ s.lst.lpos) (wrapLine c) s) := by
      unfold whenM
      split
      · exact snug_wrap c h
      · exact h
    refine .bind hw fun _ s1 h1 g1 => ?_
    have hl : s1.lst.lpos < w := by
      unfold whenM at h1
      split at h1
      · have := wrap_room h1
        have e := g1.1
        have := g1.2.1
        exact e ▸ (wrap_room h1) (by omega)
      · cases h1
        have := h.1
        omega
    unfold whenM
    split
    · exact snug_raw c g1 hl
    · exact g1
  · split
    · exact snug_space h
    · split
      · rw [getS_bind_run]
        exact snug_spaces _ h
      · exact h
theorem snug_output {w : Nat} (t : Str) : ∀ {s : St}, Snug w s.lst → Snugs w (output t s) := by
  induction t with
  | nil => exact fun h => h
  | cons c t ih =>
    intro s h
    unfold output
    exact .bind (snug_car c h) fun _ s1 _ h1 => ih h1

theorem Snugs.slims {m : M α} {f : α → M β} {s : St} (hm : Snugs w (m s))
    (hf : ∀ a s1, Snug w s1.lst → Slims (f a s1)) (hn : ∀ t, m s ≠ .err t) : Slims ((m >>= f) s) := by
  rw [bind_run]
  revert hm hf hn
  cases m s with
  | ok a s1 => intro hm hf _; exact hf a s1 hm
  | err s1 => intro _ _ hn; exact absurd rfl (hn s1)
  | stop w1 s1 => intro hm _ _; exact mild_of hm

instance : Slim outputline := by
  constructor
  intro s h
  unfold outputline modLst
  rw [modS_bind_run, getS_bind_run]
  have h1 : s.lst.lpos ≤ 21 := h.1
  have h2 := h.2.1
  have h3 := h.2.2
  split
  · exact h
  · have n1 : ∀ k s t, position k s ≠ .err t := fun k => Quiet.noErr (m := position k) inferInstance
    have n2 : ∀ k s t, output k s ≠ .err t := fun k => Quiet.noErr (m := output k) inferInstance
    refine Snugs.slims (w := s.lst.llen) (snug_position ?_ (by show 21 < _; omega)) (fun _ s1 g1 => ?_) (n1 _ _)
    · exact ⟨rfl, h3, Nat.le_of_eq h2, by show s.lst.line.length ≤ _; omega, by show 0 < _; omega⟩
    refine Snugs.slims (w := s.lst.llen) (snug_output _ g1) (fun _ s2 g2 => ?_) (n2 _ _)
    refine Snugs.slims (w := s.lst.llen) (snug_position g2 (by show 28 < _; omega)) (fun _ s3 g3 => ?_) (n1 _ _)
    refine Snugs.slims (w := s.lst.llen) (snug_output _ g3) (fun _ s4 g4 => ?_) (n2 _ _)
    obtain ⟨s5, h5, -⟩ := eol_ok s4
    rw [h5]
    exact eol_thin (by rw [g4.1]; exact h3) h5
instance (m : Str) : Slim (warning m) := by unfold warning; slim
instance (m : Str) : Slim (reportError m) := by
  unfold reportError
  refine Slim.bind Slim.getS fun s => ?_
  simp only
  split
  · infer_instance
  · exact Slim.bind inferInstance fun _ => inferInstance
instance : Slim bumpStar := by unfold bumpStar; slim
instance (m : Str) : Slim (error m : M α) := by unfold error; slim
instance (n : Note) : Slim (note n) := Slim.same fun _ => rfl
instance (m : Str) : Slim (refuse m : M α) := Slim.catchErr inferInstance (Slim.bind inferInstance fun _ => inferInstance)
instance (k : Str) (l : Label) : Slim (putLabel k l) := Slim.same fun _ => rfl
instance (n : Str) : Slim (findlabel n) := ⟨fun _ h => h⟩
instance (n : Str) (f : LFlags) (t : LType) (v : Word) : Slim (deflabel n f t v) := by unfold deflabel; slim
instance (r : Result) (t : LType) : Slim (checktype r t) := by unfold checktype; slim

/-! ### parse.c, operator.c -/

instance (tgt : Bool) (r : Result) : Slim (setRes tgt r) := by unfold setRes; slim
instance (tgt : Bool) (v : Nat) : Slim (cst tgt v) := by unfold cst; slim
instance (tgt : Bool) (v : Except Str Nat) : Slim (cstE tgt v) := by unfold cstE; slim
instance (tgt : Bool) (n : Str) : Slim (cstlabel tgt n) := by unfold cstlabel; slim
instance slim_parseConst (tgt : Bool) (e : Str) (rows : List (Str × Base)) : Slim (parseConst tgt e rows) := by
  induction rows with
  | nil => unfold parseConst; slim
  | cons r rows ih => obtain ⟨p, b⟩ := r; unfold parseConst; slim
instance (tgt : Bool) (e : Str) : Slim (parseLeaf tgt e) := by unfold parseLeaf; slim



theorem slim_finishOp (tgt : Bool) (o : OpRes) (h : ∀ u, o = .ub u → u ≠ .lineBuffer) : Slim (finishOp tgt o) := by
  cases o with
  | ok r => exact (inferInstance : Slim (setRes tgt r))
  | err m r => unfold finishOp; slim
  | ub u => exact slim_ub (h u rfl)
  | hang => exact (inferInstance : Slim (stopWith .hang : M Result))

instance slim_firstMatch (e : Str) (alts : List (Str × Op2)) : Slim (firstMatch e alts) := by
  induction alts with
  | nil => exact Slim.pure _
  | cons x alts ih => obtain ⟨pat, op⟩ := x; unfold firstMatch; slim

theorem slim_parseRows (rec : Bool → Str → M Result) (hrec : ∀ tgt x, Slim (rec tgt x)) (tgt : Bool) (e : Str)
    (rows : List Ent) : Slim (parseRows rec tgt e rows) := by
  induction rows with
  | nil => exact (inferInstance : Slim (parseLeaf tgt (creverse e)))
  | cons r rows ih =>
    cases r with
    | dya alts =>
      unfold parseRows
      refine Slim.bind inferInstance fun m => ?_
      rcases m with _ | ⟨c1, c2, op⟩
      · exact ih
      · dsimp only
        split
        · exact ih
        · exact Slim.bind (hrec _ _) fun p => Slim.bind (hrec _ _) fun a => slim_finishOp _ _ fun u => applyOp2_line
    | mon pat op =>
      unfold parseRows
      refine Slim.bind inferInstance fun r => ?_
      rcases r with _ | _ | ⟨c, ca⟩
      · exact ih
      · exact ih
      · exact Slim.bind (hrec _ _) fun p => slim_finishOp _ _ fun u => applyOp1_line
    | paren pat =>
      unfold parseRows
      refine Slim.bind inferInstance fun r => ?_
      rcases r with _ | _ | ⟨c, ca⟩
      · exact ih
      · exact ih
      · exact hrec _ _

instance slim_parse2 (n : Nat) (tgt : Bool) (e : Str) : Slim (parse2 n tgt e) := by
  induction n generalizing tgt e with
  | zero => unfold parse2; slim
  | succ n ih => exact slim_parseRows (parse2 n) ih tgt e revTable
instance (o : Option Str) : Slim (parse o) := by unfold parse; slim
instance (o : Option Str) : Slim (parseAbs o) := by unfold parseAbs; slim

/-! ### Instructions -/

instance : Slim openScode := by unfold openScode; slim
instance (x : Byte) : Slim (insert8 x) := by unfold insert8; slim
instance (x : BitVec 16) : Slim (insert16 x) := by unfold insert16; slim
instance (x : BitVec 32) : Slim (insert32 x) := by unfold insert32; slim
instance (a : Word) : Slim (setpc a) := Slim.same fun _ => by split <;> rfl
instance (c : BitVec 32) (o : Option Str) : Slim (relBranch c o) := by unfold relBranch; slim

namespace C6800
instance (c : BitVec 32) (o : Option Str) : Slim (single c o) := by unfold single; slim
instance (a : BitVec 32) (o : Str) : Slim (modeValue a o) := by unfold modeValue; slim
instance slim_findmode (o : Option Str) (ms : List (Str × BitVec 32)) : Slim (findmode o ms) := by
  induction ms with
  | nil => unfold findmode; slim
  | cons r rows ih => obtain ⟨p, b⟩ := r; unfold findmode; slim
instance (a b c : BitVec 32) : Slim (codemode a b c) := by unfold codemode; slim
instance (h : H6800) (m : Int) (o : Option Str) : Slim (call h m o) := by
  cases h with
  | branch => exact (inferInstance : Slim (relBranch _ o))
  | single => exact (inferInstance : Slim (single _ o))
  | standard => exact Slim.bind inferInstance fun r => (inferInstance : Slim (codemode _ _ _))
  | standard2 => show Slim (standard2 _ o); unfold standard2; slim
  | standard3 => show Slim (standard3 _ o); unfold standard3; slim
end C6800

namespace C6502
instance (c : BitVec 32) (o : Option Str) : Slim (single c o) := by unfold single; slim
instance slim_searchMode (o : Str) (ms : List (Str × Nat)) : Slim (searchMode o ms) := by
  induction ms with
  | nil => unfold searchMode; slim
  | cons r rows ih => obtain ⟨p, b⟩ := r; unfold searchMode; slim
instance (m : Nat) (o : Str) : Slim (operand m o) := by unfold operand; slim

instance (c : BitVec 32) (m : Nat) : Slim (opcodeFor c m) := by unfold opcodeFor; slim
instance (c : BitVec 32) (o : Option Str) : Slim (standard c o) := by unfold standard; slim
instance (h : H6502) (m : Int) (o : Option Str) : Slim (call h m o) := by
  cases h with
  | branch => exact (inferInstance : Slim (relBranch _ o))
  | single => exact (inferInstance : Slim (single _ o))
  | standard => exact (inferInstance : Slim (standard _ o))
end C6502

namespace Z80
instance slim_getIndexed (z : Z) (o : Str) (ps : List (Str × Idx × Option Bool)) : Slim (getIndexed z o ps) := by
  induction ps with
  | nil => exact Slim.pure _
  | cons r rows ih => obtain ⟨p, b, sg⟩ := r; unfold getIndexed; slim
instance (z : Z) (v : Word) : Slim (setArg z v) := by unfold setArg; slim
instance (r : Result) : Slim (singleReg r) := by unfold singleReg; slim
instance (z : Z) (n : Int) : Slim (regResult z n) := by unfold regResult; slim
instance (z : Z) (o : Str) : Slim (getreg z o) := by unfold getreg; slim
instance (z : Z) (c : BitVec 32) : Slim (docode z c) := by unfold docode; slim
instance (c : BitVec 32) (o : Option Str) : Slim (simple c o) := by unfold simple; slim
instance slim_findCond (o : Str) (ps : List Str) : ∀ i, Slim (findCond o i ps) := by
  induction ps with
  | nil => intro i; unfold findCond; slim
  | cons r rows ih => intro i; unfold findCond; slim
instance (n : Nat) (o : Option Str) : Slim (searchcond n o) := by unfold searchcond; slim
instance (a b : Byte) (o : Option Str) : Slim (condJump a b o) := by unfold condJump; slim
instance slim_firstOf (o : Str) (ps : List Str) : Slim (firstOf o ps) := by
  induction ps with
  | nil => exact Slim.pure _
  | cons r rows ih => unfold firstOf; slim
instance (z : Z) (o : Str) : Slim (exAf z o) := by unfold exAf; slim
instance (o : Option Str) : Slim (ex o) := by unfold ex; slim
instance (c : BitVec 32) (o : Str) : Slim (inoutOps c o) := by unfold inoutOps; slim
instance (c : BitVec 32) (o : Option Str) : Slim (inout c o) := by unfold inout; slim
instance (z : Z) (c : BitVec 32) (o : Str) : Slim (logicalTail z c o) := by unfold logicalTail; slim
instance (c : BitVec 32) (o : Option Str) : Slim (logical c o) := by unfold logical; slim
instance (c : BitVec 32) (o : Option Str) : Slim (arith c o) := by unfold arith; slim
instance (o : Option Str) : Slim (ld o) := by unfold ld; slim
instance (h : HZ80) (m : Int) (o : Option Str) : Slim (call h m o) := by
  cases h with
  | im => show Slim (im o); unfold im; slim
  | rst => show Slim (rst o); unfold rst; slim
  | jr => show Slim (jr o); unfold jr; slim
  | jp => show Slim (jp o); unfold jp; slim
  | call => show Slim (callOp o); unfold callOp; slim
  | ret => show Slim (ret o); unfold ret; slim
  | bitop => show Slim (bitop _ o); unfold bitop; slim
  | onreg8 => show Slim (onreg8 _ o); unfold onreg8; slim
  | stackop => show Slim (stackop _ o); unfold stackop; slim
  | incr => show Slim (incr _ o); unfold incr; slim
  | _ => unfold call; slim
end Z80

/-! ### Directives -/

instance (o : Option Str) (m : Int) : Slim (stocke o m) := by unfold stocke; slim
instance slim_dcLoop (m : Int) (n : Nat) (o : Option Str) : Slim (dcLoop m n o) := by
  induction n generalizing o with
  | zero => unfold dcLoop; slim
  | succ n ih => unfold dcLoop; slim
instance (m : Int) (o : Option Str) : Slim (xDc m o) := by unfold xDc; slim
instance slim_fillBytes (b : Byte) (n : Nat) : Slim (fillBytes b n) := by
  induction n with
  | zero => unfold fillBytes; slim
  | succ n ih => unfold fillBytes; slim
instance (o : Option Str) : Slim (xDs o) := by unfold xDs; slim
instance (t : Str) : Slim (settitle t) := by
  unfold settitle
  refine .bind .getS fun s => .bind (.whenM inferInstance) fun _ => ?_
  split
  · infer_instance
  · rename_i h
    exact .modS fun s => id
instance (o : Option Str) : Slim (xNam o) := by unfold xNam; slim
instance slim_ascLoop (d : Char) (s : Str) : ∀ e, Slim (ascLoop d e s) := by
  induction s with
  | nil => intro e; cases e <;> (unfold ascLoop; slim)
  | cons c s ih => intro e; cases e <;> (unfold ascLoop; slim)
instance (o : Option Str) : Slim (xAsc o) := by unfold xAsc; slim
instance (b : Bool) (o : Option Str) : Slim (xCode b o) := by unfold xCode; slim
instance (o : Option Str) (g : Bool → Flags → Flags) : Slim (onOff o g) := by unfold onOff; slim
instance (o : Option Str) : Slim (xClist o) := by unfold xClist; slim
instance (o : Option Str) : Slim (xIlist o) := by unfold xIlist; slim
instance (o : Option Str) : Slim (xMlist o) := by unfold xMlist; slim
instance (o : Option Str) : Slim (xList o) := by unfold xList; slim
instance (a b : Int) : Slim (setpage a b) := by
  unfold setpage
  refine .bind .getS fun s => .bind (.whenM inferInstance) fun _ => ?_
  split
  · infer_instance
  · rename_i h
    exact .modS fun s => fun h => ⟨h.1, h.2.1, (by show 39 ≤ b.toNat; omega)⟩
instance (o : Option Str) : Slim (xPage o) := by unfold xPage; slim
instance slim_eols (n : Nat) : Slim (eols n) := by
  induction n with
  | zero => unfold eols; slim
  | succ n ih => unfold eols; slim
instance (o : Option Str) : Slim (xSkip o) := by unfold xSkip; slim
instance (o : Option Str) : Slim (xOutput o) := by unfold xOutput; slim
instance (o : Option Str) : Slim (xAlign o) := by unfold xAlign; slim
instance (i : TableId) (e : Entry) : Slim (bindOne i e) := by unfold bindOne; slim
instance slim_bindAll (i : TableId) (es : List Entry) (is : List Nat) : Slim (bindAll i es is) := by
  induction is with
  | nil => unfold bindAll; slim
  | cons i is ih => unfold bindAll; slim
instance (i : TableId) (es : List Entry) : Slim (initLabelList i es) := by unfold initLabelList; slim
instance (c : Int) : Slim (C6800.init c) := by unfold C6800.init; slim
instance (c : Int) : Slim (C6502.init c) := by unfold C6502.init; slim
instance : Slim Z80.init := by unfold Z80.init; slim
instance (c : Cpu) : Slim c.init := by unfold Cpu.init; slim
instance slim_findCpu (o : Str) (cs : List (Str × Cpu)) : Slim (findCpu o cs) := by
  induction cs with
  | nil => unfold findCpu; slim
  | cons c cs ih => obtain ⟨n, c⟩ := c; unfold findCpu; slim
instance (o : Option Str) : Slim (xCpu o) := by unfold xCpu; slim
instance (o : Option Str) : Slim (xFail o) := by unfold xFail; slim
instance (l : Option Str) (o : Option Str) : Slim (xEqu l o) := by unfold xEqu; slim
instance (o : Option Str) : Slim (xInclude o) := by unfold xInclude checkDepth; slim

/-! ### Conditions, lines -/

instance slim_findCmp (o : Str) (cs : List (Str × Cmp)) : Slim (findCmp o cs) := by
  induction cs with
  | nil => exact Slim.pure _
  | cons c cs ih => obtain ⟨p, q⟩ := c; unfold findCmp; slim
instance (q : Cmp) (a b : Result) : Slim (compareRes q a b) := by unfold compareRes; slim
instance (o : Option Str) : Slim (testtrue o) := by unfold testtrue; slim
instance (o : Option Str) : Slim (xElse o) := by unfold xElse; slim
instance (o : Option Str) : Slim (xEndc o) := by unfold xEndc; slim
instance (m : Str) (r : RC) (st : Status) (o : Option Str) : Slim (macroEnd m r st o) := by unfold macroEnd; slim
instance (st : Status) (o : Option Str) : Slim (xEndm st o) := by unfold xEndm; slim
instance (st : Status) (o : Option Str) : Slim (xExitm st o) := by unfold xExitm; slim
instance (r : Str) : Slim (takeLine r) := by unfold takeLine; slim
instance : Slim (modS fun s => popEnds s.stack s) := .same fun s => (popEnds_lst _ s).1
instance : Slim linegets := by unfold linegets; slim
instance (st : Status) : Slim (ifList st) := by unfold ifList; slim
instance (st : Status) (b : Bool) : Slim (markSkipped st b) := by unfold markSkipped; slim
instance slim_macroLoop (st : Status) (n : Nat) : ∀ acc, Slim (macroLoop st n acc) := by
  induction n with
  | zero => intro acc; unfold macroLoop; slim
  | succ n ih => intro acc; unfold macroLoop; slim
instance (k : Str) (ls : List Str) : Slim (setLines k ls) := by unfold setLines; slim
instance (n : Nat) (st : Status) (l : Option Str) (o : Option Str) : Slim (xMacro n st l o) := by unfold xMacro; slim
instance slim_macroArgs (n : Nat) : ∀ acc o, Slim (macroArgs n acc o) := by
  induction n with
  | zero => intro acc o; unfold macroArgs; slim
  | succ n ih => intro acc o; unfold macroArgs; slim
instance (l : Str) : Slim (herelabel l) := by unfold herelabel; slim
instance (m : Str) : Slim (findmnemo m) := by unfold findmnemo; slim
instance (l : Option Str) (s : Str) : Slim (splitMnemo l s) := by unfold splitMnemo; slim
instance (s : Str) : Slim (splitLine s) := by unfold splitLine; slim
instance : Slim startLine := by unfold startLine; slim
instance : Slim stripLine := by unfold stripLine; slim
instance : Slim checkDepth := by unfold checkDepth; slim
instance (k : Str) : Slim (markUsed k) := Slim.same fun _ => by dsimp only; split <;> rfl
instance : Slim bumpErr := Slim.same fun _ => rfl

/-! ### Lines and passes -/

section
variable {self : Status → M RC} (hs : ∀ st, Slim (self st))
include hs

theorem slim_ifLoop (st : Status) (n : Nat) : Slim (ifLoop self st n) := by
  induction n with
  | zero => unfold ifLoop; slim
  | succ n ih =>
    unfold ifLoop
    refine .bind (.catchErr ?_ (by slim)) fun r => ?_
    · unfold ifRound
      refine .bind inferInstance fun _ => .bind .getS fun s => ?_
      split
      · exact Slim.pure _
      · exact .bind (hs _) fun r => Slim.pure _
    · rcases r with r | _
      · cases r with
        | cont => exact ih
        | _ => exact Slim.pure _
      · exact (inferInstance : Slim (error _ : M RC))

theorem slim_ifElse (fuel : Nat) (st : Status) (b : Bool) (o : Option Char) : Slim (ifElse self fuel st b o) := by
  unfold ifElse
  refine .bind .getS fun s => .bind inferInstance fun _ => ?_
  exact .bind (slim_ifLoop hs _ _) fun r => by slim

theorem slim_xIf (fuel : Nat) (st : Status) (o : Option Str) : Slim (xIf self fuel st o) := by
  unfold xIf
  refine .bind (by slim) fun t => .bind .getS fun s => ?_
  refine .bind inferInstance fun _ => .bind .getS fun s => ?_
  refine .bind inferInstance fun _ => .bind (slim_ifLoop hs _ _) fun r => ?_
  refine .bind (.same fun _ => rfl) fun _ => ?_
  split
  · infer_instance
  · refine .bind inferInstance fun _ => ?_
    split
    · exact Slim.pure _
    · exact Slim.pure _
    · exact slim_ifElse hs _ _ _ _

theorem slim_macroRun (st : Status) (n : Nat) : Slim (macroRun self st n) := by
  induction n with
  | zero => unfold macroRun; slim
  | succ n ih =>
    unfold macroRun
    refine .bind (.catchErr (.bind inferInstance fun _ => hs st) (by slim)) fun r => ?_
    split
    · exact ih
    · exact Slim.pure _

theorem slim_macrocall (fuel : Nat) (k : Str) (lab : Label) (st : Status) (o : Option Str) :
    Slim (macrocall self fuel k lab st o) := by
  unfold macrocall
  refine .bind inferInstance fun _ => .bind inferInstance fun _ => ?_
  refine .bind .getS fun s0 => ?_
  dsimp only
  refine .bind inferInstance fun args => ?_
  split
  · refine .bind (by slim) fun _ => .bind (.same fun _ => rfl) fun _ => ?_
    exact .bind (slim_macroRun hs _ _) fun r => by slim
  · infer_instance

theorem slim_callHandler (fuel : Nat) (h : Handler) (arg : Int) (l o : Option Str) :
    Slim (callHandler self fuel h arg l o) := by
  cases h with
  | h6800 h => exact Slim.bind inferInstance fun _ => Slim.pure _
  | h6502 h => exact Slim.bind inferInstance fun _ => Slim.pure _
  | hz80 h => exact Slim.bind inferInstance fun _ => Slim.pure _
  | pseudo p =>
    cases p with
    | «macro» => exact (inferInstance : Slim (xMacro fuel (.ofInt arg) l o))
    | if_ => exact slim_xIf hs _ _ _
    | else_ => exact (inferInstance : Slim (xElse o))
    | endc => exact (inferInstance : Slim (xEndc o))
    | endm => exact (inferInstance : Slim (xEndm (.ofInt arg) o))
    | exitm => exact (inferInstance : Slim (xExitm (.ofInt arg) o))
    | _ => exact Slim.bind inferInstance fun _ => Slim.pure _

theorem slim_execLine (fuel : Nat) (st : Status) (l o : Option Str) (k : Str) (lab : Label)
    (hk : lab.type = .mnemo ∨ lab.type = .macro) : Slim (execLine self fuel st l o k lab) := by
  have hc := slim_callHandler hs fuel
  have hm := slim_macrocall hs fuel
  unfold execLine
  repeat' (first
    | exact hc _ _ _ _
    | exact hm _ _ _ _
    | infer_instance
    | (exfalso; rcases hk with hk | hk <;> contradiction)
    | exact Slim.pure _
    | exact Slim.getS
    | exact Slim.same (fun _ => rfl)
    | with_reducible refine Slim.bind ?_ (fun _ => ?_)
    | with_reducible refine Slim.whenM ?_
    | dsimp only
    | split)

theorem slim_doFields (fuel : Nat) (st : Status) (b : Bool) (f : Fields)
    (hf : ∀ k lab, f.entry = some (k, lab) → lab.type = .mnemo ∨ lab.type = .macro) : Slim (doFields self fuel st b f) := by
  have hc := slim_execLine hs fuel
  unfold doFields
  cases he : f.entry with
  | none => slim
  | some e =>
    obtain ⟨k, lab⟩ := e
    dsimp only
    split
    · infer_instance
    · exact .bind (by slim) fun _ => hc _ _ _ _ _ (hf _ _ he)

theorem slim_asmlineF (fuel : Nat) (st : Status) : Slim (asmlineF self fuel st) := by
  have hc := slim_doFields hs fuel
  unfold asmlineF
  refine .bind inferInstance fun _ => .bind .getS fun s => .bind inferInstance fun t => ?_
  split
  · slim
  · exact ⟨fun s h => Slim.bindAt ((inferInstance : Slim (splitLine t)).run s h) fun f s1 h1 g1 =>
      (hc _ _ f (splitLine_kind h1)).run s1 g1⟩
end

instance slim_asmline (n : Nat) : ∀ st, Slim (asmline n st) := by
  induction n with
  | zero => exact fun st => by unfold asmline; slim
  | succ n ih => exact fun st => slim_asmlineF ih n st

instance slim_passLoop (fuel n : Nat) : ∀ b, Slim (passLoop fuel n b) := by
  induction n with
  | zero => exact fun b => by unfold passLoop; slim
  | succ n ih =>
    intro b
    unfold passLoop passBody
    refine .bind .getS fun s => ?_
    split
    · exact Slim.pure _
    · refine .bind (.catchErr ?_ (by slim)) fun b => ih b
      exact .bind (by slim) fun _ => Slim.pure _

instance : Slim undeflabels := Slim.same fun _ => rfl

end Crasm

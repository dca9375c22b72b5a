import Verif.Props.C06
import Verif.Props.C07
import Verif.Props.C08
import Verif.Props.C36

/-! # C37: nothing is generated before an origin is given -/

namespace Crasm

/-- Without an origin, `m` does not return normally. -/
def Needs (m : M α) : Prop := ∀ s, s.flags.orgGv = false → ∀ a s', m s ≠ .ok a s'

theorem Needs.left {m : M α} {f : α → M β} (h : Needs m) : Needs (m >>= f) := by
  intro s ho b s' hr
  obtain ⟨a, s1, h1, -⟩ := bind_ok hr
  exact h s ho a s1 h1

theorem hstar_org {a b : Cfg} (h : Star HStep a b) (ha : a.2 = .live) (hb : b.2 = .live) :
    b.1.flags.orgGv = a.1.flags.orgGv := by
  obtain ⟨s, m⟩ := a
  cases ha
  have : Star GStep (s, .live) b := h.mono fun _ _ h => .h h
  obtain ⟨bs, hm⟩ := gstar_made this (by rw [hb]; simp)
  exact hm.flags.2.1

theorem Needs.right {m : M α} {f : α → M β} (hm : Walk HStep m) (h : ∀ a, Needs (f a)) : Needs (m >>= f) := by
  intro s ho b s' hr
  obtain ⟨a, s1, h1, h2⟩ := bind_ok hr
  have := hm s
  rw [h1] at this
  exact h a s1 ((hstar_org this rfl rfl).trans ho) b s' h2

theorem needs_error (m : Str) : Needs (error m : M α) := by
  intro s _ a s' h
  exact error_not_ok h
theorem needs_refuse (m : Str) : Needs (refuse m : M α) := by
  intro s _ a s' h
  exact refuse_not_ok h
theorem needs_stop (w : Stop) : Needs (stopWith w : M α) := fun s _ a s' h => by cases h
theorem needs_ub (w : UB) : Needs (ubM w : M α) := fun s _ a s' h => by cases h
theorem needs8 (x : Byte) : Needs (insert8 x) := by
  intro s ho a s' h
  obtain ⟨h1, -⟩ := insert8_ok h
  rw [ho] at h1; cases h1
theorem needs16 (x : BitVec 16) : Needs (insert16 x) := by
  intro s ho a s' h
  unfold insert16 at h
  rw [getS_bind_run] at h
  cases hl : s.flags.lohi <;> simp only [hl, Bool.false_eq_true, if_false, if_true] at h
  all_goals exact Needs.left (needs8 _) s ho a s' h
theorem needs32 (x : BitVec 32) : Needs (insert32 x) := by
  intro s ho a s' h
  unfold insert32 at h
  rw [getS_bind_run] at h
  cases hl : s.flags.lohi <;> simp only [hl, Bool.false_eq_true, if_false, if_true] at h
  all_goals exact Needs.left (needs16 _) s ho a s' h

macro "needs" : tactic => `(tactic| repeat' (first
  | exact needs_error _
  | exact needs_refuse _
  | exact needs_stop _
  | exact needs_ub _
  | exact needs8 _
  | exact needs16 _
  | exact needs32 _
  | assumption
  | exact Needs.left (needs8 _)
  | exact Needs.left (needs16 _)
  | with_reducible refine Needs.right (by walk) (fun _ => ?_)
  | dsimp only
  | split))

theorem needs_rel (c : BitVec 32) (o : Option Str) : Needs (relBranch c o) := by unfold relBranch; needs
theorem needs_codemode (c a v : BitVec 32) : Needs (C6800.codemode c a v) := by unfold C6800.codemode; needs
theorem needs_6800 (h : H6800) (m : Int) (o : Option Str) : Needs (C6800.call h m o) := by
  unfold C6800.call
  cases h with
  | branch => exact needs_rel _ _
  | single => dsimp only; unfold C6800.single; needs
  | standard => exact Needs.right (by walk) fun _ => needs_codemode _ _ _
  | standard2 => exact Needs.right (by walk) fun _ => Needs.left (needs_codemode _ _ _)
  | standard3 => exact Needs.right (by walk) fun _ => Needs.left (needs_codemode _ _ _)
theorem needs_6502 (h : H6502) (m : Int) (o : Option Str) : Needs (C6502.call h m o) := by
  unfold C6502.call
  cases h with
  | branch => exact needs_rel _ _
  | single => dsimp only; unfold C6502.single; needs
  | standard => dsimp only; unfold C6502.standard; needs
theorem needs_docode (z : Z80.Z) (c : BitVec 32) : Needs (Z80.docode z c) := by unfold Z80.docode; needs
theorem needs_cond (a b : Byte) (o : Option Str) : Needs (Z80.condJump a b o) := by unfold Z80.condJump; needs
theorem needs_exAf (z : Z80.Z) (o : Str) : Needs (Z80.exAf z o) := by
  have := needs_docode
  unfold Z80.exAf
  needs <;> exact needs_docode _ _
theorem needs_tail (z : Z80.Z) (c : BitVec 32) (o : Str) : Needs (Z80.logicalTail z c o) := by
  unfold Z80.logicalTail
  needs <;> exact needs_docode _ _
theorem needs_logical (c : BitVec 32) (o : Option Str) : Needs (Z80.logical c o) := by
  unfold Z80.logical
  needs <;> exact needs_tail _ _ _
theorem needs_z80 (h : HZ80) (m : Int) (o : Option Str) : Needs (Z80.call h m o) := by
  unfold Z80.call
  cases h <;> dsimp only
  case simple => unfold Z80.simple; needs
  case im => unfold Z80.im; needs
  case rst => unfold Z80.rst; needs
  case relbranch => exact needs_rel _ _
  case jr => unfold Z80.jr; exact Needs.right (by walk) fun _ => needs_rel _ _
  case jp => unfold Z80.jp; needs <;> first | exact needs_docode _ _ | exact needs_cond _ _ _
  case call => exact needs_cond _ _ _
  case ret => unfold Z80.ret; needs
  case ex => unfold Z80.ex; needs <;> first | exact needs_docode _ _ | exact needs_exAf _ _
  case inout => unfold Z80.inout; needs <;> exact needs_docode _ _
  case bitop => unfold Z80.bitop; needs <;> exact needs_docode _ _
  case onreg8 => unfold Z80.onreg8; needs <;> exact needs_docode _ _
  case logical => exact needs_logical _ _
  case stackop => unfold Z80.stackop; needs <;> exact needs_docode _ _
  case arith => unfold Z80.arith; needs <;> first | exact needs_docode _ _ | exact needs_logical _ _
  case incr => unfold Z80.incr; needs <;> exact needs_docode _ _
  case ld => unfold Z80.ld; needs <;> exact needs_docode _ _

theorem needs_stocke (e : Option Str) {m : Int} (hm : m = 1 ∨ m = 2 ∨ m = 3 ∨ m = 4) : Needs (stocke e m) := by
  unfold stocke
  rcases hm with rfl | rfl | rfl | rfl
  · exact Needs.right (by walk) fun _ => Needs.left (Needs.left (needs8 _))
  · exact Needs.right (by walk) fun _ => Needs.left (Needs.right (by walk) fun _ => Needs.left (needs16 _))
  · exact Needs.right (by walk) fun _ => Needs.left (Needs.left (needs16 _))
  · exact Needs.right (by walk) fun _ => Needs.left (Needs.left (needs32 _))

theorem needs_dc {m : Int} (hm : m = 1 ∨ m = 2 ∨ m = 3 ∨ m = 4) : ∀ n o, Needs (dcLoop m n o)
  | 0, o => needs_stop _
  | n + 1, o => by
    unfold dcLoop
    refine Needs.right (by walk) fun a => ?_
    split
    · exact Needs.left (needs_stocke _ hm)
    · exact needs_stocke _ hm

/-- What a table entry must be to be an instruction, or DB, DW, DDB or DL. -/
def Generator (lab : Label) : Prop :=
  lab.type = .mnemo ∧ lab.flags.defcond = false ∧ lab.flags.defmacro = false ∧ lab.flags.deflabel = false ∧
  ∃ h, lab.ptr = .handler h ∧ match h with
    | .pseudo p => p = .dc ∧ (lab.modifier = 1 ∨ lab.modifier = 2 ∨ lab.modifier = 3 ∨ lab.modifier = 4)
    | _ => True

theorem Generator.plain {lab : Label} (h : Generator lab) : Plain lab := by
  obtain ⟨h1, h2, h3, h4, g, h5, h6⟩ := h
  refine ⟨h1, h2, h3, g, h5, ?_⟩
  cases g with
  | pseudo p => rw [h6.1]; rfl
  | _ => rfl

/-- All instructions of all processors and DB, DW, DDB, DL. -/
theorem C37_covers (e : Entry) (h : e ∈ C6800.m6800 ++ C6800.m6801 ++ C6502.m6502 ++ C6502.m65c02 ++ Z80.mz80 ++
    pseudos.filter fun e => e.name ∈ [c!"DB", c!"DW", c!"DDB", c!"DL"]) :
    Generator e.label ∨ e.label.type = .regs := by
  have : ∀ e ∈ C6800.m6800 ++ C6800.m6801 ++ C6502.m6502 ++ C6502.m65c02 ++ Z80.mz80 ++
      pseudos.filter fun e => e.name ∈ [c!"DB", c!"DW", c!"DDB", c!"DL"],
      (e.label.type = .mnemo ∧ e.label.flags.defcond = false ∧ e.label.flags.defmacro = false ∧
        e.label.flags.deflabel = false ∧
        (match e.label.ptr with
          | .handler (.pseudo p) => decide (p = .dc ∧ (e.label.modifier = 1 ∨ e.label.modifier = 2 ∨
              e.label.modifier = 3 ∨ e.label.modifier = 4))
          | .handler _ => true
          | _ => false) = true) ∨ e.label.type = .regs := by
    decide +kernel
  rcases this e h with ⟨h1, h2, h3, h4, h5⟩ | h5
  · refine .inl ⟨h1, h2, h3, h4, ?_⟩
    cases hp : e.label.ptr with
    | handler g =>
      rw [hp] at h5
      refine ⟨g, rfl, ?_⟩
      cases g with
      | pseudo p => exact of_decide_eq_true h5
      | _ => trivial
    | null => rw [hp] at h5; cases h5
    | lines ls => rw [hp] at h5; cases h5
  · exact .inr h5

theorem needs_generator {lab : Label} {h : Handler} (hg : Generator lab) (hp : lab.ptr = .handler h)
    (self : Status → M RC) (fuel : Nat) (l o : Option Str) :
    Needs (callHandler self fuel h lab.modifier l o) := by
  obtain ⟨-, -, -, -, g, h5, h6⟩ := hg
  rw [hp] at h5
  cases h5
  unfold callHandler
  cases h with
  | h6800 h => exact Needs.left (needs_6800 _ _ _)
  | h6502 h => exact Needs.left (needs_6502 _ _ _)
  | hz80 h => exact Needs.left (needs_z80 _ _ _)
  | pseudo p =>
    obtain ⟨rfl, hm⟩ := h6
    exact Needs.left (needs_dc hm _ _)

theorem needs_here (l : Str) : Needs (herelabel l) := by
  intro s ho a s' h
  unfold herelabel at h
  by_cases hl : l = starKey
  · rw [if_pos hl] at h; exact error_not_ok h
  · rw [if_neg hl, getS_bind_run] at h
    simp only [ho, Bool.false_eq_true, if_false] at h
    exact error_not_ok h

theorem needs_when {c : Bool} {m : M Unit} (hc : c = true) (h : Needs m) : Needs (whenM (c = true) m) := by
  subst hc
  exact h

theorem statement_run {n : Nat} {st : Status} {s s1 : St} {f : Fields} (h : statement s = .ok (some f) s1) :
    ∃ fl, asmline (n + 1) st s = doFields (asmline n) n st fl f s1 ∧ Star GStep (startedSt s, .live) (s1, .live) ∧
      (fl = startsFlush s.curline) := by
  refine ⟨startsFlush s.curline, ?_⟩
  show asmlineF (asmline n) n st s = _ ∧ _
  unfold statement at h
  unfold asmlineF
  rw [run_ok (startLine_eq s)] at h ⊢
  rw [getS_bind_run]
  obtain ⟨t, s2, h2, h3⟩ := bind_ok h
  have hs2 : Star GStep (startedSt s, .live) (s2, .live) := by
    have := walk_stripG (startedSt s)
    rw [h2] at this
    exact this
  rw [run_ok h2]
  by_cases ht : t = []
  · rw [if_pos ht] at h3; cases h3
  · rw [if_neg ht] at h3 ⊢
    obtain ⟨f', s3, h4, h5⟩ := bind_ok h3
    cases h5
    rw [run_ok h4]
    refine ⟨rfl, hs2.trans ?_, rfl⟩
    have := (W.walk : Walk HStep (splitLine t)).mono (S := GStep) (fun _ _ h => .h h) s2
    rw [h4] at this
    exact this

theorem statement_org {s s1 : St} {f : Option Fields} (h : Star GStep (startedSt s, .live) (s1, .live)) :
    s1.flags.orgGv = !(starLabel s).flags.undef := by
  obtain ⟨bs, hm⟩ := gstar_made h (by simp)
  exact hm.flags.2.1

/-- **C37**, rejection: while no origin has been given, a line with an instruction or DB, DW, DDB, DL that is to be
    assembled is never accepted. -/
theorem C37_rejected (n : Nat) (lst : Bool) (s s1 : St) (f : Fields) (hf : statement s = .ok (some f) s1)
    (key : Str) (lab : Label) (he : f.entry = some (key, lab)) (hg : Generator lab)
    (ho : (starLabel s).flags.undef = true) (rc : RC) (s' : St) : asmline n ⟨lst, true⟩ s ≠ .ok rc s' := by
  intro h
  cases n with
  | zero => cases h
  | succ n =>
    obtain ⟨fl, h1, h2, -⟩ := statement_run (n := n) (st := ⟨lst, true⟩) hf
    rw [h1] at h
    have ho1 : s1.flags.orgGv = false := by rw [statement_org (f := f) h2, ho]; rfl
    obtain ⟨p1, p2, p3, p4, g, p5, p6⟩ := id hg
    have : Needs (doFields (asmline n) n ⟨lst, true⟩ fl f) := by
      unfold doFields
      rw [he]
      dsimp only
      split
      · exact needs_error _
      · have rest : ∀ lbl, Needs (execLine (asmline n) n ⟨lst, true⟩ lbl f.oper key lab) := by
          intro lbl
          unfold execLine
          rw [if_neg (by simp [p2, p3]), if_neg (by simp [p1]), if_pos p1]
          refine Needs.left ?_
          rw [p5]
          exact Needs.left (needs_generator hg p5 _ _ _ _)
        cases f.label with
        | none => exact Needs.right (by walk) fun _ => rest _
        | some l =>
          exact Needs.left (needs_when (by simp [p4]) (needs_here _))
    exact this s1 ho1 rc s' h

/-- A label on a line of its own, or before an instruction or any other directive that does not itself define
    the label, is not accepted either. -/
theorem C37_label (n : Nat) (lst : Bool) (s s1 : St) (f : Fields) (hf : statement s = .ok (some f) s1)
    (hl : (f.entry = none ∧ startsFlush s.curline = true) ∨
      (f.label.isSome = true ∧ ∃ key lab, f.entry = some (key, lab) ∧ lab.flags.deflabel = false))
    (ho : (starLabel s).flags.undef = true) (rc : RC) (s' : St) : asmline n ⟨lst, true⟩ s ≠ .ok rc s' := by
  intro h
  cases n with
  | zero => cases h
  | succ n =>
    obtain ⟨fl, h1, h2, h3⟩ := statement_run (n := n) (st := ⟨lst, true⟩) hf
    rw [h1] at h
    have ho1 : s1.flags.orgGv = false := by rw [statement_org (f := f) h2, ho]; rfl
    have : Needs (doFields (asmline n) n ⟨lst, true⟩ fl f) := by
      unfold doFields
      rcases hl with ⟨h4, h5⟩ | ⟨h4, key, lab, h5, h6⟩
      · rw [h4]
        dsimp only
        split
        · exact Needs.left (needs_here _)
        · exact needs_error _
      · rw [h5]
        dsimp only
        split
        · exact needs_error _
        · revert h4
          cases f.label with
          | none => intro h; cases h
          | some l =>
            intro _
            exact Needs.left (needs_when (by simp [h6]) (needs_here _))
    exact this s1 ho1 rc s' h

/-- Before an origin is given no line with an instruction or any data directive generates a byte or touches the
    code file, accepted or not (`DS 0` is accepted), and the location counter stays. -/
theorem C37_nothing (n : Nat) (st : Status) (s : St)
    (hp : ∀ f s1, statement s = .ok (some f) s1 → ∀ key lab, f.entry = some (key, lab) → Plain lab)
    (ho : (starLabel s).flags.undef = true) :
    (∀ rc s', asmline n st s = .ok rc s' →
      s'.log = s.log ∧ s'.code = s.code ∧ (starLabel s').value = (starLabel s).value) ∧
    (∀ s', asmline n st s = .err s' → s'.log = .error s.passnumber (!s.flags.noerror) :: s.log ∧ s'.code = s.code ∧
      (starLabel s').value = (starLabel s).value) := by
  have h := line_made (n := n) (st := st) hp
  have hog : (startedSt s).flags.orgGv = false := by unfold startedSt; simp [ho]
  have hco : (startedSt s).code = s.code := by unfold startedSt; simp [ho]
  constructor
  · intro rc s' hr
    rw [hr] at h
    obtain ⟨bs, hb⟩ := h
    obtain ⟨rfl, hc⟩ := hb.noorg hog
    exact ⟨hb.log, hc.trans hco, by have := hb.star; simp at this; exact this⟩
  · intro s' hr
    rw [hr] at h
    obtain ⟨bs, hb⟩ := h
    obtain ⟨rfl, hc⟩ := hb.noorg hog
    exact ⟨hb.log, hc.trans hco, by have := hb.star; simp at this; exact this⟩

/-- In particular DS, ASC and ALIGN: an accepted directive has generated nothing, so by C07 and C08 it was one that
    has nothing to generate. -/
theorem C37_directives {h : Handler} (hg : h.generates = true) (self : Status → M RC) (fuel : Nat) (arg : Int)
    (l o : Option Str) (s s' : St) (rc : RC) (h0 : s.advance = 0) (ho : s.flags.orgGv = false)
    (hr : callHandler self fuel h arg l o s = .ok rc s') :
    s'.log = s.log ∧ s'.code = s.code ∧ ∀ bs, Gen bs s s' → bs = [] := by
  have hs := At.g (at_generates (self := self) (fuel := fuel) hg arg l o s h0)
  unfold At Out at hs
  rw [hr] at hs
  obtain ⟨bs, hm⟩ := gstar_made hs (by simp)
  obtain ⟨rfl, hc⟩ := hm.noorg ho
  have hl := hm.log
  simp only [reduceCtorEq, if_false, List.nil_append, byteEvents, List.reverse_nil] at hl
  refine ⟨hl, hc, fun bs hb => ?_⟩
  have := hb.advance
  have h1 := (hm.live rfl).1
  simp only at h1
  rw [h1] at this
  cases bs with
  | nil => rfl
  | cons => simp at this; omega

/-- `DS n` without an origin: accepted at most if `n` is 0 or out of range. -/
theorem C37_ds {e : Entry} (he : e ∈ pseudos) (hn : e.name = c!"DS") {o : Str} (ho : Spec.Operand o) :
    ∃ h, e.label.ptr = .handler h ∧ ∀ {self fuel label s rc s'}, s.advance = 0 → s.flags.orgGv = false →
      callHandler self fuel h e.label.modifier label (some o) s = .ok rc s' →
      ∃ n : Word, HasValue s o n ∧ (0 ≤ n.toInt → n.toInt < 2 ^ 31 → n.toInt = 0) := by
  obtain ⟨-, h, hp, hc⟩ := C07_ds he hn ho
  refine ⟨h, hp, fun {self fuel label s rc s'} h0 hog hr => ?_⟩
  obtain ⟨n, h1, h2⟩ := hc h0 hr
  refine ⟨n, h1, fun a b => ?_⟩
  have hg : h.generates = true := by
    have := (ds_entry he hn).2
    rw [hp] at this
    cases this; rfl
  have := (C37_directives hg self fuel _ label _ s s' rc h0 hog hr).2.2 _ (h2 a b)
  simp at this
  omega

/-- `ASC` without an origin: only the empty string is accepted. -/
theorem C37_asc {e : Entry} (he : e ∈ pseudos) (hn : e.name = c!"ASC") {d c : Char} (t : Str) (hc : c ≠ d) :
    ∃ h, e.label.ptr = .handler h ∧ ∀ {self fuel label s rc s'}, s.flags.orgGv = false →
      callHandler self fuel h e.label.modifier label (some (d :: c :: t)) s ≠ .ok rc s' := by
  refine ⟨_, (asc_entry he hn).2, fun {self fuel label s rc s'} hog => ?_⟩
  simp only [callHandler]
  refine Needs.left ?_ s hog rc s'
  unfold xAsc
  dsimp only
  split
  · unfold ascLoop
    rw [if_neg hc]
    split
    · cases t with
      | nil => unfold ascLoop; exact needs_error _
      | cons x t =>
        unfold ascLoop
        split
        · exact needs_error _
        · exact Needs.left (needs8 _)
    · exact Needs.left (needs8 _)
  · exact needs_error _

/-- Non-vacuity: without an origin all of these lines are errors, and the code file is not created. -/
example : (match assemble 60 { scode := some c!"o", list := false } (initSt { fs := fun _ => none }
      c!" cpu 6502\nfoo lda #1\n db 1\nbar\n asc 'x'\n ds 2\n align odd\nk = 3\n ds 0\n") with
    | .ok _ s => (s.errnumber, s.code.file.isNone, (bytesOf s.log).length)
    | _ => (0, false, 0)) = (6, true, 0) := by decide +kernel
example : (match statement (afterLines c!" cpu 6502\n lda #1\n" 1) with
    | .ok (some f) s1 => match f.entry with
      | some (_, l) => l.type == .mnemo && !l.flags.defcond && !l.flags.defmacro && !l.flags.deflabel &&
          (match l.ptr with | .handler (.h6502 _) => true | _ => false) && !s1.flags.orgGv
      | none => false
    | _ => false) = true := by decide +kernel

end Crasm

import Verif.Props.C18
import Verif.Props.C11

/-!
  **C20** Equates bind the value of the expression.
-/

namespace Crasm

/-- The symbol `l` is defined and stands for the result `r` of an expression: value and kind (type, register or
    bit number, attached data). -/
def Stands (l : Label) (r : Result) : Prop :=
  l.flags.undef = false ∧ l.value = r.value ∧ l.type = r.type ∧ l.modifier = r.modifier ∧ l.ptr = r.ptr

theorem SameL.stands {l l' : Label} {r : Result} (h : SameL l l') (hl : Stands l r) : Stands l' r := by
  obtain ⟨h1, h2, h3, h4, h5⟩ := hl
  exact ⟨h.undef.1.trans h1, h.value.1.trans h2, h.value.2.1.trans h3, h.value.2.2.1.trans h4, h.value.2.2.2.trans h5⟩

theorem equ_ok {x : Str} {o : Option Str} {s s' : St} {u : Unit} (h : xEqu (some x) o s = .ok u s') :
    ∃ r s1 l, parse o s = .ok r s1 ∧ s'.tree.find (canon s.segment x) = some l ∧ Stands l r := by
  unfold xEqu at h
  obtain ⟨r, s1, h1, h⟩ := bind_ok h
  have g1 := nwalk_gen W.walk h1
  obtain ⟨_, s2, h2, h⟩ := bind_ok h
  cases h2
  obtain ⟨_, s3, h3, h⟩ := bind_ok h
  have g3 := nwalk_gen (m := whenM (r.type = .absolute ∨ r.type = .relative) (echoAddr r.value)) (by walk) h3
  obtain ⟨_, s3', h3', h⟩ := bind_ok h
  replace g3 : s3'.segment = s1.segment := by
    unfold whenM at h3'
    split at h3' <;> cases h3' <;> exact g3.segment
  clear h3' h3
  generalize s3' = s3 at *
  change (deflabel x _ _ _ >>= _) s3 = _ at h
  obtain ⟨k, s4, h4, h⟩ := bind_ok h
  have hseg : s3.segment = s.segment := g3.trans g1.segment
  rcases deflabel_run x { r.flags with undef := false, used := false, noredef := false } r.type r.value s3 with ⟨msg, e⟩ | ⟨-, e⟩
  · rw [e] at h4; exact (error_not_ok h4).elim
  · rw [e] at h4
    injection h4 with e1 e2
    subst e1; subst e2
    rw [getS_bind_run] at h
    have hf : ∀ y, (s3.putL (canon s3.segment x) y).tree.find (canon s3.segment x) = some y := fun y => Tree.find_put_self _ _ _
    rw [hf] at h
    cases h
    rw [← hseg]
    exact ⟨r, s1, _, h1, Tree.find_put_self _ _ _, rfl, rfl, rfl, rfl, rfl⟩

/-- EQU (and `=`, which is read as EQU). -/
def IsEqu (lab : Label) : Prop :=
  lab.ptr = .handler (.pseudo .equ) ∧ lab.type = .mnemo ∧ lab.flags.defcond = false ∧ lab.flags.defmacro = false ∧ lab.flags.deflabel = true

instance (lab : Label) : Decidable (IsEqu lab) := by unfold IsEqu; infer_instance

/-- Among the directives, it is the one called EQU. -/
theorem C20_directive : ∀ e ∈ pseudos, IsEqu e.label ↔ e.name = c!"EQU" := by decide +kernel

/-- **C20**, definition: if a line that equates the name `x` is accepted, its operand has been evaluated, and afterwards
    the symbol stands for the result. -/
theorem C20_equate (n : Nat) (lst : Bool) (s s1 s' : St) (f : Fields) (rc : RC) (hf : statement s = .ok (some f) s1) {x key : Str} {lab : Label}
    (hx : f.label = some x) (he : f.entry = some (key, lab)) (hq : IsEqu lab) (hk : x ≠ c!"*") (h : asmline n ⟨lst, true⟩ s = .ok rc s') :
    ∃ r s2 l, parse f.oper s1 = .ok r s2 ∧ s'.tree.find (canon s.segment x) = some l ∧ Stands l r := by
  cases n with
  | zero => cases h
  | succ n =>
    obtain ⟨fl, h1, -, -⟩ := statement_run (n := n) (st := ⟨lst, true⟩) hf
    rw [h1] at h
    have fr := statement_frame hf
    obtain ⟨q1, q2, q3, q4, q5⟩ := hq
    unfold doFields at h
    rw [he] at h
    dsimp only at h
    split at h
    · exact (error_not_ok h).elim
    · rw [hx, q5] at h
      change (pure () >>= fun _ => execLine _ _ _ _ _ _ _) s1 = _ at h
      obtain ⟨_, s2, e, h⟩ := bind_ok h
      cases e
      unfold execLine at h
      rw [q3, q4, if_neg (by decide), if_neg (by rw [q2]; decide), if_pos q2, q1] at h
      obtain ⟨_, s2, h2, h⟩ := bind_ok h
      change ((callHandler _ _ (.pseudo .equ) _ _ _ >>= fun _ => pure ()) : M Unit) s1 = _ at h2
      obtain ⟨_, s3, h3, h2⟩ := bind_ok h2
      cases h2
      change ((xEqu (some x) f.oper >>= fun _ => pure RC.cont) : M RC) s1 = _ at h3
      obtain ⟨_, s4, h4, h3⟩ := bind_ok h3
      cases h3
      obtain ⟨r, s5, l, g1, g2, g3⟩ := equ_ok h4
      rw [fr.1] at g2
      have hne : canon s.segment x ≠ starKey := fun e => hk (canon_star e)
      obtain ⟨_, s6, h6, h⟩ := bind_ok h
      have e6 : ∃ l', s6.tree.find (canon s.segment x) = some l' ∧ SameL l l' := by
        unfold bumpStar at h6
        rw [getS_bind_run] at h6
        revert h6
        cases addS (starLabel s2).value (BitVec.ofInt 64 s2.advance) with
        | none => intro h6; cases h6
        | some v => intro h6; cases h6; exact put_same g2 fun e => absurd e hne
      obtain ⟨l6, a1, a2⟩ := e6
      have e7 := (nwalk_gen (m := (do whenM lst outputline; pure RC.cont : M RC)) (by walk) h).tree
      obtain ⟨l7, a3, a4⟩ := e7.some a1
      exact ⟨r, s5, l7, g1, a3, (a2.trans a4).stands g3⟩

/-- **C20**, reference: evaluating a name whose symbol stands for `r` gives the value and kind of `r` (or the program
    stops because its work buffer is full). -/
theorem C20_reference {x : Str} (hx : Spec.IsName x) {s : St} {l : Label} {r : Result} (hl : searchlabel s x = some l) (hr : Stands l r) :
    (∃ r' s', parse (some x) s = .ok r' s' ∧ r'.value = r.value ∧ r'.type = r.type ∧ r'.modifier = r.modifier ∧ r'.ptr = r.ptr) ∨
    ∃ t, parse (some x) s = .stop (.ub .filterBuffer) t := by
  obtain ⟨n1, n2, n3⟩ := name_facts hx
  rcases parse_leaf n1 n2 s with e | e
  · left
    obtain ⟨h1, h2, h3, h4, h5⟩ := hr
    rw [e]
    unfold parseLeaf
    rw [if_pos n3]
    have e : findlabel x s = .ok { l with flags := { l.flags with used := true } }
        { s with tree := s.tree.put (canon s.segment x) { l with flags := { l.flags with used := true } } } := by
      unfold findlabel
      rw [getS_bind_run, hl]
      rfl
    unfold cstlabel
    rw [run_ok e]
    dsimp only
    rw [h1]
    exact ⟨_, _, rfl, h2, h3, h4, h5⟩
  · exact .inr e

/-! ## Until it is redefined -/

/-- One step of the program that defines the name with key `k` (anew): as the address of a line, by EQU, by MACRO. -/
inductive Defines (k : Str) : Cfg → Cfg → Prop
  | here (s : St) (name : Str) (x : Label) (hk : canon s.segment name = k) (horg : s.flags.orgGv = true)
      (hd : defOk (s.tree.find k) true) (hv : x.flags.noredef = true ∧ x.value = (starLabel s).value) :
      Defines k (s, .live)
        ({ s.putL k x with notes := (s.passnumber, .label k x.value) :: s.notes }, .live)
  | equ (s : St) (name : Str) (x : Label) (hk : canon s.segment name = k)
      (hd : defOk (s.tree.find k) false) : Defines k (s, .live) (s.putL k x, .live)
  | macroName (s : St) (name : Str) (x : Label) (hk : canon s.segment name = k)
      (hd : defOk (s.tree.find k) false) (ht : x.type = .macro) : Defines k (s, .live) (s.putL k x, .live)
  | macroText (s : St) (q : Label) (hq : s.tree.find k = some q) (ht : q.type = .macro) (ls : List Str) :
      Defines k (s, .live) (s.putL k { q with ptr := .lines ls }, .live)

theorem step_keeps {a b : Cfg} {k : Str} {l : Label} (hk : k ≠ starKey) (hl : a.1.tree.find k = some l) (hu : l.flags.undef = false)
    (h : Step a b) : (∃ l', b.1.tree.find k = some l' ∧ SameL l l') ∨ Defines k a b := by
  have same : ∀ {t : Tree}, t.find k = some l → ∃ l', t.find k = some l' ∧ SameL l l' := fun h => ⟨l, h, .refl _⟩
  cases h with
  | p h =>
    left
    cases h with
    | h h =>
      cases h with
      | n h => exact nstep_same hk hl h
      | emit s x ho hc => exact same hl
      | lohi s b => exact same hl
      | note s n => exact same hl
    | flags => exact same hl
    | sect => exact same hl
    | bindNew s t e he hn =>
      refine put_same hl fun e => ?_
      subst e
      simp only at hl
      rw [hl] at hn; cases hn
    | bindOld s t e he q hq ho hq2 =>
      refine put_same hl fun e => ?_
      subst e
      simp only at hl
      rw [hl] at hq; cases hq
      rw [hu] at hq2; cases hq2
    | misc => exact same hl
    | push => exact same hl
  | here s name hne horg hd =>
    by_cases e : k = canon s.segment name
    · right; subst e
      exact .here s name (defdLabel (s.tree.find (canon s.segment name)) { noredef := true } (addrType s.flags)
        (starLabel s).value) rfl horg hd ⟨by unfold defdLabel LFlags.or; simp, rfl⟩
    · left; exact put_same hl fun e' => absurd e' e
  | equ s name flags type modifier ptr value hff hd hp =>
    by_cases e : k = canon s.segment name
    · right; subst e
      exact .equ s name _ rfl hd
    · left; exact put_same hl fun e' => absurd e' e
  | macroName s name hd =>
    by_cases e : k = canon s.segment name
    · right; subst e
      exact .macroName s name _ rfl hd rfl
    · left; exact put_same hl fun e' => absurd e' e
  | macroText s k' q hq ht ls =>
    by_cases e : k = k'
    · right; subst e
      exact .macroText s q hq ht ls
    · left; exact put_same hl fun e' => absurd e' e
  | markUsed s k' q hq =>
    left
    refine put_same hl fun e => ?_
    subst e
    simp only at hl
    rw [hl] at hq; cases hq
    exact rfl
  | bump s t hb => left; exact bumped_same hk hl hb
  | start0 => left; exact same hl
  | start1 => left; exact same hl
  | enter => left; exact same hl
  | leave => left; exact same hl
  | readMain => left; exact same hl
  | readFile => left; exact same hl
  | readMacro => left; exact same hl
  | call => left; exact same hl
  | drop => left; exact same hl
  | caught => left; exact same hl

theorem star_keeps {a b : Cfg} {k : Str} {l : Label} (hk : k ≠ starKey) (hl : a.1.tree.find k = some l) (hu : l.flags.undef = false)
    (h : Star Step a b) : (∃ l', b.1.tree.find k = some l' ∧ SameL l l') ∨ ∃ c d, Star Step a c ∧ Defines k c d ∧ Star Step d b := by
  induction h with
  | refl => exact .inl ⟨l, hl, .refl _⟩
  | @tail c d hs r ih =>
    rcases ih with ⟨l1, h1, h2⟩ | ⟨c', d', h1, h2, h3⟩
    · rcases step_keeps hk h1 (h2.undef.1.trans hu) r with ⟨l2, h3, h4⟩ | h3
      · exact .inl ⟨l2, h3, h2.trans h4⟩
      · exact .inr ⟨_, _, hs, h3, .refl _⟩
    · exact .inr ⟨c', d', h1, h2, .tail h3 r⟩

/-- **C20**, until it is redefined (1): whatever a line does and however it ends, the symbol goes on standing for the
    same result, unless in the course of it the name has been defined again. -/
theorem C20_kept_line (n : Nat) (st : Status) (s : St) {k : Str} {l : Label} {r : Result} (hk : k ≠ c!"*") (hl : s.tree.find k = some l)
    (hr : Stands l r) :
    (∃ l', (asmline n st s).state.tree.find k = some l' ∧ Stands l' r) ∨
    ∃ c d m, Star Step (s, .live) c ∧ Defines k c d ∧ Star Step d ((asmline n st s).state, m) := by
  have hw := walk_asmline n st s
  have key : ∀ {s' : St} {m : Mode}, Star Step (s, .live) (s', m) → (∃ l', s'.tree.find k = some l' ∧ Stands l' r) ∨
      ∃ c d m, Star Step (s, .live) c ∧ Defines k c d ∧ Star Step d (s', m) := by
    intro s' m h
    rcases star_keeps (a := (s, .live)) hk hl hr.1 h with ⟨l', h1, h2⟩ | ⟨c, d, h1, h2, h3⟩
    · exact .inl ⟨l', h1, h2.stands hr⟩
    · exact .inr ⟨c, d, m, h1, h2, h3⟩
  revert hw
  cases asmline n st s with
  | ok a s' => intro h; exact key h
  | err s' => intro h; exact key h
  | stop w s' => intro h; exact key h

/-- **C20**, until it is redefined (2): the same for the rest of the pass. -/
theorem C20_kept (fuel n : Nat) (b : Bool) (s : St) {k : Str} {l : Label} {r : Result} (hk : k ≠ c!"*") (hl : s.tree.find k = some l)
    (hr : Stands l r) :
    (∃ l', (passLoop fuel n b s).state.tree.find k = some l' ∧ Stands l' r) ∨
    ∃ c d m, Star Step (s, .live) c ∧ Defines k c d ∧ Star Step d ((passLoop fuel n b s).state, m) := by
  have hw := walk_passLoop fuel n b s
  have key : ∀ {s' : St} {m : Mode}, Star Step (s, .live) (s', m) → (∃ l', s'.tree.find k = some l' ∧ Stands l' r) ∨
      ∃ c d m, Star Step (s, .live) c ∧ Defines k c d ∧ Star Step d (s', m) := by
    intro s' m h
    rcases star_keeps (a := (s, .live)) hk hl hr.1 h with ⟨l', h1, h2⟩ | ⟨c, d, h1, h2, h3⟩
    · exact .inl ⟨l', h1, h2.stands hr⟩
    · exact .inr ⟨c, d, m, h1, h2, h3⟩
  revert hw
  cases passLoop fuel n b s with
  | ok a s' => intro h; exact key h
  | err s' => intro h; exact key h
  | stop w s' => intro h; exact key h

/-! ## Concrete cases -/

/-- `k` is a number, `j` a register, and `k` is redefined later on. -/
def equates : Str := c!" cpu z80\n*=$100\nk = 2+3\nj equ b\n db k\n ld j,4\nk = k+1\n db k\n"

example : (match assemble 60 { scode := some c!"o", list := false } (initSt { fs := fun _ => none } equates) with
    | .ok _ s => (s.errnumber, (bytesOf s.log).filterMap fun b => if b.1 = 2 then some b.2.2.1 else none)
    | _ => (1, [])) = (0, [6, 4, 6, 5]) := by decide +kernel

/-- The hypotheses of `C20_equate` hold for lines 3, 4 and 7, and the lines are accepted. -/
example : ([(2, c!"k"), (3, c!"j"), (6, c!"k")].all fun (i, x) => match statement (afterLines equates i) with
    | .ok (some f) _ => f.label == some x && (match f.entry with | some (_, lab) => decide (IsEqu lab) | none => false) &&
        (match asmline 60 ⟨true, true⟩ (afterLines equates i) with | .ok _ _ => true | _ => false)
    | _ => false) = true := by decide +kernel
example : Spec.IsName c!"k" := ⟨.inl (by decide), (by simp), (by decide)⟩

end Crasm

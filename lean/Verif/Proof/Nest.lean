import Verif.Proof.Skip
import Verif.Spec.Cond

/-! Which lines are skipped. -/

namespace Crasm
open Spec (Kind Nested)

/-- What a statement is to the text around it. -/
def kindOf : Option Fields → Kind
  | none => .plain
  | some f =>
    match f.entry with
    | none => .plain
    | some (_, lab) =>
      if lab.flags.defcond || lab.flags.defmacro then
        match lab.ptr with
        | .handler (.pseudo .if_) => .if_
        | .handler (.pseudo .else_) => .else_
        | .handler (.pseudo .endc) => .endc
        | .handler (.pseudo .macro) => .macro
        | _ => .plain
      else .plain

/-- Same symbols, same scope. -/
def SameNames (s s' : St) : Prop := s'.segment = s.segment ∧ ∀ k, s'.tree.find k = s.tree.find k

theorem SameNames.trans {a b c : St} (h : SameNames a b) (h' : SameNames b c) : SameNames a c :=
  ⟨h'.1.trans h.1, fun k => (h'.2 k).trans (h.2 k)⟩

theorem Still.names {s s' : St} (h : Still s s') : SameNames s s' := ⟨h.segment, h.find⟩

/-- With the symbols of `s`, the assembler takes the line `l` apart as a statement of kind `k`. -/
def IsKind (s : St) (l : Str) (k : Kind) : Prop :=
  ∃ s0 s1 f, SameNames s s0 ∧ s0.curline = l ∧ statement s0 = .ok f s1 ∧ kindOf f = k

theorem IsKind.of {s s' : St} (h : SameNames s s') {l : Str} {k : Kind} : IsKind s' l k → IsKind s l k :=
  fun ⟨s0, s1, f, h1, h2, h3, h4⟩ => ⟨s0, s1, f, h.trans h1, h2, h3, h4⟩

/-- The two captures of a filter. -/
def two (s pat : Str) : Option (Str × Str) :=
  if (filter s pat).ok then
    match (filter s pat).caps with
    | [a, b] => some (a, b)
    | _ => none
  else none

theorem filter2_two {s pat : Str} {st st' : St} {r : Option (Str × Str)} (h : filter2 s pat st = .ok r st') :
    r = two s pat := by
  unfold filter2 at h
  obtain ⟨q, s1, h1, h2⟩ := bind_ok h
  rw [filterC_run] at h1
  unfold two
  split at h1
  · cases h1
  · split at h1
    · next ho =>
      rw [if_pos ho]
      cases h1
      revert h2
      match hc : (filter s pat).caps with
      | [] => intro h2; cases h2; rfl
      | [_] => intro h2; cases h2; rfl
      | [_, _] => intro h2; cases h2; rfl
      | _ :: _ :: _ :: _ => intro h2; cases h2; rfl
    · next ho =>
      rw [if_neg ho]
      cases h1
      cases h2; rfl

/-- A line of a macro definition without its comment. -/
def uncomment (l : Str) : Str :=
  match two l c!"?_;?" with
  | some (a, _) => a
  | none => l

/-- The line that ends a macro definition: the word ENDM is on it. -/
def EndsDef (l : Str) : Prop := ∃ ab, two (uncomment l) c!"_?_ENDM_?" = some ab

/-- The lines read, oldest first, of what was added to the history. -/
def said (new : List Event) : List Str :=
  (new.filterMap fun
    | .line _ _ t => some t
    | _ => none).reverse

def NoErrors (new : List Event) : Prop := ∀ p b, Event.error p b ∉ new

theorem said_append (a b : List Event) : said (a ++ b) = said b ++ said a := by
  simp [said]

theorem NoErrors.split {a b : List Event} (h : NoErrors (a ++ b)) : NoErrors a ∧ NoErrors b :=
  ⟨fun p q hm => h p q (List.mem_append_left _ hm), fun p q hm => h p q (List.mem_append_right _ hm)⟩

/-! ### error() leaves its trace -/

def Traced (s : St) (c : Cfg) : Prop :=
  ∃ new, c.1.log = new ++ s.log ∧ (c.2 = .pend → ¬ NoErrors new)

theorem traced_step {s : St} {a b : Cfg} (h : Step a b) (ht : Traced s a) : Traced s b := by
  have keep : ∀ {x y : St} {m : Mode}, m ≠ .pend → Traced s (x, .live) → (∃ new, y.log = new ++ x.log) → Traced s (y, m) := by
    rintro x y m hm ⟨n, e, -⟩ ⟨n', e'⟩
    exact ⟨n' ++ n, by dsimp only at e ⊢; rw [e', e]; simp, fun h => absurd h hm⟩
  have err : ∀ {x y : St} {p b}, Traced s (x, .live) → y.log = .error p b :: x.log → Traced s (y, .pend) := by
    rintro x y p b ⟨n, e, -⟩ e'
    exact ⟨.error p b :: n, by dsimp only at e ⊢; rw [e', e]; simp, fun _ h => h p b (by simp)⟩
  cases h with
  | p h =>
    cases h with
    | h h =>
      cases h with
      | n h =>
        cases h with
        | error0 s h => exact err ht rfl
        | error1 s t h hb => exact err ht rfl
        | die s => exact keep (by simp) ht ⟨[], rfl⟩
        | odd s =>
          obtain ⟨n, e, h⟩ := ht
          exact ⟨n, e, h⟩
        | scratch => exact keep (by simp) ht ⟨[], rfl⟩
        | use => exact keep (by simp) ht ⟨[], rfl⟩
      | emit s x => exact keep (by simp) ht ⟨[_], rfl⟩
      | lohi s => exact keep (by simp) ht ⟨[], rfl⟩
      | note s => exact keep (by simp) ht ⟨[], rfl⟩
    | push s src hd => exact keep (by simp) ht ⟨[_], rfl⟩
    | _ => exact keep (by simp) ht ⟨[], rfl⟩
  | call s src hd => exact keep (by simp) ht ⟨[_], rfl⟩
  | readMain s hs => exact keep (by simp) ht ⟨[_], rfl⟩
  | readFile s => exact keep (by simp) ht ⟨[_], rfl⟩
  | readMacro s => exact keep (by simp) ht ⟨[_], rfl⟩
  | caught x =>
    obtain ⟨n, e, -⟩ := ht
    exact ⟨n, e, by simp⟩
  | _ => exact keep (by simp) ht ⟨[], rfl⟩

/-- A part of the program that ends by error() has written so in the history. -/
theorem err_traced {m : M α} (h : Walk Step m) {s s' : St} (he : m s = .err s') :
    ∃ new, s'.log = new ++ s.log ∧ ¬ NoErrors new := by
  have h1 := h s
  rw [he] at h1
  obtain ⟨n, e, hn⟩ := Star.inv (P := Traced s) (fun a b hs ha => traced_step hs ha) h1 ⟨[], rfl, by simp⟩
  exact ⟨n, e, hn rfl⟩

/-! ### Reading a line -/

theorem linegets_log {s s' : St} {u : Unit} (h : linegets s = .ok u s') :
    ∃ p d, s'.log = .line p d s'.curline :: s.log := by
  rw [linegets_eq] at h
  have hp : ∀ (st : List Src) (s : St), (popEnds st s).log = s.log := by
    intro st
    induction st with
    | nil => intro s; rfl
    | cons src rest ih =>
      obtain ⟨_, _, _, kind⟩ := src
      intro s
      cases kind with
      | «macro» => rfl
      | file t e =>
        cases e with
        | false => rfl
        | true => unfold popEnds; exact ih _
  have e0 := hp s.stack s
  generalize popEnds s.stack s = s1 at h e0
  rw [← e0]
  clear hp e0
  unfold linegetsRest at h
  rw [getS_bind_run] at h
  revert h
  cases hs : s1.stack with
  | nil =>
    dsimp only
    generalize fgets (lineMax - 1) s1.main = q
    obtain ⟨raw, t', e'⟩ := q
    dsimp only
    intro h
    obtain ⟨_, s2, h1, h2⟩ := bind_ok h
    rcases takeLine_run raw s1 with ⟨w, s3, k, e, -⟩ | ⟨s3, e, l, b, f, rfl⟩
    · rw [e] at h1; cases h1
    · rw [e] at h1; cases h1; cases h2
      exact ⟨_, _, rfl⟩
  | cons src rest =>
    dsimp only
    cases hk : src.kind with
    | file t e =>
      dsimp only
      generalize fgets (lineMax - 1) t = q
      obtain ⟨raw, t', e'⟩ := q
      dsimp only
      intro h
      obtain ⟨_, s2, h1, h2⟩ := bind_ok h
      rcases takeLine_run raw s1 with ⟨w, s3, k, e, -⟩ | ⟨s3, e, l, b, f, rfl⟩
      · rw [e] at h1; cases h1
      · rw [e] at h1; cases h1; cases h2
        exact ⟨_, _, rfl⟩
    | «macro» args all lines =>
      cases lines with
      | nil => intro h; cases h
      | cons l ls =>
        dsimp only
        intro h
        rw [modS_bind_run, modS_bind_run] at h
        have q := (by quiet : Quiet (whenM ((expandLine args all false [] l).2 = true) (warning c!"Too long line"))).run
          { s1 with
            stack := { src with kind := .macro args all ls } :: rest, curline := (expandLine args all false [] l).1.reverse,
            log := .line s1.passnumber (rest.length + 1) (expandLine args all false [] l).1.reverse :: s1.log }
        rw [h] at q
        obtain ⟨_, _, _, rfl⟩ := q
        exact ⟨_, _, rfl⟩

theorem quiet_log {m : M α} [Quiet m] {s s' : St} {a : α} (h : m s = .ok a s') : s'.log = s.log ∧ s'.curline = s.curline := by
  have := (inferInstance : Quiet m).run s
  rw [h] at this
  obtain ⟨_, _, _, rfl⟩ := this
  exact ⟨rfl, rfl⟩

/-! ### What is skipped -/

/-- The block skipped between `s` and `s'`, up to the ELSE or ENDC line on which it ended with `r`. `s0` has the
    symbols. -/
def Upto (s0 : St) (new : List Event) (r : RC) : Prop :=
  ∃ body e, said new = body ++ [e] ∧ Nested (IsKind s0) EndsDef body ∧
    (r = .endc ∧ IsKind s0 e .endc ∨ r = .else_ ∧ IsKind s0 e .else_)

/-- One line `l` skipped, with all that belongs to it. -/
def Piece (s0 : St) (l : Str) (new : List Event) (r : RC) : Prop :=
  r = .cont ∧ Nested (IsKind s0) EndsDef (l :: said new) ∨
  said new = [] ∧ (r = .endc ∧ IsKind s0 l .endc ∨ r = .else_ ∧ IsKind s0 l .else_)

/-- `m`, if it returns from `s`, skips a piece. -/
def Skips (m : M RC) : Prop := ∀ s r s', Ready s → m s = .ok r s' →
  ∃ new, s'.log = new ++ s.log ∧ (NoErrors new → Piece s s.curline new r)

theorem nested_of {s s' : St} (h : SameNames s s') {ls : List Str} (hn : Nested (IsKind s') EndsDef ls) :
    Nested (IsKind s) EndsDef ls := by
  induction hn with
  | nil => exact .nil
  | plain h1 _ ih => exact .plain (h1.of h) ih
  | ifEndc h1 _ h2 _ i1 i2 => exact .ifEndc (h1.of h) i1 (h2.of h) i2
  | ifElse h1 _ h2 _ h3 _ i1 i2 i3 => exact .ifElse (h1.of h) i1 (h2.of h) i2 (h3.of h) i3
  | def_ h1 h2 h3 _ ih => exact .def_ (h1.of h) h2 h3 ih

theorem Piece.of {s s' : St} (h : SameNames s s') {l : Str} {new : List Event} {r : RC} (hp : Piece s' l new r) : Piece s l new r := by
  rcases hp with ⟨rfl, hn⟩ | ⟨h0, h1⟩
  · exact .inl ⟨rfl, nested_of h hn⟩
  · refine .inr ⟨h0, ?_⟩
    rcases h1 with ⟨h1, h2⟩ | ⟨h1, h2⟩
    · exact .inl ⟨h1, h2.of h⟩
    · exact .inr ⟨h1, h2.of h⟩

theorem B.ok {R : St → St → Prop} {m : M α} (h : B R m) {s s' : St} {a : α} (e : m s = .ok a s') : R s s' := by
  have := h.run s
  rw [e] at this
  exact this

theorem ifLoop_skips {self : Status → M RC} (hk : ∀ st, st.act = false → Skips (self st))
    (hs : ∀ st, st.act = false → B Sk (self st)) (hw : ∀ st, Walk Step (self st)) {st : Status} (ha : st.act = false) (n : Nat) :
    ∀ s r s', Ready s → ifLoop self st n s = .ok r s' →
      ∃ new, s'.log = new ++ s.log ∧ (NoErrors new → Upto s new r) := by
  induction n with
  | zero => intro s r s' _ h; cases h
  | succ n ih =>
    intro s r s' hr h
    unfold ifLoop at h
    obtain ⟨q, s1, h1, h2⟩ := bind_ok h
    have wr : Walk Step (ifRound self st) := by
      haveI : W Step (self st) := ⟨hw st⟩
      unfold ifRound; walk
    haveI := hs st ha
    have bs : B Sk (catchErr (ifRound self st) (do bumpErr; pure (.rc .cont))) :=
      B.catchErr (by unfold ifRound; skip) (by skip)
    have still := bs.ok h1 hr
    clear h
    cases he : ifRound self st s with
    | stop w t => simp only [catchErr, he] at h1; cases h1
    | err t =>
      have e1 : s1.log = t.log ∧ q = .rc .cont := by
        simp only [catchErr, he] at h1
        cases h1
        exact ⟨rfl, rfl⟩
      obtain ⟨e1, rfl⟩ := e1
      obtain ⟨n1, g1, g2⟩ := err_traced wr he
      obtain ⟨n2, g3, -⟩ := ih s1 r s' (still.ready hr) h2
      refine ⟨n2 ++ n1, by rw [g3, e1, g1]; simp, fun hn => absurd hn.split.2 g2⟩
    | ok q' t =>
      have e1 : q' = q ∧ t = s1 := by
        simp only [catchErr, he] at h1
        cases h1
        exact ⟨rfl, rfl⟩
      obtain ⟨rfl, rfl⟩ := e1
      clear h1
      unfold ifRound at he
      obtain ⟨_, s2, h3, h4⟩ := bind_ok he
      have still2 := (inferInstance : B Sk linegets).ok h3 hr
      obtain ⟨p, d, g1⟩ := linegets_log h3
      rw [getS_bind_run] at h4
      by_cases hm : s2.mainEof = true
      · rw [if_pos hm] at h4
        cases h4
        exact absurd h2 error_not_ok
      · rw [if_neg hm] at h4
        obtain ⟨r1, s3, h5, h6⟩ := bind_ok h4
        obtain ⟨n1, g2, g3⟩ := hk st ha s2 r1 s3 (still2.ready hr) h5
        cases h6
        have g3' : NoErrors n1 → Piece s s2.curline n1 r1 := fun hn => (g3 hn).of still2.names
        have hx : r1 = .exitm → ¬ NoErrors n1 := by
          rintro rfl hn
          rcases g3 hn with ⟨h, -⟩ | ⟨-, ⟨h, -⟩ | ⟨h, -⟩⟩ <;> cases h
        have glog : t.log = n1 ++ [.line p d s2.curline] ++ s.log := by rw [g2, g1]; simp
        have fin : ∀ {r2}, (r2 = .endc ∨ r2 = .else_) → r1 = r2 → r = r2 → t = s' →
            ∃ new, s'.log = new ++ s.log ∧ (NoErrors new → Upto s new r) := by
          intro r2 hr2 e1 e2 e3
          subst e1 e2 e3
          refine ⟨_, glog, fun hn => ?_⟩
          refine ⟨[], s2.curline, ?_, .nil, ?_⟩
          · rcases g3' hn.split.1 with ⟨h, -⟩ | ⟨h, -⟩
            · rw [h] at hr2; simp at hr2
            · rw [said_append, h]; rfl
          · rcases g3' hn.split.1 with ⟨h, -⟩ | ⟨h, h1⟩
            · rw [h] at hr2; simp at hr2
            · exact h1
        cases r1 with
        | exitm =>
          have hc : (if (!st.act && decide (RC.exitm = RC.exitm)) = true then RC.cont else RC.exitm) = .cont := by simp [ha]
          rw [hc] at h2
          obtain ⟨n2, g4, -⟩ := ih t r s' (still.ready hr) h2
          exact ⟨n2 ++ (n1 ++ [.line p d s2.curline]), by rw [g4, glog]; simp, fun hn => absurd hn.split.2.split.1 (hx rfl)⟩
        | cont =>
          have hc : (if (!st.act && decide (RC.cont = RC.exitm)) = true then RC.cont else RC.cont) = .cont := by simp
          rw [hc] at h2
          obtain ⟨n2, g4, g5⟩ := ih t r s' (still.ready hr) h2
          refine ⟨n2 ++ (n1 ++ [.line p d s2.curline]), by rw [g4, glog]; simp, fun hn => ?_⟩
          obtain ⟨hn2, hn1⟩ := hn.split
          have hp := g3' hn1.split.1
          obtain ⟨body, e, b1, b2, b3⟩ := g5 hn2
          rcases hp with ⟨-, hp⟩ | ⟨-, ⟨h, -⟩ | ⟨h, -⟩⟩
          · have b2' : Nested (IsKind s) EndsDef body := nested_of still.names b2
            refine ⟨(s2.curline :: said n1) ++ body, e, ?_, hp.append b2', ?_⟩
            · rw [said_append, said_append, b1]
              simp [said]
            · rcases b3 with ⟨b3, b4⟩ | ⟨b3, b4⟩
              · exact .inl ⟨b3, b4.of still.names⟩
              · exact .inr ⟨b3, b4.of still.names⟩
          · cases h
          · cases h
        | endc =>
          have hc : (if (!st.act && decide (RC.endc = RC.exitm)) = true then RC.cont else RC.endc) = .endc := by simp
          rw [hc] at h2
          cases h2
          exact fin (.inl rfl) rfl rfl rfl
        | else_ =>
          have hc : (if (!st.act && decide (RC.else_ = RC.exitm)) = true then RC.cont else RC.else_) = .else_ := by simp
          rw [hc] at h2
          cases h2
          exact fin (.inr rfl) rfl rfl rfl
        | endm =>
          have hc : (if (!st.act && decide (RC.endm = RC.exitm)) = true then RC.cont else RC.endm) = .endm := by simp
          rw [hc] at h2
          cases h2
          refine ⟨_, glog, fun hn => ?_⟩
          rcases g3' hn.split.1 with ⟨h, -⟩ | ⟨-, ⟨h, -⟩ | ⟨h, -⟩⟩ <;> cases h

theorem Upto.of {s s' : St} (h : SameNames s s') {new : List Event} {r : RC} : Upto s' new r → Upto s new r := by
  rintro ⟨body, e, h1, h2, h3⟩
  refine ⟨body, e, h1, nested_of h h2, ?_⟩
  rcases h3 with ⟨h3, h4⟩ | ⟨h3, h4⟩
  · exact .inl ⟨h3, h4.of h⟩
  · exact .inr ⟨h3, h4.of h⟩

theorem walk_ok_log {m : M α} [Quiet m] {s s' : St} {a : α} (h : m s = .ok a s') : s'.log = [] ++ s.log := (quiet_log h).1

theorem ifList_log {st : Status} {s s' : St} {u : Unit} (h : ifList st s = .ok u s') : s'.log = s.log ∧ s'.curline = s.curline := by
  haveI : Quiet (ifList st) := by unfold ifList; quiet
  exact quiet_log h

section
variable {self : Status → M RC} (hk : ∀ st, st.act = false → Skips (self st))
  (hs : ∀ st, st.act = false → B Sk (self st)) (hw : ∀ st, Walk Step (self st))
include hk hs hw

/-- The part after ELSE, when it is not assembled. -/
theorem ifElse_skips {st : Status} {taken : Bool} (ha : (st.act && !taken) = false) {fuel : Nat} {old : Option Char} {s s' : St} {r : RC}
    (hr : Ready s) (h : ifElse self fuel st taken old s = .ok r s') :
    Still s s' ∧ ∃ new, s'.log = new ++ s.log ∧ (NoErrors new → r = .cont ∧ Upto s new .endc) := by
  unfold ifElse at h
  rw [getS_bind_run] at h
  have ha' : (st.and (branchStatus (!taken) s.flags.iflistOn)).act = false := ha
  generalize st.and (branchStatus (!taken) s.flags.iflistOn) = st1 at h ha'
  obtain ⟨_, s1, h1, h2⟩ := bind_ok h
  have t1 := (inferInstance : B Sk (markSkipped st (!taken))).ok h1 hr
  have l1 : s1.log = s.log := by
    unfold markSkipped whenM at h1
    revert h1
    split
    · intro h1; cases h1; rfl
    · intro h1; cases h1; rfl
  obtain ⟨r1, s2, h3, h4⟩ := bind_ok h2
  have t2 := t1.trans ((sk_ifLoop hs ha' fuel).ok h3 (t1.ready hr))
  obtain ⟨new, g1, g2⟩ := ifLoop_skips hk hs hw ha' fuel s1 r1 s2 (t1.ready hr) h3
  rw [l1] at g1
  rw [modS_bind_run] at h4
  clear h h1 h2 h3
  by_cases hc : r1 = .endm ∨ r1 = .else_
  · rw [if_pos hc] at h4; exact absurd h4 error_not_ok
  · rw [if_neg hc] at h4
    have t3 : Still s2 { s2 with lineprefix := old } := (sk_prefix old).ok (s := s2) rfl (t2.ready hr)
    obtain ⟨_, s3, h5, h6⟩ := bind_ok h4
    have t4 := t2.trans (t3.trans ((inferInstance : B Sk (ifList st)).ok h5 (t3.ready (t2.ready hr))))
    have l3 := (ifList_log h5).1
    cases h6
    refine ⟨t4, new, by rw [l3]; exact g1, fun hn => ?_⟩
    obtain ⟨body, e, b1, b2, b3⟩ := g2 hn
    have hr1 : r1 = .endc := by
      rcases b3 with ⟨b3, -⟩ | ⟨b3, -⟩
      · exact b3
      · exact absurd (.inr b3) hc
    subst hr1
    exact ⟨by simp, Upto.of t1.names ⟨body, e, b1, b2, b3⟩⟩

/-- IF in text that is not assembled. -/
theorem xIf_skips {st : Status} (ha : st.act = false) {fuel : Nat} {o : Option Str} {s s' : St} {r : RC}
    (hr : Ready s) (h : xIf self fuel st o s = .ok r s') :
    ∃ new, s'.log = new ++ s.log ∧ (NoErrors new → r = .cont ∧
      (Upto s new .endc ∨ ∃ n1 n2, new = n2 ++ n1 ∧ Upto s n1 .else_ ∧ Upto s n2 .endc)) := by
  unfold xIf at h
  rw [ha] at h
  simp only [Bool.false_eq_true, if_false, pure_bind] at h
  rw [getS_bind_run] at h
  have ha' : (st.and (branchStatus false s.flags.iflistOn)).act = false := by simp [Status.and, ha]
  generalize st.and (branchStatus false s.flags.iflistOn) = st1 at h ha'
  obtain ⟨_, s1, h1, h2⟩ := bind_ok h
  have t1 := (inferInstance : B Sk (ifList st)).ok h1 hr
  have l1 := (ifList_log h1).1
  rw [getS_bind_run] at h2
  generalize s1.lineprefix = old at h2
  obtain ⟨_, s2, h3, h4⟩ := bind_ok h2
  have e2 : s2 = s1 := by
    unfold markSkipped whenM at h3
    rw [ha] at h3
    cases h3; rfl
  subst e2
  obtain ⟨r1, s3, h5, h6⟩ := bind_ok h4
  have t3 := t1.trans ((sk_ifLoop hs ha' fuel).ok h5 (t1.ready hr))
  obtain ⟨new, g1, g2⟩ := ifLoop_skips hk hs hw ha' fuel _ r1 s3 (t1.ready hr) h5
  rw [l1] at g1
  rw [modS_bind_run] at h6
  clear h h1 h2 h3 h4 h5
  by_cases hc : r1 = .endm
  · rw [if_pos hc] at h6; exact absurd h6 error_not_ok
  · rw [if_neg hc] at h6
    have t4 : Still s3 { s3 with lineprefix := old } := (sk_prefix old).ok (s := s3) rfl (t3.ready hr)
    obtain ⟨_, s5, h7, h8⟩ := bind_ok h6
    have t5 := t3.trans (t4.trans ((inferInstance : B Sk (ifList st)).ok h7 (t4.ready (t3.ready hr))))
    have l5 := (ifList_log h7).1
    have g1' : s5.log = new ++ s.log := by rw [l5]; exact g1
    have els : r1 ≠ .endc → ifElse self fuel st false old s5 = .ok r s' →
        ∃ new, s'.log = new ++ s.log ∧ (NoErrors new → r = .cont ∧
          (Upto s new .endc ∨ ∃ n1 n2, new = n2 ++ n1 ∧ Upto s n1 .else_ ∧ Upto s n2 .endc)) := by
      intro hne h9
      obtain ⟨-, n2, g3, g4⟩ := ifElse_skips hk hs hw (by simp [ha]) (t5.ready hr) h9
      refine ⟨n2 ++ new, by rw [g3, g1']; simp, fun hn => ?_⟩
      obtain ⟨g5, g6⟩ := g4 hn.split.1
      refine ⟨g5, .inr ⟨new, n2, rfl, ?_, g6.of t5.names⟩⟩
      have g7 := g2 hn.split.2
      have : r1 = .else_ := by
        obtain ⟨_, _, _, _, ⟨h, -⟩ | ⟨h, -⟩⟩ := g7
        · exact absurd h hne
        · exact h
      rw [← this]
      exact g7.of t1.names
    revert h8
    cases r1 with
    | endm => exact absurd rfl hc
    | endc =>
      intro h8; cases h8
      exact ⟨new, g1', fun hn => ⟨rfl, .inl ((g2 hn).of t1.names)⟩⟩
    | exitm =>
      intro h8; cases h8
      refine ⟨new, g1', fun hn => ?_⟩
      obtain ⟨_, _, _, _, ⟨h, -⟩ | ⟨h, -⟩⟩ := g2 hn <;> cases h
    | cont => exact els (by simp)
    | else_ => exact els (by simp)
end

/-- A macro definition in text that is not assembled. -/
theorem macroLoop_skips (st : Status) (n : Nat) : ∀ acc s q s', macroLoop st n acc s = .ok q s' →
    ∃ new b e, s'.log = new ++ s.log ∧ said new = b ++ [e] ∧ (∀ l ∈ b, ¬ EndsDef l) ∧ EndsDef e := by
  induction n with
  | zero => intro acc s q s' h; cases h
  | succ n ih =>
    intro acc s q s' h
    unfold macroLoop at h
    obtain ⟨_, s1, h1, h2⟩ := bind_ok h
    have l1 := (quiet_log h1).1
    obtain ⟨_, s2, h3, h4⟩ := bind_ok h2
    obtain ⟨p, d, l2⟩ := linegets_log h3
    rw [getS_bind_run] at h4
    clear h h1 h2 h3
    by_cases hm : s2.mainEof = true
    · rw [if_pos hm] at h4; exact absurd h4 error_not_ok
    · rw [if_neg hm] at h4
      obtain ⟨l, s3, h5, h6⟩ := bind_ok h4
      have e3 : l = uncomment s2.curline ∧ s3.log = s2.log := by
        obtain ⟨r, s4, h7, h8⟩ := bind_ok h5
        have e7 := filter2_two h7
        have e8 := (quiet_log h7).1
        unfold uncomment
        rw [← e7]
        revert h8
        cases r with
        | none => intro h8; cases h8; exact ⟨rfl, e8⟩
        | some p => intro h8; cases h8; exact ⟨rfl, e8⟩
      obtain ⟨rfl, l3⟩ := e3
      obtain ⟨_, s5, h9, h10⟩ := bind_ok h6
      haveI : Quiet (whenM (st.lst = true) outputline) := by quiet
      have l5 := (quiet_log h9).1
      obtain ⟨r, s6, h11, h12⟩ := bind_ok h10
      have e11 := filter2_two h11
      have l6 := (quiet_log h11).1
      have ll : s6.log = [.line p d s2.curline] ++ s.log := by rw [l6, l5, l3, l2, l1]; rfl
      revert h12
      cases r with
      | some ab =>
        intro h12
        cases h12
        exact ⟨_, [], s2.curline, ll, rfl, by simp, ab, e11.symm⟩
      | none =>
        intro h12
        obtain ⟨new, b, e, g1, g2, g3, g4⟩ := ih _ _ _ _ h12
        refine ⟨new ++ [.line p d s2.curline], s2.curline :: b, e, by rw [g1, ll]; simp, ?_, ?_, g4⟩
        · rw [said_append, g2]; rfl
        · intro x hx
          rcases List.mem_cons.1 hx with rfl | hx
          · rintro ⟨ab, hab⟩
            rw [← e11] at hab; cases hab
          · exact g3 x hx

theorem xMacro_skips {st : Status} (ha : st.act = false) {fuel : Nat} {l o : Option Str} {s s' : St} {r : RC}
    (h : xMacro fuel st l o s = .ok r s') :
    r = .cont ∧ ∃ new b e, s'.log = new ++ s.log ∧ said new = b ++ [e] ∧ (∀ l ∈ b, ¬ EndsDef l) ∧ EndsDef e := by
  unfold xMacro at h
  cases l with
  | none => cases h
  | some l =>
    dsimp only at h
    rw [getS_bind_run] at h
    revert h
    split
    · intro h; exact absurd h error_not_ok
    · split
      · intro h; exact absurd h error_not_ok
      · rw [ha]
        simp only [Bool.false_eq_true, if_false, pure_bind]
        intro h
        obtain ⟨_, s1, h1, h2⟩ := bind_ok h
        haveI : Quiet (whenM (st.lst = true) outputline) := by quiet
        have l1 := (quiet_log h1).1
        obtain ⟨q, s2, h3, h4⟩ := bind_ok h2
        obtain ⟨new, b, e, g1, g2⟩ := macroLoop_skips st fuel _ _ _ _ h3
        obtain ⟨ls, x, y⟩ := q
        dsimp only at h4
        revert h4
        split
        · intro h4; exact absurd h4 error_not_ok
        · intro h4
          cases h4
          exact ⟨rfl, new, b, e, by rw [g1, l1], g2⟩

theorem kindOf_special {f : Fields} {key : Str} {lab : Label} {p : Pseudo} (he : f.entry = some (key, lab))
    (hc : (lab.flags.defcond || lab.flags.defmacro) = true) (hp : lab.ptr = .handler (.pseudo p)) :
    kindOf (some f) = match p with
      | .if_ => .if_ | .else_ => .else_ | .endc => .endc | .macro => .macro | _ => .plain := by
  simp only [kindOf, he, hc, hp, if_true]
  cases p <;> rfl

theorem said_nil : said [] = [] := rfl

/-- A plain line. -/
theorem Piece.plain {s0 : St} {l : Str} (h : IsKind s0 l .plain) : Piece s0 l [] .cont := .inl ⟨rfl, .plain h .nil⟩

section
variable {self : Status → M RC} (hk : ∀ st, st.act = false → Skips (self st))
  (hs : ∀ st, st.act = false → B Sk (self st)) (hw : ∀ st, Walk Step (self st))
include hk hs hw

theorem execLine_skips {st : Status} (ha : st.act = false) {fuel : Nat} {l o : Option Str} {k : Str} {lab : Label}
    (hg : SpecialOk lab.flags lab.type lab.ptr lab.modifier) {f : Fields} (he : f.entry = some (k, lab)) {s0 s s' : St} {r : RC}
    {line : Str} (hkind : IsKind s0 line (kindOf (some f))) (hn : SameNames s0 s) (hr : Ready s)
    (h : execLine self fuel st l o k lab s = .ok r s') :
    ∃ new, s'.log = new ++ s.log ∧ (NoErrors new → Piece s0 line new r) := by
  unfold execLine at h
  by_cases hc : (lab.flags.defcond || lab.flags.defmacro) = true
  · rw [if_pos hc] at h
    obtain ⟨-, p, hp, hptr⟩ := hg.1 (by simpa using hc)
    rw [kindOf_special he hc hptr] at hkind
    rw [hptr] at h
    dsimp only at h
    unfold callHandler at h
    dsimp only at h
    rw [ofInt_toInt] at h
    simp only [condPseudos, List.mem_cons, List.not_mem_nil, or_false] at hp
    have ends : ∀ {msg rc}, IsKind s0 line .plain → macroEnd msg rc st o s = .ok r s' →
        ∃ new, s'.log = new ++ s.log ∧ (NoErrors new → Piece s0 line new r) := by
      intro msg rc hki h
      unfold macroEnd at h
      revert h
      split
      · intro h; exact absurd h error_not_ok
      · intro h
        rw [getS_bind_run] at h
        obtain ⟨_, s1, h1, h2⟩ := bind_ok h
        haveI : Quiet (whenM ((s.macrolevel = 0 && st.lst) = true) outputline) := by quiet
        have l1 := (quiet_log h1).1
        rw [ha] at h2
        simp only [Bool.and_false, Bool.false_eq_true, if_false] at h2
        cases h2
        exact ⟨[], l1, fun _ => .plain hki⟩
    rcases hp with rfl | rfl | rfl | rfl | rfl | rfl
    · obtain ⟨new, g1, g2⟩ := xIf_skips hk hs hw ha hr h
      refine ⟨new, g1, fun hn' => ?_⟩
      obtain ⟨rfl, g3⟩ := g2 hn'
      refine .inl ⟨rfl, ?_⟩
      rcases g3 with g3 | ⟨n1, n2, rfl, g3, g4⟩
      · obtain ⟨b, e, b1, b2, ⟨-, b3⟩ | ⟨b3, -⟩⟩ := g3.of hn
        · rw [b1]
          exact .ifEndc hkind b2 b3 .nil
        · cases b3
      · obtain ⟨b, e, b1, b2, ⟨b3, -⟩ | ⟨-, b3⟩⟩ := g3.of hn
        · cases b3
        · obtain ⟨c, d, c1, c2, ⟨-, c3⟩ | ⟨c3, -⟩⟩ := g4.of hn
          · rw [said_append, b1, c1]
            simp only [List.append_assoc, List.cons_append, List.nil_append]
            exact .ifElse hkind b2 b3 c2 c3 .nil
          · cases c3
    · dsimp only at h
      unfold xElse at h
      revert h
      split
      · intro h; exact absurd h error_not_ok
      · intro h; cases h
        exact ⟨[], rfl, fun _ => .inr ⟨rfl, .inr ⟨rfl, hkind⟩⟩⟩
    · dsimp only at h
      unfold xEndc at h
      revert h
      split
      · intro h; exact absurd h error_not_ok
      · intro h; cases h
        exact ⟨[], rfl, fun _ => .inr ⟨rfl, .inl ⟨rfl, hkind⟩⟩⟩
    · obtain ⟨rfl, new, b, e, g1, g2, g3, g4⟩ := xMacro_skips ha h
      refine ⟨new, g1, fun _ => .inl ⟨rfl, ?_⟩⟩
      rw [g2]
      exact .def_ hkind g3 g4 .nil
    · exact ends hkind h
    · exact ends hkind h
  · rw [if_neg hc] at h
    have hki : IsKind s0 line .plain := by
      have : kindOf (some f) = .plain := by simp only [kindOf, he, if_neg hc]
      rwa [this] at hkind
    have quietly : ∀ {m : M RC}, Quiet m → m s = .ok r s' → r = .cont →
        ∃ new, s'.log = new ++ s.log ∧ (NoErrors new → Piece s0 line new r) := by
      intro m hm h e
      subst e
      haveI := hm
      exact ⟨[], (quiet_log h).1, fun _ => .plain hki⟩
    revert h
    split
    · split
      · intro h; exact absurd h error_not_ok
      · rw [ha]
        simp only [Bool.false_eq_true, if_false]
        intro h
        obtain ⟨_, s1, h1, h2⟩ := bind_ok h
        cases h2
        haveI : Quiet (whenM (st.lst = true) outputline) := by quiet
        exact ⟨[], (quiet_log h1).1, fun _ => .plain hki⟩
    · split
      · rw [ha]
        intro h
        obtain ⟨_, s1, h1, h2⟩ := bind_ok h
        cases h1
        obtain ⟨_, s2, h3, h4⟩ := bind_ok h2
        obtain ⟨t, e, -⟩ := bumpStar_zero hr.adv hr.star
        rw [e] at h3
        cases h3
        obtain ⟨_, s3, h5, h6⟩ := bind_ok h4
        cases h6
        haveI : Quiet (whenM (st.lst = true) outputline) := by quiet
        exact ⟨[], (quiet_log h5).1, fun _ => .plain hki⟩
      · intro h; cases h

theorem doFields_skips {st : Status} (ha : st.act = false) {fuel : Nat} {fl : Bool} {f : Fields}
    (hg : ∀ key lab, f.entry = some (key, lab) → SpecialOk lab.flags lab.type lab.ptr lab.modifier) {s0 s s' : St} {r : RC}
    {line : Str} (hkind : IsKind s0 line (kindOf (some f))) (hn : SameNames s0 s) (hr : Ready s)
    (h : doFields self fuel st fl f s = .ok r s') :
    ∃ new, s'.log = new ++ s.log ∧ (NoErrors new → Piece s0 line new r) := by
  unfold doFields at h
  revert h
  cases he : f.entry with
  | none =>
    have hki : IsKind s0 line .plain := by
      have : kindOf (some f) = .plain := by simp only [kindOf, he]
      rwa [this] at hkind
    dsimp only
    split
    · rw [ha]
      intro h
      obtain ⟨_, s1, h1, h2⟩ := bind_ok h
      cases h1
      obtain ⟨_, s2, h3, h4⟩ := bind_ok h2
      cases h4
      haveI : Quiet (whenM (st.lst = true) outputline) := by quiet
      exact ⟨[], (quiet_log h3).1, fun _ => .plain hki⟩
    · intro h; exact absurd h error_not_ok
  | some e =>
    obtain ⟨key, lab⟩ := e
    dsimp only
    split
    · intro h; exact absurd h error_not_ok
    · intro h
      obtain ⟨_, s1, h1, h2⟩ := bind_ok h
      have e1 : s1 = s := by
        revert h1
        cases f.label with
        | none =>
          dsimp only
          unfold whenM
          split
          · intro h1; exact absurd h1 error_not_ok
          · intro h1; cases h1; rfl
        | some l =>
          dsimp only
          unfold whenM
          rw [ha, Bool.and_false]
          intro h1; cases h1; rfl
      subst e1
      exact execLine_skips hk hs hw ha (hg key lab he) he hkind hn hr h2

theorem asmlineF_skips {st : Status} (ha : st.act = false) (fuel : Nat) : Skips (asmlineF self fuel st) := by
  intro s r s' hr h
  unfold asmlineF at h
  rw [run_ok (startLine_eq s), getS_bind_run] at h
  have t1 : Still s (startedSt s) := (inferInstance : B Sk startLine).ok (startLine_eq s) hr
  obtain ⟨t, s2, h2, h3⟩ := bind_ok h
  have t2 := t1.trans ((inferInstance : B Sk stripLine).ok h2 (t1.ready hr))
  obtain ⟨c, b, rfl⟩ := stripLine_frame h2
  have refl : SameNames s s := ⟨rfl, fun _ => rfl⟩
  by_cases ht : t = []
  · rw [if_pos ht] at h3
    obtain ⟨_, s3, h4, h5⟩ := bind_ok h3
    cases h5
    haveI : Quiet (whenM (st.lst = true) outputline) := by quiet
    have hst : ∃ s3, statement s = .ok none s3 := by
      refine ⟨{ startedSt s with curline := c, bufpos := b }, ?_⟩
      unfold statement
      rw [run_ok (startLine_eq s), run_ok h2, if_pos ht]
      rfl
    obtain ⟨s4, hst⟩ := hst
    exact ⟨[], (quiet_log h4).1, fun _ => .plain ⟨s, s4, none, refl, rfl, hst, rfl⟩⟩
  · rw [if_neg ht] at h3
    obtain ⟨f, s3, h4, h5⟩ := bind_ok h3
    have t3 := t2.trans ((inferInstance : B Sk (splitLine t)).ok h4 (t2.ready hr))
    have hst : statement s = .ok (some f) s3 := by
      unfold statement
      rw [run_ok (startLine_eq s), run_ok h2, if_neg ht, run_ok h4]
      rfl
    have l3 : s3.log = s.log := (statement_frame hst).2.2.1
    have hkind : IsKind s s.curline (kindOf (some f)) := ⟨s, s3, some f, refl, rfl, hst, rfl⟩
    rw [← l3]
    refine doFields_skips hk hs hw ha (fun key lab he => ?_) hkind t3.names (t3.ready hr) h5
    obtain ⟨k, hk'⟩ := splitLine_entry h4 key lab he
    exact (t2.ready hr).good k lab hk'
end

theorem asmline_skips (n : Nat) : ∀ st, st.act = false → Skips (asmline n st) := by
  induction n with
  | zero => intro st _ s r s' _ h; cases h
  | succ n ih => intro st ha; exact asmlineF_skips ih (sk_asmline n) (walk_asmline n) ha n

end Crasm

import Verif.Proof.LockR
import Verif.Props.C34

/-! # C40: both passes agree on every label address -/

namespace Crasm
namespace C40

/-! ### The claim -/

/-- The state at the end of pass 1. -/
def firstPass (fuel : Nat) (env : Env) (src : Str) : Option St :=
  match (do initLabelList .pseudos pseudos; pass fuel 1 : M Unit) (initSt env src) with
  | .ok _ s => some s
  | _ => none

/-- The symbol `k` is defined and has the value `v`. -/
def HasValue (t : Tree) (k : Str) (v : Word) : Prop := ∃ l, t.find k = some l ∧ l.flags.undef = false ∧ l.value = v

/-- The program is assembled without error. -/
def Assembles (fuel : Nat) (o : Opts) (env : Env) (src : Str) (s : St) : Prop :=
  assemble fuel o (initSt env src) = .ok () s ∧ s.errnumber = 0

/-- C40 in full: every label that gets a value in pass 2 had it at the end of pass 1. -/
def Claim : Prop := ∀ fuel o env src s e, Assembles fuel o env src s → firstPass fuel env src = some e →
  ∀ k v, (k, v) ∈ labelsOf 2 s.notes → HasValue e.tree k v

/-- What is asked of a program beyond being assembled without error. `e` is the state at the end of pass 1, `s` at the
    end of the run. -/
structure Regular (e s : St) : Prop where
  /-- no INCLUDE on a last line without line end: both passes have left all include files -/
  left1 : e.stack = []
  left2 : s.stack = []
  /-- symbols used before their definition stand for numbers, not for registers, bits or macros -/
  forward : ∀ k l, k ≠ starKey → e.tree.find k = some l → l.flags.noredef = true → l.flags.forward = true → l.type = .absolute
  /-- no operator or bit number is refused in pass 1, and no mnemonic is found by dropping a suffix -/
  plain : ∀ p, (p, Note.odd) ∉ s.notes
  /-- counts of DS, outcomes of IF and origins that depend on a symbol used before its definition (or, for IF, on the
      modifier of a number) are the same in both passes; nothing is asked of the others -/
  choices : ∀ (i : Nat) c1 c2, (choicesOf 1 s.notes)[i]? = some c1 → (choicesOf 2 s.notes)[i]? = some c2 →
    c1.1 = true ∨ c2.1 = true → c1.2 = c2.2

/-! ### Labels and the notes about them -/

/-- Every note about a label of the current pass is right. -/
def Noted (c : Cfg) : Prop := ∀ k v, (c.1.passnumber, Note.label k v) ∈ c.1.notes →
  k ≠ starKey ∧ ∃ l, c.1.tree.find k = some l ∧ l.flags.undef = false ∧ l.flags.noredef = true ∧ l.type ≠ .macro ∧ l.value = v

theorem mem_labelsOf {p : Nat} {k : Str} {v : Word} {ns : List (Nat × Note)} :
    (k, v) ∈ labelsOf p ns ↔ (p, Note.label k v) ∈ ns := by
  induction ns with
  | nil => simp [labelsOf]
  | cons n ns ih =>
    obtain ⟨q, n⟩ := n
    cases n with
    | choice f c => simp [labelsOf, ih]
    | odd => simp [labelsOf, ih]
    | label k' v' =>
      unfold labelsOf
      by_cases hq : q = p
      · subst hq
        rw [if_pos rfl]
        simp only [List.mem_append, ih, List.mem_cons, List.mem_nil_iff, or_false, Prod.mk.injEq, Note.label.injEq, true_and]
        exact Or.comm
      · rw [if_neg hq, ih, List.mem_cons]
        constructor
        · exact .inr
        · rintro (h | h)
          · injection h with h1 h2; exact absurd h1.symm hq
          · exact h

/-- Steps other than the definition of a label make no note of one. -/
theorem label_note {a b : Cfg} (h : Step a b) : (∀ k v, (a.1.passnumber, Note.label k v) ∈ b.1.notes → (a.1.passnumber, Note.label k v) ∈ a.1.notes) ∨
    ∃ k v, k ≠ starKey ∧ b.1.notes = (a.1.passnumber, .label k v) :: a.1.notes ∧
      ∃ l, b.1.tree.find k = some l ∧ l.flags.undef = false ∧ l.flags.noredef = true ∧ l.type ≠ .macro ∧ l.value = v := by
  have non : ∀ {s : St} {n : Note} (_ : ∀ k v, n ≠ .label k v) (k : Str) (v : Word),
      (s.passnumber, Note.label k v) ∈ (s.passnumber, n) :: s.notes → (s.passnumber, Note.label k v) ∈ s.notes := by
    intro s n hn k v h
    rcases List.mem_cons.mp h with h | h
    · injection h with _ h; exact absurd h.symm (hn k v)
    · exact h
  cases h with
  | p h =>
    refine .inl ?_
    cases h with
    | h h =>
      cases h with
      | n h =>
        cases h with
        | odd s => exact non (by simp)
        | _ => exact fun _ _ h => h
      | note s n hn => exact non hn
      | _ => exact fun _ _ h => h
    | _ => exact fun _ _ h => h
  | here s name hne horg hd =>
    refine .inr ⟨_, _, fun h => hne (canon_star h), rfl, _, Tree.find_put_self _ _ _, rfl, ?_, ?_, rfl⟩
    · show (_ || true) = true
      rw [Bool.or_true]
    · show addrType s.flags ≠ .macro
      unfold addrType
      split <;> simp
  | _ => exact .inl fun _ _ h => h

theorem noted_step {a b : Cfg} (h : Step a b) (hn : Noted a) : Noted b := by
  have hk := K.s h
  intro k v hm
  rw [hk.pass] at hm
  have old : (a.1.passnumber, Note.label k v) ∈ a.1.notes →
      k ≠ starKey ∧ ∃ l, b.1.tree.find k = some l ∧ l.flags.undef = false ∧ l.flags.noredef = true ∧ l.type ≠ .macro ∧ l.value = v := by
    intro hm
    obtain ⟨h0, l, h1, h2, h3, h4, h5⟩ := hn k v hm
    obtain ⟨f, hf, hle⟩ := hk.tree.old k l h0 h1
    have e := (hle.fixed h2 h3).2.2 h4
    refine ⟨h0, f, hf, ?_⟩
    rw [e]
    exact ⟨h2, h3, h4, h5⟩
  rcases label_note h with hh | ⟨k', v', h0, h1, h2⟩
  · exact old (hh k v hm)
  · rw [h1] at hm
    rcases List.mem_cons.mp hm with hm | hm
    · injection hm with _ hm
      injection hm with e1 e2
      subst e1 e2
      exact ⟨h0, h2⟩
    · exact old hm

/-! ### Values in the course of pass 2 -/

/-- A symbol that may not be redefined keeps its value until it is defined. -/
def Keeps (a b : Cfg) : Prop := ∀ k l, k ≠ starKey → a.1.tree.find k = some l → l.flags.noredef = true →
  ∃ l', b.1.tree.find k = some l' ∧ l'.flags.noredef = true ∧ (l'.value = l.value ∨ l'.flags.undef = false)

theorem Keeps.tree {s t : St} {m m' : Mode} (h : t.tree = s.tree) : Keeps (s, m) (t, m') :=
  fun k l _ hl hn => ⟨l, by rw [h]; exact hl, hn, .inl rfl⟩

theorem Keeps.put {s : St} {t : St} {k : Str} {x : Label} {m m' : Mode} (ht : t.tree = s.tree.put k x)
    (h : k ≠ starKey → ∀ l, s.tree.find k = some l → l.flags.noredef = true →
      x.flags.noredef = true ∧ (x.value = l.value ∨ x.flags.undef = false)) :
    Keeps (s, m) (t, m') := by
  intro k' l hk hl hn
  by_cases e : k' = k
  · subst e
    exact ⟨x, by rw [ht]; exact Tree.find_put_self _ _ _, h hk l hl hn⟩
  · exact ⟨l, by rw [ht, Tree.find_put_ne _ _ e]; exact hl, hn, .inl rfl⟩

theorem keeps_step {a b : Cfg} (h : Step a b) : Keeps a b := by
  have bmp : ∀ {s t : St} {T : Tree} {m m' : Mode}, bumped s T → t.tree = T → Keeps (s, m) (t, m') := by
    intro s t T m m' hb ht
    obtain ⟨v, _, rfl⟩ := hb
    exact Keeps.put ht fun hk => absurd rfl hk
  have df : ∀ {s : St} {fl : LFlags} {ty : LType} {v : Word} {k : Str} (l : Label), fl.undef = false → s.tree.find k = some l → l.flags.noredef = true →
      (defdLabel (s.tree.find k) fl ty v).flags.noredef = true ∧ (defdLabel (s.tree.find k) fl ty v).flags.undef = false := by
    intro s fl ty v k l hu hl hn
    rw [hl]
    constructor
    · show (l.flags.noredef || fl.noredef) = true
      rw [hn]; rfl
    · show (false || fl.undef) = false
      rw [hu]; rfl
  cases h with
  | p h =>
    cases h with
    | h h =>
      cases h with
      | n h =>
        cases h with
        | use s k =>
          refine Keeps.put rfl fun _ l hl hn => ?_
          rw [hl]
          exact ⟨hn, .inl rfl⟩
        | error1 s t h hb => exact bmp hb rfl
        | _ => exact Keeps.tree rfl
      | _ => exact Keeps.tree rfl
    | bindNew s t e he hn => exact Keeps.put rfl fun _ l hl _ => by rw [hn] at hl; cases hl
    | bindOld s t e he l hl ho hu =>
      refine Keeps.put rfl fun _ q hq hn => ?_
      rw [hl] at hq; cases hq
      exact ⟨hn, .inl rfl⟩
    | _ => exact Keeps.tree rfl
  | here s name hne horg hd =>
    refine Keeps.put rfl fun _ l hl hn => ?_
    have := df (ty := addrType s.flags) (v := (starLabel s).value) (fl := { noredef := true }) l rfl hl hn
    exact ⟨this.1, .inr this.2⟩
  | equ s name fl ty md p v hf hd =>
    refine Keeps.put rfl fun _ l hl hn => ?_
    have := df (ty := ty) (v := v) (fl := fl) l hf.2 hl hn
    exact ⟨this.1, .inr this.2⟩
  | macroName s name hd =>
    refine Keeps.put rfl fun _ l hl hn => ?_
    have := df (ty := .macro) (v := 0) (fl := {}) l rfl hl hn
    exact ⟨this.1, .inr this.2⟩
  | macroText s k l hl ht ls =>
    refine Keeps.put rfl fun _ q hq hn => ?_
    rw [hl] at hq; cases hq
    exact ⟨hn, .inl rfl⟩
  | markUsed s k l hl =>
    refine Keeps.put rfl fun _ q hq hn => ?_
    rw [hl] at hq; cases hq
    exact ⟨hn, .inl rfl⟩
  | bump s t hb => exact bmp hb rfl
  | _ => exact Keeps.tree rfl

theorem keeps_star {a b : Cfg} (h : Star Step a b) : Keeps a b := by
  induction h with
  | refl => exact Keeps.tree rfl
  | tail _ r ih =>
    intro k l hk hl hn
    obtain ⟨l1, h1, h2, h3⟩ := ih k l hk hl hn
    obtain ⟨l2, g1, g2, g3⟩ := keeps_step r k l1 hk h1 h2
    obtain ⟨f, hf, hle⟩ := (K.s r).tree.old k l1 hk h1
    rw [g1] at hf; cases hf
    refine ⟨l2, g1, g2, ?_⟩
    rcases h3 with h3 | h3
    · rcases g3 with g3 | g3
      · exact .inl (g3.trans h3)
      · exact .inr g3
    · exact .inr (hle.defd h3).1

/-! ### The theorems -/

theorem no_errors {log : List Event} (h : errorsIn 2 log = 0) (sh : Bool) : Event.error 2 sh ∉ log := by
  intro hm
  unfold errorsIn at h
  rw [List.countP_eq_zero] at h
  exact absurd rfl (h _ hm)

theorem choicesOf_skip {ns : List (Nat × Note)} (h : ∀ n ∈ ns, n.1 = 2) (ms : List (Nat × Note)) : choicesOf 1 (ns ++ ms) = choicesOf 1 ms := by
  induction ns with
  | nil => rfl
  | cons n ns ih =>
    obtain ⟨q, n⟩ := n
    have h1 : q = 2 := h (q, n) (List.mem_cons_self ..)
    have i := ih fun n hn => h n (List.mem_cons_of_mem _ hn)
    subst h1
    cases n <;> exact i

theorem labelsOf_skip {ns : List (Nat × Note)} (h : ∀ n ∈ ns, n.1 = 2) (ms : List (Nat × Note)) : labelsOf 1 (ns ++ ms) = labelsOf 1 ms := by
  induction ns with
  | nil => rfl
  | cons n ns ih =>
    obtain ⟨q, n⟩ := n
    have h1 : q = 2 := h (q, n) (List.mem_cons_self ..)
    have i := ih fun n hn => h n (List.mem_cons_of_mem _ hn)
    subst h1
    cases n <;> exact i

/-- The stages of a run, the first pass known. -/
theorem stages {fuel : Nat} {o : Opts} {env : Env} {src : Str} {s e : St} (h : assemble fuel o (initSt env src) = .ok () s)
    (he : firstPass fuel env src = some e) :
    ∃ sA sC, initLabelList .pseudos pseudos (initSt env src) = .ok () sA ∧ pass fuel 1 sA = .ok () e ∧
      passLoop fuel fuel true (passStart 2 (betweenPasses o e)) = .ok () sC ∧ s = afterPasses sC := by
  obtain ⟨sA, sB, sC, h1, h2, h3, h4, -⟩ := assemble_stages (inv_initSt env src) rfl h
  have : sB = e := by
    unfold firstPass at he
    rw [bind_run, h1] at he
    dsimp only at he
    rw [h2] at he
    exact Option.some.inj he
  subst this
  exact ⟨sA, sC, h1, h2, h3, h4⟩

/-- The state `t` occurs in pass 2 of a run that ends in `s`, after a first pass that ended in `e`. -/
def During (o : Opts) (e s t : St) : Prop := ∃ sC, s = afterPasses sC ∧
  Star Step (passStart 2 (betweenPasses o e), .live) (t, .live) ∧ Star Step (t, .live) (sC, .live)

/-- Both passes define the same labels in the same order with the same values.

    Missing for C40: the programs that are not `Regular`; `C40_false` and its variants show that the claim fails for
    programs that violate any one of the conditions. -/
theorem C40_same_labels_partial {fuel : Nat} {o : Opts} {env : Env} {src : Str} {s e : St} (h : Assembles fuel o env src s)
    (he : firstPass fuel env src = some e) (hr : Regular e s) : labelsOf 2 s.notes = labelsOf 1 s.notes := by
  obtain ⟨sA, sC, h1, h2, h3, rfl⟩ := stages h.1 he
  have hk2 : K (passStart 2 (betweenPasses o e), .live) (sC, .live) := by
    have := walk_passLoop fuel fuel true (passStart 2 (betweenPasses o e))
    rw [h3] at this
    exact K.star ((show Star Step _ (sC, .live) from this).mono fun _ _ h => K.s h)
  obtain ⟨ns, en, hn⟩ := hk2.notes
  have en : sC.notes = ns ++ e.notes := en
  have ec : choicesOf 1 sC.notes = choicesOf 1 e.notes := by rw [en]; exact choicesOf_skip hn _
  have el : labelsOf 1 sC.notes = labelsOf 1 e.notes := by rw [en]; exact labelsOf_skip hn _
  let X : Ctx :=
    { E1 := e, E2 := sC, fwd := hr.forward
      noerr := no_errors (by rw [← h.2]; exact (C34_error_count fuel o env src _ h.1).1.symm)
      odd1 := fun hm => hr.plain 1 (by show _ ∈ sC.notes; rw [en]; exact List.mem_append_right _ hm)
      odd2 := hr.plain 2
      comp := fun i c1 c2 g1 g2 => by
        have := hr.choices i c1 c2 (by show (choicesOf 1 sC.notes)[i]? = _; rw [ec]; exact g1) g2
        unfold Compat
        revert this
        cases c1.1 <;> cases c2.1 <;> simp }
  have := passes_agree (X := X) (o := o) h1 h2 h3 hr.left1 hr.left2
  show labelsOf 2 sC.notes = labelsOf 1 sC.notes
  rw [el]
  exact this.1

/-- What the notes say about the labels of a pass is true at its end. -/
theorem noted_pass {a b : Cfg} (h : Star Step a b) (hn : Noted a) : Noted b := h.inv (P := Noted) (fun _ _ => noted_step) hn

theorem ends {fuel : Nat} {o : Opts} {env : Env} {src : Str} {s e : St} (h : assemble fuel o (initSt env src) = .ok () s)
    (he : firstPass fuel env src = some e) {k : Str} {v : Word} :
    ((k, v) ∈ labelsOf 1 s.notes → k ≠ starKey ∧ ∃ l, e.tree.find k = some l ∧ l.flags.undef = false ∧ l.flags.noredef = true ∧ l.type ≠ .macro ∧ l.value = v) ∧
    ((k, v) ∈ labelsOf 2 s.notes → k ≠ starKey ∧ ∃ l, s.tree.find k = some l ∧ l.flags.undef = false ∧ l.flags.noredef = true ∧ l.type ≠ .macro ∧ l.value = v) := by
  obtain ⟨sA, sC, h1, h2, h3, rfl⟩ := stages h he
  have w2 := walk_passLoop fuel fuel true (passStart 2 (betweenPasses o e))
  rw [h3] at w2
  have w2 : Star Step (passStart 2 (betweenPasses o e), .live) (sC, .live) := w2
  have w1 := walk_pass h2
  have k1 := K.star (w1.mono fun _ _ h => K.s h)
  have k2 := K.star (w2.mono fun _ _ h => K.s h)
  obtain ⟨ms, em, hm⟩ := k1.notes
  obtain ⟨ns, en, hn⟩ := k2.notes
  have em : e.notes = ms := by
    rw [init_run] at h1
    cases h1
    rw [em]; exact List.append_nil ms
  have en : sC.notes = ns ++ e.notes := en
  constructor
  · intro hl
    have hl : (k, v) ∈ labelsOf 1 sC.notes := hl
    rw [en, labelsOf_skip hn, mem_labelsOf] at hl
    have n1 : Noted (e, .live) := by
      refine noted_pass w1 fun k v hh => ?_
      rw [init_run] at h1
      cases h1
      cases hh
    exact n1 k v (by rw [k1.pass]; exact hl)
  · intro hl
    have hl : (k, v) ∈ labelsOf 2 sC.notes := hl
    rw [mem_labelsOf] at hl
    have n2 : Noted (sC, .live) := by
      refine noted_pass w2 fun k v hh => ?_
      have hh : (2, Note.label k v) ∈ e.notes := hh
      rw [em] at hh
      cases hm _ hh
    exact n2 k v (by rw [k2.pass]; exact hl)

/-- **C40** for `Regular` programs: every label that gets a value in pass 2 had it at the end of pass 1, and has it at
    the end of the run. -/
theorem C40_labels_agree_partial {fuel : Nat} {o : Opts} {env : Env} {src : Str} {s e : St} (h : Assembles fuel o env src s)
    (he : firstPass fuel env src = some e) (hr : Regular e s) {k : Str} {v : Word} (hk : (k, v) ∈ labelsOf 2 s.notes) :
    HasValue e.tree k v ∧ HasValue s.tree k v := by
  obtain ⟨g1, g2⟩ := ends (k := k) (v := v) h.1 he
  obtain ⟨-, l2, a1, a2, -, -, a5⟩ := g2 hk
  rw [C40_same_labels_partial h he hr] at hk
  obtain ⟨-, l1, b1, b2, -, -, b5⟩ := g1 hk
  exact ⟨⟨l1, b1, b2, b5⟩, ⟨l2, a1, a2, a5⟩⟩

/-- ... and it has this value all through pass 2, before and after the line that defines it: forward references get the
    right address. -/
theorem C40_throughout_partial {fuel : Nat} {o : Opts} {env : Env} {src : Str} {s e t : St} (h : Assembles fuel o env src s)
    (he : firstPass fuel env src = some e) (hr : Regular e s) {k : Str} {v : Word} (hk : (k, v) ∈ labelsOf 2 s.notes)
    (hd : During o e s t) : ∃ l, t.tree.find k = some l ∧ l.value = v := by
  obtain ⟨g1, g2⟩ := ends (k := k) (v := v) h.1 he
  obtain ⟨h0, l2, a1, a2, a3, a4, a5⟩ := g2 hk
  rw [C40_same_labels_partial h he hr] at hk
  obtain ⟨-, l1, b1, b2, b3, b4, b5⟩ := g1 hk
  obtain ⟨sC, rfl, d1, d2⟩ := hd
  have a1 : sC.tree.find k = some l2 := a1
  have f2 : (passStart 2 (betweenPasses o e)).tree.find k = some (undefOne l1) := by
    show ((e.tree.map undefOne).put starKey _).find k = _
    rw [Tree.find_put_ne _ _ h0, Tree.find_map, b1]; rfl
  obtain ⟨l, c1, c2, c3⟩ := keeps_star d1 k (undefOne l1) h0 f2 b3
  refine ⟨l, c1, ?_⟩
  rcases c3 with c3 | c3
  · exact c3.trans b5
  · obtain ⟨f, hf, hle⟩ := (K.star (d2.mono fun _ _ h => K.s h)).tree.old k l h0 c1
    have hf : sC.tree.find k = some f := hf
    rw [a1] at hf; cases hf
    obtain ⟨x1, x2, x3⟩ := hle.fixed c3 c2
    have := x3 (by rw [← x1]; exact a4)
    rw [← a5, this]

/-- Without forward references in counts, conditions and origins nothing need be asked of them. -/
theorem C40_hard_choices_partial {fuel : Nat} {o : Opts} {env : Env} {src : Str} {s e : St} (h : Assembles fuel o env src s)
    (he : firstPass fuel env src = some e) (left1 : e.stack = []) (left2 : s.stack = [])
    (forward : ∀ k l, k ≠ starKey → e.tree.find k = some l → l.flags.noredef = true → l.flags.forward = true → l.type = .absolute)
    (hn : ∀ n ∈ s.notes, n.2 ≠ .odd ∧ ∀ c, n.2 ≠ .choice true c) {k : Str} {v : Word} (hk : (k, v) ∈ labelsOf 2 s.notes) :
    HasValue e.tree k v ∧ HasValue s.tree k v := by
  have key : ∀ (p : Nat) (ns : List (Nat × Note)), (∀ n ∈ ns, n.2 ≠ .odd ∧ ∀ c, n.2 ≠ .choice true c) → ∀ c ∈ choicesOf p ns, c.1 = false := by
    intro p ns
    induction ns with
    | nil => intro _ c hc; cases hc
    | cons n ns ih =>
      intro hn c hc
      obtain ⟨q, n⟩ := n
      have i := ih fun n h => hn n (List.mem_cons_of_mem _ h)
      cases n with
      | odd => exact i c hc
      | label => exact i c hc
      | choice f d =>
        unfold choicesOf at hc
        have hf : f = false := by
          cases f with
          | false => rfl
          | true => exact absurd rfl ((hn (q, .choice true d) (List.mem_cons_self ..)).2 d)
        revert hc
        split
        · intro hc
          rcases List.mem_append.mp hc with hc | hc
          · exact i c hc
          · rw [List.mem_singleton.mp hc]; exact hf
        · exact i c
  refine C40_labels_agree_partial h he ⟨left1, left2, forward, fun p hp => (hn _ hp).1 rfl, fun i c1 c2 e1 e2 hs => ?_⟩ hk
  have f1 := key 1 _ hn c1 (List.mem_of_getElem? e1)
  have f2 := key 2 _ hn c2 (List.mem_of_getElem? e2)
  rw [f1, f2] at hs
  rcases hs with hs | hs <;> cases hs

/-! ### Programs -/

/-- The labels of a run: errors, pass 1, pass 2. -/
def labelsIn (env : Env) (src : Str) : Option (Nat × List (Str × Word) × List (Str × Word)) :=
  match assemble 60 {} (initSt env src) with
  | .ok _ s => some (s.errnumber, labelsOf 1 s.notes, labelsOf 2 s.notes)
  | _ => none

/-- Does C40 hold for this program? `none` if it is not assembled without error. -/
def holds (env : Env) (src : Str) : Option Bool :=
  match assemble 60 {} (initSt env src), firstPass 60 env src with
  | .ok _ s, some e =>
    if s.errnumber = 0 then
      some ((labelsOf 2 s.notes).all fun kv => match e.tree.find kv.1 with | some l => !l.flags.undef && l.value == kv.2 | none => false)
    else none
  | _, _ => none

/-- A test of `Regular`, condition by condition. -/
def conditions (env : Env) (src : Str) : Option (List Bool) :=
  match assemble 60 {} (initSt env src), firstPass 60 env src with
  | .ok _ s, some e =>
    some [e.stack.isEmpty, s.stack.isEmpty,
      e.tree.toList.all fun kl => kl.1 == starKey || !kl.2.flags.noredef || !kl.2.flags.forward || kl.2.type == .absolute,
      s.notes.all fun n => n.2 != .odd,
      (((choicesOf 1 s.notes).zip (choicesOf 2 s.notes)).all fun cc => !(cc.1.1 || cc.2.1) || cc.1.2 == cc.2.2)]
  | _, _ => none

theorem holds_sound {env : Env} {src : Str} (h : holds env src = some false) : ¬ Claim := by
  intro hc
  unfold holds at h
  cases ha : assemble 60 {} (initSt env src) with
  | err s => rw [ha] at h; cases h
  | stop w s => rw [ha] at h; cases h
  | ok u s =>
    rw [ha] at h
    cases he : firstPass 60 env src with
    | none => rw [he] at h; cases h
    | some e =>
      rw [he] at h
      dsimp only at h
      by_cases hz : s.errnumber = 0
      · rw [if_pos hz] at h
        have h := Option.some.inj h
        rw [List.all_eq_false] at h
        obtain ⟨⟨k, v⟩, hm, hh⟩ := h
        obtain ⟨l, h1, h2, h3⟩ := hc 60 {} env src s e ⟨ha, hz⟩ he k v hm
        apply hh
        dsimp only
        rw [h1]
        simp [h2, h3]
      · rw [if_neg hz] at h; cases h

def noFiles : Env := { fs := fun _ => none }

/-- The test is right. -/
theorem regular_of_conditions {env : Env} {src : Str} {s e : St} (ha : assemble 60 {} (initSt env src) = .ok () s)
    (he : firstPass 60 env src = some e) (h : conditions env src = some [true, true, true, true, true]) : Regular e s := by
  unfold conditions at h
  rw [ha, he] at h
  simp only [Option.some.injEq, List.cons.injEq, and_true] at h
  obtain ⟨h1, h2, h3, h4, h5⟩ := h
  refine ⟨List.isEmpty_iff.mp h1, List.isEmpty_iff.mp h2, fun k l hk hl hn hf => ?_, fun p hp => ?_, fun i c1 c2 g1 g2 hs => ?_⟩
  · have := List.all_eq_true.mp h3 (k, l) (Tree.mem_of_find hl)
    simpa [hk, hn, hf] using this
  · have := List.all_eq_true.mp h4 _ hp
    simp at this
  · have := List.all_eq_true.mp h5 (c1, c2) (List.mem_of_getElem? (i := i) (by
      rw [List.getElem?_zip_eq_some]; exact ⟨g1, g2⟩))
    rcases hs with hs | hs <;> simpa [hs] using this

/-- A program with forward references, a DS, an IF and a macro meets every condition; its three labels have the same
    values in both passes. -/
def good : Str := c!" cpu 6502\n *= $100\nn equ 4\nm macro\n nop\n endm\nlab lda end\n if n=4\n jmp end\n endc\n ds n\n m\nend rts\nk = 7\n lda #k\nz db 1\n"
example : labelsIn noFiles good = some (0, [(c!"LAB", 0x100), (c!"END", 0x10b), (c!"Z", 0x10e)],
    [(c!"LAB", 0x100), (c!"END", 0x10b), (c!"Z", 0x10e)]) := by decide +kernel
theorem good_conditions : conditions noFiles good = some [true, true, true, true, true] := by decide +kernel
example : ∃ s e, Assembles 60 {} noFiles good s ∧ firstPass 60 noFiles good = some e ∧ Regular e s := by
  have hl : (match assemble 60 {} (initSt noFiles good) with | .ok _ s => s.errnumber | _ => 1) = 0 := by decide +kernel
  cases ha : assemble 60 {} (initSt noFiles good) with
  | err s => rw [ha] at hl; cases hl
  | stop w s => rw [ha] at hl; cases hl
  | ok u s =>
    rw [ha] at hl
    cases he : firstPass 60 noFiles good with
    | none =>
      have hc := good_conditions
      unfold conditions at hc
      rw [ha, he] at hc
      cases hc
    | some e => exact ⟨s, e, ⟨ha, hl⟩, rfl, regular_of_conditions ha he good_conditions⟩

/-- A count that depends on a symbol defined later, but is the same in both passes, is no obstacle. -/
example : conditions noFiles c!" cpu 6502\n *= $100\n ds fwd-foo\nlab db 1\nfwd equ 3\nfoo equ 3\n" =
    some [true, true, true, true, true] := by decide +kernel

/-! ### Where C40 fails -/

/-- DS with a count defined later: nothing is reserved in pass 1. -/
def dsLater : Str := c!" cpu 6502\n *= $100\n ds fwd\nlab db 1\nfwd equ 3\n"
theorem C40_false : ¬ Claim := holds_sound (env := noFiles) (src := dsLater) (by decide +kernel)
example : labelsIn noFiles dsLater = some (0, [(c!"LAB", 0x100)], [(c!"LAB", 0x103)]) := by decide +kernel
/-- Only the last condition of `Regular` is not met. -/
theorem C40_false_count : holds noFiles dsLater = some false ∧
    conditions noFiles dsLater = some [true, true, true, true, false] := by decide +kernel
/-- An origin defined later. -/
def orgLater : Str := c!" cpu 6502\n *= fwd\nlab db 1\nfwd equ 3\n"
theorem C40_false_origin : holds noFiles orgLater = some false ∧
    conditions noFiles orgLater = some [true, true, true, true, false] := by decide +kernel
/-- The modifier of the last operand of pass 1 (here that of AF) is still in `calcresult` when pass 2 starts, and the
    number in `if 0` takes it over: what follows is skipped in pass 1 only. -/
def staleIf : Str := c!" cpu z80\n *= $100\n if 0\n nop\n endc\nlab push af\n"
theorem C40_false_stale : holds noFiles staleIf = some false ∧
    conditions noFiles staleIf = some [true, true, true, true, false] := by decide +kernel
example : labelsIn noFiles staleIf = some (0, [(c!"LAB", 0x100)], [(c!"LAB", 0x101)]) := by decide +kernel
/-- A register named later: `asl foo` is three bytes long in pass 1 and one in pass 2. -/
def regLater : Str := c!" cpu 6502\n *= $100\n asl foo\nlab db 1\nfoo equ a\n"
theorem C40_false_register : holds noFiles regLater = some false ∧
    conditions noFiles regLater = some [true, true, false, true, true] := by decide +kernel
/-- A bit number refused in pass 1, where its value is 8, and accepted in pass 2. -/
def bitLater : Str := c!" cpu z80\n *= $100\n bit 8-fwd,a\nlab nop\nfwd equ 3\n"
theorem C40_false_bit : holds noFiles bitLater = some false ∧
    conditions noFiles bitLater = some [true, true, true, false, true] := by decide +kernel
/-- INCLUDE on a last line that has no line end: pass 1 ends with the file open and unread, and pass 2 starts by reading
    it. Its label was not defined in pass 1. -/
def lastInclude : Str := c!" cpu 6502\n *= $100\nfirst nop\n include f"
def oneFile : Env := { fs := fun _ => some c!" *= $200\nfoo\n" }
theorem C40_false_include : holds oneFile lastInclude = some false ∧
    conditions oneFile lastInclude = some [false, false, true, true, true] := by decide +kernel
example : labelsIn oneFile lastInclude = some (0, [(c!"FIRST", 0x100)], [(c!"FOO", 0x200), (c!"FIRST", 0x100)]) := by
  decide +kernel

end C40
end Crasm

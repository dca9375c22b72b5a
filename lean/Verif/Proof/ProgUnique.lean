import Verif.Proof.ProgEither
import Verif.Proof.Prog6502

/-! Programs: a program stands for one image at most. -/

namespace Crasm.C42
open Spec.Program (Isa key Free Body Line State Lines Proper All2 labels hasOrg)

/-- The bytes of an instruction are determined by the values of its names; their number depends only on the values of
    names that are not defined further below. -/
structure Definite (isa : Isa) : Prop where
  fixed : ∀ {i n}, n ∈ isa.fixed i → n ∈ isa.uses i
  size : ∀ {i ρ ρ' φ φ' a bs bs'}, isa.code i ρ φ a bs → isa.code i ρ' φ' a bs' →
    (∀ n ∈ isa.uses i, φ n = φ' n ∧ (φ n = false → ρ n = ρ' n)) → (∀ n ∈ isa.fixed i, φ n = false) →
      bs.length = bs'.length
  bytes : ∀ {i ρ ρ' φ φ' a bs bs'}, isa.code i ρ φ a bs → isa.code i ρ' φ' a bs' →
    (∀ n ∈ isa.uses i, φ n = φ' n ∧ ρ n = ρ' n) → bs = bs'

theorem eval_same {ρ ρ' : Str → Int} : ∀ (e : Spec.Expr), (∀ n ∈ e.names, ρ n = ρ' n) → e.eval ρ = e.eval ρ'
  | .num _, _ => rfl
  | .label l, h => by
    show Except.ok (ρ l) = Except.ok (ρ' l)
    rw [h l (by simp [Spec.Expr.names])]
  | .bin op a b, h => by
    show (do let x ← a.eval ρ; let y ← b.eval ρ; op.eval x y) = _
    rw [eval_same a fun n hn => h n (by simp [Spec.Expr.names, hn]), eval_same b fun n hn => h n (by simp [Spec.Expr.names, hn])]
    rfl
  | .un op a, h => by
    show (do let x ← a.eval ρ; op.eval x) = _
    rw [eval_same a fun n hn => h n (by simp [Spec.Expr.names, hn])]
    rfl

theorem any_same {φ φ' : Str → Bool} {l : List Str} (h : ∀ n ∈ l, φ n = φ' n) : l.any φ = l.any φ' := by
  induction l with
  | nil => rfl
  | cons x l ih => rw [List.any_cons, List.any_cons, h x List.mem_cons_self, ih fun n hn => h n (List.mem_cons_of_mem _ hn)]

theorem definite6502 (c : _root_.Spec.M6502.Chip) : Definite (_root_.Spec.M6502.isa c) := by
  constructor
  · intro i n hn; cases hn
  · intro i ρ ρ' φ φ' a bs bs' h h' hn _
    change _root_.Spec.M6502.Code c ρ φ a i bs at h
    change _root_.Spec.M6502.Code c ρ' φ' a i bs' at h'
    cases h with
    | bare h1 => cases h' with | bare h2 => rw [h1] at h2; cases h2; rfl
    | acc h1 => cases h' with | acc h2 => rfl
    | @oper n f _ v e h1 h2 =>
      cases h' with
      | @oper _ _ _ v' _ h3 h4 =>
      have hn : ∀ n ∈ e.names, φ n = φ' n ∧ (φ n = false → ρ n = ρ' n) := hn
      rw [← any_same fun n h => (hn n h).1] at h4
      unfold _root_.Spec.M6502.encode at h2 h4
      obtain ⟨⟨op, k⟩, j1, j2⟩ := Option.map_eq_some_iff.1 h2
      obtain ⟨⟨op', k'⟩, j3, j4⟩ := Option.map_eq_some_iff.1 h4
      have : k = k' := by
        cases hl : e.names.any φ with
        | true =>
          rw [hl] at j1 j3
          unfold _root_.Spec.M6502.mode at j1 j3
          simp only [Bool.not_true, Bool.and_false] at j1 j3
          rw [j1] at j3
          cases j3
          rfl
        | false =>
          have : e.eval ρ = e.eval ρ' := eval_same e fun n h => (hn n h).2 (by
            rw [List.any_eq_false] at hl
            simpa using hl n h)
          rw [← this, h1] at h3
          cases h3
          rw [j1] at j3
          cases j3
          rfl
      subst this
      subst j2
      subst j4
      dsimp only
      split <;> rfl
    | branch => cases h' with | branch => rfl
  · intro i ρ ρ' φ φ' a bs bs' h h' hn
    change _root_.Spec.M6502.Code c ρ φ a i bs at h
    change _root_.Spec.M6502.Code c ρ' φ' a i bs' at h'
    cases h with
    | bare h1 => cases h' with | bare h2 => rw [h1] at h2; cases h2; rfl
    | acc h1 => cases h' with | acc h2 => rw [h1] at h2; cases h2; rfl
    | @oper n f _ v e h1 h2 =>
      cases h' with
      | @oper _ _ _ v' _ h3 h4 =>
      have hn : ∀ n ∈ e.names, φ n = φ' n ∧ ρ n = ρ' n := hn
      rw [← any_same fun n h => (hn n h).1] at h4
      rw [← eval_same e fun n h => (hn n h).2, h1] at h3
      cases h3
      rw [h2] at h4
      cases h4
      rfl
    | @branch n op v e d h1 h2 h3 =>
      cases h' with
      | @branch _ op' v' _ d' h4 h5 h6 =>
      have hn : ∀ n ∈ e.names, φ n = φ' n ∧ ρ n = ρ' n := hn
      rw [← eval_same e fun n h => (hn n h).2, h2] at h5
      cases h5
      rw [h1] at h4
      cases h4
      have : d = d' := by
        apply BitVec.eq_of_toInt_eq
        have a1 := BitVec.toInt_lt (x := d)
        have a2 := BitVec.toInt_lt (x := d')
        have a3 := BitVec.le_toInt (x := d)
        have a4 := BitVec.le_toInt (x := d')
        omega
      rw [this]

section
variable {isa : Isa} {p : Lines isa} {addr addr' : Str → Int}

/-- Two runs of the same lines, as far as names not defined further below are concerned. -/
structure Agree (p a : Lines isa) (addr addr' : Str → Int) (σ σ' : State) : Prop where
  pc : σ.pc = σ'.pc
  labs : ∀ k ∈ labels a, addr k = addr' k
  absent : ∀ k, k ∉ Spec.Program.equates a → σ.env k = none ∧ σ'.env k = none
  found : ∀ k ∈ Spec.Program.equates a, ∃ v v', σ.env k = some (v, Spec.Program.marks (Spec.Program.late p) a k) ∧
    σ'.env k = some (v', Spec.Program.marks (Spec.Program.late p) a k) ∧ (Spec.Program.marks (Spec.Program.late p) a k = false → v = v')

theorem Agree.use (hp : Proper p) {a b : Lines isa} {x : Option Str × Body isa.Ins} (ep : p = a ++ x :: b) {σ σ' : State}
    (h : Agree p a addr addr' σ σ') (hx : ∀ k ∈ labels [x], addr k = addr' k) {n : Str} (hn : n ∈ x.2.uses) :
    σ.late (Spec.Program.late p) n = Spec.Program.marks (Spec.Program.late p) a (key n) ∧
    σ'.late (Spec.Program.late p) n = Spec.Program.marks (Spec.Program.late p) a (key n) ∧
    (Spec.Program.marks (Spec.Program.late p) a (key n) = false → σ.value addr n = σ'.value addr' n) := by
  unfold State.late State.value
  by_cases hq : key n ∈ Spec.Program.equates a
  · obtain ⟨v, v', h1, h2, h3⟩ := h.found _ hq
    rw [h1, h2]
    exact ⟨rfl, rfl, h3⟩
  · obtain ⟨h1, h2⟩ := h.absent _ hq
    rw [h1, h2, marks_off _ _ hq]
    refine ⟨rfl, rfl, fun hl => ?_⟩
    rw [h.pc]
    by_cases hs : key n = ['*']
    · dsimp only
      rw [if_pos hs, if_pos hs]
    dsimp only
    rw [if_neg hs, if_neg hs]
    have hk := ((hp.closed a x b ep n hn).resolve_right fun h => hs h.1).resolve_right hq
    rw [ep, labels_append, labels_cons, List.mem_append, List.mem_append] at hk
    rcases hk with hk | hk | hk
    · exact h.labs _ hk
    · exact hx _ hk
    · have := hp.once
      rw [ep] at this hl
      rw [late_of a this hn hk] at hl
      cases hl

theorem all2_length {R : α → β → Prop} {as : List α} {bs : List β} (h : All2 R as bs) : as.length = bs.length := by
  induction h with
  | nil => rfl
  | cons _ _ ih => simp [ih]

theorem data_length {little : Bool} {size : Nat} (vs : List Int) :
    (vs.flatMap fun v => Spec.endian little size (Spec.Program.bits v)).length = vs.length * size := by
  induction vs with
  | nil => simp
  | cons v vs ih =>
    rw [List.flatMap_cons, List.length_append, ih, List.length_cons, endian_len, Nat.add_mul, Nat.one_mul, Nat.add_comm]

theorem labels_sub {x : Option Str × Body isa.Ins} {a : Int} (h : ∀ y ∈ x.1, addr (key y) = a) : ∀ k ∈ labels [x], addr k = a := by
  obtain ⟨l, body⟩ := x
  intro k hk
  cases l with
  | none => cases body <;> cases hk
  | some y =>
    cases body with
    | equ e => cases hk
    | _ => rw [List.mem_singleton.1 hk]; exact h y rfl

/-- One line. -/
theorem Agree.step (D : Definite isa) (hp : Proper p) {a b : Lines isa} {x : Option Str × Body isa.Ins} (ep : p = a ++ x :: b) {σ σ' τ τ' : State}
    {img img' : List (Int × BitVec 8)} (h : Agree p a addr addr' σ σ') (s : Spec.Program.Step isa addr (Spec.Program.late p) σ x img τ)
    (s' : Spec.Program.Step isa addr' (Spec.Program.late p) σ' x img' τ') : Agree p (a ++ [x]) addr addr' τ τ' := by
  have hplain : ∀ {τ τ' : State}, (∀ e, x.2 ≠ .equ e) → τ.pc = τ'.pc → (∀ k ∈ labels [x], addr k = addr' k) → τ.env = σ.env → τ'.env = σ'.env →
      Agree p (a ++ [x]) addr addr' τ τ' := by
    intro τ τ' hx h1 h2 h3 h4
    refine ⟨h1, fun k hk => ?_, ?_, ?_⟩
    · rw [labels_append, List.mem_append] at hk
      exact hk.elim (h.labs k) (h2 k)
    · rw [equates_append, equates_plain hx, List.append_nil, h3, h4]
      exact h.absent
    · rw [equates_append, equates_plain hx, List.append_nil, h3, h4, marks_append, marks_plain _ hx]
      exact h.found
  cases s with
  | nothing =>
    cases s'
    exact hplain (fun e => by simp) h.pc (fun k hk => by cases hk) rfl rfl
  | label h1 h2 =>
    cases s' with
    | label h3 h4 =>
    refine hplain (fun e => by simp) h.pc (fun k hk => ?_) rfl rfl
    rw [List.mem_singleton.1 hk, h2, h4]
    rw [h.pc, h3] at h1
    cases h1
    rfl
  | @org e v h1 =>
    cases s' with
    | @org _ v' h2 =>
    refine hplain (fun e => by simp) ?_ (fun k hk => by cases hk) rfl rfl
    rw [eval_same (ρ' := σ'.value addr') e fun n hn => (h.use hp ep (fun k hk => by cases hk) hn).2.2 (hp.settled a _ b ep n hn), h2] at h1
    cases h1
    rfl
  | @equ l e v h1 =>
    cases s' with
    | @equ _ _ v' h2 =>
    have hu := fun n hn => h.use hp ep (fun k hk => by cases hk) (n := n) hn
    have hk : key l ∈ Spec.Program.equates p := by
      rw [ep, equates_append]
      exact List.mem_append_right _ List.mem_cons_self
    have hm : ∀ k, Spec.Program.marks (Spec.Program.late p) (a ++ [(some l, .equ e)]) k =
        (Spec.Program.marks (Spec.Program.late p) a k || (decide (k = key l) && e.names.any fun n => Spec.Program.marks (Spec.Program.late p) a (key n))) := by
      intro k
      rw [marks_append]
      rfl
    have e1 : (σ.env (key l)).any (·.2) = Spec.Program.marks (Spec.Program.late p) a (key l) ∧
        (σ'.env (key l)).any (·.2) = Spec.Program.marks (Spec.Program.late p) a (key l) := by
      by_cases hq : key l ∈ Spec.Program.equates a
      · obtain ⟨v, v', h1, h2, -⟩ := h.found _ hq
        rw [h1, h2]
        exact ⟨rfl, rfl⟩
      · obtain ⟨h1, h2⟩ := h.absent _ hq
        rw [h1, h2, marks_off _ _ hq]
        cases hlt : Spec.Program.late p (key l) with
        | false => exact ⟨rfl, rfl⟩
        | true => exact absurd (late_mem _ hlt) (hp.apart _ hk)
    have e2 : e.names.any (σ.late (Spec.Program.late p)) = e.names.any (fun n => Spec.Program.marks (Spec.Program.late p) a (key n)) :=
      any_same fun n hn => (hu n hn).1
    have e3 : e.names.any (σ'.late (Spec.Program.late p)) = e.names.any (fun n => Spec.Program.marks (Spec.Program.late p) a (key n)) :=
      any_same fun n hn => (hu n hn).2.1
    rw [e1.1, e2, e1.2, e3]
    refine ⟨h.pc, fun k hk => ?_, fun k hk => ?_, fun k hk => ?_⟩
    · rw [labels_append] at hk
      exact h.labs k ((List.mem_append.1 hk).resolve_right fun hc => by cases hc)
    · rw [equates_append, List.mem_append, not_or] at hk
      have hne : k ≠ key l := fun e => hk.2 (by rw [e]; exact List.mem_cons_self)
      unfold State.set
      dsimp only
      rw [if_neg hne, if_neg hne]
      exact h.absent k hk.1
    · unfold State.set
      dsimp only
      rw [hm]
      by_cases hkl : k = key l
      · subst hkl
        rw [if_pos rfl, if_pos rfl, decide_eq_true rfl, Bool.true_and]
        refine ⟨_, _, rfl, rfl, fun hf => ?_⟩
        rw [Bool.or_eq_false_iff, List.any_eq_false] at hf
        rw [eval_same (ρ' := σ'.value addr') e fun n hn => (hu n hn).2.2 (by simpa using hf.2 n hn), h2] at h1
        cases h1
        rfl
      · rw [if_neg hkl, if_neg hkl, decide_eq_false hkl, Bool.false_and, Bool.or_false]
        rw [equates_append, List.mem_append] at hk
        exact h.found k (hk.resolve_right fun hc => hkl (List.mem_singleton.1 hc))
  | @data pc l size swap vs es h1 h2 h3 =>
    cases s' with
    | @data pc' _ _ _ vs' _ h4 h5 h6 =>
    have hpc : pc = pc' := by
      rw [h.pc, h4] at h1
      cases h1
      rfl
    subst hpc
    refine hplain (fun e => by simp) ?_ (fun k hk => (labels_sub h2 k hk).trans (labels_sub h5 k hk).symm) rfl rfl
    rw [data_length, data_length, ← all2_length h3, ← all2_length h6]
  | @ins pc l i bs h1 h2 h3 =>
    cases s' with
    | @ins pc' _ _ bs' h4 h5 h6 =>
    have hpc : pc = pc' := by
      rw [h.pc, h4] at h1
      cases h1
      rfl
    subst hpc
    have hx : ∀ k ∈ labels [(l, (.ins i : Body isa.Ins))], addr k = addr' k := fun k hk => (labels_sub h2 k hk).trans (labels_sub h5 k hk).symm
    refine hplain (fun e => by simp) ?_ hx rfl rfl
    rw [D.size h3 h6 (fun n hn => ?_) fun n hn => ?_]
    · obtain ⟨u1, u2, u3⟩ := h.use hp ep hx (n := n) hn
      exact ⟨u1.trans u2.symm, fun hf => u3 (u1.symm.trans hf)⟩
    · obtain ⟨u1, -⟩ := h.use hp ep hx (n := n) (D.fixed hn)
      exact u1.trans (hp.settled a _ b ep n hn)

/-- The labels are at the same addresses. -/
theorem run_addr (D : Definite isa) (hp : Proper p) : ∀ (rest a : Lines isa) {σ σ' τ τ' : State} {img img' : List (Int × BitVec 8)}, p = a ++ rest →
    Agree p a addr addr' σ σ' → Spec.Program.Run isa addr (Spec.Program.late p) σ rest img τ →
    Spec.Program.Run isa addr' (Spec.Program.late p) σ' rest img' τ' → ∀ k ∈ labels p, addr k = addr' k := by
  intro rest
  induction rest with
  | nil =>
    intro a σ σ' τ τ' img img' ep h _ _
    rw [ep, List.append_nil]
    exact h.labs
  | cons x rest ih =>
    intro a σ σ' τ τ' img img' ep h r r'
    cases r with
    | cons s r =>
    cases r' with
    | cons s' r' =>
    exact ih (a ++ [x]) (by rw [ep, List.append_assoc]; rfl) (h.step D hp ep s s') r r'

theorem all2_same {f g : Spec.Expr → Except Spec.Why Int} {es : List Spec.Expr} {vs : List Int} (h : All2 (fun e v => f e = .ok v) es vs) :
    ∀ {vs'}, All2 (fun e v => g e = .ok v) es vs' → (∀ e ∈ es, f e = g e) → vs = vs' := by
  induction h with
  | nil => intro vs' h _; cases h; rfl
  | cons h1 _ ih =>
    intro vs' h hs
    cases h with
    | cons h2 h =>
    rw [hs _ List.mem_cons_self, h2] at h1
    cases h1
    rw [ih h fun e he => hs e (List.mem_cons_of_mem _ he)]

/-- One line with the same addresses. -/
theorem step_same (D : Definite isa) (hp : Proper p) (ha : ∀ k ∈ labels p, addr k = addr' k) {rest a : Lines isa} {x : Option Str × Body isa.Ins}
    (ep : p = a ++ x :: rest) {σ σ1 σ2 : State} (he : ∀ k ∈ Spec.Program.equates a, (σ.env k).isSome) {i1 j1 : List (Int × BitVec 8)}
    (s : Spec.Program.Step isa addr (Spec.Program.late p) σ x i1 σ1) (s' : Spec.Program.Step isa addr' (Spec.Program.late p) σ x j1 σ2) :
    i1 = j1 ∧ σ1 = σ2 ∧ ∀ k ∈ Spec.Program.equates (a ++ [x]), (σ1.env k).isSome := by
  have hv : ∀ n ∈ x.2.uses, σ.value addr n = σ.value addr' n := by
    intro n hn
    unfold State.value
    cases hx : σ.env (key n) with
    | some v => rfl
    | none =>
      by_cases hs : key n = ['*']
      · dsimp only
        rw [if_pos hs, if_pos hs]
      dsimp only
      rw [if_neg hs, if_neg hs]
      refine ha _ (((hp.closed a x rest ep n hn).resolve_right fun h => hs h.1).resolve_right fun hq => ?_)
      have := he _ hq
      rw [hx] at this
      cases this
  have hplain : (∀ e, x.2 ≠ .equ e) → σ1.env = σ.env → ∀ k ∈ Spec.Program.equates (a ++ [x]), (σ1.env k).isSome := by
    intro hx hs
    rw [equates_append, equates_plain hx, List.append_nil, hs]
    exact he
  cases s with
  | nothing =>
    cases s'
    exact ⟨rfl, rfl, hplain (fun e => by simp) rfl⟩
  | label => cases s' with | label => exact ⟨rfl, rfl, hplain (fun e => by simp) rfl⟩
  | @org e v h1 =>
    cases s' with
    | @org _ v' h2 =>
    rw [eval_same e hv, h2] at h1
    cases h1
    exact ⟨rfl, rfl, hplain (fun e => by simp) rfl⟩
  | @equ l e v h1 =>
    cases s' with
    | @equ _ _ v' h2 =>
    rw [eval_same e hv, h2] at h1
    cases h1
    refine ⟨rfl, rfl, fun k hk => ?_⟩
    unfold State.set
    dsimp only
    by_cases hkl : k = key l
    · rw [if_pos hkl]; rfl
    · rw [if_neg hkl]
      rw [equates_append, List.mem_append] at hk
      exact he k (hk.resolve_right fun hc => hkl (List.mem_singleton.1 hc))
  | @data pc l size swap vs es h1 h2 h3 =>
    cases s' with
    | @data pc' _ _ _ vs' _ h4 h5 h6 =>
    rw [h4] at h1
    cases h1
    have := all2_same h3 h6 fun e he => eval_same e fun n hn => hv n (List.mem_flatMap.2 ⟨e, he, hn⟩)
    subst this
    exact ⟨rfl, rfl, hplain (fun e => by simp) rfl⟩
  | @ins pc l i bs h1 h2 h3 =>
    cases s' with
    | @ins pc' _ _ bs' h4 h5 h6 =>
    rw [h4] at h1
    cases h1
    have := D.bytes h3 h6 fun n hn => ⟨rfl, hv n hn⟩
    subst this
    exact ⟨rfl, rfl, hplain (fun e => by simp) rfl⟩

/-- With these, everything is the same. -/
theorem run_same (D : Definite isa) (hp : Proper p) (ha : ∀ k ∈ labels p, addr k = addr' k) : ∀ (rest a : Lines isa) {σ τ τ' : State}
    {img img' : List (Int × BitVec 8)}, p = a ++ rest → (∀ k ∈ Spec.Program.equates a, (σ.env k).isSome) →
    Spec.Program.Run isa addr (Spec.Program.late p) σ rest img τ →
    Spec.Program.Run isa addr' (Spec.Program.late p) σ rest img' τ' → img = img' ∧ τ = τ' := by
  intro rest
  induction rest with
  | nil =>
    intro a σ τ τ' img img' _ _ r r'
    cases r
    cases r'
    exact ⟨rfl, rfl⟩
  | cons x rest ih =>
    intro a σ τ τ' img img' ep he r r'
    cases r with
    | @cons _ _ i1 σ1 _ i2 _ s r =>
    cases r' with
    | @cons _ _ j1 σ2 _ j2 _ s' r' =>
    obtain ⟨rfl, rfl, h3⟩ := step_same D hp ha ep he s s'
    obtain ⟨rfl, rfl⟩ := ih (a ++ [x]) (by rw [ep, List.append_assoc]; rfl) h3 r r'
    exact ⟨rfl, rfl⟩

/-- A program stands for one image at most, and its labels for one address. -/
theorem run_unique (D : Definite isa) (hp : Proper p) {σ σ' : State} {img img' : List (Int × BitVec 8)}
    (r : Spec.Program.Run isa addr (Spec.Program.late p) {} p img σ) (r' : Spec.Program.Run isa addr' (Spec.Program.late p) {} p img' σ') :
    img = img' ∧ ∀ k ∈ labels p, addr k = addr' k := by
  have ha := run_addr D hp p [] rfl ⟨rfl, (fun k hk => by cases hk), fun k _ => ⟨rfl, rfl⟩, (fun k hk => by cases hk)⟩ r r'
  exact ⟨(run_same D hp ha p [] rfl (fun k hk => by cases hk) r r').1, ha⟩

end

end Crasm.C42

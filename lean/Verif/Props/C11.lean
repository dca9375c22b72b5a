import Verif.Proof.Rank

/-!
  **C11** Expressions evaluate to their arithmetic value.
-/

namespace Crasm

/-! ## The operators -/

/-- What an operator does, in the terms of the specification.  `m` and `u` are what it does to the modifier and
    to the mark for undefined operands. -/
def OpDoes (o : OpRes) (v : Except Spec.Why Int) (m : Int) (u : Bool) : Prop :=
  match v with
  | .ok x => ∃ r, o = .ok r ∧ r.type = .absolute ∧ r.value.toInt = x ∧ r.modifier = m ∧ r.flags.undef = u
  | .error .overflow => o = .ub .signedOverflow
  | .error .shift => o = .ub .shiftCount

theorem fit_ok {x : Int} (h : -2 ^ 63 ≤ x ∧ x < 2 ^ 63) : Spec.fit x = .ok x := if_pos h
theorem fit_bad {x : Int} (h : ¬ (-2 ^ 63 ≤ x ∧ x < 2 ^ 63)) : Spec.fit x = .error .overflow := if_neg h

theorem word_range (x : Word) : -2 ^ 63 ≤ x.toInt ∧ x.toInt < 2 ^ 63 := by
  have h1 := x.le_toInt
  have h2 := x.toInt_lt
  simp at h1 h2
  omega

theorem absolute2_ok {p a : Result} (hp : p.type = .absolute) (ha : a.type = .absolute) (k : Result → OpRes) :
    absolute2 p a k = k { p with flags := p.flags.or a.flags } := by
  simp [absolute2, hp, ha]

theorem ofOpt_does {r : Result} {o : Option Word} {x : Int} (hr : r.type = .absolute)
    (h1 : ∀ w, o = some w → (-2 ^ 63 ≤ x ∧ x < 2 ^ 63) ∧ w.toInt = x) (h2 : o = none → ¬ (-2 ^ 63 ≤ x ∧ x < 2 ^ 63)) :
    OpDoes (ofOpt r o) (Spec.fit x) r.modifier r.flags.undef := by
  cases o with
  | none => rw [fit_bad (h2 rfl)]; exact rfl
  | some w => rw [fit_ok (h1 w rfl).1]; exact ⟨_, rfl, hr, (h1 w rfl).2, rfl, rfl⟩

theorem addS_does (a b : Word) : (∀ w, addS a b = some w → (-2 ^ 63 ≤ a.toInt + b.toInt ∧ a.toInt + b.toInt < 2 ^ 63) ∧ w.toInt = a.toInt + b.toInt) ∧
    (addS a b = none → ¬ (-2 ^ 63 ≤ a.toInt + b.toInt ∧ a.toInt + b.toInt < 2 ^ 63)) := by
  unfold addS
  by_cases h : a.saddOverflow b
  · rw [if_pos h]
    refine ⟨fun w hw => (by cases hw), fun _ => ?_⟩
    simp [BitVec.saddOverflow] at h
    omega
  · rw [if_neg h]
    refine ⟨fun w hw => ?_, fun hw => (by cases hw)⟩
    cases hw
    refine ⟨?_, BitVec.toInt_add_of_not_saddOverflow h⟩
    simp [BitVec.saddOverflow] at h
    omega

theorem subS_does (a b : Word) : (∀ w, subS a b = some w → (-2 ^ 63 ≤ a.toInt - b.toInt ∧ a.toInt - b.toInt < 2 ^ 63) ∧ w.toInt = a.toInt - b.toInt) ∧
    (subS a b = none → ¬ (-2 ^ 63 ≤ a.toInt - b.toInt ∧ a.toInt - b.toInt < 2 ^ 63)) := by
  unfold subS
  by_cases h : a.ssubOverflow b
  · rw [if_pos h]
    refine ⟨fun w hw => (by cases hw), fun _ => ?_⟩
    simp [BitVec.ssubOverflow] at h
    omega
  · rw [if_neg h]
    refine ⟨fun w hw => ?_, fun hw => (by cases hw)⟩
    cases hw
    refine ⟨?_, BitVec.toInt_sub_of_not_ssubOverflow h⟩
    simp [BitVec.ssubOverflow] at h
    omega

theorem mulS_does (a b : Word) : (∀ w, mulS a b = some w → (-2 ^ 63 ≤ a.toInt * b.toInt ∧ a.toInt * b.toInt < 2 ^ 63) ∧ w.toInt = a.toInt * b.toInt) ∧
    (mulS a b = none → ¬ (-2 ^ 63 ≤ a.toInt * b.toInt ∧ a.toInt * b.toInt < 2 ^ 63)) := by
  unfold mulS
  by_cases h : a.smulOverflow b
  · rw [if_pos h]
    refine ⟨fun w hw => (by cases hw), fun _ => ?_⟩
    simp [BitVec.smulOverflow] at h
    omega
  · rw [if_neg h]
    refine ⟨fun w hw => ?_, fun hw => (by cases hw)⟩
    cases hw
    refine ⟨?_, BitVec.toInt_mul_of_not_smulOverflow h⟩
    simp [BitVec.smulOverflow] at h
    omega

theorem shift_range (y : Word) : y.toNat < 64 ↔ 0 ≤ y.toInt ∧ y.toInt < 64 := by
  rw [BitVec.toInt_eq_toNat_cond]
  have := y.isLt
  split <;> omega

theorem shift_count (y : Word) (h : y.toNat < 64) : y.toInt.toNat = y.toNat := by
  rw [BitVec.toInt_eq_toNat_cond, if_pos (by omega)]
  simp

theorem op2_does (op : Spec.BinOp) {p a : Result} (hp : p.type = .absolute) (ha : a.type = .absolute) :
    OpDoes (applyOp2 (Spec.BinOp.op op) p a) (op.eval p.value.toInt a.value.toInt) p.modifier (p.flags.undef || a.flags.undef) := by
  cases op with
  | add =>
    have := addS_does p.value a.value
    simp only [Spec.BinOp.op, applyOp2, Spec.BinOp.eval]
    cases h : addS p.value a.value with
    | none => rw [fit_bad (this.2 h)]; exact rfl
    | some w =>
      rw [fit_ok (this.1 w h).1]
      simp only [hp, ha, and_self, if_true]
      exact ⟨_, rfl, rfl, (this.1 w h).2, rfl, rfl⟩
  | sub =>
    have := subS_does p.value a.value
    simp only [Spec.BinOp.op, applyOp2, Spec.BinOp.eval]
    rw [if_pos ⟨hp.trans ha.symm, .inr hp⟩]
    exact ofOpt_does rfl this.1 this.2
  | mul =>
    have := mulS_does p.value a.value
    simp only [Spec.BinOp.op, applyOp2, Spec.BinOp.eval]
    rw [absolute2_ok hp ha]
    exact ofOpt_does hp this.1 this.2
  | div =>
    simp only [Spec.BinOp.op, applyOp2, Spec.BinOp.eval]
    rw [absolute2_ok hp ha]
    by_cases h0 : a.value = 0
    · rw [if_pos h0, if_pos (by rw [h0]; rfl)]
      exact ⟨_, rfl, hp, rfl, rfl, rfl⟩
    · have h2 : ¬ a.value.toInt = 0 := fun h => h0 (BitVec.eq_of_toInt_eq (by rw [h]; rfl))
      rw [if_neg h0, if_neg h2]
      by_cases h1 : p.value = BitVec.intMin 64 ∧ a.value = -1#64
      · rw [if_pos h1, h1.1, h1.2]
        exact rfl
      · rw [if_neg h1]
        have e : (p.value.sdiv a.value).toInt = p.value.toInt.tdiv a.value.toInt := by
          refine BitVec.toInt_sdiv_of_ne_or_ne _ _ ?_
          by_cases h : p.value = BitVec.intMin 64
          · exact .inr fun h' => h1 ⟨h, h'⟩
          · exact .inl h
        have := word_range (p.value.sdiv a.value)
        rw [e] at this
        rw [fit_ok this]
        exact ⟨_, rfl, hp, e, rfl, rfl⟩
  | and =>
    simp only [Spec.BinOp.op, applyOp2, Spec.BinOp.eval]
    rw [absolute2_ok hp ha, BitVec.ofInt_toInt, BitVec.ofInt_toInt]
    exact ⟨_, rfl, hp, rfl, rfl, rfl⟩
  | or =>
    simp only [Spec.BinOp.op, applyOp2, Spec.BinOp.eval]
    rw [absolute2_ok hp ha, BitVec.ofInt_toInt, BitVec.ofInt_toInt]
    exact ⟨_, rfl, hp, rfl, rfl, rfl⟩
  | xor =>
    simp only [Spec.BinOp.op, applyOp2, Spec.BinOp.eval]
    rw [absolute2_ok hp ha, BitVec.ofInt_toInt, BitVec.ofInt_toInt]
    exact ⟨_, rfl, hp, rfl, rfl, rfl⟩
  | shl =>
    simp only [Spec.BinOp.op, applyOp2, Spec.BinOp.eval]
    rw [absolute2_ok hp ha]
    by_cases h : a.value.toNat < 64
    · rw [if_pos h, if_pos ((shift_range _).1 h)]
      refine ⟨_, rfl, hp, ?_, rfl, rfl⟩
      rw [shift_count _ h, BitVec.toInt_shiftLeft, Nat.shiftLeft_eq, BitVec.toInt_eq_toNat_bmod, Int.bmod_mul_bmod]
      simp
    · rw [if_neg h, if_neg (fun h' => h ((shift_range _).2 h'))]
      exact rfl
  | shr =>
    simp only [Spec.BinOp.op, applyOp2, Spec.BinOp.eval]
    rw [absolute2_ok hp ha]
    by_cases h : a.value.toNat < 64
    · rw [if_pos h, if_pos ((shift_range _).1 h)]
      refine ⟨_, rfl, hp, ?_, rfl, rfl⟩
      rw [shift_count _ h, BitVec.toInt_sshiftRight, Int.shiftRight_eq_div_pow]
      simp
    · rw [if_neg h, if_neg (fun h' => h ((shift_range _).2 h'))]
      exact rfl

def Spec.UnOp.op : Spec.UnOp → Op1
  | .neg => .minus | .not => .not | .lo => .lo | .hi => .hi

theorem low_byte (w : Word) : (w &&& 0xff).toInt = w.toInt % 256 := by
  have h : (w &&& 0xff).toNat = w.toNat % 256 := by
    rw [BitVec.toNat_and]
    exact Nat.and_two_pow_sub_one_eq_mod _ 8
  rw [BitVec.toInt_eq_toNat_cond, h, if_pos (by omega), BitVec.toInt_eq_toNat_cond]
  split <;> omega

theorem op1_does (op : Spec.UnOp) {p : Result} (hp : p.type = .absolute) :
    OpDoes (applyOp1 (Spec.UnOp.op op) p) (op.eval p.value.toInt) p.modifier p.flags.undef := by
  cases op with
  | neg =>
    simp only [Spec.UnOp.op, applyOp1, Spec.UnOp.eval]
    rw [if_neg (fun h => h hp)]
    by_cases h : p.value = BitVec.intMin 64
    · rw [if_pos h, h]; exact rfl
    · rw [if_neg h]
      have e := BitVec.toInt_neg_of_ne_intMin h
      have := word_range (-p.value)
      rw [e] at this
      rw [fit_ok this]
      exact ⟨_, rfl, hp, e, rfl, rfl⟩
  | not =>
    simp only [Spec.UnOp.op, applyOp1, Spec.UnOp.eval]
    rw [if_neg (fun h => h hp)]
    refine ⟨_, rfl, hp, ?_, rfl, rfl⟩
    simp only
    rw [BitVec.toInt_eq_toNat_cond, BitVec.toInt_eq_toNat_cond, BitVec.toNat_not]
    have := p.value.isLt
    split <;> split <;> omega
  | lo =>
    simp only [Spec.UnOp.op, applyOp1, Spec.UnOp.eval]
    rw [if_neg (fun h => h hp)]
    exact ⟨_, rfl, hp, low_byte _, rfl, rfl⟩
  | hi =>
    simp only [Spec.UnOp.op, applyOp1, Spec.UnOp.eval]
    rw [if_neg (fun h => h hp)]
    refine ⟨_, rfl, hp, ?_, rfl, rfl⟩
    rw [low_byte, BitVec.toInt_sshiftRight, Int.shiftRight_eq_div_pow]
    rfl

/-! ## The parser -/

/-- What evaluating a text gives, in the terms of the specification: the value, or the reason for stopping.
    The pattern matcher may also run out of its work buffer.  (`z` says that no modifier is about.) -/
def Gives (z : Prop) (m : Res Result) (v : Except Spec.Why Int) : Prop :=
  (∃ t, m = .stop (.ub .filterBuffer) t) ∨
  match v with
  | .ok x => ∃ r s', m = .ok r s' ∧ r.type = .absolute ∧ r.value.toInt = x ∧ r.flags.undef = false ∧
      (z → r.modifier = 0 ∧ s'.calcR.modifier = 0)
  | .error .overflow => ∃ t, m = .stop (.ub .signedOverflow) t
  | .error .shift => ∃ t, m = .stop (.ub .shiftCount) t

theorem Gives.toward {z : Prop} {m m' : Res Result} {v : Except Spec.Why Int} (h : Toward m m') (h' : Gives z m' v) : Gives z m v := by
  rcases h with rfl | h
  · exact h'
  · exact .inl h

/-- The labels of an expression are defined, with these values. -/
def Knows (z : Prop) (s : St) (ρ : Str → Int) (names : List Str) : Prop :=
  ∀ x ∈ names, ∃ l, searchlabel s x = some l ∧ l.flags.undef = false ∧ l.type = .absolute ∧ l.value.toInt = ρ x ∧ (z → l.modifier = 0)

theorem Knows.gen {z : Prop} {s s' : St} {ρ : Str → Int} {names : List Str} (h : Knows z s ρ names) (g : Gen [] s s') : Knows z s' ρ names := by
  intro x hx
  obtain ⟨l, h1, h2, h3, h4, hz⟩ := h x hx
  obtain ⟨l', h5, h6⟩ := g.tree.some h1
  refine ⟨l', ?_, ?_, ?_, ?_, ?_⟩
  · unfold searchlabel; rw [g.segment]; exact h5
  · rw [h6.undef.1]; exact h2
  · rw [h6.value.2.1]; exact h3
  · rw [h6.value.1]; exact h4
  · rw [h6.value.2.2.1]; exact hz

theorem finish_gives {z : Prop} {tgt : Bool} {o : OpRes} {v : Except Spec.Why Int} {m : Int} {u : Bool} (h : OpDoes o v m u) (s : St)
    (hu : u = false) (hz : z → m = 0 ∧ s.calcR.modifier = 0) : Gives z (finishOp tgt o s) v := by
  refine .inr ?_
  cases v with
  | ok x =>
    obtain ⟨r, rfl, h1, h2, h3, h4⟩ := h
    cases tgt
    · exact ⟨r, _, rfl, h1, h2, h4.trans hu, fun h => ⟨h3.trans (hz h).1, (hz h).2⟩⟩
    · exact ⟨r, _, rfl, h1, h2, h4.trans hu, fun h => ⟨h3.trans (hz h).1, h3.trans (hz h).1⟩⟩
  | error w =>
    cases w with
    | overflow =>
      have h : o = .ub .signedOverflow := h
      subst h
      exact ⟨s, rfl⟩
    | shift =>
      have h : o = .ub .shiftCount := h
      subst h
      exact ⟨s, rfl⟩

theorem gives_stop {z : Prop} {m : M Result} {s : St} {w : Spec.Why} {v : Except Spec.Why Int} (h : Gives z (m s) v) (hv : v = .error w) (k : Result → M Result) :
    Gives z ((m >>= k) s) (.error w) := by
  subst hv
  rcases h with ⟨t, h⟩ | h
  · exact .inl ⟨t, run_stop h⟩
  · refine .inr ?_
    cases w with
    | overflow => obtain ⟨t, h⟩ := h; exact ⟨t, run_stop h⟩
    | shift => obtain ⟨t, h⟩ := h; exact ⟨t, run_stop h⟩

theorem one_gives {z : Prop} {n : Nat} {tgt : Bool} {op : Spec.UnOp} {R : Str} {s : St} {v : Except Spec.Why Int}
    (h : Gives z (parse2 n tgt R s) v) : Gives z (one (parse2 n) tgt (Spec.UnOp.op op) R s) (v >>= op.eval) := by
  unfold one
  cases v with
  | error w => exact gives_stop h rfl _
  | ok x =>
    rcases h with ⟨t, h⟩ | ⟨r, s', h, h1, h2, h3, h4⟩
    · exact .inl ⟨t, run_stop h⟩
    · rw [run_ok h]
      subst h2
      exact finish_gives (op1_does op h1) s' h3 h4

theorem both_gives {z : Prop} {n : Nat} {tgt : Bool} {op : Spec.BinOp} {Ra Rb : Str} {s : St} {v w : Except Spec.Why Int}
    (ha : Gives z (parse2 n tgt Ra s) v)
    (hb : ∀ r s', parse2 n tgt Ra s = .ok r s' → (z → s'.calcR.modifier = 0) → Gives z (parse2 n false Rb s') w) :
    Gives z (both (parse2 n) tgt (Spec.BinOp.op op) Rb Ra s) (do let x ← v; let y ← w; op.eval x y) := by
  unfold both
  cases v with
  | error w => exact gives_stop ha rfl _
  | ok x =>
    rcases ha with ⟨t, h⟩ | ⟨r, s', h, h1, h2, u1, z1⟩
    · exact .inl ⟨t, run_stop h⟩
    · have hb := hb r s' h fun hz => (z1 hz).2
      rw [run_ok h]
      subst h2
      cases w with
      | error w => exact gives_stop hb rfl _
      | ok y =>
        rcases hb with ⟨t, h⟩ | ⟨r', s'', h', h3, h4, u2, z2⟩
        · exact .inl ⟨t, run_stop h⟩
        · rw [run_ok h']
          subst h4
          exact finish_gives (op2_does op h1 h3) s'' (by rw [u1, u2]; rfl) fun hz => ⟨(z1 hz).1, (z2 hz).2⟩

/-! ### Leaves -/

theorem alpha_range {c : Char} (h : c.isAlphanum = true) : c.toNat < 123 := by
  simp only [Char.isAlphanum, Char.isAlpha, Char.isUpper, Char.isLower, Char.isDigit, Bool.or_eq_true, Bool.and_eq_true, decide_eq_true_eq] at h
  have e : c.toNat = c.val.toNat := rfl
  have : ∀ a b : UInt32, a ≤ b → a.toNat ≤ b.toNat := fun a b h => UInt32.le_iff_toNat_le.1 h
  rcases h with (⟨_, h⟩ | ⟨_, h⟩) | ⟨_, h⟩ <;> have := this _ _ h <;> rw [e] <;> revert this <;> simp <;> omega

theorem name_char {c : Char} (h : c.isAlphanum = true ∨ c = '_' ∨ c = '.') :
    plainChar c = true ∧ (isalnum c || c = '_' || c = '.') = true ∧ (c.isAlpha = true → isalpha c = true) := by
  have key : ∀ k < 123, ((Char.ofNat k).isAlphanum = true ∨ Char.ofNat k = '_' ∨ Char.ofNat k = '.') →
      plainChar (Char.ofNat k) = true ∧ (isalnum (Char.ofNat k) || Char.ofNat k = '_' || Char.ofNat k = '.') = true ∧
        ((Char.ofNat k).isAlpha = true → isalpha (Char.ofNat k) = true) := by decide +kernel
  rcases h with h | rfl | rfl
  · have := key c.toNat (alpha_range h)
    rw [Char.ofNat_toNat] at this
    exact this (.inl h)
  · decide
  · decide

theorem name_facts {t : Str} (h : Spec.IsName t) : t ≠ [] ∧ (∀ c ∈ t, plainChar c = true) ∧ checklabel t = true := by
  cases t with
  | nil => exact h.elim
  | cons c cs =>
    obtain ⟨h1, h2, h3⟩ := h
    have hc : c.isAlphanum = true ∨ c = '_' ∨ c = '.' := by
      rcases h1 with h1 | h1 | h1
      · exact .inl (by simp [Char.isAlphanum, h1])
      · exact .inr (.inl h1)
      · exact .inr (.inr h1)
    refine ⟨by simp, ?_, ?_⟩
    · intro x hx
      rcases List.mem_cons.1 hx with rfl | hx
      · exact (name_char hc).1
      · exact (name_char (h2 x hx)).1
    · unfold checklabel
      rw [if_neg (by simp only [List.length_cons, LABLEN]; omega)]
      split
      · rfl
      · simp only [Bool.and_eq_true]
        refine ⟨?_, List.all_eq_true.2 fun x hx => (name_char (h2 x hx)).2.1⟩
        rcases h1 with h1 | h1 | h1
        · rw [(name_char hc).2.2 h1]; rfl
        · simp [h1]
        · simp [h1]

/-- A name, or the location counter. -/
def Leaf (t : Str) : Prop := Spec.IsName t ∨ t = ['*']

theorem Leaf.check {t : Str} (h : Leaf t) : checklabel t = true := by
  rcases h with h | rfl
  · exact (name_facts h).2.2
  · decide

theorem star_start {n : Nat} {tgt : Bool} (s : St) : ∃ b, Toward (parse2 (n + 1) tgt ['*'] s) (parseLeaf tgt ['*'] { s with bufpos := b }) := by
  have miss : ∀ {alts : List (Str × Op2)}, (alts.all fun p => !(filter ['*'] p.1).ok) = true → ∀ p ∈ alts, (filter ['*'] p.1).ok = false := by
    intro alts h p hp
    simpa using List.all_eq_true.1 h p hp
  obtain ⟨w, k, hf⟩ : ∃ w k, filter ['*'] c!"?_*_?" = ⟨true, [[], []], w, k⟩ := ⟨_, _, rfl⟩
  refine ⟨s.bufpos + w, ?_⟩
  rw [parse2]
  refine (rows_dya (miss (by decide)) s).trans ((rows_dya (miss (by decide)) s).trans ?_)
  refine Toward.trans (b := parseRows (parse2 n) tgt ['*'] (revTable.drop 3) { s with bufpos := s.bufpos + w }) ?_ ?_
  · refine Toward.bind (a := some ([], [], .mul)) (s' := { s with bufpos := s.bufpos + w }) ?_ ?_
    · exact firstMatch_one (pre := []) (post := [(c!"?_/_?", Op2.div)]) (miss (by decide)) (miss (by decide)) hf s
    · simp only [or_true, if_true]
      exact .refl _
  generalize ({ s with bufpos := s.bufpos + w } : St) = s
  refine (rows_dya (miss (by decide)) s).trans ((rows_dya (miss (by decide)) s).trans ?_)
  refine (rows_mon (by decide) s).trans ((rows_mon (by decide) s).trans ?_)
  exact rows_leaf (by rintro c r h; cases h; decide) s

theorem leaf_start {n : Nat} {tgt : Bool} {t : Str} (h : Leaf t) (s : St) :
    ∃ b, Toward (parse2 (n + 1) tgt t.reverse s) (parseLeaf tgt t { s with bufpos := b }) := by
  rcases h with h | rfl
  · have hp := (name_facts h).2.1
    have hr : ∀ c ∈ t.reverse, plainChar c = true := fun c hc => hp c (List.mem_reverse.1 hc)
    have := parse2_leaf (n := n) (tgt := tgt) hr s
    rw [creverse_plain (plain_quote hr), List.reverse_reverse] at this
    exact ⟨s.bufpos, this⟩
  · exact star_start s

theorem label_leaf {t : Str} (h : Leaf t) {tgt : Bool} {s : St} {l : Label} (h1 : searchlabel s t = some l) (h2 : l.flags.undef = false) :
    ∃ r s', parseLeaf tgt t s = .ok r s' ∧ r.type = l.type ∧ r.value = l.value ∧ r.flags.undef = false ∧ r.modifier = l.modifier ∧
      (s'.calcR = s.calcR ∨ s'.calcR.modifier = l.modifier) := by
  have key : ∀ (l : Label), l.flags.undef = false → ∀ s, ∃ r s', ((do
      let r ← setRes tgt { flags := l.flags, type := l.type, modifier := l.modifier, ptr := l.ptr, value := l.value }
      if l.flags.undef && !l.flags.forward then error c!"Undefined label" else pure r : M Result) s) = .ok r s' ∧
      r.type = l.type ∧ r.value = l.value ∧ r.flags.undef = false ∧ r.modifier = l.modifier ∧
      (s'.calcR = s.calcR ∨ s'.calcR.modifier = l.modifier) := by
    intro l hl s
    cases tgt
    · exact ⟨_, _, by rw [hl]; rfl, rfl, rfl, hl, rfl, .inl rfl⟩
    · exact ⟨_, _, by rw [hl]; rfl, rfl, rfl, hl, rfl, .inr rfl⟩
  unfold parseLeaf
  rw [if_pos h.check]
  have e : findlabel t s = .ok { l with flags := { l.flags with used := true } }
      { s with tree := s.tree.put (canon s.segment t) { l with flags := { l.flags with used := true } } } := by
    unfold findlabel
    rw [getS_bind_run, h1]
    rfl
  unfold cstlabel
  rw [run_ok e]
  exact key { l with flags := { l.flags with used := true } } h2 _

theorem label_gives {z : Prop} {t : Str} (h : Leaf t) {n : Nat} {tgt : Bool} {s : St} {l : Label} (h1 : searchlabel s t = some l)
    (h2 : l.flags.undef = false) (h3 : l.type = .absolute) (hz : z → l.modifier = 0 ∧ s.calcR.modifier = 0) : Gives z (parse2 (n + 1) tgt t.reverse s) (.ok l.value.toInt) := by
  obtain ⟨b, this⟩ := leaf_start (n := n) (tgt := tgt) h s
  refine .toward this (.inr ?_)
  obtain ⟨r, s', h4, h5, h6, h7, h8, h9⟩ := label_leaf (s := { s with bufpos := b }) h h1 h2 (tgt := tgt)
  refine ⟨r, s', h4, h5.trans h3, by rw [h6], h7, fun h => ⟨h8.trans (hz h).1, ?_⟩⟩
  rcases h9 with h9 | h9
  · rw [h9]; exact (hz h).2
  · exact h9.trans (hz h).1

theorem num_gives {z : Prop} {b : Nat} {ds t : Str} {v : Nat} (hw : Spec.Writes b ds t) (hne : ds ≠ []) (hn : Spec.number b ds = some v) (hlt : v < 2 ^ 32)
    {n : Nat} {tgt : Bool} {s : St} (hz : z → s.calcR.modifier = 0) : Gives z (parse2 (n + 1) tgt t.reverse s) (.ok v) := by
  have hp := (writes_plain hw hne fun c hc => plain_x (number_digits hn c hc).1).2
  have hr : ∀ c ∈ t.reverse, plainChar c = true := fun c hc => hp c (List.mem_reverse.1 hc)
  have := parse2_leaf (n := n) (tgt := tgt) hr s
  rw [creverse_plain (plain_quote hr), List.reverse_reverse] at this
  refine .toward this ?_
  obtain ⟨k, h3⟩ := const_leaf hw hne hn tgt s
  have hl : v < Spec.limit b := by unfold Spec.limit; split <;> omega
  rw [if_pos hl] at h3
  refine .toward h3 (.inr ?_)
  obtain ⟨r, e, h4, h5, h6, h7⟩ := cst_run tgt v { s with bufpos := k }
  refine ⟨r, _, e, h4, ?_, by rw [h6], fun h => ?_⟩
  case refine_2 =>
    have hm : r.modifier = 0 := by
      rw [h7]
      cases tgt
      · rfl
      · exact hz h
    refine ⟨hm, ?_⟩
    cases tgt
    · exact hz h
    · exact hm
  rw [h5, BitVec.toInt_eq_toNat_cond, BitVec.toNat_ofNat, Nat.mod_eq_of_lt (by omega), if_pos (by omega)]

/-! ### Texts -/

theorem blank_of {b : Str} (h : ∀ c ∈ b, Spec.IsBlank c) : Blank b.reverse := by
  intro c hc
  rcases h c (List.mem_reverse.1 hc) with rfl | rfl <;> rfl

open C54 in
/-- The reversed texts have the right shape. -/
theorem text_form {k : Spec.Level} {e : Spec.Expr} {t : Str} (h : Spec.Text k e t) : C54.Shape k.lead k.rank t.reverse := by
  induction h with
  | num hw hne hn =>
    have := writes_plain hw hne fun c hc => plain_x (number_digits hn c hc).1
    exact .tok (.leaf (by simpa using this.1) fun c hc => this.2 c (List.mem_reverse.1 hc))
  | label h =>
    have := name_facts h
    exact .tok (.leaf (by simpa using this.1) fun c hc => this.2.1 c (List.mem_reverse.1 hc))
  | @here k hr =>
    have hp : RPart ['*'] := .plain (by decide)
    refine ⟨⟨by simp, ?_, ?_, hp.quotes, hp.deep, hp.back⟩, fun c hc hm hb => noTop_plain ?_ hc, fun _ => .inl (noTop_plain (by decide) (by decide))⟩
    · intro c r e; cases e; rfl
    · intro c r e
      have := last_eq (ds := []) (x := '*') e
      subst this
      rfl
    · intro h
      rw [List.mem_singleton.1 h] at hb
      have := hb.1 .mul (by decide)
      change 2 < k.rank at this
      omega
  | @bin k op a b ta tb b1 b2 hr _ _ _ h1 h2 iha ihb =>
    have := shape_join hr iha ihb (blank_of h1) (blank_of h2)
    simpa using this
  | @neg k a ta b1 hl hr _ h1 ih =>
    have e : ('-' :: (b1 ++ ta)).reverse = ta.reverse ++ (b1.reverse ++ ['-']) := by simp
    rw [e, hl]
    refine ⟨RText.sign ih.text (blank_of h1) (by decide), fun c hc hm hb => ?_, fun _ => .inr ⟨_, _, rfl, ih.text, ?_, blank_of h1⟩⟩
    · refine sign_no ih.text (ih.ops c hc (fun _ => rfl) (below9 ?_)) hc (fun h => by cases hm h) (blank_of h1)
      intro h; have := hb.2 h; omega
    · exact ih.ops _ (by decide) (fun _ => rfl) (below9 (by decide))
  | @not k a ta b1 hr _ h1 ih =>
    have e : ('~' :: (b1 ++ ta)).reverse = ta.reverse ++ (b1.reverse ++ ['~']) := by simp
    rw [e]
    refine ⟨RText.sign ih.text (blank_of h1) (by decide), fun c hc hm hb => ?_, fun _ => .inl ?_⟩
    · refine sign_no ih.text (ih.ops c hc (fun _ => rfl) below10) hc ?_ (blank_of h1)
      intro h; have := hb.2 h; omega
    · exact sign_no ih.text (ih.ops _ (by decide) (fun _ => rfl) below10) (by decide) (by decide) (blank_of h1)
  | @lo k k' a t b0 b1 b2 x y hl ho _ h0 h1 h2 ih =>
    refine .tok ?_
    have hlo : plainChar x = true ∧ plainChar y = true ∧ isblank x = false := by
      rcases hl with rfl | rfl <;> rcases ho with rfl | rfl <;> decide
    have := RTok.wrap (tail := b0.reverse ++ [y, x]) ih.text (blank_of h2) (blank_of h1) (by
      intro c hc
      rcases List.mem_append.1 hc with hc | hc
      · exact .inr (blank_of h0 c hc)
      · simp only [List.mem_cons, List.not_mem_nil, or_false] at hc
        rcases hc with rfl | rfl
        · exact .inl hlo.2.1
        · exact .inl hlo.1) (Trail.append (by
          intro c r e
          have := last_eq (ds := [y]) (x := x) e
          subst this
          exact hlo.2.2) (by simp))
    simpa using this
  | @hi k k' a t b0 b1 b2 x y hl ho _ h0 h1 h2 ih =>
    refine .tok ?_
    have hlo : plainChar x = true ∧ plainChar y = true ∧ isblank x = false := by
      rcases hl with rfl | rfl <;> rcases ho with rfl | rfl <;> decide
    have := RTok.wrap (tail := b0.reverse ++ [y, x]) ih.text (blank_of h2) (blank_of h1) (by
      intro c hc
      rcases List.mem_append.1 hc with hc | hc
      · exact .inr (blank_of h0 c hc)
      · simp only [List.mem_cons, List.not_mem_nil, or_false] at hc
        rcases hc with rfl | rfl
        · exact .inl hlo.2.1
        · exact .inl hlo.1) (Trail.append (by
          intro c r e
          have := last_eq (ds := [y]) (x := x) e
          subst this
          exact hlo.2.2) (by simp))
    simpa using this
  | paren _ h1 h2 ih =>
    refine .tok ?_
    have := RTok.wrap (tail := []) ih.text (blank_of h2) (blank_of h1) (by simp) .nil
    simpa using this

theorem text_shape {k : Spec.Level} {e : Spec.Expr} {t : Str} (h : Spec.Text k e t) : RText t.reverse ∧ (k = .tight → RTok t.reverse) :=
  ⟨(text_form h).text, fun hk => by subst hk; exact (text_form h).rtok⟩

/-- A text is split at the rightmost of its weakest operators. -/
theorem text_split {n : Nat} {tgt : Bool} {l x : Bool} {op : Spec.BinOp} {a b : Spec.Expr} {ta tb b1 b2 : Str}
    (ha : Spec.Text ⟨l, op.rank, x⟩ a ta) (hb : Spec.Text ⟨false, op.rank + 1, x⟩ b tb) (h1 : ∀ c ∈ b1, Spec.IsBlank c)
    (h2 : ∀ c ∈ b2, Spec.IsBlank c) (s : St) :
    ∃ w, Toward (parse2 (n + 1) tgt (tb.reverse ++ (b2.reverse ++ (op.sym.reverse ++ (b1.reverse ++ ta.reverse)))) s)
      (both (parse2 n) tgt (Spec.BinOp.op op) tb.reverse ta.reverse { s with bufpos := w }) := by
  have sa := text_form ha
  have sb := text_form hb
  have sj := C54.shape_join (Nat.le_refl _) sa sb (blank_of h1) (blank_of h2)
  have hn : ∀ c ∈ op.sym, NoTop c Quote.zero tb.reverse := fun c hc =>
    sb.ops c (C54.op_chars op c hc) (fun _ => rfl) ⟨fun o ho => C54.own_rank (Nat.lt_succ_self _) hc ho, fun h => by subst h; exact absurd hc (by cases op <;> decide)⟩
  exact C54.parse2_split (op := op) rfl sa.text sb.text hn (blank_of h1) (blank_of h2)
    (fun c hc hm hb => sj.ops c hc (fun h => absurd h hm) hb) sj.sign s
theorem text_minus {n : Nat} {tgt x : Bool} {a : Spec.Expr} {ta b1 : Str} (ha : Spec.Text ⟨false, 9, x⟩ a ta) (h1 : ∀ c ∈ b1, Spec.IsBlank c) (s : St) :
    ∃ w, Toward (parse2 (n + 1) tgt (ta.reverse ++ (b1.reverse ++ ['-'])) s) (one (parse2 n) tgt .minus ta.reverse { s with bufpos := w }) :=
  C54.parse2_minus_sign (text_form ha) (blank_of h1) s
theorem text_not {n : Nat} {tgt x : Bool} {a : Spec.Expr} {ta b1 : Str} (ha : Spec.Text ⟨false, 10, x⟩ a ta) (h1 : ∀ c ∈ b1, Spec.IsBlank c) (s : St) :
    ∃ w, Toward (parse2 (n + 1) tgt (ta.reverse ++ (b1.reverse ++ ['~'])) s) (one (parse2 n) tgt .not ta.reverse { s with bufpos := w }) :=
  C54.parse2_not_sign (text_form ha) (blank_of h1) s

theorem text_gives {z : Prop} {k : Spec.Level} {e : Spec.Expr} {t : Str} (h : Spec.Text k e t) (ρ : Str → Int) :
    ∀ n tgt s, t.length < n → Knows z s ρ e.names → (z → s.calcR.modifier = 0) → Gives z (parse2 n tgt t.reverse s) (e.eval ρ) := by
  have succ : ∀ {m n : Nat}, m < n → ∃ n', n = n' + 1 := fun {m n} h => ⟨n - 1, by omega⟩
  induction h with
  | num hw hne hn hlt =>
    intro n tgt s hl _ hz
    obtain ⟨n, rfl⟩ := succ hl
    exact num_gives hw hne hn hlt hz
  | @label k t h =>
    intro n tgt s hl hk hz
    obtain ⟨n, rfl⟩ := succ hl
    obtain ⟨l, h1, h2, h3, h4, h5⟩ := hk t (by simp [Spec.Expr.names])
    have := label_gives (.inl h) (n := n) (tgt := tgt) h1 h2 h3 fun h => ⟨h5 h, hz h⟩
    rw [h4] at this
    exact this
  | @here k _ =>
    intro n tgt s hl hk hz
    obtain ⟨n, rfl⟩ := succ hl
    obtain ⟨l, h1, h2, h3, h4, h5⟩ := hk ['*'] (by simp [Spec.Expr.names])
    have := label_gives (.inr rfl) (n := n) (tgt := tgt) h1 h2 h3 fun h => ⟨h5 h, hz h⟩
    rw [h4] at this
    exact this
  | @bin k op a b ta tb b1 b2 _ _ ha hb h1 h2 iha ihb =>
    intro n tgt s hl hk hz
    obtain ⟨n, rfl⟩ := succ hl
    have la : 0 < ta.length := List.length_pos_iff.2 (by simpa using (text_shape ha).1.ne)
    have lb : 0 < tb.length := List.length_pos_iff.2 (by simpa using (text_shape hb).1.ne)
    simp only [List.length_append] at hl
    obtain ⟨w, hw⟩ := text_split (n := n) (tgt := tgt) (op := op) ha hb h1 h2 s
    have e : (ta ++ (b1 ++ (op.sym ++ (b2 ++ tb)))).reverse =
        tb.reverse ++ (b2.reverse ++ (op.sym.reverse ++ (b1.reverse ++ ta.reverse))) := by simp
    rw [e]
    refine .toward hw ?_
    refine both_gives (iha n tgt _ (by omega) (fun x hx => hk x (by simp [Spec.Expr.names, hx])) hz) fun r s' hr hz' => ?_
    refine ihb n false s' (by omega) (Knows.gen ?_ (nwalk_gen (walk_parse2 n tgt _) hr)) hz'
    exact fun x hx => hk x (by simp [Spec.Expr.names, hx])
  | @neg k a ta b1 _ _ ha h1 ih =>
    intro n tgt s hl hk hz
    obtain ⟨n, rfl⟩ := succ hl
    simp only [List.length_append, List.length_cons] at hl
    obtain ⟨w, hw⟩ := text_minus (n := n) (tgt := tgt) ha h1 s
    have e : ('-' :: (b1 ++ ta)).reverse = ta.reverse ++ (b1.reverse ++ ['-']) := by simp
    rw [e]
    exact .toward hw (one_gives (op := .neg) (ih n tgt _ (by omega) hk hz))
  | @not k a ta b1 _ ha h1 ih =>
    intro n tgt s hl hk hz
    obtain ⟨n, rfl⟩ := succ hl
    simp only [List.length_append, List.length_cons] at hl
    obtain ⟨w, hw⟩ := text_not (n := n) (tgt := tgt) ha h1 s
    have e : ('~' :: (b1 ++ ta)).reverse = ta.reverse ++ (b1.reverse ++ ['~']) := by simp
    rw [e]
    exact .toward hw (one_gives (op := .not) (ih n tgt _ (by omega) hk hz))
  | @lo k k' a t b0 b1 b2 l o hl ho ha h0 h1 h2 ih =>
    intro n tgt s hln hk hz
    obtain ⟨n, rfl⟩ := succ hln
    simp only [List.length_append, List.length_cons, List.length_nil] at hln
    obtain ⟨w, hw⟩ := parse2_lo (n := n) (tgt := tgt) hl ho (text_shape ha).1 (blank_of h0) (blank_of h2) (blank_of h1) s
    have e : (l :: o :: (b0 ++ '(' :: (b1 ++ (t ++ (b2 ++ [')']))))).reverse =
        ')' :: (b2.reverse ++ (t.reverse ++ (b1.reverse ++ '(' :: (b0.reverse ++ [o, l])))) := by simp
    rw [e]
    exact .toward hw (one_gives (op := .lo) (ih n tgt _ (by omega) hk hz))
  | @hi k k' a t b0 b1 b2 l o hl ho ha h0 h1 h2 ih =>
    intro n tgt s hln hk hz
    obtain ⟨n, rfl⟩ := succ hln
    simp only [List.length_append, List.length_cons, List.length_nil] at hln
    obtain ⟨w, hw⟩ := parse2_hi (n := n) (tgt := tgt) hl ho (text_shape ha).1 (blank_of h0) (blank_of h2) (blank_of h1) s
    have e : (l :: o :: (b0 ++ '(' :: (b1 ++ (t ++ (b2 ++ [')']))))).reverse =
        ')' :: (b2.reverse ++ (t.reverse ++ (b1.reverse ++ '(' :: (b0.reverse ++ [o, l])))) := by simp
    rw [e]
    exact .toward hw (one_gives (op := .hi) (ih n tgt _ (by omega) hk hz))
  | @paren k k' a t b1 b2 ha h1 h2 ih =>
    intro n tgt s hln hk hz
    obtain ⟨n, rfl⟩ := succ hln
    simp only [List.length_append, List.length_cons, List.length_nil] at hln
    obtain ⟨w, hw⟩ := parse2_paren (n := n) (tgt := tgt) (text_shape ha).1 (blank_of h2) (blank_of h1) s
    have e : ('(' :: (b1 ++ (t ++ (b2 ++ [')'])))).reverse = ')' :: (b2.reverse ++ (t.reverse ++ (b1.reverse ++ ['(']))) := by simp
    rw [e]
    exact .toward hw (ih n tgt _ (by omega) hk hz)

/-! ## The whole operand -/

theorem warning_run (msg : Str) (s : St) : ∃ l, warning msg s = .ok () { s with lst := l } := by
  unfold warning
  rw [getS_bind_run]
  cases h : s.flags.nowarning
  · change ∃ l, outputraw _ s = _
    unfold outputraw
    rw [getS_bind_run]
    cases h' : s.flags.listOn
    · exact ⟨s.lst, rfl⟩
    · exact ⟨_, rfl⟩
  · exact ⟨s.lst, rfl⟩

/-- The text is handed to the parser after a look at its outer parentheses, which at most prints a warning. -/
theorem parse_start {t : Str} (hne : t ≠ []) (hq : ∀ c ∈ t, c ≠ '\'' ∧ c ≠ '"') (s : St) :
    ∃ l k, Toward (parse (some t) s) (parse2 (t.length + 1) true t.reverse { s with lst := l, bufpos := k }) := by
  cases t with
  | nil => exact absurd rfl hne
  | cons c t =>
    unfold parse
    cases h : (filter (c :: t) c!"(?)").ok with
    | false =>
      refine ⟨s.lst, s.bufpos, ?_⟩
      refine Toward.bind (a := false) (s' := s) ?_ ?_
      · rw [filter0_run]
        split
        · exact .inr ⟨s, rfl⟩
        · rw [h]; exact .refl _
      · refine Toward.bind (a := ()) (s' := s) (.refl _) ?_
        rw [creverse_plain hq]
        exact .refl _
    | true =>
      obtain ⟨l, hl⟩ := warning_run c!"external parenthesis ignored" { s with bufpos := s.bufpos + (filter (c :: t) c!"(?)").wrote }
      refine ⟨l, s.bufpos + (filter (c :: t) c!"(?)").wrote, ?_⟩
      refine Toward.bind (a := true) (s' := { s with bufpos := s.bufpos + (filter (c :: t) c!"(?)").wrote }) ?_ ?_
      · rw [filter0_run]
        split
        · exact .inr ⟨s, rfl⟩
        · exact .refl _
      · refine Toward.bind (a := ()) (.inl hl) ?_
        rw [creverse_plain hq]
        exact .refl _

/-- **C11**. An operand that writes the expression `e` - with parentheses, or without them where the ranks of the operators
    make them unnecessary - evaluates, when the labels in it are defined, to the value of `e`; or the assembler stops because
    that value does not exist (overflow, shift count out of range) or because the pattern matcher has used up its work buffer. -/
theorem C11_value {k : Spec.Level} {e : Spec.Expr} {t : Str} (h : Spec.Text k e t) (ρ : Str → Int) (s : St)
    (hk : ∀ x ∈ e.names, ∃ l, searchlabel s x = some l ∧ l.flags.undef = false ∧ l.type = .absolute ∧ l.value.toInt = ρ x) :
    match e.eval ρ with
    | .ok v => (∃ r s', parse (some t) s = .ok r s' ∧ r.type = .absolute ∧ r.value.toInt = v) ∨
        ∃ t', parse (some t) s = .stop (.ub .filterBuffer) t'
    | .error .overflow => (∃ t', parse (some t) s = .stop (.ub .signedOverflow) t') ∨
        ∃ t', parse (some t) s = .stop (.ub .filterBuffer) t'
    | .error .shift => (∃ t', parse (some t) s = .stop (.ub .shiftCount) t') ∨
        ∃ t', parse (some t) s = .stop (.ub .filterBuffer) t' := by
  have hs := (text_shape h).1
  obtain ⟨l, k, hl⟩ := parse_start (t := t) (by simpa using hs.ne) (fun c hc => hs.quotes c (List.mem_reverse.2 hc)) s
  have g : Gives False (parse (some t) s) (e.eval ρ) := .toward hl (text_gives h ρ _ true { s with lst := l, bufpos := k } (by omega) (fun x hx => by
    obtain ⟨l, h1, h2, h3, h4⟩ := hk x hx
    exact ⟨l, h1, h2, h3, h4, False.elim⟩) False.elim)
  revert g
  cases e.eval ρ with
  | ok v => exact fun g => g.symm.imp_left fun ⟨r, s', h1, h2, h3, _⟩ => ⟨r, s', h1, h2, h3⟩
  | error w =>
    cases w with
    | overflow => exact fun g => g.symm
    | shift => exact fun g => g.symm

/-- The hypotheses are met: `( 7 - 2 )*lo($1ff)` is such a text, of an expression worth 1275 ... -/
example : Spec.Text .free (.bin .mul (.bin .sub (.num 7) (.num 2)) (.un .lo (.num 0x1ff))) c!"( 7 - 2 )*lo($1ff)" ∧
    (Spec.Expr.bin .mul (.bin .sub (.num 7) (.num 2)) (.un .lo (.num 0x1ff))).eval (fun _ => 0) = .ok 1275 := by
  refine ⟨?_, rfl⟩
  have num : ∀ (k : Spec.Level) (c : Char) (n : Nat), Spec.number 10 [c] = some n → n < 2 ^ 32 → Spec.Text k (.num n) [c] := by
    intro k c n h1 h2
    exact .num (b := 10) (ds := [c]) (.decimal _) (by simp) h1 h2
  have h1 := Spec.Text.bin (k := .free) (op := .sub) (b1 := [' ']) (b2 := [' ']) (by decide) (by decide) (num _ '7' 7 rfl (by decide)) (num _ '2' 2 rfl (by decide))
    (by simp [Spec.IsBlank]) (by simp [Spec.IsBlank])
  have h2 := Spec.Text.paren (k := ⟨true, 2, true⟩) (b1 := [' ']) (b2 := [' ']) h1 (by simp [Spec.IsBlank]) (by simp [Spec.IsBlank])
  have h3 : Spec.Text .free (.num 0x1ff) c!"$1ff" := .num (b := 16) (ds := c!"1ff") (.dollar _) (by simp) rfl (by decide)
  have h4 := Spec.Text.lo (k := ⟨false, 3, true⟩) (l := 'l') (o := 'o') (b0 := []) (b1 := []) (b2 := []) (.inl rfl) (.inl rfl) h3 (by simp) (by simp) (by simp)
  exact Spec.Text.bin (k := .free) (op := .mul) (b1 := []) (b2 := []) (by decide) (by decide) h2 h4 (by simp) (by simp)

/-- ... and this is what the assembler makes of it. -/
example : (parse (some c!"( 7 - 2 )*lo($1ff)") (initSt { fs := fun _ => none } [])).value = some 1275 := by decide +kernel

/-- Ranks matter: this is `(2 * 7) / 2` to most readers, but not to the assembler (C55). -/
example : (parse (some c!"2*7/2") (initSt { fs := fun _ => none } [])).value = some 6 := by decide +kernel

end Crasm

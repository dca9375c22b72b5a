import Verif.Props.C06
import Verif.Props.C14

/-! # C07: DS and ALIGN -/

namespace Crasm

theorem fillBytes_gen {b : Byte} {n : Nat} {s s' : St} {u : Unit} (h : fillBytes b n s = .ok u s') :
    Gen (List.replicate n b) s s' := by
  induction n generalizing s with
  | zero => cases h; exact .refl _
  | succ n ih =>
    unfold fillBytes at h
    obtain ⟨_, s1, h1, h2⟩ := bind_ok h
    exact (insert8_gen h1).trans (ih h2)

theorem toInt32_small {v : Word} (h0 : 0 ≤ v.toInt) (h1 : v.toInt < 2 ^ 31) : toInt32 v = v.toInt := by
  unfold toInt32
  have hv : v.toInt = v.toNat := by
    rw [BitVec.toInt_eq_toNat_cond] at *
    split
    · rfl
    · rename_i h
      rw [if_neg h] at h0
      have := v.isLt
      omega
  rw [hv] at h0 h1 ⊢
  rw [BitVec.toInt_eq_toNat_cond, BitVec.toNat_setWidth]
  have e : v.toNat % 2 ^ 32 = v.toNat := Nat.mod_eq_of_lt (by omega)
  rw [e, if_pos (by omega)]

/-- `DS` as it stands in the vocabulary. -/
theorem ds_entry {e : Entry} (he : e ∈ pseudos) (hn : e.name = c!"DS") :
    e.label.type = .mnemo ∧ e.label.ptr = .handler (.pseudo .ds) := by
  revert e; decide +kernel

/-- **C07**, `DS n` with `0 ≤ n < 2^31`: exactly `n` zero bytes. -/
theorem C07_ds {e : Entry} (he : e ∈ pseudos) (hn : e.name = c!"DS") {o : Str} (ho : Spec.Operand o) :
    e.label.type = .mnemo ∧ ∃ h, e.label.ptr = .handler h ∧
      ∀ {self fuel label s rc s'}, s.advance = 0 →
        callHandler self fuel h e.label.modifier label (some o) s = .ok rc s' →
        ∃ n : Word, HasValue s o n ∧
          (0 ≤ n.toInt → n.toInt < 2 ^ 31 → Gen (List.replicate n.toInt.toNat 0) s s') := by
  refine ⟨(ds_entry he hn).1, _, (ds_entry he hn).2, ?_⟩
  intro self fuel label s rc s' ha h
  simp only [callHandler] at h
  obtain ⟨_, s1, h1, h2⟩ := bind_ok h
  cases h2
  unfold xDs at h1
  obtain ⟨⟨o', init⟩, s2, h2, h3⟩ := bind_ok h1
  obtain ⟨r, s3, h3', h4⟩ := bind_ok h3
  obtain ⟨m, s4, h5, h6⟩ := bind_ok h2
  have g1 := nwalk_gen W.walk h5
  have hm := filter2_miss (pat := c!"?_,_?")
    (filter_sep_none (c := ',') (by decide) (by decide) (operand_noTop ho)).1 s
  have h5' : filter2 o c!"?_,_?" s = .ok m s4 := h5
  rw [hm] at h5'
  split at h5'
  · cases h5'
  cases h5'
  cases h6
  obtain ⟨hp, ht⟩ := parseAbs_ok h3'
  refine ⟨r.value, ⟨s, r, s3, .refl _, rfl, hp, ht, rfl⟩, ?_⟩
  intro hn0 hn1
  rw [toInt32_small hn0 hn1] at h4
  obtain ⟨_, s4', hnote, h4⟩ := bind_ok h4
  cases hnote
  rw [if_neg (by omega)] at h4
  obtain ⟨_, s5, h7, h8⟩ := bind_ok h4
  cases h8
  have g := (nwalk_gen W.walk h3').trans ((Gen.noted s3 _).trans (fillBytes_gen h7))
  simp only [List.nil_append] at g
  have ga := g.advance
  simp only [List.length_replicate] at ga
  exact ⟨g.log, g.pc, by simp [ha]; omega, g.flags, g.pass, g.segment, g.tree, g.entered⟩

/-- **C07**, `DS n,f` with `0 ≤ n < 2^31`: exactly `n` bytes equal to the low byte of `f`. -/
theorem C07_ds_fill {e : Entry} (he : e ∈ pseudos) (hn : e.name = c!"DS") {o f t : Str} (ho : Spec.Operand o)
    (hf : Spec.Operand f) (hj : Spec.Joined [o, f] t) :
    e.label.type = .mnemo ∧ ∃ h, e.label.ptr = .handler h ∧
      ∀ {self fuel label s rc s'}, s.advance = 0 →
        callHandler self fuel h e.label.modifier label (some t) s = .ok rc s' →
        ∃ n v : Word, HasValue s o n ∧ HasValue s f v ∧
          (0 ≤ n.toInt → n.toInt < 2 ^ 31 → Gen (List.replicate n.toInt.toNat (BitVec.ofNat 8 v.toNat)) s s') := by
  refine ⟨(ds_entry he hn).1, _, (ds_entry he hn).2, ?_⟩
  intro self fuel label s rc s' ha h
  simp only [callHandler] at h
  obtain ⟨_, s1, h1, h2⟩ := bind_ok h
  cases h2
  cases hj with
  | more _ b b' t' _ hb hb' hj' =>
  cases hj' with
  | more _ _ _ _ _ _ _ hj'' => cases hj''
  | one _ =>
  obtain ⟨k, hfl⟩ := joined_filter ho hb hb' (Lead.of hf.first)
  unfold xDs at h1
  obtain ⟨⟨o', init⟩, s2, h2, h3⟩ := bind_ok h1
  obtain ⟨r, s3, h3', h4⟩ := bind_ok h3
  obtain ⟨m, s4, h5, h6⟩ := bind_ok h2
  have g1 := nwalk_gen W.walk h5
  have hm := filter2_hit hfl s
  simp only [orEmpty] at h5
  rw [hm] at h5
  split at h5
  · cases h5
  cases h5
  obtain ⟨rf, s5, h7, h8⟩ := bind_ok h6
  obtain ⟨_, s6, h9, h10⟩ := bind_ok h8
  cases h10
  have g2 := nwalk_gen W.walk h7
  have g3 := nwalk_gen (by walk) h9
  have g13 := (g1.trans g2).trans g3
  obtain ⟨hpf, htf⟩ := parseAbs_ok h7
  obtain ⟨hp, ht⟩ := parseAbs_ok h3'
  refine ⟨r.value, rf.value, ⟨_, r, s3, g13.tree, g13.segment, hp, ht, rfl⟩,
    ⟨_, rf, s5, g1.tree, g1.segment, hpf, htf, rfl⟩, ?_⟩
  intro hn0 hn1
  rw [toInt32_small hn0 hn1] at h4
  obtain ⟨_, s4', hnote, h4⟩ := bind_ok h4
  cases hnote
  rw [if_neg (by omega)] at h4
  obtain ⟨_, s7, h11, h12⟩ := bind_ok h4
  cases h12
  have e8 : lowByte (rf.value.setWidth 32) = BitVec.ofNat 8 rf.value.toNat := by
    unfold lowByte
    apply BitVec.eq_of_toNat_eq
    simp
  rw [e8] at h11
  have g := (g13.trans (nwalk_gen W.walk h3')).trans ((Gen.noted s3 _).trans (fillBytes_gen h11))
  simp only [List.nil_append] at g
  have ga := g.advance
  simp only [List.length_replicate] at ga
  exact ⟨g.log, g.pc, by simp [ha]; omega, g.flags, g.pass, g.segment, g.tree, g.entered⟩

/-- Equal up to letter case. -/
def SameWord (w k : Str) : Prop := w.map Char.toUpper = k

theorem filter0_ok {o pat : Str} {b : Bool} {s s' : St} (h : filter0 o pat s = .ok b s') :
    Gen [] s s' ∧ (b = true → ∃ caps, Spec.Fits pat caps o) := by
  refine ⟨nwalk_gen W.walk h, ?_⟩
  intro hb
  subst hb
  rw [filter0_run] at h
  split at h
  · cases h
  · cases hf : (filter o pat).ok with
    | false => rw [hf] at h; cases h
    | true => exact ⟨_, C14_captures o pat hf⟩

theorem fits_lits : ∀ {k : Str} {caps : List Str} {o : Str}, (∀ c ∈ k, c ≠ '?' ∧ c ≠ '_' ∧ c ≠ ' ' ∧ c.toUpper = c) →
    Spec.Fits (k ++ ['_']) caps o → ∃ w b, o = w ++ b ∧ SameWord w k ∧ ∀ c ∈ b, Spec.IsBlank c := by
  intro k
  induction k with
  | nil =>
    intro caps o _ h
    simp only [List.nil_append, Spec.Fits] at h
    simp at h
    obtain ⟨b, s', e, hb, h⟩ := h
    refine ⟨[], b, ?_, rfl, hb⟩
    cases caps with
    | nil => simp [Spec.Fits] at h; simp [e, h]
    | cons => simp [Spec.Fits] at h
  | cons p k ih =>
    intro caps o hk h
    obtain ⟨h1, h2, h3, h4⟩ := hk p (by simp)
    simp only [List.cons_append, Spec.Fits, if_neg h1, if_neg h2] at h
    obtain ⟨x, s', rfl, hx, h⟩ := h
    obtain ⟨w, b, rfl, hw, hb⟩ := ih (fun c hc => hk c (by simp [hc])) h
    refine ⟨x :: w, b, rfl, ?_, hb⟩
    rcases hx with hx | hx
    · unfold SameWord at *
      simp only [List.map_cons, hw, ← hx, h4]
    · exact absurd hx.1 h3

theorem fits_word {k o : Str} (hk : ∀ c ∈ k, c ≠ '?' ∧ c ≠ '_' ∧ c ≠ ' ' ∧ c.toUpper = c)
    (h : ∃ caps, Spec.Fits ('_' :: (k ++ ['_'])) caps o) :
    ∃ b w b', o = b ++ w ++ b' ∧ (∀ c ∈ b ++ b', Spec.IsBlank c) ∧ SameWord w k := by
  obtain ⟨caps, h⟩ := h
  simp only [Spec.Fits] at h
  simp at h
  obtain ⟨b, s', rfl, hb, h⟩ := h
  obtain ⟨w, b', rfl, hw, hb'⟩ := fits_lits hk h
  refine ⟨b, w, b', by simp, ?_, hw⟩
  intro c hc
  rcases List.mem_append.1 hc with h | h
  · exact hb c h
  · exact hb' c h

theorem align_entry {e : Entry} (he : e ∈ pseudos) (hn : e.name = c!"ALIGN") :
    e.label.type = .mnemo ∧ e.label.ptr = .handler (.pseudo .align) := by
  revert e; decide +kernel

/-- **C07**, `ALIGN`.  When it succeeds the operand was EVEN or ODD, at most one byte, a zero, was generated,
    and the location counter has the parity asked for. -/
theorem C07_align {e : Entry} (he : e ∈ pseudos) (hn : e.name = c!"ALIGN") :
    e.label.type = .mnemo ∧ ∃ h, e.label.ptr = .handler h ∧
      ∀ {self fuel label o s rc s'}, callHandler self fuel h e.label.modifier label o s = .ok rc s' →
        ∃ (odd : Bool) (b w b' : Str) (bs : List Byte), o.getD [] = b ++ w ++ b' ∧
          (∀ c ∈ b ++ b', Spec.IsBlank c) ∧ SameWord w (if odd then c!"ODD" else c!"EVEN") ∧
          (bs = [] ∨ bs = [0]) ∧ Gen bs s s' ∧ s'.code.pc.toNat % 2 = if odd then 1 else 0 := by
  refine ⟨(align_entry he hn).1, _, (align_entry he hn).2, ?_⟩
  intro self fuel label o s rc s' h
  simp only [callHandler] at h
  obtain ⟨_, s1, h1, h2⟩ := bind_ok h
  cases h2
  unfold xAlign at h1
  rw [getS_bind_run] at h1
  have ho : orEmpty o = o.getD [] := by cases o <;> rfl
  rw [ho] at h1
  have par : ∀ x : Word, (x &&& 1 ≠ 0) ↔ x.toNat % 2 = 1 := by
    intro x
    have e : (x &&& 1).toNat = x.toNat % 2 := by
      rw [BitVec.toNat_and]
      exact Nat.and_one_is_mod _
    constructor
    · intro h
      have : (x &&& 1).toNat ≠ 0 := fun h' => h (BitVec.eq_of_toNat_eq h')
      omega
    · intro h h'
      rw [h'] at e
      simp at e
      omega
  have pc1 : ∀ x : Word, (x + BitVec.ofNat 64 1).toNat % 2 = (x.toNat + 1) % 2 := by
    intro x
    rw [BitVec.toNat_add]
    simp
  obtain ⟨b1, s2, h3, h4⟩ := bind_ok h1
  obtain ⟨g1, w1⟩ := filter0_ok h3
  by_cases hb : b1 = true
  · obtain ⟨b, w, b', e1, e2, e3⟩ := fits_word (k := c!"EVEN") (by decide) (w1 hb)
    rw [if_pos hb] at h4
    refine ⟨false, b, w, b', ?_⟩
    have gpc := g1.pc
    simp at gpc
    by_cases hp : s.code.pc &&& 1 ≠ 0
    · rw [decide_eq_true hp] at h4
      simp only [whenM, if_true] at h4
      have g := g1.trans (insert8_gen h4)
      refine ⟨[0], e1, e2, e3, .inr rfl, g, ?_⟩
      rw [g.pc]
      have := (par _).1 hp
      simp only [List.nil_append, List.length_singleton, pc1, Bool.false_eq_true, if_false]
      omega
    · rw [decide_eq_false hp] at h4
      simp only [whenM, Bool.false_eq_true, if_false] at h4
      cases h4
      refine ⟨[], e1, e2, e3, .inl rfl, g1, ?_⟩
      rw [gpc]
      have := mt (par s.code.pc).2 hp
      simp
      omega
  · rw [if_neg hb] at h4
    obtain ⟨b2, s3, h5, h6⟩ := bind_ok h4
    obtain ⟨g2, w2⟩ := filter0_ok h5
    have g12 := g1.trans g2
    have gpc := g12.pc
    simp at gpc
    by_cases hb2 : b2 = true
    · obtain ⟨b, w, b', e1, e2, e3⟩ := fits_word (k := c!"ODD") (by decide) (w2 hb2)
      rw [if_pos hb2] at h6
      refine ⟨true, b, w, b', ?_⟩
      by_cases hp : s.code.pc &&& 1 ≠ 0
      · rw [decide_eq_true hp] at h6
        simp only [whenM, Bool.not_true, Bool.false_eq_true, if_false] at h6
        cases h6
        refine ⟨[], e1, e2, e3, .inl rfl, g12, ?_⟩
        rw [gpc]
        have := (par _).1 hp
        simpa using this
      · rw [decide_eq_false hp] at h6
        simp only [whenM, Bool.not_false, if_true] at h6
        have g := g12.trans (insert8_gen h6)
        refine ⟨[0], e1, e2, e3, .inr rfl, g, ?_⟩
        rw [g.pc]
        have := mt (par s.code.pc).2 hp
        simp only [List.nil_append, List.length_singleton, pc1, if_true]
        omega
    · rw [if_neg hb2] at h6
      exact absurd h6 error_not_ok

example : emittedBytes c!" cpu 6502\n*=$101\n align Even\n align even\n align odd\n ds 2, $1ff\n ds 1\n" =
    [(0x101, 0), (0x102, 0), (0x103, 0xff), (0x104, 0xff), (0x105, 0)] := by decide +kernel

end Crasm

import Verif.Proof.Gen
import Verif.Spec.Bytes
import Verif.Props.C13

/-! # C06: data directives -/

namespace Crasm

theorem endian1 (l : Bool) (v : Word) : Spec.endian l 1 v.toNat = [v.setWidth 8] := by
  have : BitVec.ofNat 8 v.toNat = v.setWidth 8 := by apply BitVec.eq_of_toNat_eq; simp
  cases l <;> simp [Spec.endian, Spec.bigEndian, Spec.littleEndian]

theorem byte_k (v : Word) (k : Nat) : (v >>> k).setWidth 8 = BitVec.ofNat 8 (v.toNat / 2 ^ k) := by
  apply BitVec.eq_of_toNat_eq
  simp [Nat.shiftRight_eq_div_pow]

theorem endian2 (l : Bool) (v : Word) : Spec.endian l 2 v.toNat =
    if l then [v.setWidth 8, (v >>> 8).setWidth 8] else [(v >>> 8).setWidth 8, v.setWidth 8] := by
  have := byte_k v 8
  have h0 := byte_k v 0
  simp at h0
  cases l <;> simp [Spec.endian, Spec.bigEndian, Spec.littleEndian, this, h0]

theorem endian4 (l : Bool) (v : Word) : Spec.endian l 4 v.toNat =
    if l then [v.setWidth 8, (v >>> 8).setWidth 8, (v >>> 16).setWidth 8, (v >>> 24).setWidth 8]
    else [(v >>> 24).setWidth 8, (v >>> 16).setWidth 8, (v >>> 8).setWidth 8, v.setWidth 8] := by
  have h1 := byte_k v 8
  have h2 := byte_k v 16
  have h3 := byte_k v 24
  have h0 := byte_k v 0
  simp at h0
  cases l <;> simp [Spec.endian, Spec.bigEndian, Spec.littleEndian, h1, h2, h3, h0, Nat.div_div_eq_div_mul]

/-- The operand `o` has the numeric value `v` for the symbol table and scope of `s` (references made by
    earlier operands of the same line do not count as changes of the table). -/
def HasValue (s : St) (o : Str) (v : Word) : Prop :=
  ∃ s1 r s2, Alike s.tree s1.tree ∧ s1.segment = s.segment ∧ parse (some o) s1 = .ok r s2 ∧
    r.type = .absolute ∧ r.value = v

/-- The data directives: name, modifier in the vocabulary, bytes per operand, opposite byte order. -/
def dataDirectives : List (Str × Int × Nat × Bool) :=
  [(c!"DB", 1, 1, false), (c!"DW", 3, 2, false), (c!"DDB", 2, 2, true), (c!"DL", 4, 4, false)]

theorem parseAbs_ok {o : Option Str} {s s' : St} {r : Result} (h : parseAbs o s = .ok r s') :
    parse o s = .ok r s' ∧ r.type = .absolute := by
  unfold parseAbs at h
  obtain ⟨r', s1, h1, h⟩ := bind_ok h
  obtain ⟨u, s2, h2, h⟩ := bind_ok h
  cases h
  unfold checktype at h2
  split at h2
  · cases h2; exact ⟨h1, by assumption⟩
  · exact absurd h2 error_not_ok

theorem pure_ok {a b : α} {s s' : St} (h : (pure a : M α) s = .ok b s') : b = a ∧ s' = s := by
  cases h; exact ⟨rfl, rfl⟩

theorem toggle_back {f g : Flags} {b : Bool}
    (h : g = { { f with lohi := !f.lohi } with listOn := b }) :
    { g with lohi := !g.lohi } = { f with listOn := b } := by
  subst h; cases f; simp

/-- One operand of a data directive. -/
theorem stocke_gen {d : Str × Int × Nat × Bool} (hd : d ∈ dataDirectives) {o : Str} {s s' : St} {u : Unit}
    (h : stocke (some o) d.2.1 s = .ok u s') :
    ∃ r s1, parse (some o) s = .ok r s1 ∧ r.type = .absolute ∧
      Gen (Spec.endian (s.flags.lohi != d.2.2.2) d.2.2.1 r.value.toNat) s s' := by
  unfold stocke at h
  obtain ⟨r, s1, h1, h⟩ := bind_ok h
  have g1 := nwalk_gen W.walk h1
  obtain ⟨hp, ht⟩ := parseAbs_ok h1
  refine ⟨r, s1, hp, ht, ?_⟩
  obtain ⟨f1, hf1⟩ := g1.flags
  obtain ⟨mask, s2, h2, h3⟩ := bind_ok h
  have g3 := nwalk_gen (by walk) h3
  suffices hh : Gen (Spec.endian (s.flags.lohi != d.2.2.2) d.2.2.1 r.value.toNat) s1 s2 by
    have := (g1.trans hh).trans g3
    simpa using this
  clear h h3 g3
  simp only [dataDirectives, List.mem_cons, List.not_mem_nil, or_false] at hd
  rcases hd with rfl | rfl | rfl | rfl <;> simp only at h2 ⊢
  · simp at h2
    obtain ⟨_, s3, h3, h4⟩ := bind_ok h2
    cases h4
    rw [endian1]
    exact insert8_gen h3
  · simp at h2
    obtain ⟨_, s3, h3, h4⟩ := bind_ok h2
    cases h4
    have := insert16_gen h3
    have hl : s1.flags.lohi = s.flags.lohi := by rw [hf1]
    have e1 : (BitVec.setWidth 8 (BitVec.setWidth 16 r.value)) = r.value.setWidth 8 := by ext i; simp
    have e2 : (BitVec.setWidth 8 (BitVec.setWidth 16 r.value >>> 8)) = (r.value >>> 8).setWidth 8 := by
      ext i; simp; omega
    rw [hl, e1, e2] at this
    rw [endian2]
    simpa using this
  · simp at h2
    obtain ⟨_, s3, h3, h4⟩ := bind_ok h2
    obtain ⟨_, s4, h5, h6⟩ := bind_ok h4
    obtain ⟨_, s5, h7, h8⟩ := bind_ok h6
    cases h8
    cases h3
    cases h7
    have := insert16_gen h5
    obtain ⟨f4, hf4⟩ := this.flags
    have hl : s1.flags.lohi = s.flags.lohi := by rw [hf1]
    have e1 : (BitVec.setWidth 8 (BitVec.setWidth 16 r.value)) = r.value.setWidth 8 := by ext i; simp
    have e2 : (BitVec.setWidth 8 (BitVec.setWidth 16 r.value >>> 8)) = (r.value >>> 8).setWidth 8 := by
      ext i; simp; omega
    simp only [hl, e1, e2] at this
    rw [endian2]
    have e3 : (s.flags.lohi != true) = !s.flags.lohi := by cases s.flags.lohi <;> rfl
    rw [e3]
    exact ⟨this.log, this.pc, this.advance, ⟨f4, toggle_back hf4⟩, this.pass, this.segment, this.tree, this.entered.of rfl⟩
  · simp at h2
    obtain ⟨_, s3, h3, h4⟩ := bind_ok h2
    cases h4
    have := insert32_gen h3
    have hl : s1.flags.lohi = s.flags.lohi := by rw [hf1]
    have e0 : (BitVec.setWidth 8 (BitVec.setWidth 32 r.value)) = r.value.setWidth 8 := by ext i; simp
    have e1 : (BitVec.setWidth 8 (BitVec.setWidth 32 r.value >>> 8)) = (r.value >>> 8).setWidth 8 := by
      ext i; simp; omega
    have e2 : (BitVec.setWidth 8 (BitVec.setWidth 32 r.value >>> 16)) = (r.value >>> 16).setWidth 8 := by
      ext i; simp; omega
    have e3 : (BitVec.setWidth 8 (BitVec.setWidth 32 r.value >>> 24)) = (r.value >>> 24).setWidth 8 := by
      ext i; simp; omega
    simp only [hl, e0, e1, e2, e3] at this
    rw [endian4]
    simpa using this

/-- Pairwise relation of two lists. -/
inductive Pairs (R : α → β → Prop) : List α → List β → Prop
  | nil : Pairs R [] []
  | cons {a b as bs} : R a b → Pairs R as bs → Pairs R (a :: as) (b :: bs)

/-- **C06.**  When a data directive of the vocabulary with a list of operands is carried out, it generates,
    for each operand in turn, the 1, 2, 2 or 4 low-order bytes of its value in the byte order of the
    processor (`DDB`: the opposite one), at consecutive addresses, and nothing else. -/
theorem C06_data {e : Entry} (he : e ∈ pseudos) {d : Str × Int × Nat × Bool} (hd : d ∈ dataDirectives)
    (hn : e.name = d.1) {ops : List Str} {t : Str} (hops : ∀ o ∈ ops, Spec.Operand o) (hj : Spec.Joined ops t) :
    e.label.type = .mnemo ∧ ∃ h, e.label.ptr = .handler h ∧
      ∀ {self fuel label s rc s'}, callHandler self fuel h e.label.modifier label (some t) s = .ok rc s' →
        rc = .cont ∧ ∃ vs : List Word, Pairs (HasValue s) ops vs ∧
          Gen (vs.flatMap fun v => Spec.endian (s.flags.lohi != d.2.2.2) d.2.2.1 v.toNat) s s' := by
  have key : e.label.type = .mnemo ∧ e.label.ptr = .handler (.pseudo .dc) ∧ e.label.modifier = d.2.1 := by
    revert e d
    decide +kernel
  refine ⟨key.1, _, key.2.1, ?_⟩
  intro self fuel label s rc s' h
  rw [key.2.2] at h
  simp only [callHandler] at h
  obtain ⟨_, s1, h1, h2⟩ := bind_ok h
  obtain ⟨rfl, rfl⟩ := pure_ok h2
  refine ⟨rfl, ?_⟩
  obtain ⟨ws, hl, -, hw⟩ := C13_data d.2.1 hops hj
  rw [hw] at h1
  clear hw h2 h hj key hn he hops
  have gen : ∀ (ops : List Str) (ws : List Nat) (s0 : St), ws.length = ops.length →
      Alike s.tree s0.tree → s0.segment = s.segment → s0.flags.lohi = s.flags.lohi →
      eachOperand (fun o => stocke (some o) d.2.1) (ops.zip ws) s0 = .ok () s' →
      ∃ vs : List Word, Pairs (HasValue s) ops vs ∧
        Gen (vs.flatMap fun v => Spec.endian (s.flags.lohi != d.2.2.2) d.2.2.1 v.toNat) s0 s' := by
    intro ops
    induction ops with
    | nil =>
      intro ws s0 hl _ _ _ h
      cases h
      exact ⟨[], .nil, .refl _⟩
    | cons o ops ih =>
      intro ws s0 hl ht hs hf h
      cases ws with
      | nil => simp at hl
      | cons w ws =>
      have hl' : ws.length = ops.length := by simpa using hl
      -- one operand
      have one : ∀ s1, Gen [] s0 s1 → ∀ s2 u, stocke (some o) d.2.1 s1 = .ok u s2 → ∃ v, HasValue s o v ∧
          Gen (Spec.endian (s.flags.lohi != d.2.2.2) d.2.2.1 v.toNat) s0 s2 := by
        intro s1 g1 s2 u hst
        obtain ⟨r, s3, hp, hty, g⟩ := stocke_gen hd hst
        obtain ⟨f1, hf1⟩ := g1.flags
        refine ⟨r.value, ⟨s1, r, s3, ht.trans g1.tree, g1.segment.trans hs, hp, hty, rfl⟩, ?_⟩
        have e : s1.flags.lohi = s.flags.lohi := by rw [hf1]; exact hf
        rw [e] at g
        exact g1.trans g
      cases ops with
      | nil =>
        cases ws with
        | cons => simp at hl'
        | nil =>
        simp only [List.zip_cons_cons, List.zip_nil_right, eachOperand] at h
        obtain ⟨_, s1, h1, h2⟩ := bind_ok h
        have e1 : s1 = s0 := by unfold room at h1; split at h1 <;> cases h1; rfl
        subst e1
        obtain ⟨v, hv, g⟩ := one s1 (.refl _) _ _ h2
        exact ⟨[v], .cons hv .nil, by simpa using g⟩
      | cons o' ops =>
        cases ws with
        | nil => simp at hl'
        | cons w' ws =>
        simp only [List.zip_cons_cons, eachOperand] at h
        obtain ⟨_, s1, h1, h2⟩ := bind_ok h
        obtain ⟨_, s2, h2, h3⟩ := bind_ok h2
        have g1 : Gen [] s0 s1 := by
          unfold spend at h1; split at h1 <;> cases h1
          exact SameBut.gen ⟨_, _, _, rfl⟩
        obtain ⟨v, hv, g⟩ := one s1 g1 _ _ h2
        obtain ⟨f, hfl⟩ := g.flags
        obtain ⟨vs, hvs, g'⟩ := ih (w' :: ws) s2 hl' (ht.trans g.tree) (g.segment.trans hs)
          (by rw [hfl]; exact hf) h3
        exact ⟨v :: vs, .cons hv hvs, by simpa using g.trans g'⟩
  exact gen ops ws s hl (.refl _) rfl rfl h1

theorem bindAll_lohi (t : TableId) (es : List Entry) (is : List Nat) : ∀ {s s' : St} {u : Unit},
    bindAll t es is s = .ok u s' → s'.flags.lohi = s.flags.lohi := by
  induction is with
  | nil => intro s s' u h; cases h; rfl
  | cons i is ih =>
    intro s s' u h
    unfold bindAll at h
    obtain ⟨_, s1, h1, h2⟩ := bind_ok h
    rw [ih h2]
    revert h1
    cases es[i - 1]? with
    | none => intro h1; cases h1; rfl
    | some e =>
      intro h1
      dsimp only at h1
      unfold bindOne at h1
      obtain ⟨_, _, hg, h1⟩ := bind_ok h1
      cases hg
      revert h1
      dsimp only
      cases s.tree.find (canon s.segment e.name) with
      | none => intro h1; cases h1; rfl
      | some q =>
        dsimp only
        intro h1
        by_cases hq : q.origin = some t ∧ q.flags.undef = true
        · rw [if_pos hq] at h1
          cases h1; rfl
        · rw [if_neg hq] at h1
          obtain ⟨f, hf⟩ := (nwalk_gen W.walk h1).flags
          rw [hf]

/-- The byte orders are those of the processors: low byte first but for the 6800 family. -/
theorem C06_order (c : Cpu) {s s' : St} {u : Unit} (h : c.init s = .ok u s') :
    s'.flags.lohi = true ↔ c ∉ [.c6800, .c6801, .c6803] := by
  have w : ∀ {b : Prop} [Decidable b] {t : TableId} {es : List Entry} {s s' : St} {u : Unit},
      whenM b (initLabelList t es) s = .ok u s' → s'.flags.lohi = s.flags.lohi := by
    intro b _ t es s s' u h
    unfold whenM at h
    split at h
    · exact bindAll_lohi _ _ _ h
    · cases h; rfl
  have h6800 : ∀ {n : Int} {s s' : St} {u : Unit}, C6800.init n s = .ok u s' → s'.flags.lohi = false := by
    intro n s s' u h
    unfold C6800.init at h
    obtain ⟨_, s1, h1, h2⟩ := bind_ok h
    obtain ⟨_, s2, h2, h3⟩ := bind_ok h2
    rw [w h3, bindAll_lohi _ _ _ h2]
    cases h1; rfl
  have h6502 : ∀ {n : Int} {s s' : St} {u : Unit}, C6502.init n s = .ok u s' → s'.flags.lohi = true := by
    intro n s s' u h
    unfold C6502.init at h
    obtain ⟨_, s1, h1, h2⟩ := bind_ok h
    obtain ⟨_, s2, h2, h3⟩ := bind_ok h2
    rw [w h3, bindAll_lohi _ _ _ h2]
    cases h1; rfl
  have hz : ∀ {s s' : St} {u : Unit}, Z80.init s = .ok u s' → s'.flags.lohi = true := by
    intro s s' u h
    unfold Z80.init at h
    obtain ⟨_, s1, h1, h2⟩ := bind_ok h
    rw [bindAll_lohi _ _ _ h2]
    cases h1; rfl
  cases c <;> unfold Cpu.init at h
  · simp [h6800 h]
  · simp [h6800 h]
  · simp [h6800 h]
  · simp [h6502 h]
  · simp [h6502 h]
  · simp [h6502 h]
  · simp [hz h]

/-- The hypotheses of `C06_data` and `C06_order` are met by real lines: what a small program generates. -/
def emittedBytes (src : Str) : List (Word × Byte) :=
  match assemble 60 {} (initSt { fs := fun _ => none } src) with
  | .ok _ s => s.log.reverse.filterMap fun
    | .byte 2 a b _ => some (a, b)
    | _ => none
  | _ => []

example : emittedBytes c!" cpu 6502\n*=$100\n dw $1234 , 'a',5\n ddb $1234\n dl 1\n db 255,-1\n" =
    [(0x100, 0x34), (0x101, 0x12), (0x102, 0x61), (0x103, 0), (0x104, 5), (0x105, 0), (0x106, 0x12), (0x107, 0x34),
     (0x108, 1), (0x109, 0), (0x10a, 0), (0x10b, 0), (0x10c, 0xff), (0x10d, 0xff)] := by decide +kernel
example : emittedBytes c!" cpu 6800\n*=$100\n dw $1234\n ddb $1234\n dl 1\n" =
    [(0x100, 0x12), (0x101, 0x34), (0x102, 0x34), (0x103, 0x12), (0x104, 0), (0x105, 0), (0x106, 0), (0x107, 1)] := by
  decide +kernel
example : Spec.Joined [c!"$1234", c!"'a'", c!"x"] c!"$1234 , 'a',x" :=
  .more c!"$1234" c!" " c!" " _ _ (by decide) (by decide) (.more c!"'a'" [] [] _ _ (by decide) (by decide) (.one c!"x"))

end Crasm

import Verif.Props.C11
import Verif.Proof.OperZ
/-! # Instructions of the Z80: from operands to bytes -/

namespace Crasm

theorem Makes.seq {b1 b2 : List Byte} {s : St} {m : M α} {f : α → M β} (h : Makes (some b1) s (m s))
    (hf : ∀ a s1, Gen b1 s s1 → Makes (some b2) s1 (f a s1)) : Makes (some (b1 ++ b2)) s ((m >>= f) s) := by
  rcases res_cases (m s) with ⟨a, s1, hm⟩ | ⟨s1, hm⟩ | ⟨w, s1, hm⟩
  · rw [hm] at h
    rw [run_ok hm]
    obtain ⟨bs, h1, h2⟩ := h
    cases h1
    have h3 := hf a s1 h2
    rcases res_cases (f a s1) with ⟨b, s2, hr⟩ | ⟨s2, hr⟩ | ⟨w, s2, hr⟩
    · rw [hr] at h3 ⊢
      obtain ⟨cs, h4, h5⟩ := h3
      cases h4
      exact ⟨_, rfl, h2.trans h5⟩
    · rw [hr] at h3; cases h3
    · rw [hr]; trivial
  · rw [hm] at h; cases h
  · rw [run_stop hm]; trivial
theorem makes_insert8 {x : Byte} {s : St} (ho : s.flags.orgGv = true) : Makes (some [x]) s (insert8 x s) := by
  rcases insert8_no_err (x := x) ho with ⟨s', h, g⟩ | ⟨w, s', h⟩ <;> rw [h]
  · exact ⟨_, rfl, g⟩
  · trivial
theorem makes_insert16 {x : BitVec 16} {s : St} (ho : s.flags.orgGv = true) (hl : s.flags.lohi = true) :
    Makes (some [x.setWidth 8, (x >>> 8).setWidth 8]) s (insert16 x s) := by
  rcases insert16_no_err (x := x) ho with ⟨s', h, g⟩ | ⟨w, s', h⟩ <;> rw [h]
  · rw [hl] at g
    exact ⟨_, rfl, g⟩
  · trivial
theorem makes_when {c : Prop} [Decidable c] {bs : List Byte} {s : St} {m : M Unit} (h : c → Makes (some bs) s (m s)) :
    Makes (some (if c then bs else [])) s (whenM c m s) := by
  unfold whenM
  by_cases hc : c
  · rw [if_pos hc, if_pos hc]; exact h hc
  · rw [if_neg hc, if_neg hc]; exact ⟨_, rfl, .refl _⟩
theorem makes_warning {msg : Str} {s : St} : Makes (some []) s (warning msg s) := by
  obtain ⟨l, h⟩ := warning_run msg s
  have g := nwalk_gen (W.walk (m := warning msg)) h
  rw [h]
  exact ⟨_, rfl, g⟩
theorem makes_pure {a : α} {s : St} : Makes (some []) s ((pure a : M α) s) := ⟨_, rfl, .refl _⟩

namespace Zop
open Z80 (Z Idx getreg getIndexed indexed docode)
open _root_.Spec.Z80 (R8 Ix Pair Kind Arg Form Written Fixed Word Bl Free Item fill1 fill2)

/-! ### The operands are operands -/

theorem bal_append {allow : Char → Bool} {a b : Str} (ha : Spec.Bal allow a) (hb : Spec.Bal allow b) : Spec.Bal allow (a ++ b) := by
  induction ha with
  | nil => exact hb
  | plain allow c s h1 h2 h3 h4 h5 _ ih => exact .plain _ _ _ h1 h2 h3 h4 h5 (ih hb)
  | paren allow t s ht _ _ ih =>
    have := Spec.Bal.paren allow t _ ht (ih hb)
    simpa using this
  | quoted allow q t s hq ht _ ih =>
    have := Spec.Bal.quoted allow q t _ hq ht (ih hb)
    simpa using this
theorem bal_all {allow : Char → Bool} {a : Str} (ha : Spec.Bal allow a) : Spec.Bal (fun _ => true) a := by
  induction ha with
  | nil => exact .nil _
  | plain allow c s h1 h2 h3 h4 h5 _ ih => exact .plain _ _ _ h1 h2 h3 h4 rfl ih
  | paren allow t s ht _ _ ih => exact .paren _ _ _ ht ih
  | quoted allow q t s hq ht _ ih => exact .quoted _ _ _ _ hq ht ih
theorem bal_chars {a : Str} (h : ∀ c ∈ a, c ≠ '\'' ∧ c ≠ '"' ∧ c ≠ '(' ∧ c ≠ ')') : Spec.Bal (fun _ => true) a := by
  induction a with
  | nil => exact .nil _
  | cons c a ih =>
    have := h c (by simp)
    exact .plain _ _ _ this.1 this.2.1 this.2.2.1 this.2.2.2 rfl (ih fun d hd => h d (by simp [hd]))
theorem operand_paren {t : Str} (h : Spec.Bal (fun _ => true) t) : Spec.Operand ('(' :: (t ++ [')'])) := by
  refine ⟨.paren _ _ _ h (.nil _), by simp, ?_, ?_⟩
  · intro c r e
    simp only [List.cons.injEq] at e
    rw [← e.1]; decide
  · intro c r e
    have : ('(' :: t) ++ [')'] = r ++ [c] := by simpa using e
    have := List.append_inj_right' this (by simp)
    simp only [List.cons.injEq, and_true] at this
    rw [← this]; decide
theorem bal_blank {b : Str} (h : Bl b) : Spec.Bal (fun _ => true) b := bal_chars (blank_plain (.of h))
theorem bal_word {w x : Str} (hw : w ∈ words) (hx : _root_.Spec.Z80.Word w x) : Spec.Bal (fun _ => true) x := by
  refine bal_chars fun c hc => ?_
  have : isalpha c = true := by
    refine alpha_of_upper ?_
    have hm : toupper c ∈ w := by rw [← hx]; exact List.mem_map_of_mem hc
    revert hm
    simp only [words, List.mem_cons, List.not_mem_nil, or_false] at hw
    rcases hw with rfl | rfl | rfl | rfl | rfl <;>
      (intro hm; simp only [List.mem_cons, List.not_mem_nil, or_false] at hm; rcases hm with h | h <;> rw [h] <;> decide)
  exact ⟨alpha_ne this (by decide), alpha_ne this (by decide), alpha_ne this (by decide), alpha_ne this (by decide)⟩
theorem fixed_word {w : Str} {k : Kind} (h : (w, k) ∈ _root_.Spec.Z80.fixed) : w ∈ words := by
  simp only [_root_.Spec.Z80.fixed, List.mem_cons, Prod.mk.injEq, List.not_mem_nil, or_false] at h
  rcases h with ⟨rfl, -⟩ | ⟨rfl, -⟩ | ⟨rfl, -⟩ | ⟨rfl, -⟩ | ⟨rfl, -⟩ <;> decide

theorem Spelled.operand {o : Str} (h : Spelled o) : Spec.Operand o := by
  rcases h with ⟨k, hk⟩ | ⟨f, e, hw⟩
  · cases hk with
    | @mk w x b1 b2 hm hx h1 h2 =>
      have := operand_paren (bal_append (bal_blank h1) (bal_append (bal_word (fixed_word hm) hx) (bal_blank h2)))
      simpa using this
  · cases hw with
    | expr he h => exact he
    | ind he hf h1 h2 =>
      have := operand_paren (bal_append (bal_blank h1) (bal_append (bal_all he.bal) (bal_blank h2)))
      simpa using this
    | @plus x _ w b1 b2 b3 b4 he hx h1 h2 h3 h4 =>
      have := operand_paren (bal_append (bal_blank h1) (bal_append (bal_word (name_mem x) hx) (bal_append (bal_blank h2)
        (bal_append (bal_chars (a := ['+']) (by decide)) (bal_append (bal_blank h3) (bal_append (bal_all he.bal) (bal_blank h4)))))))
      simpa using this
    | @minus x _ w b1 b2 b3 b4 he _ hx h1 h2 h3 h4 =>
      have := operand_paren (bal_append (bal_blank h1) (bal_append (bal_word (name_mem x) hx) (bal_append (bal_blank h2)
        (bal_append (bal_chars (a := ['-']) (by decide)) (bal_append (bal_blank h3) (bal_append (bal_all he.bal) (bal_blank h4)))))))
      simpa using this

/-! ### The bytes -/

/-- What `docode` makes, as a template. -/
def tmpl (z : Z) (code : BitVec 32) : List Item :=
  (if z.indexflag = .ix ∨ z.indexflag = .iy ∨ z.offsetflag = true then [.byte z.indexflag.byte.toNat] else []) ++
  ([.byte (if code &&& 0xff00 ≠ 0 then lowByte (code.sshiftRight 8) else lowByte code).toNat] ++
  ((if z.offsetflag = true then [.d] else []) ++
  ((if code &&& 0xff00 ≠ 0 then [.byte (lowByte code).toNat] else []) ++
  (if z.arg8flag = true then [.n] else if z.arg16flag = true then [.lo, .hi] else []))))

theorem fill_byte (d n : Int) (x : Byte) : (Item.byte x.toNat).fill d n = x := by
  simp [Item.fill]
theorem map_if {c : Prop} [Decidable c] (f : Item → Byte) (a b : List Item) : (if c then a else b).map f = if c then a.map f else b.map f := by
  split <;> rfl

theorem docode_run {z zf : Z} {d n : Int} (hz : Holds z zf d n) (h8 : zf.arg8flag = true → zf.arg16flag = true) {code : BitVec 32} {s : St}
    (ho : s.flags.orgGv = true) (hl : s.flags.lohi = true) :
    Makes (some ((tmpl zf code).map (·.fill d n))) s (docode z code s) := by
  obtain ⟨f1, f2, f3, f4⟩ := hz.ofFlag
  unfold tmpl docode
  rw [← f1, ← f2, ← f3, ← f4]
  simp only [List.map_append, map_if, List.map_cons, List.map_nil, fill_byte]
  refine Makes.seq (makes_when fun _ => makes_insert8 ho) fun _ s1 g1 => ?_
  have ho1 := ho; rw [← g1.orgGv] at ho1
  have hl1 := hl; rw [← g1.lohi] at hl1
  refine Makes.seq (makes_insert8 ho1) fun _ s2 g2 => ?_
  have ho2 := ho1; rw [← g2.orgGv] at ho2
  have hl2 := hl1; rw [← g2.lohi] at hl2
  refine Makes.seq (makes_when fun hf => ?_) fun _ s3 g3 => ?_
  · have hd : Item.fill d n .d = lowByte z.offset := (hz.offset hf).symm
    rw [hd]
    refine Makes.seq (b1 := [_]) (b2 := []) (makes_insert8 ho2) fun _ s3 g3 => ?_
    have := makes_when (c := z.offset ≠ (lowByte z.offset).signExtend 32) (bs := []) (s := s3) fun _ => makes_warning (msg := c!"offset overflow")
    simpa using this
  have ho3 := ho2; rw [← g3.orgGv] at ho3
  have hl3 := hl2; rw [← g3.lohi] at hl3
  refine Makes.seq (makes_when fun _ => makes_insert8 ho3) fun _ s4 g4 => ?_
  have ho4 := ho3; rw [← g4.orgGv] at ho4
  have hl4 := hl3; rw [← g4.lohi] at hl4
  by_cases ha : z.arg8flag = true
  · rw [if_pos ha, if_pos ha]
    have h16 : z.arg16flag = true := by rw [f4]; exact h8 (by rw [← f3]; exact ha)
    have hd : Item.fill d n .n = lowByte z.arg := (hz.arg h16).1.symm
    rw [hd]
    refine Makes.seq (b1 := [_]) (b2 := []) (makes_insert8 ho4) fun _ s5 g5 => ?_
    have := makes_when (c := z.arg &&& 0xff00 ≠ 0) (bs := []) (s := s5) fun _ => makes_warning (msg := c!"argument overflow")
    simpa using this
  · rw [if_neg ha, if_neg ha]
    refine makes_when fun h16 => ?_
    have := makes_insert16 (x := z.arg.setWidth 16) ho4 hl4
    have e1 : Item.fill d n .lo = (z.arg.setWidth 16).setWidth 8 := by
      rw [show Item.fill d n .lo = BitVec.ofInt 8 n from rfl, ← (hz.arg h16).1]
      unfold lowByte
      apply BitVec.eq_of_toNat_eq
      simp only [BitVec.toNat_setWidth]
      omega
    have e2 : Item.fill d n .hi = ((z.arg.setWidth 16) >>> 8).setWidth 8 := by
      rw [show Item.fill d n .hi = BitVec.ofInt 8 (n / 256) from rfl, ← (hz.arg h16).2]
      unfold lowByte
      apply BitVec.eq_of_toNat_eq
      simp only [BitVec.toNat_setWidth, BitVec.toNat_ushiftRight, Nat.shiftRight_eq_div_pow]
      omega
    rw [e1, e2]
    exact this


/-! ### One and two operands in general -/

theorem Holds.start (d n : Int) : Holds {} {} d n := ⟨rfl, fun h => absurd h (by decide), fun h => absurd h (by decide)⟩
theorem Holds.imm {z zf : Z} {d n : Int} (h : Holds z zf d n) (b : Bool) :
    Holds { z with arg8flag := z.arg8flag || b } { zf with arg8flag := zf.arg8flag || b } d n := by
  have hf := h.flags
  subst hf
  exact ⟨rfl, h.offset, h.arg⟩
theorem Holds.redo {z zf : Z} {d n d' n' : Int} (h : Holds z zf d n) (h1 : zf.offsetflag = true → d = d') (h2 : zf.arg16flag = true → n = n') :
    Holds z zf d' n' := by
  obtain ⟨f1, f2, f3, f4⟩ := h.ofFlag
  refine ⟨h.flags, fun h' => ?_, fun h' => ?_⟩
  · rw [← h1 (by rw [← f2]; exact h')]; exact h.offset h'
  · rw [← h2 (by rw [← f4]; exact h')]; exact h.arg h'

/-- How a handler decides: an error, or an opcode and whether the number is to be one byte. -/
abbrev Fin := Except Str (BitVec 32 × Bool)

def finish (z : Z) : Fin → M Unit
  | .error msg => error msg
  | .ok (code, imm) => docode { z with arg8flag := z.arg8flag || imm } code
def oneOp (fin : Int → Z → Fin) (o : Str) : M Unit := do
  let (r, z) ← getreg {} o
  finish z (fin r (flags z))
/-- `go` decides about the first operand: an error, or whether to forget it. -/
def twoOps (warn : Bool) (go : Int → Z → Except Str Bool) (fin : Int → Int → Z → Fin) (o1 o2 : Str) : M Unit := do
  let (r1, z) ← getreg {} o1
  match go r1 (flags z) with
  | .error msg => error msg
  | .ok fresh => do
    whenM (warn = true) (warning c!"One operand only. but i understand!")
    let (r2, z2) ← getreg (if fresh then {} else z) o2
    finish z2 (fin r1 r2 (flags z2))

def planEnd (z : Z) : Fin → Option (List Item)
  | .error _ => none
  | .ok (code, imm) => some (tmpl { z with arg8flag := z.arg8flag || imm } code)
def plan1 (fin : Int → Z → Fin) (k : Kind) : Option (List Item) :=
  match absorb {} k with
  | none => none
  | some (r, z) => planEnd z (fin r z)
def plan2 (go : Int → Z → Except Str Bool) (fin : Int → Int → Z → Fin) (k1 k2 : Kind) : Option (List Item) :=
  match absorb {} k1 with
  | none => none
  | some (r1, z1) => match go r1 z1 with
    | .error _ => none
    | .ok fresh => match absorb (if fresh then {} else z1) k2 with
      | none => none
      | some (r2, z2) => planEnd z2 (fin r1 r2 z2)

def okEnd (z : Z) : Fin → Bool
  | .error _ => true
  | .ok (_, imm) => !(z.arg8flag || imm) || z.arg16flag
/-- A number of one byte is a number; a displacement or number comes from just one operand. -/
def good1 (fin : Int → Z → Fin) (k : Kind) : Bool :=
  match absorb {} k with
  | none => true
  | some (r, z) => okEnd z (fin r z) && (!z.offsetflag || k.isAt) && (!z.arg16flag || k.isNum)
def good2 (go : Int → Z → Except Str Bool) (fin : Int → Int → Z → Fin) (k1 k2 : Kind) : Bool :=
  match absorb {} k1 with
  | none => true
  | some (r1, z1) => match go r1 z1 with
    | .error _ => true
    | .ok fresh => match absorb (if fresh then {} else z1) k2 with
      | none => true
      | some (r2, z2) => okEnd z2 (fin r1 r2 z2) && (!z2.offsetflag || (k1.isAt != k2.isAt)) && (!z2.arg16flag || (k1.isNum != k2.isNum))

theorem finish_run {z zf : Z} {d n : Int} (hz : Holds z zf d n) {f : Fin} (h8 : okEnd zf f = true) {s : St}
    (ho : s.flags.orgGv = true) (hl : s.flags.lohi = true) :
    Makes ((planEnd zf f).map fun c => c.map (·.fill d n)) s (finish z f s) := by
  cases f with
  | error msg => exact Makes.bad
  | ok x =>
    obtain ⟨code, imm⟩ := x
    refine docode_run (hz.imm imm) ?_ ho hl
    intro h
    simp only [okEnd, Bool.or_eq_true, Bool.not_eq_true'] at h8
    rcases h8 with h8 | h8
    · rw [h8] at h; cases h
    · exact h8

/-- How an instruction with one operand ends. `odd` are kinds of operands for which nothing is claimed. -/
def Acts1 (enc : Kind → Option (List Item)) (odd : Kind → Prop) (o : Str) (s : St) (r : Res α) : Prop :=
  match r with
  | .ok _ s' => ∃ a, Reads o a s ∧ (odd a.kind ∨ ∃ c, enc a.kind = some c ∧ Gen (fill1 a c) s s')
  | .err _ => Fails o s ∨ ∃ a, Reads o a s ∧ (odd a.kind ∨ enc a.kind = none)
  | .stop _ _ => True
/-- How an instruction with two operands ends. -/
def Acts2 (enc : Kind → Kind → Option (List Item)) (odd : Kind → Kind → Prop) (o1 o2 : Str) (s : St) (r : Res α) : Prop :=
  match r with
  | .ok _ s' => ∃ a1, Reads o1 a1 s ∧ ((∀ k2, odd a1.kind k2) ∨ ∃ a2, Reads o2 a2 s ∧
      (odd a1.kind a2.kind ∨ ∃ c, enc a1.kind a2.kind = some c ∧ Gen (fill2 a1 a2 c) s s'))
  | .err _ => Fails o1 s ∨ Fails o2 s ∨ ∃ a1, Reads o1 a1 s ∧
      ((∀ k2, odd a1.kind k2 ∨ enc a1.kind k2 = none) ∨ ∃ a2, Reads o2 a2 s ∧ (odd a1.kind a2.kind ∨ enc a1.kind a2.kind = none))
  | .stop _ _ => True

theorem Acts1.stop {enc : Kind → Option (List Item)} {odd : Kind → Prop} {o : Str} {s : St} {r : Res α} (h : ∃ w s', r = .stop w s') :
    Acts1 enc odd o s r := by
  obtain ⟨w, s', rfl⟩ := h
  trivial
theorem Acts2.stop {enc : Kind → Kind → Option (List Item)} {odd : Kind → Kind → Prop} {o1 o2 : Str} {s : St} {r : Res α}
    (h : ∃ w s', r = .stop w s') : Acts2 enc odd o1 o2 s r := by
  obtain ⟨w, s', rfl⟩ := h
  trivial
theorem Acts1.toward {enc : Kind → Option (List Item)} {odd : Kind → Prop} {o : Str} {s : St} {r r' : Res α} (h : Toward r r')
    (h' : Acts1 enc odd o s r') : Acts1 enc odd o s r := by
  rcases h with rfl | ⟨t, rfl⟩
  · exact h'
  · trivial
theorem Acts2.toward {enc : Kind → Kind → Option (List Item)} {odd : Kind → Kind → Prop} {o1 o2 : Str} {s : St} {r r' : Res α} (h : Toward r r')
    (h' : Acts2 enc odd o1 o2 s r') : Acts2 enc odd o1 o2 s r := by
  rcases h with rfl | ⟨t, rfl⟩
  · exact h'
  · trivial
theorem Acts1.before {enc : Kind → Option (List Item)} {odd : Kind → Prop} {o : Str} {s s1 : St} {r : Res α} (g : Gen [] s s1)
    (h : Acts1 enc odd o s1 r) : Acts1 enc odd o s r := by
  cases r with
  | ok a s2 =>
    obtain ⟨a, h1, h2⟩ := h
    refine ⟨a, h1.before g, h2.imp id ?_⟩
    rintro ⟨c, h3, h4⟩
    exact ⟨c, h3, by simpa using g.trans h4⟩
  | err s2 =>
    rcases h with h | ⟨a, h1, h2⟩
    · exact .inl (h.before g)
    · exact .inr ⟨a, h1.before g, h2⟩
  | stop w s2 => trivial
theorem Acts2.before {enc : Kind → Kind → Option (List Item)} {odd : Kind → Kind → Prop} {o1 o2 : Str} {s s1 : St} {r : Res α}
    (g : Gen [] s s1) (h : Acts2 enc odd o1 o2 s1 r) : Acts2 enc odd o1 o2 s r := by
  cases r with
  | ok a s2 =>
    obtain ⟨a1, h1, h⟩ := h
    refine ⟨a1, h1.before g, h.imp id ?_⟩
    rintro ⟨a2, h2, h3⟩
    refine ⟨a2, h2.before g, h3.imp id ?_⟩
    rintro ⟨c, h3, h4⟩
    exact ⟨c, h3, by simpa using g.trans h4⟩
  | err s2 =>
    rcases h with h | h | ⟨a1, h1, h2⟩
    · exact .inl (h.before g)
    · exact .inr (.inl (h.before g))
    · refine .inr (.inr ⟨a1, h1.before g, h2.imp id ?_⟩)
      rintro ⟨a2, h3, h4⟩
      exact ⟨a2, h3.before g, h4⟩
  | stop w s2 => trivial

theorem Acts1.of_makes {enc : Kind → Option (List Item)} {odd : Kind → Prop} {o : Str} {s s1 : St} {a : Arg} {r : Res α} (ha : Reads o a s)
    (g : Gen [] s s1) (h : odd a.kind ∨ Makes ((enc a.kind).map (fill1 a)) s1 r) : Acts1 enc odd o s r := by
  cases r with
  | ok x s' =>
    refine ⟨a, ha, h.imp id ?_⟩
    rintro ⟨bs, h1, h2⟩
    cases hc : enc a.kind with
    | none => rw [hc] at h1; cases h1
    | some c =>
      rw [hc] at h1
      cases h1
      exact ⟨c, rfl, by simpa using g.trans h2⟩
  | err s' =>
    refine .inr ⟨a, ha, h.imp id fun h1 => ?_⟩
    exact Option.map_eq_none_iff.1 h1
  | stop w s' => trivial
theorem Acts2.of_makes {enc : Kind → Kind → Option (List Item)} {odd : Kind → Kind → Prop} {o1 o2 : Str} {s s1 : St} {a1 a2 : Arg} {r : Res α}
    (h1 : Reads o1 a1 s) (h2 : Reads o2 a2 s) (g : Gen [] s s1)
    (h : odd a1.kind a2.kind ∨ Makes ((enc a1.kind a2.kind).map (fill2 a1 a2)) s1 r) : Acts2 enc odd o1 o2 s r := by
  cases r with
  | ok x s' =>
    refine ⟨a1, h1, .inr ⟨a2, h2, h.imp id ?_⟩⟩
    rintro ⟨bs, h1, h2⟩
    cases hc : enc a1.kind a2.kind with
    | none => rw [hc] at h1; cases h1
    | some c =>
      rw [hc] at h1
      cases h1
      exact ⟨c, rfl, by simpa using g.trans h2⟩
  | err s' =>
    refine .inr (.inr ⟨a1, h1, .inr ⟨a2, h2, h.imp id fun h1 => ?_⟩⟩)
    exact Option.map_eq_none_iff.1 h1
  | stop w s' => trivial
theorem Acts1.cont {enc : Kind → Option (List Item)} {odd : Kind → Prop} {o : Str} {s : St} {m : M Unit} (h : Acts1 enc odd o s (m s)) :
    Acts1 enc odd o s ((do m; pure RC.cont : M RC) s) := by
  rcases res_cases (m s) with ⟨a, s1, hm⟩ | ⟨s1, hm⟩ | ⟨w, s1, hm⟩ <;> rw [hm] at h
  · rw [run_ok hm]; exact h
  · rw [run_err hm]; exact h
  · rw [run_stop hm]; trivial
theorem Acts2.cont {enc : Kind → Kind → Option (List Item)} {odd : Kind → Kind → Prop} {o1 o2 : Str} {s : St} {m : M Unit}
    (h : Acts2 enc odd o1 o2 s (m s)) : Acts2 enc odd o1 o2 s ((do m; pure RC.cont : M RC) s) := by
  rcases res_cases (m s) with ⟨a, s1, hm⟩ | ⟨s1, hm⟩ | ⟨w, s1, hm⟩ <;> rw [hm] at h
  · rw [run_ok hm]; exact h
  · rw [run_err hm]; exact h
  · rw [run_stop hm]; trivial

theorem Acts2.odd {enc : Kind → Kind → Option (List Item)} {odd : Kind → Kind → Prop} {o1 o2 : Str} {s : St} {a1 : Arg} {r : Res α}
    (h1 : Reads o1 a1 s) (h : ∀ k2, odd a1.kind k2) : Acts2 enc odd o1 o2 s r := by
  cases r with
  | ok x s' => exact ⟨a1, h1, .inl h⟩
  | err s' => exact .inr (.inr ⟨a1, h1, .inl fun k2 => .inl (h k2)⟩)
  | stop w s' => trivial

theorem oneOp_run {fin : Int → Z → Fin} (hg : ∀ k, good1 fin k = true) {enc : Kind → Option (List Item)} {odd : Kind → Prop}
    (hu : odd .unknown) (he : ∀ k, odd k ∨ plan1 fin k = enc k) {o : Str} (hs : Spelled o) {s : St}
    (ho : s.flags.orgGv = true) (hl : s.flags.lohi = true) : Acts1 enc odd o s (oneOp fin o s) := by
  unfold oneOp
  rcases getreg_run (Holds.start 0 0) hs s with ⟨w, s', h⟩ | ⟨hf, s', h⟩ | ⟨a, ha, h⟩
  · exact .stop ⟨w, s', run_stop h⟩
  · rw [run_err h]; exact .inl hf
  · rcases h with h | h
    · exact .of_makes ha (.refl _) (.inl (by rw [h]; exact hu))
    have hga := hg a.kind
    have hea := he a.kind
    unfold good1 at hga
    unfold plan1 at hea
    cases hab : absorb {} a.kind with
    | none =>
      rw [hab] at h hea
      obtain ⟨s', h⟩ := h
      rw [run_err h]
      exact .inr ⟨a, ha, hea.imp id Eq.symm⟩
    | some x =>
      obtain ⟨r, zf⟩ := x
      rw [hab] at h hea hga
      obtain ⟨z', s', h, g, hz⟩ := h
      rw [run_ok h]
      simp only [Bool.and_eq_true, Bool.or_eq_true, Bool.not_eq_true'] at hga
      have hz := hz.redo (d' := a.val) (n' := a.val)
        (fun h' => by rcases hga.1.2 with h1 | h1; · rw [h1] at h'; cases h'
                      · rw [if_pos h1])
        (fun h' => by rcases hga.2 with h1 | h1; · rw [h1] at h'; cases h'
                      · rw [if_pos h1])
      refine .of_makes ha g (hea.imp id fun he' => ?_)
      dsimp only
      rw [← he', hz.flags]
      exact finish_run hz hga.1.1 (by rw [g.orgGv]; exact ho) (by rw [g.lohi]; exact hl)

theorem twoOps_run {warn : Bool} {go : Int → Z → Except Str Bool} {fin : Int → Int → Z → Fin} (hg : ∀ k1 k2, good2 go fin k1 k2 = true)
    {enc : Kind → Kind → Option (List Item)} {odd : Kind → Kind → Prop}
    (hu : ∀ k1 k2, k1 = .unknown ∨ k2 = .unknown → odd k1 k2) (he : ∀ k1 k2, odd k1 k2 ∨ plan2 go fin k1 k2 = enc k1 k2)
    {o1 o2 : Str} (h1 : Spelled o1) (h2 : Spelled o2) {s : St} (ho : s.flags.orgGv = true) (hl : s.flags.lohi = true) :
    Acts2 enc odd o1 o2 s (twoOps warn go fin o1 o2 s) := by
  unfold twoOps
  rcases getreg_run (Holds.start 0 0) h1 s with ⟨w, s', h⟩ | ⟨hf, s', h⟩ | ⟨a1, ha1, h⟩
  · exact .stop ⟨w, s', run_stop h⟩
  · rw [run_err h]; exact .inl hf
  rcases h with h | h
  · have odd1 : ∀ k2, odd a1.kind k2 := fun k2 => hu _ _ (.inl h)
    exact .odd ha1 odd1
  have hga := hg a1.kind
  have hea := he a1.kind
  unfold good2 at hga
  unfold plan2 at hea
  cases hab : absorb {} a1.kind with
  | none =>
    rw [hab] at h hea
    obtain ⟨s', h⟩ := h
    rw [run_err h]
    exact .inr (.inr ⟨a1, ha1, .inl fun k2 => (hea k2).imp id Eq.symm⟩)
  | some x =>
    obtain ⟨r1, zf1⟩ := x
    rw [hab] at h hea hga
    obtain ⟨z1, s1, h, g1, hz1⟩ := h
    rw [run_ok h]
    dsimp only at hea hga ⊢
    rw [hz1.flags]
    cases hgo : go r1 zf1 with
    | error msg =>
      rw [hgo] at hea
      have : (∃ s', (error msg : M Unit) s1 = .err s') ∨ (∃ w s', (error msg : M Unit) s1 = .stop w s') := error_cases msg s1
      rcases this with ⟨s', h⟩ | ⟨w, s', h⟩
      · show Acts2 enc odd o1 o2 s ((error msg : M Unit) s1)
        rw [h]
        exact .inr (.inr ⟨a1, ha1, .inl fun k2 => (hea k2).imp id Eq.symm⟩)
      · exact .stop ⟨w, s', h⟩
    | ok fresh =>
      rw [hgo] at hea hga
      dsimp only at hea hga ⊢
      have hw : Makes (some []) s1 (whenM (warn = true) (warning c!"One operand only. but i understand!") s1) := by
        have := makes_when (c := warn = true) (bs := []) (s := s1) fun _ => makes_warning (msg := c!"One operand only. but i understand!")
        simpa using this
      rcases res_cases (whenM (warn = true) (warning c!"One operand only. but i understand!") s1) with ⟨u, s2, hm⟩ | ⟨s2, hm⟩ | ⟨w, s2, hm⟩
      rotate_left
      · rw [hm] at hw; cases hw
      · exact .stop ⟨w, s2, run_stop hm⟩
      rw [run_ok hm]
      rw [hm] at hw
      obtain ⟨bs, hb, g2⟩ := hw
      cases hb
      have g12 : Gen [] s s2 := by simpa using g1.trans g2
      have hz1' : Holds (if fresh then {} else z1) (if fresh then {} else zf1) (if a1.kind.isAt then a1.val else 0)
          (if a1.kind.isNum then a1.val else 0) := by
        cases fresh
        · exact hz1
        · exact .start _ _
      rcases getreg_run hz1' h2 s2 with ⟨w, s', h⟩ | ⟨hf, s', h⟩ | ⟨a2, ha2, h⟩
      · exact .stop ⟨w, s', run_stop h⟩
      · rw [run_err h]; exact .inr (.inl (hf.before g12))
      have ha2 := ha2.before g12
      rcases h with h | h
      · exact .of_makes ha1 ha2 (.refl _) (.inl (hu _ _ (.inr h)))
      have hga := hga a2.kind
      have hea := hea a2.kind
      cases hab2 : absorb (if fresh then {} else zf1) a2.kind with
      | none =>
        rw [hab2] at h hea
        obtain ⟨s', h⟩ := h
        rw [run_err h]
        exact .inr (.inr ⟨a1, ha1, .inr ⟨a2, ha2, hea.imp id Eq.symm⟩⟩)
      | some x =>
        obtain ⟨r2, zf2⟩ := x
        rw [hab2] at h hea hga
        obtain ⟨z2, s3, h, g3, hz2⟩ := h
        rw [run_ok h]
        simp only [Bool.and_eq_true, Bool.or_eq_true, Bool.not_eq_true', bne_iff_ne, ne_eq] at hga
        have hz := hz2.redo (d' := if a1.kind.isAt then a1.val else a2.val) (n' := if a1.kind.isNum then a1.val else a2.val)
          (fun h' => by
            rcases hga.1.2 with h1 | h1
            · rw [h1] at h'; cases h'
            · revert h1
              cases a1.kind.isAt <;> cases a2.kind.isAt <;> simp)
          (fun h' => by
            rcases hga.2 with h1 | h1
            · rw [h1] at h'; cases h'
            · revert h1
              cases a1.kind.isNum <;> cases a2.kind.isNum <;> simp)
        have g : Gen [] s s3 := by simpa using g12.trans g3
        refine .of_makes ha1 ha2 g (hea.imp id fun he' => ?_)
        dsimp only at he' ⊢
        rw [← he', hz.flags]
        exact finish_run hz hga.1.1 (by rw [g.orgGv]; exact ho) (by rw [g.lohi]; exact hl)

end Zop
end Crasm

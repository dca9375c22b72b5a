import Verif.Proof.ProgZ80

/-! Programs: the instructions of the Z80. -/

namespace Crasm
namespace Z80
open Zop
instance (z : Z) (c : BitVec 32) : W ChipStep (docode z c) := ⟨by unfold docode; walk⟩
instance (c : BitVec 32) (o : Option Str) : W ChipStep (simple c o) := ⟨by unfold simple; walk⟩
instance (o : Option Str) : W ChipStep (im o) := ⟨by unfold im; walk⟩
instance (o : Option Str) : W ChipStep (rst o) := ⟨by unfold rst; walk⟩
instance (o : Option Str) : W ChipStep (jr o) := ⟨by unfold jr; walk⟩
instance (o : Option Str) : W ChipStep (ret o) := ⟨by unfold ret; walk⟩
instance (b p : Byte) (o : Option Str) : W ChipStep (condJump b p o) := ⟨by unfold condJump; walk⟩
instance (o : Option Str) : W ChipStep (callOp o) := ⟨by unfold callOp; walk⟩
instance (o : Option Str) : W ChipStep (jp o) := ⟨by unfold jp; walk⟩
instance (z : Z) (o : Str) : W ChipStep (exAf z o) := ⟨by unfold exAf; walk⟩
instance (o : Option Str) : W ChipStep (ex o) := ⟨by unfold ex; walk⟩
instance (c : BitVec 32) (o : Option Str) : W ChipStep (inout c o) := ⟨by unfold inout; walk⟩
instance (c : BitVec 32) (o : Option Str) : W ChipStep (bitop c o) := ⟨by unfold bitop; walk⟩
instance (c : BitVec 32) (o : Option Str) : W ChipStep (onreg8 c o) := ⟨by unfold onreg8; walk⟩
instance (z : Z) (c : BitVec 32) (o : Str) : W ChipStep (logicalTail z c o) := ⟨by unfold logicalTail; walk⟩
instance (c : BitVec 32) (o : Option Str) : W ChipStep (logical c o) := ⟨by unfold logical; walk⟩
instance (c : BitVec 32) (o : Option Str) : W ChipStep (stackop c o) := ⟨by unfold stackop; walk⟩
instance (c : BitVec 32) (o : Option Str) : W ChipStep (arith c o) := ⟨by unfold arith; walk⟩
instance (c : BitVec 32) (o : Option Str) : W ChipStep (incr c o) := ⟨by unfold incr; walk⟩
instance (o : Option Str) : W ChipStep (ld o) := ⟨by unfold ld; walk⟩
instance (h : HZ80) (m : Int) (o : Option Str) : W ChipStep (call h m o) := ⟨by unfold call; walk⟩
end Z80

namespace C44
open C24 C42 Zop
open _root_.Spec.Z80 (Kind Arg Form Written Opnd Ins Writes Encodes isa fill1 fill2 Pair2 Bl)
open Z80 (mz80)

theorem both_iff {a b t : Str} : Pair2 a b t ↔ Both a b t := Iff.rfl

/-! ### Reading the operands does little -/

theorem tstar_some {N : Str → Prop} {a b : Cfg} (h : Star (TStep N) a b) {k : Str} : (a.1.tree.find k).isSome → (b.1.tree.find k).isSome := by
  intro hl
  induction h with
  | refl => exact hl
  | tail _ r ih =>
    cases r with
    | use s k' _ =>
      by_cases e : k = k'
      · subst e
        show ((s.tree.put k _).find k).isSome
        rw [Tree.find_put_self]; rfl
      · show ((s.tree.put k' _).find k).isSome
        rw [Tree.find_put_ne _ _ e]; exact ih
    | error1 s t _ hb =>
      obtain ⟨v, -, rfl⟩ := hb
      by_cases e : k = starKey
      · subst e
        show ((s.tree.put starKey _).find starKey).isSome
        rw [Tree.find_put_self]; rfl
      · show ((s.tree.put starKey _).find k).isSome
        rw [Tree.find_put_ne _ _ e]; exact ih
    | _ => exact ih

theorem fine {N keys : Str → Prop} {p : Opnd} {o : Str} {s : St} (hp : p.Writes o) (ha : Able keys s) (hv : Vocab mz80 s)
    (hN : ∀ n ∈ p.names, ¬ keys (canon 0 n) ∧ N (canon 0 n)) : Fine N o s := by
  refine ⟨Opnd.spelled hp, fun f e hw s1 hs => ?_⟩
  cases hp with
  | reg h hx =>
    have ht := reg_text h hx
    have := view_written hw
    rw [view_written ht.written] at this
    cases this
    obtain ⟨e, he, h1, -⟩ := ht.entry
    obtain ⟨l, hl, -⟩ := hv e he
    refine label_goes ht.isName (ha.tstar hs).seg (tstar_some hs ?_)
    rw [ht.canon hx, ← h1, hl]
    rfl
  | fixed h =>
    have := view_written hw
    rw [view_fixed h] at this
    cases this
  | form h ht =>
    have := view_written hw
    rw [view_written h] at this
    cases this
    exact (parse_sure ht (ha.tstar hs) hN).goes

theorem goes_call {N : Str → Prop} {h : HZ80} {k : Int} {o : Option Str} {s : St} (e : Goes N s (Z80.call h k o s)) :
    Goes N s ((do Z80.call h k o; pure RC.cont : M RC) s) :=
  e.bind fun _ s' _ _ => Walk.goes (by walk) s'

theorem star_call {h : HZ80} {k : Int} {o : Option Str} {s s' : St} {rc : RC}
    (e : (do Z80.call h k o; pure RC.cont : M RC) s = .ok rc s') : Star ChipStep (s, .live) (s', .live) := by
  have w : Walk ChipStep (do Z80.call h k o; pure RC.cont : M RC) := by walk
  have := w s
  rw [e] at this
  exact this

theorem one_goes {N : Str → Prop} {k : HZ80} (hk1 : (fin1 k).isSome = true) {m : Int} {o : Str} {s : St} (hf : Fine N o s) :
    Goes N s (Z80.call k m (some o) s) := by
  cases k <;> first | (exact absurd hk1 (by decide)) | skip
  · change Goes N s (Z80.onreg8 _ (some o) s)
    rw [onreg8_eq]
    exact oneOp_goes hf
  · exact .toward (logical_one hf.spelled.operand s) (oneOp_goes hf)
  · change Goes N s (Z80.stackop _ (some o) s)
    rw [stack_eq]
    exact oneOp_goes hf
  · change Goes N s (Z80.incr _ (some o) s)
    rw [incr_eq]
    exact oneOp_goes hf

theorem Fine.buf {N : Str → Prop} {o : Str} {s : St} (h : Fine N o s) (b : Nat) : Fine N o { s with bufpos := b } := h.star (star_buf s b)

theorem two_goes {N : Str → Prop} {k : HZ80} (hk2 : (fin2 k).isSome = true) {m : Int} {o1 o2 t : Str} {s : St} (h1 : Fine N o1 s) (h2 : Fine N o2 s)
    (ht : Both o1 o2 t) : Goes N s (Z80.call k m (some t) s) := by
  have hfi := ht.filter h1.spelled.operand h2.spelled.operand
  cases k <;> first | (exact absurd hk2 (by decide)) | skip
  · obtain ⟨b, hb⟩ := logical_two (code := BitVec.ofInt 32 m) hfi s
    exact .toward hb (Goes.scratch (twoOps_goes (Fine.buf h1 b) (Fine.buf h2 b)))
  · obtain ⟨b, hb⟩ := arith_two (code := BitVec.ofInt 32 m) h2.spelled.operand hfi s
    exact .toward hb (Goes.scratch (twoOps_goes (Fine.buf h1 b) (Fine.buf h2 b)))
  · obtain ⟨b, hb⟩ := ld_two hfi s
    exact .toward hb (Goes.scratch (twoOps_goes (Fine.buf h1 b) (Fine.buf h2 b)))

theorem in_goes {N : Str → Prop} {e : Entry} (he : e ∈ mz80) (hk : kindOf e = some .inout) {p r t : Str} (ht : PortText (C22.upper e) p r t)
    {s : St} (h1 : Fine N p s) (h2 : Fine N r s) : Goes N s (Z80.call .inout e.label.modifier (some t) s) := by
  have hok := List.all_eq_true.1 port_ok e he
  unfold portOk at hok
  rw [hk] at hok
  simp only [ne_eq, not_true, decide_false, Bool.false_or, List.all_eq_true, Bool.and_eq_true, Bool.or_eq_true, decide_eq_true_eq] at hok
  change Goes N s (Z80.inout (BitVec.ofInt 32 e.label.modifier) (some t) s)
  have hok := hok.1
  generalize hn : C22.upper e = name at ht hok
  cases ht with
  | inp hb hb' =>
    rcases hok with h | h
    · obtain ⟨b, hb⟩ := inout_in h.2 (portIn h1.spelled.operand h2.spelled.operand hb hb') s
      exact .toward hb (Goes.scratch (twoOps_goes (Fine.buf h1 b) (Fine.buf h2 b)))
    · exact absurd h.1 (by decide)
  | out hb hb' =>
    rcases hok with h | h
    · exact absurd h.1 (by decide)
    · obtain ⟨b, hb⟩ := inout_out h.2 (portOut h1.spelled.operand h2.spelled.operand hb hb') s
      exact .toward hb (Goes.scratch (twoOps_goes (Fine.buf h1 b) (Fine.buf h2 b)))

theorem bit_goes {N : Str → Prop} {m : Int} {n o t : Str} {s : St} (h1 : Spec.Operand n) (h2 : Fine N o s) (ht : Both n o t)
    (hp : ∀ b, Goes N { s with bufpos := b } (parse (some n) { s with bufpos := b }))
    (hv : ∀ b r s', parseAbs (some n) { s with bufpos := b } = .ok r s' → r.value.toInt % 2 ^ 32 < 8) : Goes N s (Z80.call .bitop m (some t) s) := by
  obtain ⟨b, hb⟩ := bitop_run (code := BitVec.ofInt 32 m) h1 h2.spelled.operand ht s
  refine .toward hb (Goes.scratch ((parseAbs_goes (hp b)).bind fun r s' hs hok => ?_))
  have hi := int_of r.value
  dsimp only at hi
  rw [if_pos (hv b r s' hok)] at hi
  show Goes N s' ((if (r.value.setWidth 32 : BitVec 32).toInt < 0 ∨ 7 < (r.value.setWidth 32 : BitVec 32).toInt then refuse c!"illegal bit number"
      else oneOp (finBit (BitVec.ofInt 32 m) (r.value.setWidth 32 : BitVec 32).toInt) o : M Unit) s')
  have := hv b r s' hok
  rw [if_neg (by omega)]
  exact oneOp_goes (h2.star ((star_buf s b).trans hs))

theorem im_goes {N : Str → Prop} {m : Int} {o : Str} {s : St} (hp : Goes N s (parse (some o) s)) : Goes N s (Z80.call .im m (some o) s) := by
  change Goes N s (Z80.im (some o) s)
  unfold Z80.im
  exact (parseAbs_goes hp).bind fun r s' _ _ => Walk.goes (by walk) s'

theorem rst_goes {N : Str → Prop} {m : Int} {o : Str} {s : St} (hp : Goes N s (parse (some o) s)) : Goes N s (Z80.call .rst m (some o) s) := by
  change Goes N s (Z80.rst (some o) s)
  unfold Z80.rst
  exact (parseAbs_goes hp).bind fun r s' _ _ => Walk.goes (by walk) s'

theorem ret_goes {N : Str → Prop} {m : Int} {o : Option Str} {s : St} : Goes N s (Z80.call .ret m o s) := by
  change Goes N s (Z80.ret o s)
  unfold Z80.ret
  match o with
  | none => exact Walk.goes (by walk) s
  | some [] => exact Walk.goes (by walk) s
  | some (c :: o) =>
    refine .toward (Toward.bind (cond_run _ s) (.refl _)) ?_
    cases _root_.Spec.Z80.conds.lookup ((c :: o).map toupper) with
    | none => exact Walk.goes (by walk) s
    | some i => exact Walk.goes (by walk) s

theorem ex_goes {N : Str → Prop} {m : Int} {r t : Str} {s : St} (hr : Fine N r s) (ht : StackText r t) : Goes N s (Z80.call .ex m (some t) s) := by
  obtain ⟨w, h⟩ := ex_stack hr.spelled ht s
  exact .toward h (Goes.scratch (oneOp_goes (Fine.buf hr _)))

/-! ### Jumps -/

/-- What follows once the condition is known. -/
def jumpTail (op : Byte) (o : Str) : M Unit := do
  let r ← parseAbs (some o)
  insert8 op
  insert16 (r.value.setWidth 16)

theorem tail_goes {N : Str → Prop} {op : Byte} {o : Str} {s : St} (hp : Goes N s (parse (some o) s)) : Goes N s (jumpTail op o s) := by
  unfold jumpTail
  exact (parseAbs_goes hp).bind fun r s' _ _ => Walk.goes (by walk) s'

theorem plain_toward {base plain : Byte} {o : Str} (hop : Spec.Operand o) (s : St) :
    Toward (Z80.condJump base plain (some o) s) (jumpTail plain o s) := by
  unfold Z80.condJump Z80.searchcond jumpTail
  rw [bind_assoc]
  exact Toward.bind (toward_miss2 (sep_miss hop) s) (.refl _)

theorem cond_toward {base plain : Byte} {i : Nat} {cc o t : Str} (h1 : Spec.Operand cc) (h2 : Spec.Operand o)
    (hc : _root_.Spec.Z80.conds.lookup (cc.map toupper) = some i) (ht : Both cc o t) (s : St) :
    ∃ b, Toward (Z80.condJump base plain (some t) s) (jumpTail (base + BitVec.ofNat 8 (8 * i)) o { s with bufpos := b }) := by
  obtain ⟨w, k, hf⟩ := ht.filter h1 h2
  refine ⟨s.bufpos + w, ?_⟩
  unfold Z80.condJump Z80.searchcond jumpTail
  rw [bind_assoc]
  refine Toward.bind (toward_filter2 hf s) ?_
  dsimp only
  rw [bind_assoc]
  have := cond_run cc { s with bufpos := s.bufpos + w }
  rw [hc] at this
  exact Toward.bind this (.refl _)

theorem jump_kind {e : Entry} (he : e ∈ mz80) {p c : Nat} (hn : (C22.upper e, p, c) ∈ _root_.Spec.Z80.jumps) :
    (C22.upper e = c!"JP" ∧ kindOf e = some .jp) ∨ kindOf e = some .call := by
  simp only [_root_.Spec.Z80.jumps, List.mem_cons, Prod.mk.injEq, List.not_mem_nil, or_false] at hn
  rcases hn with ⟨hn, rfl, rfl⟩ | ⟨hn, rfl, rfl⟩
  · refine .inl ⟨hn, ?_⟩
    revert e; decide +kernel
  · refine .inr ?_
    revert e; decide +kernel

/-- JP and CALL are alike but for addresses in parentheses. -/
theorem jump_toward {e : Entry} (he : e ∈ mz80) {p c : Nat} (hn : (C22.upper e, p, c) ∈ _root_.Spec.Z80.jumps) {k : HZ80} (hk : kindOf e = some k) {t : Str}
    (hb : C22.upper e = c!"JP" → Bare t) (s : St) :
    ∃ b q, Toward (Z80.call k e.label.modifier (some t) s) (Z80.condJump b q (some t) s) := by
  rcases jump_kind he hn with ⟨h1, h2⟩ | h2
  · rw [hk] at h2
    cases h2
    refine ⟨0xc2, 0xc3, ?_⟩
    change Toward (Z80.jp (some t) s) _
    unfold Z80.jp
    exact Toward.bind (toward_miss1 (paren_misses (hb h1)).2.2 s) (.refl _)
  · rw [hk] at h2
    cases h2
    exact ⟨0xc4, 0xcd, .refl _⟩

theorem jp_reg_toward {o b1 b2 : Str} (hop : Spec.Operand o) (hb1 : Bl b1) (hb2 : Bl b2) (s : St) :
    ∃ b, Toward (Z80.jp (some ('(' :: (b1 ++ (o ++ (b2 ++ [')']))))) s) (oneOp finJp o { s with bufpos := b }) := by
  obtain ⟨n, k, hf⟩ := paren_hit hop (Blank.of hb1) (Blank.of hb2)
  refine ⟨s.bufpos + n, ?_⟩
  unfold Z80.jp
  refine Toward.bind (toward_filter1 hf s) (.inl ?_)
  refine congrFun ?_ _
  dsimp only
  unfold oneOp finJp
  congr 1
  funext ⟨r, z⟩
  dsimp only
  by_cases h : r = Z80.HLREGISTER
  · rw [if_pos h, if_pos h]
    exact congrArg (fun z => Z80.docode z _) (noImm z).symm
  · rw [if_neg h, if_neg h]; rfl

theorem jr_toward {o : Str} (hop : Spec.Operand o) (s : St) : Toward (Z80.jr (some o) s) (relBranch 0x18 (some o) s) := by
  unfold Z80.jr Z80.searchcond
  rw [bind_assoc]
  exact Toward.bind (toward_miss2 (sep_miss hop) s) (.refl _)

theorem jr_cond_toward {i : Nat} {cc o t : Str} (h1 : Spec.Operand cc) (h2 : Spec.Operand o)
    (hc : (_root_.Spec.Z80.conds.take 4).lookup (cc.map toupper) = some i) (ht : Both cc o t) (s : St) :
    ∃ b, Toward (Z80.jr (some t) s) (relBranch (0x20 + BitVec.ofNat 32 (8 * i)) (some o) { s with bufpos := b }) := by
  obtain ⟨w, k, hf⟩ := ht.filter h1 h2
  refine ⟨s.bufpos + w, ?_⟩
  unfold Z80.jr Z80.searchcond
  rw [bind_assoc]
  refine Toward.bind (toward_filter2 hf s) ?_
  dsimp only
  rw [bind_assoc]
  have := toward_cond (cc := cc) (s := { s with bufpos := s.bufpos + w }) (qs := Z80.condcodes.take 4) (k := 0) (by decide)
  rw [condIdx_zip (by decide), show (Z80.condcodes.take 4).zipIdx 0 = _root_.Spec.Z80.conds.take 4 from rfl, hc] at this
  exact Toward.bind this (.refl _)

theorem ex_de_toward {x y t : Str}
    (hxy : (_root_.Spec.Z80.Word c!"DE" x ∧ _root_.Spec.Z80.Word c!"HL" y) ∨ (_root_.Spec.Z80.Word c!"HL" x ∧ _root_.Spec.Z80.Word c!"DE" y))
    (ht : Both x y t) (s : St) : ∃ b, Toward (Z80.ex (some t) s) (Z80.docode {} 0xeb { s with bufpos := b }) := by
  unfold Z80.ex
  dsimp only [orEmpty]
  obtain ⟨b, b', hb, hb', rfl⟩ := ht
  rcases hxy with ⟨hx, hy⟩ | ⟨hx, hy⟩
  · obtain ⟨w, k, hf⟩ := filter_none_hit (pat := c!"DE_,_HL") (s := x ++ (b ++ ',' :: (b' ++ y))) rfl (by
      have h1 := twoDE.hit hx (e := true) (seg := c!"_,_HL") (s := b ++ ',' :: (b' ++ y))
      have h2 := comma (e := true) (seg := c!"HL") (Blank.of hb) (Blank.of hb') (s := y) (by simpa using twoHL.lead hy (s := []))
      have h3 := twoHL.hit hy (e := true) (seg := []) (s := [])
      rw [List.append_nil] at h3
      exact h1.trans (h2.trans (h3.trans rfl)))
    exact ⟨_, Toward.bind (toward_filter0 hf s) (.refl _)⟩
  · have hm := miss_DE (t := x ++ (b ++ ',' :: (b' ++ y))) (twoHL.miss hx (by decide) (by decide) (by decide) (by decide))
    obtain ⟨w, k, hf⟩ := filter_none_hit (pat := c!"HL_,_DE") (s := x ++ (b ++ ',' :: (b' ++ y))) rfl (by
      have h1 := twoHL.hit hx (e := true) (seg := c!"_,_DE") (s := b ++ ',' :: (b' ++ y))
      have h2 := comma (e := true) (seg := c!"DE") (Blank.of hb) (Blank.of hb') (s := y) (by simpa using twoDE.lead hy (s := []))
      have h3 := twoDE.hit hy (e := true) (seg := []) (s := [])
      rw [List.append_nil] at h3
      exact h1.trans (h2.trans (h3.trans rfl)))
    exact ⟨_, Toward.bind (toward_miss0 hm s) (Toward.bind (toward_filter0 hf s) (.refl _))⟩

/-! ### What accepted instructions do -/

theorem ran1 {P : Prop} {ρ : Str → Int} {φ : Str → Bool} {enc : Kind → Option _root_.Spec.Z80.Code} {odd : Kind → Prop} {p : Opnd} {o : Str} {s s' : St} {rc : RC}
    (h : Acts1 enc odd o s (.ok rc s' : Res RC)) (hp : p.Writes o) (hr : C42.Ready isa mz80 none s) (hout : Outside (Worded isa) s p.names)
    (hval : Values P s ρ φ p.names) (h1 : ¬ odd p.kind) (h2 : ¬ odd .other ∧ enc .other = none) :
    (∀ n ∈ p.names, Met s (canon s.segment n)) ∧ ∃ a c, enc a.kind = some c ∧ Gen (fill1 a c) s s' ∧ (P → p.Is ρ a) := by
  obtain ⟨a, ha, h⟩ := h
  obtain ⟨hm, hk⟩ := reads_is hp ha hr.vocab hr.seg hr.numeric hout hval
  refine ⟨hm, ?_⟩
  rcases hk with hk | ⟨hk, his⟩
  · rw [hk] at h
    rcases h with h | ⟨c, h, -⟩
    · exact absurd h h2.1
    · rw [h2.2] at h; cases h
  · rcases h with h | ⟨c, h, g⟩
    · rw [hk] at h; exact absurd h h1
    · exact ⟨a, c, h, g, his⟩

theorem ran2 {P : Prop} {ρ : Str → Int} {φ : Str → Bool} {enc : Kind → Kind → Option _root_.Spec.Z80.Code} {odd : Kind → Kind → Prop} {p q : Opnd} {o1 o2 : Str} {s s' : St} {rc : RC}
    (h : Acts2 enc odd o1 o2 s (.ok rc s' : Res RC)) (hp : p.Writes o1) (hq : q.Writes o2) (hr : C42.Ready isa mz80 none s)
    (hout : Outside (Worded isa) s (p.names ++ q.names)) (hval : Values P s ρ φ (p.names ++ q.names)) (h1 : ¬ odd p.kind q.kind)
    (h2 : ∀ k k', (k = .other ∧ (k' = .other ∨ k' = q.kind)) ∨ (k = p.kind ∧ k' = .other) → ¬ odd k k' ∧ enc k k' = none) :
    (∀ n ∈ p.names ++ q.names, Met s (canon s.segment n)) ∧
      ∃ a b c, enc a.kind b.kind = some c ∧ Gen (fill2 a b c) s s' ∧ (P → p.Is ρ a ∧ q.Is ρ b) := by
  obtain ⟨a, ha, h⟩ := h
  obtain ⟨hm, hk⟩ := reads_is hp ha hr.vocab hr.seg hr.numeric (fun n hn => hout n (List.mem_append_left _ hn)) (fun hP n hn => hval hP n (List.mem_append_left _ hn))
  rcases h with h | ⟨b, hb, h⟩
  · exfalso
    rcases hk with hk | ⟨hk, -⟩ <;> rw [hk] at h
    · exact (h2 _ _ (.inl ⟨rfl, .inl rfl⟩)).1 (h _)
    · exact h1 (h _)
  obtain ⟨hm', hk'⟩ := reads_is hq hb hr.vocab hr.seg hr.numeric (fun n hn => hout n (List.mem_append_right _ hn)) (fun hP n hn => hval hP n (List.mem_append_right _ hn))
  refine ⟨fun n hn => (List.mem_append.1 hn).elim (hm n) (hm' n), ?_⟩
  have no : ∀ k k', (k = .other ∧ (k' = .other ∨ k' = q.kind)) ∨ (k = p.kind ∧ k' = .other) → a.kind = k → b.kind = k' → False := by
    rintro k k' hh rfl rfl
    obtain ⟨n1, n2⟩ := h2 _ _ hh
    rcases h with h | ⟨c, h, -⟩
    · exact n1 h
    · rw [n2] at h; cases h
  rcases hk with hk | ⟨hk, his⟩
  · rcases hk' with hk' | ⟨hk', -⟩
    · exact (no _ _ (.inl ⟨rfl, .inl rfl⟩) hk hk').elim
    · exact (no _ _ (.inl ⟨rfl, .inr rfl⟩) hk hk').elim
  · rcases hk' with hk' | ⟨hk', his'⟩
    · exact (no _ _ (.inr ⟨rfl, rfl⟩) hk hk').elim
    · rcases h with h | ⟨c, h, g⟩
      · rw [hk, hk'] at h; exact absurd h h1
      · exact ⟨a, b, c, h, g, fun hP => ⟨his hP, his' hP⟩⟩

theorem forValue_ok {P : Prop} {ρ : Str → Int} {φ : Str → Bool} {k : Spec.Level} {e : Spec.Expr} {o : Str} {s s' : St} {rc : RC} {Q : Int → Prop}
    (h : ForValue o s Q (.ok rc s' : Res RC)) (ht : Spec.Text k e o) (hr : C42.Ready isa mz80 none s)
    (hout : Outside (Worded isa) s e.names) (hval : Values P s ρ φ e.names) :
    (∀ n ∈ e.names, Met s (canon s.segment n)) ∧ ∃ v, Q v ∧ (P → e.eval ρ = .ok v) := by
  have no : ¬ Refused (.ok rc s' : Res RC) := by
    rintro (⟨_, h⟩ | ⟨_, _, h⟩) <;> cases h
  rcases h with ⟨w, s1, h⟩ | ⟨-, h⟩ | ⟨m, ⟨s0, r, s1, g, hp, rfl⟩, h⟩
  · cases h
  · exact absurd h no
  · obtain ⟨t1, t2⟩ := parse_tells (P := P) (ρ := ρ) (φ := φ) ht (hr.numeric.gen g) (fun x hx => by rw [g.segment]; exact hout x hx) (hval.gen g) hp
    refine ⟨fun n hn => ?_, ?_⟩
    · have := parse_met ht hp n hn
      rw [g.segment] at this
      exact this.back g.tree
    · have hm : meaning r = ⟨.num, r.value.toInt⟩ := by unfold meaning; rw [if_pos t1]
      rw [hm] at h
      exact ⟨_, h, fun hP => (t2 hP).1⟩

end C44
end Crasm

import Verif.Proof.ProgFull
import Verif.Proof.ProgUnique
import Verif.Proof.Prog6502
import Verif.Spec.ProgZ80
import Verif.Props.C24

/-! Programs: the operands of the Z80. -/

namespace Crasm
namespace Zop
open _root_.Spec.Z80 (Kind Arg Form Written Free Bl Ix Pair R8 Opnd)
open Z80 (Z Idx getreg getIndexed indexed docode)

/-! ### An operand can be read in one way only -/

/-- Which of the patterns match. -/
def shape (o : Str) : List (Bool × List Str) :=
  ([patW c!"HL", patW c!"BC", patW c!"DE", patW c!"IX", patW c!"IY", patS c!"IX" '+', patS c!"IY" '+', patS c!"IX" '-', patS c!"IY" '-',
    c!"(_?_)"]).map fun p => ((filter o p).ok, if (filter o p).ok = true then (filter o p).caps else [])

/-- A form, by its pattern; the text and the number of the pattern. -/
def viewOf : List (Bool × List Str) → Str → (Kind ⊕ (Form × Str))
  | [h, b, d, x, y, xp, yp, xm, ym, p], o =>
    if h.1 then .inl .atHL else if b.1 then .inl .atBC else if d.1 then .inl .atDE else if x.1 then .inl (.at .ix) else if y.1 then .inl (.at .iy)
    else if xp.1 then .inr (.plus .ix, xp.2.headD []) else if yp.1 then .inr (.plus .iy, yp.2.headD [])
    else if xm.1 then .inr (.minus .ix, xm.2.headD []) else if ym.1 then .inr (.minus .iy, ym.2.headD [])
    else if p.1 then .inr (.ind, p.2.headD []) else .inr (.expr, o)
  | _, o => .inr (.expr, o)
def view (o : Str) : Kind ⊕ (Form × Str) := viewOf (shape o) o

theorem view_fixed {k : Kind} {o : Str} (h : _root_.Spec.Z80.Fixed k o) : view o = .inl k := by
  cases h with
  | @mk w x b1 b2 hm hx h1 h2 =>
    have h1 : Blank b1 := .of h1
    have h2 : Blank b2 := .of h2
    have hw := fixed_word hm
    have miss : ∀ w' ∈ words, w' ≠ w → (filter ('(' :: (b1 ++ (x ++ (b2 ++ [')'])))) (patW w')).ok = false :=
      fun w' hw' hne => wordW_miss hw' hw hx h1 hne
    obtain ⟨n1, k1, hit⟩ := wordW_hit hw hx h1 h2
    unfold view shape viewOf
    simp only [List.map_cons, List.map_nil]
    simp only [_root_.Spec.Z80.fixed, List.mem_cons, Prod.mk.injEq, List.not_mem_nil, or_false] at hm
    rcases hm with ⟨rfl, rfl⟩ | ⟨rfl, rfl⟩ | ⟨rfl, rfl⟩ | ⟨rfl, rfl⟩ | ⟨rfl, rfl⟩
    · simp [hit]
    · simp [hit, miss c!"HL" (by decide) (by decide)]
    · simp [hit, miss c!"HL" (by decide) (by decide), miss c!"BC" (by decide) (by decide)]
    · simp [hit, miss c!"HL" (by decide) (by decide), miss c!"BC" (by decide) (by decide), miss c!"DE" (by decide) (by decide)]
    · simp [hit, miss c!"HL" (by decide) (by decide), miss c!"BC" (by decide) (by decide), miss c!"DE" (by decide) (by decide),
        miss c!"IX" (by decide) (by decide)]

theorem view_written {f : Form} {e o : Str} (h : Written f e o) : view o = .inr (f, e) := by
  unfold view shape viewOf
  simp only [List.map_cons, List.map_nil]
  cases h with
  | expr he h =>
    have mW : ∀ w ∈ words, (filter e (patW w)).ok = false := fun w hw => noparen_W hw h
    have mS : ∀ w ∈ words, ∀ p, p = '+' ∨ p = '-' → (filter e (patS w p)).ok = false := fun w hw p hp => noparen_S hw hp h
    have mP : (filter e c!"(_?_)").ok = false := (paren_misses h).2.2
    simp [mW c!"HL" (by decide), mW c!"BC" (by decide), mW c!"DE" (by decide), mW c!"IX" (by decide), mW c!"IY" (by decide),
      mS c!"IX" (by decide) '+' (.inl rfl), mS c!"IY" (by decide) '+' (.inl rfl), mS c!"IX" (by decide) '-' (.inr rfl),
      mS c!"IY" (by decide) '-' (.inr rfl), mP]
  | @ind _ b1 b2 he hf h1 h2 =>
    have h1 : Blank _ := .of h1
    have h2 : Blank _ := .of h2
    have mW : ∀ w ∈ words, (filter ('(' :: (b1 ++ (e ++ (b2 ++ [')'])))) (patW w)).ok = false := fun w hw => freeW_miss he hf h1 h2 hw
    have mS : ∀ w ∈ [c!"IX", c!"IY"], ∀ p, p = '+' ∨ p = '-' → (filter ('(' :: (b1 ++ (e ++ (b2 ++ [')'])))) (patS w p)).ok = false :=
      fun w hw p hp => freeS_miss he hf h1 h2 (ix_words hw) hw hp
    obtain ⟨n1, k1, hit⟩ := paren_hit he h1 h2
    simp [mW c!"HL" (by decide), mW c!"BC" (by decide), mW c!"DE" (by decide), mW c!"IX" (by decide), mW c!"IY" (by decide),
      mS c!"IX" (by decide) '+' (.inl rfl), mS c!"IY" (by decide) '+' (.inl rfl), mS c!"IX" (by decide) '-' (.inr rfl),
      mS c!"IY" (by decide) '-' (.inr rfl), hit]
  | @plus x _ w b1 b2 b3 b4 he hx h1 h2 h3 h4 =>
    have h1 : Blank b1 := .of h1
    have h2 : Blank b2 := .of h2
    obtain ⟨n1, k1, hit⟩ := wordS_hit (name_mem x) hx he h1 h2 (.of h3) (.of h4) (.inl rfl)
    have mW : ∀ w' ∈ words, (filter ('(' :: (b1 ++ (w ++ (b2 ++ '+' :: (b3 ++ (e ++ (b4 ++ [')']))))))) (patW w')).ok = false := by
      intro w' hw'
      by_cases hne : w' = x.name
      · subst hne
        exact wordW_more (name_mem x) hx h1 h2 (by decide) (by decide)
      · exact wordW_miss hw' (name_mem x) hx h1 hne
    cases x with
    | ix =>
      have hit : filter _ (patS c!"IX" '+') = _ := hit
      simp [mW c!"HL" (by decide), mW c!"BC" (by decide), mW c!"DE" (by decide), mW c!"IX" (by decide), mW c!"IY" (by decide), hit]
    | iy =>
      have hit : filter _ (patS c!"IY" '+') = _ := hit
      simp [mW c!"HL" (by decide), mW c!"BC" (by decide), mW c!"DE" (by decide), mW c!"IX" (by decide), mW c!"IY" (by decide), hit,
        wordS_miss (w := c!"IX") (s := b2 ++ '+' :: (b3 ++ (e ++ (b4 ++ [')'])))) (by decide) (name_mem _) hx h1 (by decide) (.inl rfl)]
  | @minus x _ w b1 b2 b3 b4 he _ hx h1 h2 h3 h4 =>
    have h1 : Blank b1 := .of h1
    have h2 : Blank b2 := .of h2
    obtain ⟨n1, k1, hit⟩ := wordS_hit (name_mem x) hx he h1 h2 (.of h3) (.of h4) (.inr rfl)
    have mW : ∀ w' ∈ words, (filter ('(' :: (b1 ++ (w ++ (b2 ++ '-' :: (b3 ++ (e ++ (b4 ++ [')']))))))) (patW w')).ok = false := by
      intro w' hw'
      by_cases hne : w' = x.name
      · subst hne
        exact wordW_more (name_mem x) hx h1 h2 (by decide) (by decide)
      · exact wordW_miss hw' (name_mem x) hx h1 hne
    have mP : ∀ w' ∈ words, (filter ('(' :: (b1 ++ (w ++ (b2 ++ '-' :: (b3 ++ (e ++ (b4 ++ [')']))))))) (patS w' '+')).ok = false := by
      intro w' hw'
      by_cases hne : w' = x.name
      · subst hne
        exact wordS_other (name_mem x) hx h1 h2 (.inl rfl) (by decide) (by decide)
      · exact wordS_miss hw' (name_mem x) hx h1 hne (.inl rfl)
    cases x with
    | ix =>
      have hit : filter _ (patS c!"IX" '-') = _ := hit
      simp [mW c!"HL" (by decide), mW c!"BC" (by decide), mW c!"DE" (by decide), mW c!"IX" (by decide), mW c!"IY" (by decide), hit,
        mP c!"IX" (by decide), mP c!"IY" (by decide)]
    | iy =>
      have hit : filter _ (patS c!"IY" '-') = _ := hit
      simp [mW c!"HL" (by decide), mW c!"BC" (by decide), mW c!"DE" (by decide), mW c!"IX" (by decide), mW c!"IY" (by decide), hit,
        mP c!"IX" (by decide), mP c!"IY" (by decide),
        wordS_miss (w := c!"IX") (s := b2 ++ '-' :: (b3 ++ (e ++ (b4 ++ [')'])))) (by decide) (name_mem _) hx h1 (by decide) (.inr rfl)]

theorem Reads.fixed {k : Kind} {o : Str} {a : Arg} {s : St} (h : _root_.Spec.Z80.Fixed k o) (hr : Reads o a s) : a = ⟨k, 0⟩ := by
  rcases hr with ⟨h1, h2⟩ | ⟨f, e, m, h1, -⟩
  · have := view_fixed h1
    rw [view_fixed h] at this
    obtain ⟨ak, av⟩ := a
    cases this
    cases h2
    rfl
  · have := view_written h1
    rw [view_fixed h] at this
    cases this
theorem Reads.written {f : Form} {t o : Str} {a : Arg} {s : St} (h : Written f t o) (hr : Reads o a s) : ∃ m, Evals t m s ∧ a = f.value m := by
  rcases hr with ⟨h1, h2⟩ | ⟨f, e, m, h1, h2, h3⟩
  · have := view_fixed h1
    rw [view_written h] at this
    cases this
  · have := view_written h1
    rw [view_written h] at this
    cases this
    exact ⟨m, h2, h3⟩

/-! ### Registers -/

theorem register_words : (_root_.Spec.Z80.registers.all fun p => p.1.all isalpha && !p.1.isEmpty && decide (p.1.length ≤ 2) &&
    Z80.mz80.any fun e => e.name.map toupper = p.1 && e.label.type = .regs && decide (regKind e.label.modifier = p.2)) = true := by
  decide +kernel

structure RegText (w : Str) (k : Kind) (x : Str) : Prop where
  alpha : ∀ c ∈ x, isalpha c = true
  ne : x ≠ []
  short : x.length ≤ 2
  entry : ∃ e ∈ Z80.mz80, e.name.map toupper = w ∧ e.label.type = .regs ∧ regKind e.label.modifier = k

theorem reg_text {w x : Str} {k : Kind} (h : (w, k) ∈ _root_.Spec.Z80.registers) (hx : _root_.Spec.Z80.Word w x) : RegText w k x := by
  have h := List.all_eq_true.1 register_words _ h
  simp only [Bool.and_eq_true, decide_eq_true_eq, Bool.not_eq_true', List.isEmpty_eq_false_iff, List.any_eq_true] at h
  obtain ⟨⟨⟨h1, h2⟩, h3⟩, e, he, ⟨h4, h5⟩, h6⟩ := h
  have hl : x.length = w.length := by rw [← hx, List.length_map]
  refine ⟨fun c hc => alpha_of_upper ?_, fun e => ?_, by omega, e, he, h4, h5, h6⟩
  · refine List.all_eq_true.1 h1 _ ?_
    rw [← hx]
    exact List.mem_map_of_mem hc
  · subst e
    exact h2 hx.symm

theorem isAlpha_of {c : Char} (h : isalpha c = true) : c.isAlpha = true := by
  unfold isalpha at h
  simp only [decide_eq_true_eq, Bool.or_eq_true, Bool.and_eq_true] at h
  unfold Char.isAlpha Char.isUpper Char.isLower
  simp only [Bool.or_eq_true, Bool.and_eq_true, decide_eq_true_eq, ge_iff_le, UInt32.le_iff_toNat_le]
  have : c.val.toNat = c.toNat := rfl
  have a : 'A'.val.toNat = 65 := rfl
  have b : 'Z'.val.toNat = 90 := rfl
  have d : 'a'.val.toNat = 97 := rfl
  have e : 'z'.val.toNat = 122 := rfl
  omega

theorem RegText.isName {w x : Str} {k : Kind} (h : RegText w k x) : Spec.IsName x := by
  cases x with
  | nil => exact absurd rfl h.ne
  | cons c cs =>
    refine ⟨.inl (isAlpha_of (h.alpha c (by simp))), fun d hd => .inl ?_, ?_⟩
    · unfold Char.isAlphanum
      rw [isAlpha_of (h.alpha d (by simp [hd]))]
      rfl
    · have := h.short
      simp only [List.length_cons] at this
      omega

theorem RegText.written {w x : Str} {k : Kind} (h : RegText w k x) : Written .expr x x := by
  refine .expr (operand_word h.alpha h.ne) fun c r e => ?_
  subst e
  exact alpha_ne (h.alpha c (by simp)) (by decide)

theorem RegText.canon {w x : Str} {k : Kind} (h : RegText w k x) (hx : _root_.Spec.Z80.Word w x) : canon 0 x = w := by
  rw [C42.canon_key (Nat.le_trans h.short (by decide)), ← C42.up_key]
  · exact hx
  rw [← C42.up_key]
  cases x with
  | nil => exact absurd rfl h.ne
  | cons c cs =>
    intro e
    have e : toupper c = '.' := Option.some.inj e
    have h1 := h.alpha c (by simp)
    have : isalpha (toupper c) = true := by
      unfold isalpha at h1 ⊢
      unfold toupper
      split
      · next hc =>
        have := toupper_toNat hc
        unfold toupper at this
        rw [if_pos hc] at this
        simp only [decide_eq_true_eq, Bool.or_eq_true, Bool.and_eq_true]
        omega
      · exact h1
    rw [e] at this
    exact absurd this (by decide)

/-- A register: it is understood as such, unless something is wrong with its value. -/
theorem parse_reg {w x : Str} {k : Kind} (h : RegText w k x) (hx : _root_.Spec.Z80.Word w x) {s : St} (hv : C42.Vocab Z80.mz80 s) (hs : s.segment = 0)
    {r : Result} {s' : St} (hp : parse (some x) s = .ok r s') : meaning r = ⟨k, 0⟩ ∨ meaning r = ⟨.other, 0⟩ := by
  obtain ⟨e, he, h1, h2, h3⟩ := h.entry
  obtain ⟨l, hl, w1, w2, w3, w4, -⟩ := hv e he
  have hf : searchlabel s x = some l := by
    unfold searchlabel
    rw [hs, h.canon hx, ← h1]
    exact hl
  rcases C20_reference h.isName hf (r := { value := l.value, type := l.type, modifier := l.modifier, ptr := l.ptr, flags := {} })
    ⟨w4, rfl, rfl, rfl, rfl⟩ with ⟨r', s1, e2, -, e3, e4, -⟩ | ⟨t, e2⟩
  · rw [hp] at e2
    cases e2
    unfold meaning
    have ht : r.type = .regs := by rw [e3]; exact w1.trans h2
    rw [if_neg (by rw [ht]; decide)]
    split
    · left
      rw [e4, ← h3]
      show (⟨regKind l.modifier, 0⟩ : Arg) = _
      rw [w2]
    · exact .inr rfl
  · rw [hp] at e2; cases e2

theorem parse_reg_goes {N : Str → Prop} {w x : Str} {k : Kind} (h : RegText w k x) (hx : _root_.Spec.Z80.Word w x) {s : St} (hv : C42.Vocab Z80.mz80 s) (hs : s.segment = 0) :
    Goes N s (parse (some x) s) := by
  obtain ⟨e, he, h1, -⟩ := h.entry
  obtain ⟨l, hl, -⟩ := hv e he
  refine label_goes h.isName hs ?_
  rw [h.canon hx, ← h1, hl]
  rfl

/-! ### What operands stand for -/

theorem Opnd.spelled {p : Opnd} {o : Str} (h : p.Writes o) : Spelled o := by
  cases h with
  | reg h hx => exact .inr ⟨_, _, (reg_text h hx).written⟩
  | fixed h => exact .inl ⟨_, h⟩
  | form h _ => exact .inr ⟨_, _, h⟩

theorem reads_is {P : Prop} {ρ : Str → Int} {φ : Str → Bool} {keys : Str → Prop} {p : Opnd} {o : Str} (hp : p.Writes o) {s : St} {a : Arg} (hr : Reads o a s)
    (hv : C42.Vocab Z80.mz80 s) (hs : s.segment = 0) (hn : Numeric keys s) (hk : Outside keys s p.names) (hval : Values P s ρ φ p.names) :
    (∀ n ∈ p.names, Met s (canon s.segment n)) ∧ (a.kind = .other ∨ (a.kind = p.kind ∧ (P → p.Is ρ a))) := by
  cases hp with
  | reg h hx =>
    have ht := reg_text h hx
    refine ⟨(fun n hn => by cases hn), ?_⟩
    obtain ⟨m, ⟨s0, r, s1, g, hp, rfl⟩, rfl⟩ := hr.written ht.written
    rcases parse_reg ht hx (hv.alike g.tree) (by rw [g.segment, hs]) hp with e | e <;> rw [e]
    · exact .inr ⟨rfl, fun _ => .reg⟩
    · exact .inl rfl
  | fixed h =>
    cases hr.fixed h
    exact ⟨(fun n hn => by cases hn), .inr ⟨rfl, fun _ => .fixed⟩⟩
  | @form f e k t _ hw ht =>
    obtain ⟨m, ⟨s0, r, s1, g, hp, rfl⟩, rfl⟩ := hr.written hw
    have hk : Outside keys s e.names := hk
    obtain ⟨t1, t2⟩ := parse_tells (P := P) (ρ := ρ) (φ := φ) ht (hn.gen g) (fun x hx => by rw [g.segment]; exact hk x hx) (hval.gen g) hp
    refine ⟨fun n hn => ?_, .inr ?_⟩
    · have := parse_met ht hp n hn
      rw [g.segment] at this
      exact this.back g.tree
    · have hm : meaning r = ⟨.num, r.value.toInt⟩ := by unfold meaning; rw [if_pos t1]
      rw [hm]
      exact ⟨by cases f <;> rfl, fun hP => .form (t2 hP).1⟩

/-! ### Reading an operand does little -/

/-- The texts of these operands can be read. -/
structure Fine (N : Str → Prop) (o : Str) (s : St) : Prop where
  spelled : Spelled o
  goes : ∀ f e, Written f e o → ∀ s1, Star (TStep N) (s, .live) (s1, .live) → Goes N s1 (parse (some e) s1)

theorem Fine.star {N : Str → Prop} {o : Str} {s s1 : St} (h : Fine N o s) (hs : Star (TStep N) (s, .live) (s1, .live)) : Fine N o s1 :=
  ⟨h.spelled, fun f e hw s2 h2 => h.goes f e hw s2 (hs.trans h2)⟩

end Zop

namespace Z80
open Zop
variable {N : Str → Prop}
instance (z : Z) (v : Word) : W (TStep N) (setArg z v) := ⟨by unfold setArg; walk⟩
instance (r : Result) : W (TStep N) (singleReg r) := ⟨by unfold singleReg; walk⟩
instance (z : Z) (n : Int) : W (TStep N) (regResult z n) := ⟨by unfold regResult; walk⟩
instance (z : Z) (i : Idx) (o : BitVec 32) : W (TStep N) (indexEnd z i o) := ⟨by unfold indexEnd; walk⟩
instance (z : Z) (c : BitVec 32) : W (TStep N) (docode z c) := ⟨by unfold docode; walk⟩
instance (z : Z) (f : Fin) : W (TStep N) (Zop.finish z f) := ⟨by unfold Zop.finish; walk⟩
instance (c : BitVec 32) (o : Option Str) : W (TStep N) (simple c o) := ⟨by unfold simple; walk⟩
end Z80

namespace Zop
open _root_.Spec.Z80 (Kind Arg Form Written Free Bl Ix Pair R8 Opnd)
open Z80 (Z Idx getreg getIndexed indexed docode)
variable {N : Str → Prop}

theorem Goes.scratch {s : St} {b : Nat} {r : Res α} (h : Goes N { s with bufpos := b } r) : Goes N s r :=
  .after (.one (.scratch s s.lst b s.calcR s.flags.listOn)) h

theorem star_buf (s : St) (b : Nat) : Star (TStep N) (s, .live) ({ s with bufpos := b }, .live) := .one (.scratch s s.lst b s.calcR s.flags.listOn)

theorem indexed_goes {z : Z} {o : Str} {s : St} {b : Nat} {m : M (Option Z)} (h : Toward (getIndexed z o indexed s) (m { s with bufpos := b }))
    (hm : Goes N { s with bufpos := b } (m { s with bufpos := b })) (hsome : ∀ s' s1, m s1 ≠ .ok none s') : Goes N s (getreg z o s) := by
  unfold getreg
  refine Goes.bind (Goes.scratch (.toward h hm)) fun a s' _ hok => ?_
  rcases h with h | ⟨t, h⟩
  · rw [h] at hok
    cases a with
    | none => exact absurd hok (hsome _ _)
    | some z' => exact Walk.goes (by walk) s'
  · rw [h] at hok; cases hok

theorem end_some {z : Z} {i : Idx} {off : BitVec 32} {s s' : St} : indexEnd z i off s ≠ .ok none s' := by
  unfold indexEnd
  split
  · intro h; exact error_not_ok h
  · intro h; cases h

theorem indexOff_goes {e : Str} {plus : Bool} {s : St} (h : Goes N s (parse (some e) s)) : Goes N s (indexOff e plus s) := by
  unfold indexOff
  exact (parseAbs_goes h).bind fun r s' _ _ => Walk.goes (by walk) s'

theorem signed_goes {z : Z} {o e : Str} {x : Idx} {plus : Bool} {s : St} {b : Nat}
    (h : Toward (getIndexed z o indexed s) ((indexOff e plus >>= fun off => indexEnd z x off) { s with bufpos := b }))
    (hp : Goes N { s with bufpos := b } (parse (some e) { s with bufpos := b })) : Goes N s (getreg z o s) :=
  indexed_goes h ((indexOff_goes hp).bind fun _ s' _ _ => Walk.goes (by walk) s') fun s' s1 hok => by
    obtain ⟨off, s2, -, h2⟩ := bind_ok hok
    exact end_some h2

theorem getreg_goes {z : Z} {o : Str} {s : St} (hfine : Fine N o s) : Goes N s (getreg z o s) := by
  rcases hfine.spelled with ⟨k, hk⟩ | ⟨f, e, hw⟩
  · cases hk with
    | @mk w x b1 b2 hm hx h1 h2 =>
      have h1 : Blank b1 := .of h1
      have h2 : Blank b2 := .of h2
      have hw := fixed_word hm
      have miss : ∀ w' ∈ words, w' ≠ w → (filter ('(' :: (b1 ++ (x ++ (b2 ++ [')'])))) (patW w')).ok = false :=
        fun w' hw' hne => wordW_miss hw' hw hx h1 hne
      have missS : ∀ w' ∈ words, ∀ p, p = '+' ∨ p = '-' → (filter ('(' :: (b1 ++ (x ++ (b2 ++ [')'])))) (patS w' p)).ok = false := by
        intro w' hw' p hp
        by_cases hne : w' = w
        · subst hne
          exact wordS_other hw hx h1 h2 hp (by rcases hp with rfl | rfl <;> decide) (by decide)
        · exact wordS_miss hw' hw hx h1 hne hp
      obtain ⟨n1, k1, hit⟩ := wordW_hit hw hx h1 h2
      have noIx : w ≠ c!"IX" → w ≠ c!"IY" → ∀ p ∈ indexed, (filter ('(' :: (b1 ++ (x ++ (b2 ++ [')'])))) p.1).ok = false := by
        intro n1 n2
        refine indexed_all ?_ fun w' hw' p hp => missS w' (ix_words hw') p hp
        intro w' hw'
        refine miss w' (ix_words hw') ?_
        simp only [List.mem_cons, List.not_mem_nil, or_false] at hw'
        rcases hw' with rfl | rfl
        · exact fun h => n1 h.symm
        · exact fun h => n2 h.symm
      simp only [_root_.Spec.Z80.fixed, List.mem_cons, Prod.mk.injEq, List.not_mem_nil, or_false] at hm
      rcases hm with ⟨rfl, rfl⟩ | ⟨rfl, rfl⟩ | ⟨rfl, rfl⟩ | ⟨rfl, rfl⟩ | ⟨rfl, rfl⟩
      · refine .toward (getreg_notIndexed (noIx (by decide) (by decide)) s) ?_
        unfold notIndexed
        refine .toward (Toward.bind (toward_filter0 (show filter _ c!"(_HL_)" = _ from hit) s) (.refl _)) ?_
        simp only [if_true]
        exact Goes.scratch (b := s.bufpos + n1) (Walk.goes (by walk) _)
      · refine .toward (getreg_notIndexed (noIx (by decide) (by decide)) s) ?_
        unfold notIndexed
        refine .toward (Toward.bind (toward_miss0 (show (filter _ c!"(_HL_)").ok = false from miss c!"HL" (by decide) (by decide)) s) (.refl _)) ?_
        simp only [Bool.false_eq_true, if_false]
        refine .toward (Toward.bind (toward_filter0 (show filter _ c!"(_BC_)" = _ from hit) s) (.refl _)) ?_
        simp only [if_true]
        exact Goes.scratch (b := s.bufpos + n1) (Walk.goes (by walk) _)
      · refine .toward (getreg_notIndexed (noIx (by decide) (by decide)) s) ?_
        unfold notIndexed
        refine .toward (Toward.bind (toward_miss0 (show (filter _ c!"(_HL_)").ok = false from miss c!"HL" (by decide) (by decide)) s) (.refl _)) ?_
        simp only [Bool.false_eq_true, if_false]
        refine .toward (Toward.bind (toward_miss0 (show (filter _ c!"(_BC_)").ok = false from miss c!"BC" (by decide) (by decide)) s) (.refl _)) ?_
        simp only [Bool.false_eq_true, if_false]
        refine .toward (Toward.bind (toward_filter0 (show filter _ c!"(_DE_)" = _ from hit) s) (.refl _)) ?_
        simp only [if_true]
        exact Goes.scratch (b := s.bufpos + n1) (Walk.goes (by walk) _)
      · obtain ⟨b, h⟩ := getIndexed_hit (z := z) (i := .ix) (sg := none) (pre := []) (post := indexed.drop 1) (by simp) ⟨n1, k1, hit⟩ s
        exact indexed_goes (m := indexEnd z .ix 0) h (Walk.goes (by walk) _) fun _ _ => end_some
      · obtain ⟨b, h⟩ := getIndexed_hit (z := z) (i := .iy) (sg := none) (pre := indexed.take 1) (post := indexed.drop 2)
          (by
            simp only [indexed, List.take, List.mem_cons, List.not_mem_nil, or_false, forall_eq]
            exact miss c!"IX" (by decide) (by decide)) ⟨n1, k1, hit⟩ s
        exact indexed_goes (m := indexEnd z .iy 0) h (Walk.goes (by walk) _) fun _ _ => end_some
  · have hp := fun b => hfine.goes f e hw _ (star_buf s b)
    cases hw with
    | expr he h =>
      refine .toward (getreg_notIndexed (indexed_all (fun w hw => noparen_W (ix_words hw) h) fun w hw p hp => noparen_S (ix_words hw) hp h) s) ?_
      unfold notIndexed
      refine .toward (Toward.bind (toward_miss0 (show (filter _ c!"(_HL_)").ok = false from noparen_W (w := c!"HL") (by decide) h) s) (.refl _)) ?_
      simp only [Bool.false_eq_true, if_false]
      refine .toward (Toward.bind (toward_miss0 (show (filter _ c!"(_BC_)").ok = false from noparen_W (w := c!"BC") (by decide) h) s) (.refl _)) ?_
      simp only [Bool.false_eq_true, if_false]
      refine .toward (Toward.bind (toward_miss0 (show (filter _ c!"(_DE_)").ok = false from noparen_W (w := c!"DE") (by decide) h) s) (.refl _)) ?_
      simp only [Bool.false_eq_true, if_false]
      refine .toward (Toward.bind (toward_miss1 (paren_misses h).2.2 s) (.refl _)) ?_
      exact Goes.bind (hp s.bufpos) fun r s' _ _ => Walk.goes (by walk) s'
    | ind he hf h1 h2 =>
      have h1 : Blank _ := .of h1
      have h2 : Blank _ := .of h2
      refine .toward (getreg_notIndexed (indexed_all (fun w hw => freeW_miss he hf h1 h2 (ix_words hw))
        fun w hw p hp => freeS_miss he hf h1 h2 (ix_words hw) hw hp) s) ?_
      unfold notIndexed
      refine .toward (Toward.bind (toward_miss0 (show (filter _ c!"(_HL_)").ok = false from freeW_miss (w := c!"HL") he hf h1 h2 (by decide)) s) (.refl _)) ?_
      simp only [Bool.false_eq_true, if_false]
      refine .toward (Toward.bind (toward_miss0 (show (filter _ c!"(_BC_)").ok = false from freeW_miss (w := c!"BC") he hf h1 h2 (by decide)) s) (.refl _)) ?_
      simp only [Bool.false_eq_true, if_false]
      refine .toward (Toward.bind (toward_miss0 (show (filter _ c!"(_DE_)").ok = false from freeW_miss (w := c!"DE") he hf h1 h2 (by decide)) s) (.refl _)) ?_
      simp only [Bool.false_eq_true, if_false]
      obtain ⟨n1, k1, hit⟩ := paren_hit he h1 h2
      refine .toward (Toward.bind (toward_filter1 hit s) (.refl _)) ?_
      exact Goes.scratch (b := s.bufpos + n1) (Goes.bind (parseAbs_goes (hp _)) fun r s' _ _ => Walk.goes (by walk) s')
    | @plus x _ w b1 b2 b3 b4 he hx h1 h2 h3 h4 =>
      have h1 : Blank b1 := .of h1
      have h2 : Blank b2 := .of h2
      have hit := wordS_hit (name_mem x) hx he h1 h2 (.of h3) (.of h4) (.inl rfl)
      have missW : ∀ w' ∈ words, (filter ('(' :: (b1 ++ (w ++ (b2 ++ '+' :: (b3 ++ (e ++ (b4 ++ [')']))))))) (patW w')).ok = false := by
        intro w' hw'
        by_cases hne : w' = x.name
        · subst hne
          exact wordW_more (name_mem x) hx h1 h2 (by decide) (by decide)
        · exact wordW_miss hw' (name_mem x) hx h1 hne
      cases x with
      | ix =>
        obtain ⟨b, h⟩ := getIndexed_hit (z := z) (i := .ix) (sg := some true) (pre := indexed.take 2) (post := indexed.drop 3)
          (by
            simp only [indexed, List.take, List.mem_cons, List.not_mem_nil, or_false, forall_eq_or_imp, forall_eq]
            exact ⟨missW c!"IX" (by decide), missW c!"IY" (by decide)⟩) hit s
        exact signed_goes h (hp b)
      | iy =>
        obtain ⟨b, h⟩ := getIndexed_hit (z := z) (i := .iy) (sg := some true) (pre := indexed.take 3) (post := indexed.drop 4)
          (by
            simp only [indexed, List.take, List.mem_cons, List.not_mem_nil, or_false, forall_eq_or_imp, forall_eq]
            exact ⟨missW c!"IX" (by decide), missW c!"IY" (by decide),
              wordS_miss (w := c!"IX") (by decide) (name_mem _) hx h1 (by decide) (.inl rfl)⟩) hit s
        exact signed_goes h (hp b)
    | @minus x _ w b1 b2 b3 b4 he _ hx h1 h2 h3 h4 =>
      have h1 : Blank b1 := .of h1
      have h2 : Blank b2 := .of h2
      have hit := wordS_hit (name_mem x) hx he h1 h2 (.of h3) (.of h4) (.inr rfl)
      have missW : ∀ w' ∈ words, (filter ('(' :: (b1 ++ (w ++ (b2 ++ '-' :: (b3 ++ (e ++ (b4 ++ [')']))))))) (patW w')).ok = false := by
        intro w' hw'
        by_cases hne : w' = x.name
        · subst hne
          exact wordW_more (name_mem x) hx h1 h2 (by decide) (by decide)
        · exact wordW_miss hw' (name_mem x) hx h1 hne
      have missP : ∀ w' ∈ words, (filter ('(' :: (b1 ++ (w ++ (b2 ++ '-' :: (b3 ++ (e ++ (b4 ++ [')']))))))) (patS w' '+')).ok = false := by
        intro w' hw'
        by_cases hne : w' = x.name
        · subst hne
          exact wordS_other (name_mem x) hx h1 h2 (.inl rfl) (by decide) (by decide)
        · exact wordS_miss hw' (name_mem x) hx h1 hne (.inl rfl)
      cases x with
      | ix =>
        obtain ⟨b, h⟩ := getIndexed_hit (z := z) (i := .ix) (sg := some false) (pre := indexed.take 4) (post := indexed.drop 5)
          (by
            simp only [indexed, List.take, List.mem_cons, List.not_mem_nil, or_false, forall_eq_or_imp, forall_eq]
            exact ⟨missW c!"IX" (by decide), missW c!"IY" (by decide), missP c!"IX" (by decide), missP c!"IY" (by decide)⟩) hit s
        exact signed_goes h (hp b)
      | iy =>
        obtain ⟨b, h⟩ := getIndexed_hit (z := z) (i := .iy) (sg := some false) (pre := indexed.take 5) (post := indexed.drop 6)
          (by
            simp only [indexed, List.take, List.mem_cons, List.not_mem_nil, or_false, forall_eq_or_imp, forall_eq]
            exact ⟨missW c!"IX" (by decide), missW c!"IY" (by decide), missP c!"IX" (by decide), missP c!"IY" (by decide),
              wordS_miss (w := c!"IX") (by decide) (name_mem _) hx h1 (by decide) (.inr rfl)⟩) hit s
        exact signed_goes h (hp b)

theorem oneOp_goes {fin : Int → Z → Fin} {o : Str} {s : St} (h : Fine N o s) : Goes N s (oneOp fin o s) := by
  unfold oneOp
  exact (getreg_goes h).bind fun a s' _ _ => Walk.goes (by obtain ⟨r, z⟩ := a; walk) s'

theorem twoOps_goes {warn : Bool} {go : Int → Z → Except Str Bool} {fin : Int → Int → Z → Fin} {o1 o2 : Str} {s : St} (h1 : Fine N o1 s) (h2 : Fine N o2 s) :
    Goes N s (twoOps warn go fin o1 o2 s) := by
  unfold twoOps
  refine (getreg_goes h1).bind fun a s1 hs1 _ => ?_
  obtain ⟨r1, z⟩ := a
  show Goes N s1 ((match go r1 (flags z) with
    | .error msg => error msg
    | .ok fresh => do
      whenM (warn = true) (warning c!"One operand only. but i understand!")
      let (r2, z2) ← getreg (if fresh then {} else z) o2
      finish z2 (fin r1 r2 (flags z2)) : M Unit) s1)
  cases go r1 (flags z) with
  | error msg => exact Walk.goes (by walk) s1
  | ok fresh =>
    refine Goes.bind (Walk.goes (by walk) s1) fun _ s2 hs2 _ => ?_
    refine (getreg_goes (h2.star (hs1.trans hs2))).bind fun a s3 _ _ => ?_
    exact Walk.goes (by obtain ⟨r, z⟩ := a; walk) s3

end Zop

end Crasm

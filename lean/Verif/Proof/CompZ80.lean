import Verif.Proof.Comp
import Verif.Proof.ProgZ80M

/-! The instructions of the Z80 are accepted. -/

namespace Crasm

namespace C42

theorem Able.gen {keys : Str → Prop} {bs : List Byte} {s s' : St} (h : Able keys s) (g : Gen bs s s') : Able keys s' := by
  refine ⟨g.segment.trans h.seg, h.numeric.gen g, fun k l hk hl => ?_⟩
  have ht := g.tree k
  rw [hl] at ht
  cases e : s.tree.find k with
  | none =>
    rw [e] at ht
    exact .inr ht.2.1
  | some l0 =>
    rw [e] at ht
    have hs : ({ l0 with flags := { l0.flags with used := true } } : Label) = { l with flags := { l.flags with used := true } } := ht
    have h1 := congrArg (fun x : Label => x.flags.undef) hs
    have h2 := congrArg (fun x : Label => x.flags.forward) hs
    change l0.flags.undef = l.flags.undef at h1
    change l0.flags.forward = l.flags.forward at h2
    rw [← h1, ← h2]
    exact h.alive k l0 hk e

/-- The names are entered if all goes well. -/
def Enters (names : List Str) (seg : Nat) (r : Res α) : Prop := ∀ a s', r = .ok a s' → ∀ x ∈ names, Has s' (canon seg x)

theorem Enters.nil {seg : Nat} {r : Res α} : Enters [] seg r := fun _ _ _ x hx => by cases hx
theorem Enters.toward {names : List Str} {seg : Nat} {r r' : Res α} (h : Toward r r') (h' : Enters names seg r') : Enters names seg r := by
  rcases h with h | ⟨t, h⟩
  · rw [h]; exact h'
  · rw [h]; intro a s' e; cases e
theorem Enters.first {names : List Str} {seg : Nat} {m : M α} {f : α → M β} {s : St} (h : Enters names seg (m s)) (hf : ∀ a, Walk ChipStep (f a)) :
    Enters names seg ((m >>= f) s) := by
  intro b s' e x hx
  obtain ⟨a, s1, h1, h2⟩ := bind_ok e
  exact walk_has (hf a) h2 (h a s1 h1 x hx)
theorem Enters.later {names : List Str} {seg : Nat} {m : M α} {f : α → M β} {s : St} (h : ∀ a s1, m s = .ok a s1 → Enters names seg (f a s1)) :
    Enters names seg ((m >>= f) s) := by
  intro b s' e x hx
  obtain ⟨a, s1, h1, h2⟩ := bind_ok e
  exact h a s1 h1 b s' h2 x hx
theorem Enters.append {l l' : List Str} {seg : Nat} {r : Res α} (h : Enters l seg r) (h' : Enters l' seg r) : Enters (l ++ l') seg r :=
  fun a s' e x hx => (List.mem_append.1 hx).elim (h a s' e x) (h' a s' e x)
theorem Enters.parse {k : Spec.Level} {e : Spec.Expr} {t : Str} (ht : Spec.Text k e t) (s : St) : Enters e.names s.segment (Crasm.parse (some t) s) :=
  fun _ _ h => parse_enter ht h
theorem Enters.parseAbs {k : Spec.Level} {e : Spec.Expr} {t : Str} (ht : Spec.Text k e t) (s : St) : Enters e.names s.segment (Crasm.parseAbs (some t) s) := by
  unfold Crasm.parseAbs
  exact (Enters.parse ht s).first fun r => by walk

theorem chip_seg {a b : Cfg} (h : ChipStep a b) : b.1.segment = a.1.segment := by
  cases h with
  | n h => cases h <;> rfl
  | _ => rfl
theorem walk_seg {m : M α} (w : Walk ChipStep m) {s s' : St} {a : α} (e : m s = .ok a s') : s'.segment = s.segment := by
  have := w s
  rw [e] at this
  have h : ∀ {a b : Cfg}, Star ChipStep a b → b.1.segment = a.1.segment := by
    intro a b h
    induction h with
    | refl => rfl
    | tail _ r ih => exact (chip_seg r).trans ih
  exact h (show Star ChipStep (s, .live) (s', .live) from this)

theorem Comes.scratch {Q : Prop} {names : List Str} {n : Nat} {s : St} {b : Nat} {r : Res RC} (h : Comes Q names n { s with bufpos := b } r) :
    Comes Q names n s r := by
  cases r with
  | ok a s' => exact h
  | stop w s' => trivial
  | err s' =>
    obtain ⟨hQ, bs, s2, msg, g, h⟩ := h
    exact ⟨hQ, bs, s2, msg, by simpa using (gen_bufpos s b).trans g, h⟩
theorem Comes.toward {Q : Prop} {names : List Str} {n : Nat} {s : St} {r r' : Res RC} (h : Toward r r') (h' : Comes Q names n s r') :
    Comes Q names n s r := by
  rcases h with h | ⟨t, h⟩
  · rw [h]; exact h'
  · rw [h]; trivial

theorem toward_then {m m' : M α} {f : α → M β} {s s' : St} (h : Toward (m s) (m' s')) : Toward ((m >>= f) s) ((m' >>= f) s') := by
  rcases h with h | ⟨t, h⟩
  · refine .inl ?_
    rw [bind_run, bind_run, h]
  · exact .inr ⟨t, run_stop h⟩

/-- An instruction that looks at a number. -/
theorem value_comes {Q : Prop} {names : List Str} {n : Nat} {o : Str} {f : Result → M Unit} {s : St}
    (hf : ∀ r, Walk ChipStep (f r)) (hs : ∀ s', parse (some o) s ≠ .err s')
    (hr : ∀ r s1, parse (some o) s = .ok r s1 → r.type = .absolute ∧ ∀ x ∈ names, Has s1 (canon s.segment x))
    (he : ∀ r s1 s', Gen [] s s1 → f r s1 = .err s' → ∃ bs s2 msg, Gen bs s1 s2 ∧ bs.length = n ∧ (error msg : M Unit) s2 = .err s')
    (hQ : ∀ s', (do (parseAbs (some o) >>= f); pure RC.cont : M RC) s = .err s' → Q) :
    Comes Q names n s ((do (parseAbs (some o) >>= f); pure RC.cont : M RC) s) := by
  cases e0 : parse (some o) s with
  | err s' => exact absurd e0 (hs s')
  | stop w s' =>
    have : (do (parseAbs (some o) >>= f); pure RC.cont : M RC) s = .stop w s' := by
      unfold parseAbs
      rw [bind_assoc, bind_assoc, run_stop e0]
    rw [this]
    trivial
  | ok r s1 =>
    obtain ⟨hty, hnames⟩ := hr r s1 e0
    have hp : parseAbs (some o) s = .ok r s1 := by
      unfold parseAbs
      rw [run_ok e0]
      unfold checktype
      rw [if_pos hty]
      rfl
    have g0 : Gen [] s s1 := nwalk_gen W.walk hp
    have e1 : (do (parseAbs (some o) >>= f); pure RC.cont : M RC) s = (do f r; pure RC.cont : M RC) s1 := by
      rw [bind_assoc, run_ok hp]
    rw [e1] at hQ ⊢
    cases e2 : f r s1 with
    | stop w s2 => rw [run_stop e2]; trivial
    | ok u s2 =>
      rw [run_ok e2]
      exact fun x hx => walk_has (hf r) e2 (hnames x hx)
    | err s2 =>
      rw [run_err e2] at hQ ⊢
      obtain ⟨bs, s3, msg, g, hl, h3⟩ := he r s1 s2 g0 e2
      exact ⟨hQ s2 rfl, bs, s3, msg, by simpa using g0.trans g, hl, fun x hx => (hnames x hx).alike g.tree, h3⟩

end C42

namespace C44
open C24 C42 Zop
open _root_.Spec.Z80 (Kind Arg Form Written Opnd Ins Writes Encodes isa fill1 fill2 Pair2 Bl conds jumps plain)
open Z80 (mz80 Z getreg getIndexed indexed)

/-! ### The operands can be read -/

theorem reg_is {w x : Str} {k : Kind} (hm : (w, k) ∈ _root_.Spec.Z80.registers) (hx : _root_.Spec.Z80.Word w x) {s : St} (hv : Vocab mz80 s) (hs : s.segment = 0) :
    (∀ s', parse (some x) s ≠ .err s') ∧ ∀ r s', parse (some x) s = .ok r s' → meaning r = ⟨k, 0⟩ := by
  have h := reg_text hm hx
  obtain ⟨e, he, h1, h2, h3⟩ := C24_vocabulary.2.1 _ hm
  obtain ⟨l, hl, w1, w2, w3, w4, w5, w6, w7, w8, w9⟩ := hv e he
  have hf : searchlabel s x = some l := by
    unfold searchlabel
    rw [hs, h.canon hx]
    rw [show e.name.map toupper = w from h1] at hl
    exact hl
  rcases C20_reference h.isName hf (r := { value := l.value, type := l.type, modifier := l.modifier, ptr := l.ptr, flags := {} })
    ⟨w4, rfl, rfl, rfl, rfl⟩ with ⟨r', s1, e2, e5, e3, e4, -⟩ | ⟨t, e2⟩
  · rw [e2]
    refine ⟨fun s' h => (by cases h), fun r s' h => ?_⟩
    cases h
    rw [← h3]
    unfold meaning single asReg
    rw [e3, e4, e5, w1, w2, w9]
  · rw [e2]
    exact ⟨fun s' h => (by cases h), fun r s' h => (by cases h)⟩

/-- An operand can be read, and is of the kind that it is. -/
theorem reads_sure {keys : Str → Prop} {p : Opnd} {o : Str} (hp : p.Writes o) {s : St} (hr : Ready isa mz80 none s) (ha : Able keys s)
    (hkeys : ∀ n ∈ p.names, ¬ keys (canon 0 n)) (hout : Outside (Worded isa) s p.names) : ¬ Fails o s ∧ ∀ a, Reads o a s → a.kind = p.kind := by
  constructor
  · rintro ⟨f, e, hw, s0, s1, g, he⟩
    cases hp with
    | reg h hx =>
      have := view_written hw
      rw [view_written (reg_text h hx).written] at this
      cases this
      exact (reg_is h hx (hr.vocab.alike g.tree) (g.segment.trans hr.seg)).1 _ he
    | fixed h =>
      have := view_written hw
      rw [view_fixed h] at this
      cases this
    | form h ht =>
      have := view_written hw
      rw [view_written h] at this
      cases this
      have := parse_sure (N := fun _ => True) ht (Able.gen ha g) fun n hn => ⟨hkeys n hn, trivial⟩
      rw [he] at this
      exact this
  · intro a har
    have hval : Values False s (fun _ => 0) (fun _ => false) p.names := fun h => h.elim
    cases hp with
    | reg h hx =>
      obtain ⟨m, ⟨s0, r, s1, g, hp, rfl⟩, rfl⟩ := har.written (reg_text h hx).written
      rw [(reg_is h hx (hr.vocab.alike g.tree) (g.segment.trans hr.seg)).2 _ _ hp]
      rfl
    | fixed h =>
      cases har.fixed h
      rfl
    | @form f e k t _ hw ht =>
      obtain ⟨m, ⟨s0, r, s1, g, hp, rfl⟩, rfl⟩ := har.written hw
      have hout : Outside (Worded isa) s e.names := hout
      obtain ⟨t1, -⟩ := parse_tells (P := False) (ρ := fun _ => 0) (φ := fun _ => false) ht (hr.numeric.gen g)
        (fun x hx => by rw [g.segment]; exact hout x hx) (fun h => h.elim) hp
      have hm : meaning r = ⟨.num, r.value.toInt⟩ := by unfold meaning; rw [if_pos t1]
      rw [hm]
      cases f <;> rfl

theorem acts1_sure {keys : Str → Prop} {enc : Kind → Option _root_.Spec.Z80.Code} {odd : Kind → Prop} {p : Opnd} {o : Str} {s s' : St}
    (h : Acts1 enc odd o s (.err s' : Res RC)) (hp : p.Writes o) (hr : Ready isa mz80 none s) (ha : Able keys s)
    (hkeys : ∀ n ∈ p.names, ¬ keys (canon 0 n)) (hout : Outside (Worded isa) s p.names) (h1 : enc p.kind ≠ none) (h2 : Side1 enc odd p.kind) : False := by
  obtain ⟨q1, q2⟩ := reads_sure hp hr ha hkeys hout
  rcases h with h | ⟨a, har, h⟩
  · exact q1 h
  · rw [q2 a har] at h
    exact h.elim (h2 h1).1 h1

theorem acts2_sure {keys : Str → Prop} {enc : Kind → Kind → Option _root_.Spec.Z80.Code} {odd : Kind → Kind → Prop} {p q : Opnd} {o1 o2 : Str} {s s' : St}
    (h : Acts2 enc odd o1 o2 s (.err s' : Res RC)) (hp : p.Writes o1) (hq : q.Writes o2) (hr : Ready isa mz80 none s) (ha : Able keys s)
    (hkeys : ∀ n ∈ p.names ++ q.names, ¬ keys (canon 0 n)) (hout : Outside (Worded isa) s (p.names ++ q.names)) (h1 : enc p.kind q.kind ≠ none)
    (h2 : Side2 enc odd p.kind q.kind) : False := by
  obtain ⟨q1, q2⟩ := reads_sure hp hr ha (fun n hn => hkeys n (List.mem_append_left _ hn)) (fun n hn => hout n (List.mem_append_left _ hn))
  obtain ⟨q3, q4⟩ := reads_sure hq hr ha (fun n hn => hkeys n (List.mem_append_right _ hn)) (fun n hn => hout n (List.mem_append_right _ hn))
  rcases h with h | h | ⟨a, har, h | ⟨b, hbr, h⟩⟩
  · exact q1 h
  · exact q3 h
  · have h := h q.kind
    rw [q2 a har] at h
    exact h.elim (h2 h1).1 h1
  · rw [q2 a har, q4 b hbr] at h
    exact h.elim (h2 h1).1 h1

theorem forValue_err {keys : Str → Prop} {ρ : Str → Int} {φ : Str → Bool} {k : Spec.Level} {e : Spec.Expr} {o : Str} {s s' : St} {Q : Int → Prop}
    (h : ForValue o s Q (.err s' : Res RC)) (ht : Spec.Text k e o) (hr : Ready isa mz80 none s) (ha : Able keys s)
    (hkeys : ∀ n ∈ e.names, ¬ keys (canon 0 n)) (hout : Outside (Worded isa) s e.names) (hval : Values True s ρ φ e.names) :
    ∃ v, Q v ∧ e.eval ρ = .ok v := by
  rcases h with ⟨w, s1, h⟩ | ⟨⟨s0, s1, g, he⟩, -⟩ | ⟨m, ⟨s0, r, s1, g, hp, rfl⟩, h⟩
  · cases h
  · exfalso
    have := parse_sure (N := fun _ => True) ht (Able.gen ha g) fun n hn => ⟨hkeys n hn, trivial⟩
    rw [he] at this
    exact this
  · obtain ⟨t1, t2⟩ := parse_tells (P := True) (ρ := ρ) (φ := φ) ht (hr.numeric.gen g) (fun x hx => by rw [g.segment]; exact hout x hx) (hval.gen g) hp
    have hm : meaning r = ⟨.num, r.value.toInt⟩ := by unfold meaning; rw [if_pos t1]
    rw [hm] at h
    exact ⟨_, h, (t2 trivial).1⟩

/-! ### The names in operands are entered -/

theorem indexed_enters {names : List Str} {seg : Nat} {z : Z} {o : Str} {s : St} {b : Nat} {m : M (Option Z)}
    (h : Toward (getIndexed z o indexed s) (m { s with bufpos := b }))
    (hm : Enters names seg (m { s with bufpos := b })) (hsome : ∀ s' s1, m s1 ≠ .ok none s') : Enters names seg (getreg z o s) := by
  unfold getreg
  refine Enters.later fun a s1 hok => ?_
  have hm : Enters names seg (getIndexed z o indexed s) := .toward h hm
  cases a with
  | none =>
    rcases h with h | ⟨t, h⟩
    · rw [h] at hok
      exact absurd hok (hsome _ _)
    · rw [h] at hok; cases hok
  | some z' =>
    intro a s' e x hx
    change (pure (Z80.MREGISTER, z') : M (Int × Z)) s1 = _ at e
    cases e
    exact hm _ _ hok x hx

theorem signed_enters {k : Spec.Level} {x : Spec.Expr} {seg : Nat} {z : Z} {o e : Str} {i : Z80.Idx} {plus : Bool} {s : St} {b : Nat} (hs : s.segment = seg)
    (h : Toward (getIndexed z o indexed s) ((indexOff e plus >>= fun off => indexEnd z i off) { s with bufpos := b }))
    (ht : Spec.Text k x e) : Enters x.names seg (getreg z o s) := by
  subst hs
  refine indexed_enters h (Enters.first ?_ fun _ => by unfold indexEnd; walk) fun s' s1 hok => ?_
  · unfold indexOff
    exact (Enters.parseAbs ht { s with bufpos := b }).first fun r => by walk
  · obtain ⟨off, s2, -, h2⟩ := bind_ok hok
    exact end_some h2

theorem getreg_enters {p : Opnd} {z : Z} {o : Str} (hp : p.Writes o) {s : St} {seg : Nat} (hs : s.segment = seg) : Enters p.names seg (getreg z o s) := by
  cases hp with
  | reg h hx => exact .nil
  | fixed h => exact .nil
  | @form f x k e _ hw ht =>
    change Enters x.names seg _
    cases hw with
    | expr he h =>
      refine .toward (getreg_notIndexed (indexed_all (fun w hw => noparen_W (ix_words hw) h) fun w hw p hp => noparen_S (ix_words hw) hp h) s) ?_
      unfold notIndexed
      refine .toward (Toward.bind (toward_miss0 (show (filter _ c!"(_HL_)").ok = false from noparen_W (w := c!"HL") (by decide) h) s) (.refl _)) ?_
      simp only [Bool.false_eq_true, if_false]
      refine .toward (Toward.bind (toward_miss0 (show (filter _ c!"(_BC_)").ok = false from noparen_W (w := c!"BC") (by decide) h) s) (.refl _)) ?_
      simp only [Bool.false_eq_true, if_false]
      refine .toward (Toward.bind (toward_miss0 (show (filter _ c!"(_DE_)").ok = false from noparen_W (w := c!"DE") (by decide) h) s) (.refl _)) ?_
      simp only [Bool.false_eq_true, if_false]
      refine .toward (Toward.bind (toward_miss1 (paren_misses h).2.2 s) (.refl _)) ?_
      subst hs
      exact (Enters.parse ht s).first fun r => by walk
    | ind he hf h1 h2 =>
      have h1 : Blank _ := .of h1
      have h2 : Blank _ := .of h2
      refine .toward (getreg_notIndexed (indexed_all (fun w hw => freeW_miss he hf h1 h2 (ix_words hw))
        fun w hw p hp => freeS_miss he hf h1 h2 (ix_words hw) hw hp) s) ?_
      unfold notIndexed
      refine .toward (Toward.bind (toward_miss0 (show (filter _ c!"(_HL_)").ok = false from freeW_miss (w := c!"HL") he hf h1 h2 (by decide)) s) (.refl _)) ?_
      simp only [Bool.false_eq_true, if_false]
      refine .toward (Toward.bind (toward_miss0 (show (filter _ c!"(_BC_)").ok = false from freeW_miss (w := c!"BC") he hf h1 h2 (by decide)) s) (.refl _)) ?_
      simp only [Bool.false_eq_true, if_false]
      refine .toward (Toward.bind (toward_miss0 (show (filter _ c!"(_DE_)").ok = false from freeW_miss (w := c!"DE") he hf h1 h2 (by decide)) s) (.refl _)) ?_
      simp only [Bool.false_eq_true, if_false]
      obtain ⟨n1, k1, hit⟩ := paren_hit he h1 h2
      refine .toward (Toward.bind (toward_filter1 hit s) (.refl _)) ?_
      subst hs
      exact (Enters.parseAbs ht { s with bufpos := s.bufpos + n1 }).first fun r => by walk
    | @plus x _ w b1 b2 b3 b4 he hx h1 h2 h3 h4 =>
      have h1 : Blank b1 := .of h1
      have h2 : Blank b2 := .of h2
      have hit := wordS_hit (name_mem x) hx he h1 h2 (.of h3) (.of h4) (.inl rfl)
      have missW : ∀ w' ∈ words, (filter ('(' :: (b1 ++ (w ++ (b2 ++ '+' :: (b3 ++ (e ++ (b4 ++ [')']))))))) (patW w')).ok = false := by
        intro w' hw'
        by_cases hne : w' = x.name
        · subst hne
          exact wordW_more (name_mem x) hx h1 h2 (by decide) (by decide)
        · exact wordW_miss hw' (name_mem x) hx h1 hne
      cases x with
      | ix =>
        obtain ⟨b, h⟩ := getIndexed_hit (z := z) (i := .ix) (sg := some true) (pre := indexed.take 2) (post := indexed.drop 3)
          (by
            simp only [indexed, List.take, List.mem_cons, List.not_mem_nil, or_false, forall_eq_or_imp, forall_eq]
            exact ⟨missW c!"IX" (by decide), missW c!"IY" (by decide)⟩) hit s
        exact signed_enters hs h ht
      | iy =>
        obtain ⟨b, h⟩ := getIndexed_hit (z := z) (i := .iy) (sg := some true) (pre := indexed.take 3) (post := indexed.drop 4)
          (by
            simp only [indexed, List.take, List.mem_cons, List.not_mem_nil, or_false, forall_eq_or_imp, forall_eq]
            exact ⟨missW c!"IX" (by decide), missW c!"IY" (by decide),
              wordS_miss (w := c!"IX") (by decide) (name_mem _) hx h1 (by decide) (.inl rfl)⟩) hit s
        exact signed_enters hs h ht
    | @minus x _ w b1 b2 b3 b4 he _ hx h1 h2 h3 h4 =>
      have h1 : Blank b1 := .of h1
      have h2 : Blank b2 := .of h2
      have hit := wordS_hit (name_mem x) hx he h1 h2 (.of h3) (.of h4) (.inr rfl)
      have missW : ∀ w' ∈ words, (filter ('(' :: (b1 ++ (w ++ (b2 ++ '-' :: (b3 ++ (e ++ (b4 ++ [')']))))))) (patW w')).ok = false := by
        intro w' hw'
        by_cases hne : w' = x.name
        · subst hne
          exact wordW_more (name_mem x) hx h1 h2 (by decide) (by decide)
        · exact wordW_miss hw' (name_mem x) hx h1 hne
      have missP : ∀ w' ∈ words, (filter ('(' :: (b1 ++ (w ++ (b2 ++ '-' :: (b3 ++ (e ++ (b4 ++ [')']))))))) (patS w' '+')).ok = false := by
        intro w' hw'
        by_cases hne : w' = x.name
        · subst hne
          exact wordS_other (name_mem x) hx h1 h2 (.inl rfl) (by decide) (by decide)
        · exact wordS_miss hw' (name_mem x) hx h1 hne (.inl rfl)
      cases x with
      | ix =>
        obtain ⟨b, h⟩ := getIndexed_hit (z := z) (i := .ix) (sg := some false) (pre := indexed.take 4) (post := indexed.drop 5)
          (by
            simp only [indexed, List.take, List.mem_cons, List.not_mem_nil, or_false, forall_eq_or_imp, forall_eq]
            exact ⟨missW c!"IX" (by decide), missW c!"IY" (by decide), missP c!"IX" (by decide), missP c!"IY" (by decide)⟩) hit s
        exact signed_enters hs h ht
      | iy =>
        obtain ⟨b, h⟩ := getIndexed_hit (z := z) (i := .iy) (sg := some false) (pre := indexed.take 5) (post := indexed.drop 6)
          (by
            simp only [indexed, List.take, List.mem_cons, List.not_mem_nil, or_false, forall_eq_or_imp, forall_eq]
            exact ⟨missW c!"IX" (by decide), missW c!"IY" (by decide), missP c!"IX" (by decide), missP c!"IY" (by decide),
              wordS_miss (w := c!"IX") (by decide) (name_mem _) hx h1 (by decide) (.inr rfl)⟩) hit s
        exact signed_enters hs h ht

theorem oneOp_enters {p : Opnd} {fin : Int → Z → Fin} {o : Str} (hp : p.Writes o) {s : St} {seg : Nat} (hs : s.segment = seg) :
    Enters p.names seg (oneOp fin o s) := by
  unfold oneOp
  exact (getreg_enters hp hs).first fun a => by obtain ⟨r, z⟩ := a; unfold Zop.finish; walk

theorem twoOps_enters {p q : Opnd} {warn : Bool} {go : Int → Z → Except Str Bool} {fin : Int → Int → Z → Fin} {o1 o2 : Str} (hp : p.Writes o1) (hq : q.Writes o2)
    {s : St} {seg : Nat} (hs : s.segment = seg) : Enters (p.names ++ q.names) seg (twoOps warn go fin o1 o2 s) := by
  unfold twoOps
  have wr : ∀ r1 z, Walk ChipStep (match go r1 (flags z) with
    | .error msg => error msg
    | .ok fresh => do
      whenM (warn = true) (warning c!"One operand only. but i understand!")
      let (r2, z2) ← getreg (if fresh then {} else z) o2
      Zop.finish z2 (fin r1 r2 (flags z2)) : M Unit) := by
    intro r1 z
    cases go r1 (flags z) with
    | error msg => walk
    | ok fresh => unfold Zop.finish; walk
  refine .append ((getreg_enters hp hs).first fun a => ?_) (.later fun a s1 h1 => ?_)
  · obtain ⟨r1, z⟩ := a
    exact wr r1 z
  · obtain ⟨r1, z⟩ := a
    have hs1 : s1.segment = seg := (walk_seg W.walk h1).trans hs
    show Enters q.names seg ((match go r1 (flags z) with
      | .error msg => error msg
      | .ok fresh => do
        whenM (warn = true) (warning c!"One operand only. but i understand!")
        let (r2, z2) ← getreg (if fresh then {} else z) o2
        Zop.finish z2 (fin r1 r2 (flags z2)) : M Unit) s1)
    cases go r1 (flags z) with
    | error msg =>
      intro a s' e
      exact absurd e error_not_ok
    | ok fresh =>
      refine .later fun _ s2 h2 => ?_
      have w2 : Walk ChipStep (whenM (warn = true) (warning c!"One operand only. but i understand!")) := by walk
      have hs2 : s2.segment = seg := (walk_seg w2 h2).trans hs1
      exact (getreg_enters hq hs2).first fun a => by obtain ⟨r, z⟩ := a; unfold Zop.finish; walk

theorem enters_call {names : List Str} {seg : Nat} {h : HZ80} {k : Int} {o : Option Str} {s : St} (e : Enters names seg (Z80.call h k o s)) :
    Enters names seg ((do Z80.call h k o; pure RC.cont : M RC) s) :=
  e.first fun _ => by walk

theorem one_enters {p : Opnd} {k : HZ80} (hk1 : (fin1 k).isSome = true) {m : Int} {o : Str} {s : St} (hp : p.Writes o) :
    Enters p.names s.segment (Z80.call k m (some o) s) := by
  cases k <;> first | (exact absurd hk1 (by decide)) | skip
  · change Enters p.names _ (Z80.onreg8 _ (some o) s)
    rw [onreg8_eq]
    exact oneOp_enters hp rfl
  · exact .toward (logical_one (Opnd.spelled hp).operand s) (oneOp_enters hp rfl)
  · change Enters p.names _ (Z80.stackop _ (some o) s)
    rw [stack_eq]
    exact oneOp_enters hp rfl
  · change Enters p.names _ (Z80.incr _ (some o) s)
    rw [incr_eq]
    exact oneOp_enters hp rfl

theorem two_enters {p q : Opnd} {k : HZ80} (hk2 : (fin2 k).isSome = true) {m : Int} {o1 o2 t : Str} {s : St} (hp : p.Writes o1) (hq : q.Writes o2)
    (ht : Both o1 o2 t) : Enters (p.names ++ q.names) s.segment (Z80.call k m (some t) s) := by
  have hfi := ht.filter (Opnd.spelled hp).operand (Opnd.spelled hq).operand
  cases k <;> first | (exact absurd hk2 (by decide)) | skip
  · obtain ⟨b, hb⟩ := logical_two (code := BitVec.ofInt 32 m) hfi s
    exact .toward hb (twoOps_enters hp hq rfl)
  · obtain ⟨b, hb⟩ := arith_two (code := BitVec.ofInt 32 m) (Opnd.spelled hq).operand hfi s
    exact .toward hb (twoOps_enters hp hq rfl)
  · obtain ⟨b, hb⟩ := ld_two hfi s
    exact .toward hb (twoOps_enters hp hq rfl)

theorem in_enters {p q : Opnd} {e : Entry} (he : e ∈ mz80) (hk : kindOf e = some .inout) {o1 o2 t : Str} (ht : PortText (C22.upper e) o1 o2 t)
    {s : St} (hp : p.Writes o1) (hq : q.Writes o2) : Enters (p.names ++ q.names) s.segment (Z80.call .inout e.label.modifier (some t) s) := by
  have hok := List.all_eq_true.1 port_ok e he
  unfold portOk at hok
  rw [hk] at hok
  simp only [ne_eq, not_true, decide_false, Bool.false_or, List.all_eq_true, Bool.and_eq_true, Bool.or_eq_true, decide_eq_true_eq] at hok
  change Enters _ _ (Z80.inout (BitVec.ofInt 32 e.label.modifier) (some t) s)
  have hok := hok.1
  generalize hn : C22.upper e = name at ht hok
  cases ht with
  | inp hb hb' =>
    rcases hok with h | h
    · obtain ⟨b, hb⟩ := inout_in h.2 (portIn (Opnd.spelled hp).operand (Opnd.spelled hq).operand hb hb') s
      exact .toward hb (twoOps_enters hp hq rfl)
    · exact absurd h.1 (by decide)
  | out hb hb' =>
    rcases hok with h | h
    · exact absurd h.1 (by decide)
    · obtain ⟨b, hb⟩ := inout_out h.2 (portOut (Opnd.spelled hp).operand (Opnd.spelled hq).operand hb hb') s
      exact .toward hb (twoOps_enters hp hq rfl)

theorem bit_enters {p : Opnd} {m : Int} {n o t : Str} {s : St} (h1 : Spec.Operand n) (hp : p.Writes o) (ht : Both n o t) :
    Enters p.names s.segment (Z80.call .bitop m (some t) s) := by
  obtain ⟨b, hb⟩ := bitop_run (code := BitVec.ofInt 32 m) h1 (Opnd.spelled hp).operand ht s
  refine .toward hb (.later fun r s1 h => ?_)
  have hs1 : s1.segment = s.segment := (walk_seg W.walk h).trans rfl
  show Enters _ _ ((if (r.value.setWidth 32 : BitVec 32).toInt < 0 ∨ 7 < (r.value.setWidth 32 : BitVec 32).toInt then refuse c!"illegal bit number"
      else oneOp (finBit (BitVec.ofInt 32 m) (r.value.setWidth 32 : BitVec 32).toInt) o : M Unit) s1)
  by_cases hc : (r.value.setWidth 32 : BitVec 32).toInt < 0 ∨ 7 < (r.value.setWidth 32 : BitVec 32).toInt
  · rw [if_pos hc]
    intro a s' e
    rcases Refused.refuse (α := Unit) (msg := c!"illegal bit number") (s := s1) with ⟨_, h⟩ | ⟨_, _, h⟩ <;> rw [h] at e <;> cases e
  · rw [if_neg hc]
    exact oneOp_enters hp hs1

theorem ex_enters {p : Opnd} {m : Int} {r t : Str} {s : St} (hp : p.Writes r) (ht : StackText r t) :
    Enters p.names s.segment (Z80.call .ex m (some t) s) := by
  obtain ⟨w, h⟩ := ex_stack (Opnd.spelled hp) ht s
  exact .toward h (oneOp_enters hp rfl)

theorem tail_enters {k : Spec.Level} {e : Spec.Expr} {op : Byte} {o : Str} (ht : Spec.Text k e o) (s : St) : Enters e.names s.segment (jumpTail op o s) := by
  unfold jumpTail
  exact (Enters.parseAbs ht s).first fun r => by walk

/-! ### Numbers out of range -/

theorem im_err {r : Result} {s s' : St} (ho : s.flags.orgGv = true)
    (h : (if r.value = 0 then insert16 0x46ed else if r.value = 1 then insert16 0x56ed else if r.value = 2 then insert16 0x5eed else do
      insert16 0
      error c!"Bad interruption mode" : M Unit) s = .err s') :
    ∃ bs s2 msg, Gen bs s s2 ∧ bs.length = 2 ∧ (error msg : M Unit) s2 = .err s' := by
  have no : ∀ {x}, (insert16 x) s = .err s' → False := by
    intro x h
    rcases insert16_no_err (x := x) (s := s) ho with ⟨s2, e2, -⟩ | ⟨w, s2, e⟩
    · rw [e2] at h; cases h
    · rw [e] at h; cases h
  by_cases h0 : r.value = 0
  · rw [if_pos h0] at h; exact (no h).elim
  rw [if_neg h0] at h
  by_cases h1 : r.value = 1
  · rw [if_pos h1] at h; exact (no h).elim
  rw [if_neg h1] at h
  by_cases h2 : r.value = 2
  · rw [if_pos h2] at h; exact (no h).elim
  rw [if_neg h2] at h
  rcases insert16_no_err (x := 0) (s := s) ho with ⟨s2, e2, g⟩ | ⟨w, s2, e⟩
  · rw [run_ok e2] at h
    exact ⟨_, s2, _, g, by split <;> rfl, h⟩
  · rw [run_stop e] at h; cases h

theorem rst_err {r : Result} {s s' : St} (ho : s.flags.orgGv = true)
    (h : (do
      let v := if r.value &&& 0xfff8 = 0 then r.value <<< 3 else r.value
      insert8 ((0xc7 ||| v).setWidth 8)
      whenM (v &&& 0xffc7 ≠ 0) (error c!"Bad RST vector") : M Unit) s = .err s') :
    ∃ bs s2 msg, Gen bs s s2 ∧ bs.length = 1 ∧ (error msg : M Unit) s2 = .err s' := by
  dsimp only at h
  generalize (if r.value &&& 0xfff8 = 0 then r.value <<< 3 else r.value) = v at h
  rcases insert8_no_err (x := (0xc7 ||| v).setWidth 8) (s := s) ho with ⟨s2, e2, g⟩ | ⟨w, s2, e⟩
  · rw [run_ok e2] at h
    unfold whenM at h
    by_cases hc : v &&& 0xffc7 ≠ 0
    · rw [if_pos hc] at h
      exact ⟨_, s2, _, g, rfl, h⟩
    · rw [if_neg hc] at h; cases h
  · rw [run_stop e] at h; cases h

/-! ### All instructions -/

theorem takes : Takes isa mz80 none := by
  constructor
  intro i m o hw
  cases hw with
  | @plain n hb hc =>
    by_cases hret : m = c!"RET"
    · subst hret
      obtain ⟨e, he, hn, hi, hk⟩ := entry (n := c!"RET") (k := .ret) (by decide +kernel)
      refine ⟨e, he, hn, _, kindOf_some hk, fun {keys ρ ρ1 φ bs self fuel label s} hr hab hkeys hout hval hcode hsame =>
        .not (fun s' hs' => ?_) fun a s' _ n hn => by cases hn⟩
      obtain ⟨h', e', hm, -⟩ := C24_ret (self := self) (fuel := fuel) (label := label) he hn hr.org
      rw [kindOf_some hk] at e'
      cases e'
      rw [hs'] at hm
      cases hm
    have hm : (m, HZ80.simple) ∈ wanted := by
      have : ((plain.map Prod.fst).all fun n => decide (n ≠ c!"RET" → (n, HZ80.simple) ∈ wanted)) = true := by decide +kernel
      exact of_decide_eq_true (List.all_eq_true.1 this m (lookup_mem hb)) hret
    obtain ⟨e, he, rfl, hi, hk⟩ := entry hm
    refine ⟨e, he, rfl, _, kindOf_some hk, fun {keys ρ ρ1 φ bs self fuel label s} hr hab hkeys hout hval hcode hsame =>
      .not (fun s' hs' => ?_) fun a s' _ n hn => by cases hn⟩
    obtain ⟨h', e', bs, hb', hm, -⟩ := C24_plain_partial (self := self) (fuel := fuel) (label := label) he hk hc hr.org
    rw [kindOf_some hk] at e'
    cases e'
    rw [hs'] at hm
    cases hm
  | @one n p o hb hp =>
    have hmem := one_mem hb
    obtain ⟨e, he, rfl, hi, k, hk, hk1⟩ := entry1 hmem
    refine ⟨e, he, rfl, _, kindOf_some hk, fun {keys ρ ρ1 φ bs self fuel label s} hr hab hkeys hout hval hcode hsame =>
      .not (fun s' hs' => ?_) (enters_call (one_enters hk1 hp))⟩
    obtain ⟨h', e', hm⟩ := C24_one_partial (self := self) (fuel := fuel) (label := label) he hk hk1 (Opnd.spelled hp) hr.org hr.lohi
    rw [kindOf_some hk] at e'
    cases e'
    rw [hs'] at hm
    exact acts1_sure hm hp hr hab hkeys hout hb (side_one hmem)
  | @two n p q o1 o2 t hb hp hq ht =>
    have hmem := two_mem hb
    obtain ⟨e, he, rfl, hi, k, hk, hk2⟩ := entry2 hmem
    refine ⟨e, he, rfl, _, kindOf_some hk, fun {keys ρ ρ1 φ bs self fuel label s} hr hab hkeys hout hval hcode hsame =>
      .not (fun s' hs' => ?_) (enters_call (two_enters hk2 hp hq ht))⟩
    obtain ⟨h', e', hm⟩ := C24_two_partial (self := self) (fuel := fuel) (label := label) he hk hk2 (Opnd.spelled hp) (Opnd.spelled hq) ht hr.org hr.lohi
    rw [kindOf_some hk] at e'
    cases e'
    rw [hs'] at hm
    exact acts2_sure hm hp hq hr hab hkeys hout hb (side_two hmem)
  | @inp p q o1 o2 t hb hp hq ht =>
    obtain ⟨e, he, hn, hi, hk⟩ := entry (n := c!"IN") (k := .inout) (by decide +kernel)
    have hpt : PortText (C22.upper e) o1 o2 t := by
      rw [hn]
      obtain ⟨b, b', h1, h2, rfl⟩ := ht
      exact .inp h1 h2
    refine ⟨e, he, hn, _, kindOf_some hk, fun {keys ρ ρ1 φ bs self fuel label s} hr hab hkeys hout hval hcode hsame =>
      .not (fun s' hs' => ?_) (enters_call (in_enters he hk hpt hp hq))⟩
    obtain ⟨h', e', hm⟩ := C24_port (self := self) (fuel := fuel) (label := label) he hk (Opnd.spelled hp) (Opnd.spelled hq) hpt hr.org hr.lohi
    rw [kindOf_some hk] at e'
    cases e'
    rw [hs', hn] at hm
    exact acts2_sure hm hp hq hr hab hkeys hout hb (side_port (by decide))
  | @out p q o1 o2 t hb hp hq ht =>
    obtain ⟨e, he, hn, hi, hk⟩ := entry (n := c!"OUT") (k := .inout) (by decide +kernel)
    have hpt : PortText (C22.upper e) o1 o2 t := by
      rw [hn]
      obtain ⟨b, b', h1, h2, rfl⟩ := ht
      have := PortText.out (p := o1) (r := o2) h1 h2
      simpa using this
    refine ⟨e, he, hn, _, kindOf_some hk, fun {keys ρ ρ1 φ bs self fuel label s} hr hab hkeys hout hval hcode hsame =>
      .not (fun s' hs' => ?_) (enters_call (in_enters he hk hpt hp hq))⟩
    obtain ⟨h', e', hm⟩ := C24_port (self := self) (fuel := fuel) (label := label) he hk (Opnd.spelled hp) (Opnd.spelled hq) hpt hr.org hr.lohi
    rw [kindOf_some hk] at e'
    cases e'
    rw [hs', hn] at hm
    exact acts2_sure hm hp hq hr hab hkeys hout hb (side_port (by decide))
  | @bit n b x v p o1 o2 t hb hnum hno hev hmod hp ht =>
    obtain ⟨hop, k, htx⟩ := hnum
    obtain ⟨hb8, hmem⟩ := bits_mem hb
    have hm : (m, HZ80.bitop) ∈ wanted := by
      have : ([c!"BIT", c!"RES", c!"SET"].all fun n => decide ((n, HZ80.bitop) ∈ wanted)) = true := by decide +kernel
      exact of_decide_eq_true (List.all_eq_true.1 this m hmem)
    obtain ⟨e, he, rfl, hi, hk⟩ := entry hm
    refine ⟨e, he, rfl, _, kindOf_some hk, fun {keys ρ ρ1 φ bs self fuel label s} hr hab hkeys hout hval hcode hsame =>
      .not (fun s' hs' => ?_) (enters_call (bit_enters hop hp ht))⟩
    obtain ⟨h', e', hm⟩ := C24_bit (self := self) (fuel := fuel) (label := label) he hk hop (Opnd.spelled hp) ht hr.org hr.lohi
    rw [kindOf_some hk] at e'
    cases e'
    have hm := hm _ rfl
    rw [hs'] at hm
    obtain ⟨w, hq, hw⟩ := forValue_err (ρ := fun _ => 0) (φ := fun _ => false) hm htx hr hab (fun y hy => by rw [hno] at hy; cases hy)
      (fun y hy => by rw [hno] at hy; cases hy) (fun _ y hy => by rw [hno] at hy; cases hy)
    rw [hev] at hw
    cases hw
    have hvb : (v % 2 ^ 32).toNat = b := by omega
    rw [if_pos (by omega), hvb] at hq
    exact acts1_sure hq hp hr hab hkeys hout hb (side_bits hmem hb8)
  | @im x k o ht =>
    obtain ⟨e, he, hn, hi, hk⟩ := entry (n := c!"IM") (k := .im) (by decide +kernel)
    refine ⟨e, he, hn, _, kindOf_some hk, fun {keys ρ ρ1 φ bs self fuel label s} hr hab hkeys hout hval hcode hsame => ?_⟩
    cases hcode with
    | @im v l _ hv hl =>
    rw [show (_root_.Spec.Z80.bytes l).length = 2 by simp [_root_.Spec.Z80.bytes, im_length hl]]
    refine value_comes (fun r => by walk) (fun s' h => ?_) (fun r s1 h => ⟨?_, parse_enter ht h⟩) (fun r s1 s' g h => ?_) fun s' h hall => ?_
    · have := parse_sure (N := fun _ => True) ht hab fun n hn => ⟨hkeys n hn, trivial⟩
      rw [h] at this
      exact this
    · exact (parse_tells (P := True) (ρ := ρ1) (φ := φ) ht hr.numeric hout hval h).1
    · exact im_err (by rw [g.orgGv]; exact hr.org) h
    · obtain ⟨h', e', hm⟩ := C24_im (self := self) (fuel := fuel) (label := label) (o := o) he hn hr.org hr.lohi
      rw [kindOf_some hk] at e'
      cases e'
      have hm := hm _ rfl
      rw [show callHandler self fuel (.hz80 .im) e.label.modifier label (some o) s = .err s' from h] at hm
      obtain ⟨w, hq, hw⟩ := forValue_err hm ht hr hab hkeys hout hval
      rw [← eval_same x hall, hv] at hw
      cases hw
      change (_root_.Spec.Z80.im v).map asBytes = none at hq
      rw [hl] at hq
      cases hq
  | @rst x k o ht =>
    obtain ⟨e, he, hn, hi, hk⟩ := entry (n := c!"RST") (k := .rst) (by decide +kernel)
    refine ⟨e, he, hn, _, kindOf_some hk, fun {keys ρ ρ1 φ bs self fuel label s} hr hab hkeys hout hval hcode hsame => ?_⟩
    cases hcode with
    | @rst v l _ hv hl =>
    rw [show (_root_.Spec.Z80.bytes l).length = 1 by simp [_root_.Spec.Z80.bytes, rst_length hl]]
    refine value_comes (fun r => by walk) (fun s' h => ?_) (fun r s1 h => ⟨?_, parse_enter ht h⟩) (fun r s1 s' g h => ?_) fun s' h hall => ?_
    · have := parse_sure (N := fun _ => True) ht hab fun n hn => ⟨hkeys n hn, trivial⟩
      rw [h] at this
      exact this
    · exact (parse_tells (P := True) (ρ := ρ1) (φ := φ) ht hr.numeric hout hval h).1
    · exact rst_err (by rw [g.orgGv]; exact hr.org) h
    · obtain ⟨h', e', hm⟩ := C24_rst (self := self) (fuel := fuel) (label := label) (o := o) he hn hr.org
      rw [kindOf_some hk] at e'
      cases e'
      have hm := hm _ rfl
      rw [show callHandler self fuel (.hz80 .rst) e.label.modifier label (some o) s = .err s' from h] at hm
      obtain ⟨w, hq, hw⟩ := forValue_err hm ht hr hab hkeys hout hval
      rw [← eval_same x hall, hv] at hw
      cases hw
      change (_root_.Spec.Z80.rst (v % 65536)).map asBytes = none at hq
      rw [hl] at hq
      cases hq
  | @ret c i x hc hx =>
    obtain ⟨hop, -, hl⟩ := cond_word hc hx
    obtain ⟨e, he, hn, hi, hk⟩ := entry (n := c!"RET") (k := .ret) (by decide +kernel)
    refine ⟨e, he, hn, _, kindOf_some hk, fun {keys ρ ρ1 φ bs self fuel label s} hr hab hkeys hout hval hcode hsame =>
      .not (fun s' hs' => ?_) fun a s' _ n hn => by cases hn⟩
    obtain ⟨h', e', -, hm⟩ := C24_ret (self := self) (fuel := fuel) (label := label) he hn hr.org
    rw [kindOf_some hk] at e'
    cases e'
    have hm := hm x hop.ne
    rw [hs', hl] at hm
    cases hm
  | @jump n a b x o hj hnum hbare =>
    obtain ⟨hop, k, ht⟩ := hnum
    have hm : ∃ k, (m, k) ∈ wanted := by
      simp only [jumps, List.mem_cons, Prod.mk.injEq, List.not_mem_nil, or_false] at hj
      rcases hj with ⟨rfl, rfl, rfl⟩ | ⟨rfl, rfl, rfl⟩
      · exact ⟨.jp, by decide +kernel⟩
      · exact ⟨.call, by decide +kernel⟩
    obtain ⟨k', hm⟩ := hm
    obtain ⟨e, he, rfl, hi, hk⟩ := entry hm
    refine ⟨e, he, rfl, _, kindOf_some hk, fun {keys ρ ρ1 φ bs self fuel label s} hr hab hkeys hout hval hcode hsame => .not (fun s' hs' => ?_) (enters_call ?_)⟩
    rotate_left
    · obtain ⟨c, q, hto⟩ := jump_toward he hj hk hbare s
      exact .toward hto (.toward (plain_toward hop s) (tail_enters ht s))
    obtain ⟨h', e', hm⟩ := C24_jump (self := self) (fuel := fuel) (label := label) he hj hop hbare hr.org hr.lohi
    rw [kindOf_some hk] at e'
    cases e'
    have hm := hm _ rfl
    rw [hs'] at hm
    obtain ⟨v, hq, -⟩ := forValue_err hm ht hr hab hkeys hout hval
    cases hq
  | @jumpIf n a b c i x y o t hj hc hx hnum hpair =>
    obtain ⟨hop, k, ht⟩ := hnum
    obtain ⟨hcx, hcb, hl⟩ := cond_word hc hx
    have hm : ∃ k, (m, k) ∈ wanted := by
      simp only [jumps, List.mem_cons, Prod.mk.injEq, List.not_mem_nil, or_false] at hj
      rcases hj with ⟨rfl, rfl, rfl⟩ | ⟨rfl, rfl, rfl⟩
      · exact ⟨.jp, by decide +kernel⟩
      · exact ⟨.call, by decide +kernel⟩
    obtain ⟨k', hm⟩ := hm
    obtain ⟨e, he, rfl, hi, hk⟩ := entry hm
    refine ⟨e, he, rfl, _, kindOf_some hk, fun {keys ρ ρ1 φ bs self fuel label s} hr hab hkeys hout hval hcode hsame => .not (fun s' hs' => ?_) (enters_call ?_)⟩
    rotate_left
    · obtain ⟨c, q, hto⟩ := jump_toward he hj hk (fun _ => bare_pair hcx hcb hpair) s
      obtain ⟨b', hb'⟩ := cond_toward (base := c) (plain := q) hcx hop hl hpair s
      exact .toward hto (.toward hb' (tail_enters ht { s with bufpos := b' }))
    obtain ⟨h', e', hm⟩ := C24_jump_cond (self := self) (fuel := fuel) (label := label) he hj hcx hop (fun _ => hcb) hpair hr.org hr.lohi
    rw [kindOf_some hk] at e'
    cases e'
    have hm := hm _ rfl
    rw [hs', hl] at hm
    obtain ⟨v, hq, -⟩ := forValue_err hm ht hr hab hkeys hout hval
    cases hq
  | @jumpTo p o b1 b2 hb hp h1 h2 =>
    obtain ⟨e, he, hn, hi, hk⟩ := entry (n := c!"JP") (k := .jp) (by decide +kernel)
    refine ⟨e, he, hn, _, kindOf_some hk, fun {keys ρ ρ1 φ bs self fuel label s} hr hab hkeys hout hval hcode hsame => .not (fun s' hs' => ?_) (enters_call ?_)⟩
    rotate_left
    · obtain ⟨b, hto⟩ := jp_reg_toward (Opnd.spelled hp).operand h1 h2 s
      exact .toward hto (oneOp_enters hp rfl)
    obtain ⟨h', e', hm⟩ := C24_jump_reg (self := self) (fuel := fuel) (label := label) he hn (Opnd.spelled hp) h1 h2 hr.org hr.lohi
    rw [kindOf_some hk] at e'
    cases e'
    rw [hs'] at hm
    exact acts1_sure hm hp hr hab hkeys hout hb side_jp
  | @rel n i x o hb hnum =>
    obtain ⟨hop, k, ht⟩ := hnum
    simp only [_root_.Spec.Z80.branches, List.mem_cons, Prod.mk.injEq, List.not_mem_nil, or_false] at hb
    rcases hb with ⟨rfl, rfl⟩ | ⟨rfl, rfl⟩
    · obtain ⟨e, he, hn, hi, hk⟩ := entry (n := c!"JR") (k := .jr) (by decide +kernel)
      refine ⟨e, he, hn, _, kindOf_some hk, fun {keys ρ ρ1 φ bs self fuel label s} hr hab hkeys hout hval hcode hsame => ?_⟩
      cases hcode with
      | @rel _ op v _ d hop' hv hd =>
      refine .toward (toward_then (jr_toward hop s)) ?_
      refine rel_comes hr.org (fun s' h => ?_) fun r s1 h => ?_
      · have := parse_sure (N := fun _ => True) ht hab fun n hn => ⟨hkeys n hn, trivial⟩
        rw [h] at this
        exact this
      · obtain ⟨q1, q2⟩ := parse_tells (P := True) (ρ := ρ1) (φ := φ) ht hr.numeric hout hval h
        refine ⟨q1, parse_enter ht h, fun hno hall => ?_⟩
        have : x.eval ρ = x.eval ρ1 := eval_same x hall
        rw [this, (q2 trivial).1] at hv
        cases hv
        exact hno d hd
    · obtain ⟨e, he, hn, hi, hk⟩ := entry (n := c!"DJNZ") (k := .relbranch) (by decide +kernel)
      refine ⟨e, he, hn, _, kindOf_some hk, fun {keys ρ ρ1 φ bs self fuel label s} hr hab hkeys hout hval hcode hsame => ?_⟩
      cases hcode with
      | @rel _ op v _ d hop' hv hd =>
      refine rel_comes hr.org (fun s' h => ?_) fun r s1 h => ?_
      · have := parse_sure (N := fun _ => True) ht hab fun n hn => ⟨hkeys n hn, trivial⟩
        rw [h] at this
        exact this
      · obtain ⟨q1, q2⟩ := parse_tells (P := True) (ρ := ρ1) (φ := φ) ht hr.numeric hout hval h
        refine ⟨q1, parse_enter ht h, fun hno hall => ?_⟩
        have : x.eval ρ = x.eval ρ1 := eval_same x hall
        rw [this, (q2 trivial).1] at hv
        cases hv
        exact hno d hd
  | @jrIf c i x y o t hc hx hnum hpair =>
    obtain ⟨hop, k, ht⟩ := hnum
    obtain ⟨hcx, hcb, -⟩ := cond_word (List.mem_of_mem_take hc) hx
    obtain ⟨hl, hi4⟩ := cond4 hc
    have hl' : (conds.take 4).lookup (x.map toupper) = some i := by rw [show x.map toupper = c from hx]; exact hl
    obtain ⟨e, he, hn, hi, hk⟩ := entry (n := c!"JR") (k := .jr) (by decide +kernel)
    refine ⟨e, he, hn, _, kindOf_some hk, fun {keys ρ ρ1 φ bs self fuel label s} hr hab hkeys hout hval hcode hsame => ?_⟩
    cases hcode with
    | @jrIf _ _ v _ d hop' hv hd =>
    obtain ⟨b, hto⟩ := jr_cond_toward hcx hop hl' hpair s
    refine .toward (toward_then hto) (.scratch (b := b) ?_)
    refine rel_comes (s := { s with bufpos := b }) hr.org (fun s' h => ?_) fun r s1 h => ?_
    · have := parse_sure (N := fun _ => True) ht (fit_buf hab b) fun n hn => ⟨hkeys n hn, trivial⟩
      rw [h] at this
      exact this
    · obtain ⟨q1, q2⟩ := parse_tells (P := True) (ρ := ρ1) (φ := φ) (s := { s with bufpos := b }) ht (ready_buf hr b).numeric hout hval h
      refine ⟨q1, parse_enter (s := { s with bufpos := b }) ht h, fun hno hall => ?_⟩
      have : y.eval ρ = y.eval ρ1 := eval_same y hall
      rw [this, (q2 trivial).1] at hv
      cases hv
      exact hno d hd
  | @exDE x y t hx hy ht =>
    obtain ⟨e, he, hn, hi, hk⟩ := entry (n := c!"EX") (k := .ex) (by decide +kernel)
    refine ⟨e, he, hn, _, kindOf_some hk, fun {keys ρ ρ1 φ bs self fuel label s} hr hab hkeys hout hval hcode hsame =>
      .not (fun s' hs' => ?_) fun a s' _ n hn => by cases hn⟩
    obtain ⟨h', e', hm⟩ := C24_ex_de (self := self) (fuel := fuel) (label := label) he hn (.inl ⟨hx, hy⟩) ht hr.org hr.lohi
    rw [kindOf_some hk] at e'
    cases e'
    rw [hs'] at hm
    cases hm
  | @exHL x y t hx hy ht =>
    obtain ⟨e, he, hn, hi, hk⟩ := entry (n := c!"EX") (k := .ex) (by decide +kernel)
    refine ⟨e, he, hn, _, kindOf_some hk, fun {keys ρ ρ1 φ bs self fuel label s} hr hab hkeys hout hval hcode hsame =>
      .not (fun s' hs' => ?_) fun a s' _ n hn => by cases hn⟩
    obtain ⟨h', e', hm⟩ := C24_ex_de (self := self) (fuel := fuel) (label := label) he hn (.inr ⟨hx, hy⟩) ht hr.org hr.lohi
    rw [kindOf_some hk] at e'
    cases e'
    rw [hs'] at hm
    cases hm
  | @exSP p o x b1 b2 t hb hp hx hb1 hb2 ht =>
    obtain ⟨e, he, hn, hi, hk⟩ := entry (n := c!"EX") (k := .ex) (by decide +kernel)
    obtain ⟨hq1, hq2⟩ := ex_reg hb hp
    have hst : StackText o t := ⟨_, x, b1, b2, hx, hb1, hb2, rfl, ht.imp id fun h => ⟨h, hq1, hq2⟩⟩
    refine ⟨e, he, hn, _, kindOf_some hk, fun {keys ρ ρ1 φ bs self fuel label s} hr hab hkeys hout hval hcode hsame =>
      .not (fun s' hs' => ?_) (enters_call (ex_enters hp hst))⟩
    obtain ⟨h', e', hm⟩ := C24_ex_stack (self := self) (fuel := fuel) (label := label) he hn (Opnd.spelled hp) hst hr.org hr.lohi
    rw [kindOf_some hk] at e'
    cases e'
    rw [hs'] at hm
    exact acts1_sure hm hp hr hab hkeys hout hb side_ex

end C44
end Crasm

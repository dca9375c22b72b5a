import Verif.Proof.CompSecond
import Verif.Proof.CompZ80
import Verif.Spec.Extra
import Verif.Props.C08

/-! Programs: `ASC`, `DS` and `ALIGN`. -/

namespace Crasm.C42
open Spec.Program (Isa Extra key)

variable {s s' : St} {N : Str → Prop}

/-! ### `ALIGN` -/

theorem spell_upper {c d : Char} (h : c.toUpper = d) : c = d ∨ c = d.toLower := by
  subst h
  unfold Char.toUpper
  split
  · rename_i h
    right
    unfold Char.toLower
    have h1 : 97 ≤ c.val.toNat := h.1
    have h2 : c.val.toNat ≤ 122 := h.2
    have e : (c.val + ('A'.val - 'a'.val)).toNat = c.val.toNat - 32 := by
      rw [UInt32.toNat_add]
      show (c.val.toNat + 4294967264) % 4294967296 = _
      omega
    rw [dif_pos (⟨by show 65 ≤ (c.val + ('A'.val - 'a'.val)).toNat; rw [e]; omega,
      by show (c.val + ('A'.val - 'a'.val)).toNat ≤ 90; rw [e]; omega⟩ :
      (c.val + ('A'.val - 'a'.val)) ≥ 'A'.val ∧ (c.val + ('A'.val - 'a'.val)) ≤ 'Z'.val)]
    apply Char.ext
    apply UInt32.toNat_inj.1
    show c.val.toNat = ((c.val + ('A'.val - 'a'.val)) + ('a'.val - 'A'.val)).toNat
    rw [UInt32.toNat_add, e]
    show c.val.toNat = (c.val.toNat - 32 + 32) % 4294967296
    omega
  · exact .inl rfl

theorem align_even {o : Str} (h : key o = c!"EVEN") : (filter o c!"_EVEN_").ok = true := by
  have hl : o.length = 4 := by
    have := congrArg List.length h
    unfold key at this
    simpa using this
  unfold key at h
  match o, hl, h with
  | [a, b, c, d], _, h =>
    simp only [List.map_cons, List.map_nil, List.cons.injEq, and_true] at h
    obtain ⟨h1, h2, h3, h4⟩ := h
    rcases spell_upper h1 with rfl | rfl <;> rcases spell_upper h2 with rfl | rfl <;> rcases spell_upper h3 with rfl | rfl <;>
      rcases spell_upper h4 with rfl | rfl <;> decide +kernel

theorem align_odd {o : Str} (h : key o = c!"ODD") : (filter o c!"_EVEN_").ok = false ∧ (filter o c!"_ODD_").ok = true := by
  have hl : o.length = 3 := by
    have := congrArg List.length h
    unfold key at this
    simpa using this
  unfold key at h
  match o, hl, h with
  | [a, b, c], _, h =>
    simp only [List.map_cons, List.map_nil, List.cons.injEq, and_true] at h
    obtain ⟨h1, h2, h3⟩ := h
    rcases spell_upper h1 with rfl | rfl <;> rcases spell_upper h2 with rfl | rfl <;> rcases spell_upper h3 with rfl | rfl <;>
      decide +kernel

theorem align_run {o : Str} {odd : Bool} (h : key o = (if odd then c!"ODD" else c!"EVEN")) (s : St) :
    ∃ b, Toward (xAlign (some o) s) (whenM (decide (s.code.pc &&& 1 ≠ 0) != odd) (insert8 0) { s with bufpos := b }) := by
  unfold xAlign
  rw [getS_bind_run]
  show ∃ b, Toward ((filter0 o c!"_EVEN_" >>= _) s) _
  cases odd with
  | false =>
    refine ⟨s.bufpos + (filter o c!"_EVEN_").wrote, ?_⟩
    refine Toward.bind (a := true) (s' := { s with bufpos := s.bufpos + (filter o c!"_EVEN_").wrote }) ?_ ?_
    · rw [filter0_run, if_pos (align_even h)]
      split
      · exact .inr ⟨_, rfl⟩
      · exact .refl _
    · rw [if_pos rfl, Bool.bne_false]
      exact .refl _
  | true =>
    obtain ⟨h1, h2⟩ := align_odd h
    refine ⟨s.bufpos + (filter o c!"_ODD_").wrote, ?_⟩
    refine Toward.bind (a := false) (s' := s) ?_ ?_
    · rw [filter0_run, if_neg (c := (filter o c!"_EVEN_").ok = true) (by rw [h1]; simp)]
      split
      · exact .inr ⟨_, rfl⟩
      · exact .refl _
    · rw [if_neg (by simp)]
      refine Toward.bind (a := true) (s' := { s with bufpos := s.bufpos + (filter o c!"_ODD_").wrote }) ?_ ?_
      · show Toward (filter0 o c!"_ODD_" s) _
        rw [filter0_run, if_pos h2]
        split
        · exact .inr ⟨_, rfl⟩
        · exact .refl _
      · rw [if_pos rfl, Bool.bne_true]
        exact .refl _

theorem odd_iff (x : Word) : (x &&& 1 ≠ 0) ↔ x.toInt % 2 = 1 := by
  have e : (x &&& 1).toNat = x.toNat % 2 := by
    rw [BitVec.toNat_and]
    exact Nat.and_one_is_mod _
  have e2 : x.toInt % 2 = (x.toNat % 2 : Nat) := by
    rw [BitVec.toInt_eq_toNat_cond]
    split <;> omega
  rw [e2]
  constructor
  · intro h
    have : (x &&& 1).toNat ≠ 0 := fun h' => h (BitVec.eq_of_toNat_eq h')
    omega
  · intro h h'
    rw [h'] at e
    simp at e
    omega

theorem parity_bytes (x : Word) (odd : Bool) :
    (if x.toInt % 2 = (if odd then 1 else 0) then [] else [(0 : Byte)]) = if (decide (x &&& 1 ≠ 0) != odd) = true then [0] else [] := by
  by_cases h : x &&& 1 ≠ 0
  · rw [decide_eq_true h, (odd_iff x).1 h]
    cases odd <;> rfl
  · rw [decide_eq_false h]
    have : x.toInt % 2 = 0 := by
      have := mt (odd_iff x).2 h
      omega
    rw [this]
    cases odd <;> rfl

/-! ### `DS` -/

/-- The rest of `DS`, once the value of the bytes is known. -/
def area (o : Option Str) (init : Byte) : M Unit := do
  let r ← parseAbs o
  let i := toInt32 r.value
  note (.choice r.flags.forward (.count i))
  if i < 0 then do
    insert8 init
    ubM .dsNegative
  else do
    fillBytes init i.toNat
    modS fun s => { s with advance := i }

theorem ds_one {o : Str} (ho : Spec.Operand o) (s : St) : Toward (xDs (some o) s) (area (some o) 0 s) := by
  unfold xDs
  have hm := filter2_miss (pat := c!"?_,_?") (filter_sep_none (c := ',') (by decide) (by decide) (operand_noTop ho)).1 s
  refine Toward.bind (a := (some o, 0)) (s' := s) ?_ (.refl _)
  refine Toward.bind (a := none) (s' := s) ?_ (.refl _)
  show Toward (filter2 o c!"?_,_?" s) _
  rw [hm]
  split
  · exact .inr ⟨_, rfl⟩
  · exact .refl _

theorem ds_two {o f t : Str} (ho : Spec.Operand o) (hf : Spec.Operand f) (hj : Spec.Joined [o, f] t) (s : St) :
    ∃ b, Toward (xDs (some t) s) ((do
      let r ← parseAbs (some f)
      whenM (r.value.setWidth 32 &&& 0xffffff00 ≠ (0 : BitVec 32)) (warning c!"multiple byte initialiser")
      area (some o) (lowByte (r.value.setWidth 32)) : M Unit) { s with bufpos := b }) := by
  cases hj with
  | more _ b b' t' _ hb hb' hj' =>
  cases hj' with
  | more _ _ _ _ _ _ _ hj'' => cases hj''
  | one _ =>
  obtain ⟨k, hfl⟩ := joined_filter ho hb hb' (Lead.of hf.first)
  refine ⟨s.bufpos + (2 + o.length + f.length), ?_⟩
  unfold xDs
  rw [bind_assoc]
  refine Toward.bind (a := some (o, f)) (s' := { s with bufpos := s.bufpos + (2 + o.length + f.length) }) ?_ ?_
  · show Toward (filter2 (o ++ (b ++ ',' :: (b' ++ f))) c!"?_,_?" s) _
    rw [filter2_hit hfl]
    split
    · exact .inr ⟨_, rfl⟩
    · exact .refl _
  · show Toward (((parseAbs (some f) >>= fun r => whenM (r.value.setWidth 32 &&& 0xffffff00 ≠ (0 : BitVec 32)) (warning c!"multiple byte initialiser") >>= fun _ =>
      pure (some o, lowByte (r.value.setWidth 32))) >>= fun p => area p.1 p.2) _) _
    rw [bind_assoc]
    refine .inl (congrFun (congrArg (parseAbs (some f) >>= ·) (funext fun r => ?_)) _)
    rw [bind_assoc]
    rfl

theorem parseAbs_sure {keys : Str → Prop} {k : Spec.Level} {e : Spec.Expr} {t : Str} (h : Spec.Text k e t) (hp : Able keys s)
    (hk : ∀ x ∈ e.names, ¬ keys (canon 0 x) ∧ N (canon 0 x)) : Sure N e.names s (parseAbs (some t) s) := by
  have hs := parse_sure h hp hk
  unfold parseAbs
  rw [bind_run]
  cases e1 : parse (some t) s with
  | err s' => rw [e1] at hs; exact hs.elim
  | stop w s' => trivial
  | ok r s1 =>
    rw [e1] at hs
    show Sure N e.names s ((checktype r .absolute >>= fun _ => pure r) s1)
    unfold checktype
    rw [if_pos hs.2.1]
    exact hs

theorem count_low (v : Word) (h : 0 ≤ toInt32 v) : (toInt32 v).toNat < 2 ^ 31 ∧ (v.toInt - (toInt32 v).toNat) % 2 ^ 32 = 0 := by
  have h1 : toInt32 v < 2 ^ 31 := by
    unfold toInt32
    have := BitVec.toInt_lt (x := v.setWidth 32)
    omega
  refine ⟨by omega, ?_⟩
  rw [Int.toNat_of_nonneg h]
  unfold toInt32
  rw [BitVec.toInt_eq_toNat_cond, BitVec.toInt_eq_toNat_cond, BitVec.toNat_setWidth]
  split <;> split <;> omega

theorem twalk_fill (b : Byte) : ∀ n, Walk (TStep N) (fillBytes b n)
  | 0 => by unfold fillBytes; walk
  | n + 1 => by
    unfold fillBytes
    exact Walk.bind W.walk fun _ => twalk_fill b n

theorem area_ok {P : Prop} {keys : Str → Prop} {k : Spec.Level} {e : Spec.Expr} {o : Str} (h : Spec.Text k e o) {init : Byte} {ρ : Str → Int} {φ : Str → Bool}
    (hp : Numeric keys s) (hk : Outside keys s e.names) (hv : Values P s ρ φ e.names) (ha : s.advance = 0) {u : Unit}
    (hr : area (some o) init s = .ok u s') :
    ∃ m : Nat, Gen (List.replicate m init) s s' ∧ Star HStep (s, .live) (s', .live) ∧ m < 2 ^ 31 ∧ (∀ x ∈ e.names, Met s (canon s.segment x)) ∧
      (P → ∃ v, e.eval ρ = .ok v ∧ (v - m) % 2 ^ 32 = 0) := by
  unfold area at hr
  obtain ⟨r, s1, h1, h2⟩ := bind_ok hr
  obtain ⟨_, s2, h3, h4⟩ := bind_ok h2
  obtain ⟨hpa, -⟩ := parseAbs_ok h1
  have g1 : Gen [] s s1 := nwalk_gen W.walk h1
  cases h3
  dsimp only at h4
  by_cases hi : toInt32 r.value < 0
  · rw [if_pos hi] at h4
    obtain ⟨_, s3, -, h5⟩ := bind_ok h4
    cases h5
  · rw [if_neg hi] at h4
    obtain ⟨_, s3, h5, h6⟩ := bind_ok h4
    have g := g1.trans ((Gen.noted s1 _).trans (fillBytes_gen h5))
    simp only [List.nil_append] at g
    obtain ⟨c1, c2⟩ := count_low r.value (by omega)
    have ga := g.advance
    simp only [List.length_replicate] at ga
    refine ⟨(toInt32 r.value).toNat, ?_, ?_, c1, parse_met h hpa, fun hP => ⟨_, ((parse_tells h hp hk hv hpa).2 hP).1, c2⟩⟩
    · cases h6
      exact ⟨g.log, g.pc, by simp [ha]; omega, g.flags, g.pass, g.segment, g.tree, g.entered⟩
    · cases h6
      have : ({ s3 with advance := toInt32 r.value } : St) = s3 := by
        have : s3.advance = toInt32 r.value := by
          rw [ga, ha]
          omega
        rw [← this]
      show Star HStep (s, .live) ({ s3 with advance := toInt32 r.value }, .live)
      rw [this]
      exact ((star_of (m := parseAbs (some o)) W.walk h1).trans (.one (.note s1 _ (by simp)))).trans
        (star_of ((twalk_fill (N := fun _ => True) init _).mono fun _ _ h => h.h) h5)

theorem area_goes {keys : Str → Prop} {k : Spec.Level} {e : Spec.Expr} {o : Str} (h : Spec.Text k e o) {init : Byte} (hp : Able keys s)
    (hk : ∀ x ∈ e.names, ¬ keys (canon 0 x) ∧ N (canon 0 x)) (ha : s.advance = 0) (hst : Steady N s e.names) :
    Goes N s (area (some o) init s) := by
  have hs := parseAbs_sure h hp hk
  unfold area
  refine Goes.bind hs.goes fun r s1 st e1 => ?_
  rw [e1] at hs
  have hfw : r.flags.forward = false := by
    cases hf : r.flags.forward with
    | false => rfl
    | true =>
      obtain ⟨x, hx, l, h1, h2⟩ := hs.2.2 hf
      rw [hst x hx s1 st l h1] at h2
      cases h2
  have g1 : Gen [] s s1 := nwalk_gen (m := parseAbs (some o)) W.walk e1
  have ha1 : s1.advance = 0 := by rw [g1.advance, ha]; rfl
  unfold note
  dsimp only
  rw [modS_bind_run, hfw]
  refine Goes.after (.one (.choice s1 (.count (toInt32 r.value)))) ?_
  by_cases hi : toInt32 r.value < 0
  · rw [if_pos hi]
    refine Goes.bind ((W.walk : Walk (TStep N) (insert8 init)).goes _) fun _ s3 _ _ => ?_
    trivial
  · rw [if_neg hi]
    refine Goes.bind ((twalk_fill init _).goes _) fun _ s3 _ e3 => ?_
    have g3 := (fillBytes_gen e3).advance
    simp only [List.length_replicate] at g3
    have : ({ s3 with advance := toInt32 r.value } : St) = s3 := by
      have : s3.advance = toInt32 r.value := by
        rw [g3, ha1]
        omega
      rw [← this]
    show Star (TStep N) (s3, .live) ({ s3 with advance := toInt32 r.value }, .live)
    rw [this]
    exact .refl _

theorem fill_safe (b : Byte) : ∀ (n : Nat) {s : St}, Given s → Safe Given (fillBytes b n s)
  | 0, s, h => h
  | n + 1, s, h => by
    unfold fillBytes
    exact (insert8_safe h).bind fun _ s' _ h => fill_safe b n h

theorem parseAbs_safe {keys : Str → Prop} {k : Spec.Level} {e : Spec.Expr} {o : Str} (h : Spec.Text k e o) (hp : Able keys s)
    (hk : ∀ x ∈ e.names, ¬ keys (canon 0 x)) (ho : Given s) :
    Safe (fun s' => Given s' ∧ Gen [] s s' ∧ ∀ n ∈ e.names, Has s' (canon 0 n)) (parseAbs (some o) s) := by
  have hs := parseAbs_sure (N := fun _ => True) h hp fun x hx => ⟨hk x hx, trivial⟩
  cases e1 : parseAbs (some o) s with
  | err s' => rw [e1] at hs; exact hs.elim
  | stop w s' => trivial
  | ok r s1 =>
    have g1 : Gen [] s s1 := nwalk_gen (m := parseAbs (some o)) W.walk e1
    refine ⟨ho.gen g1, g1, fun n hn => ?_⟩
    have := parse_enter h (parseAbs_ok e1).1 n hn
    rw [hp.seg] at this
    exact this

theorem area_safe {keys : Str → Prop} {k : Spec.Level} {e : Spec.Expr} {o : Str} (h : Spec.Text k e o) {init : Byte} (hp : Able keys s)
    (hk : ∀ x ∈ e.names, ¬ keys (canon 0 x)) (ho : Given s) :
    Safe (fun s' => Alike s.tree s'.tree ∧ ∀ n ∈ e.names, Has s' (canon 0 n)) (area (some o) init s) := by
  unfold area
  refine (parseAbs_safe h hp hk ho).bind fun r s1 _ ⟨h1, g1, h2⟩ => ?_
  unfold note
  rw [modS_bind_run]
  have h1 : Given { s1 with notes := (s1.passnumber, .choice r.flags.forward (.count (toInt32 r.value))) :: s1.notes } := h1
  by_cases hi : toInt32 r.value < 0
  · rw [if_pos hi]
    exact (insert8_safe h1).bind fun _ s3 _ _ => trivial
  · rw [if_neg hi]
    refine (fill_safe init _ h1).bind fun _ s3 e3 _ => ?_
    have g3 := (Gen.noted s1 _).trans (fillBytes_gen e3)
    exact ⟨g1.tree.trans g3.tree, fun n hn => (h2 n hn).alike g3.tree⟩

theorem Steady.after {names : List Str} (h : Steady N s names) (st : Star (TStep N) (s, .live) (s', .live)) : Steady N s' names :=
  fun n hn s2 st2 l hl => h n hn s2 (st.trans st2) l hl

theorem low8_int (v : Word) : lowByte (v.setWidth 32) = BitVec.ofInt 8 v.toInt := by
  unfold lowByte
  apply BitVec.eq_of_toNat_eq
  rw [BitVec.toNat_setWidth, BitVec.toNat_setWidth, BitVec.toNat_ofInt, BitVec.toInt_eq_toNat_cond]
  split <;> omega

/-! ### `ASC` -/

theorem twalk_asc (d : Char) (t : Str) : ∀ b, Walk (TStep N) (ascLoop d b t) := by
  induction t with
  | nil => intro b; cases b <;> unfold ascLoop <;> walk
  | cons c t ih =>
    intro b
    cases b with
    | false =>
      unfold ascLoop
      by_cases h1 : c = d
      · rw [if_pos h1]; walk
      · rw [if_neg h1]
        by_cases h2 : c = '\\'
        · rw [if_pos h2]; exact ih true
        · rw [if_neg h2]; exact Walk.bind W.walk fun _ => ih false
    | true =>
      unfold ascLoop
      cases escape c with
      | none => exact W.walk
      | some r => exact Walk.bind W.walk fun _ => ih false

theorem escaped_len {d : Char} {t : Str} {cs : List Nat} (h : Spec.Escaped d t cs) : cs.length ≤ t.length := by
  induction h with
  | nil => exact Nat.le_refl _
  | plain _ _ _ ih => simp only [List.length_cons]; omega
  | esc _ _ ih => simp only [List.length_cons]; omega

/-! ### The directives in programs -/

/-- The directive. -/
def pseudoOf : Extra → Pseudo
  | .text _ => .asc
  | .area _ _ => .ds
  | .parity _ => .align

/-- How a directive is entered in the vocabulary. -/
theorem extra_entry {x : Extra} {m : Str} {o : Option Str} (h : x.Writes m o) :
    ∃ e ∈ pseudos, e.name.map toupper = m ∧ Instr e.label ∧ e.label.ptr = .handler (.pseudo (pseudoOf x)) := by
  cases h with
  | text => exact ⟨pseudos[1], List.getElem_mem _, by decide, by decide, rfl⟩
  | area => exact ⟨pseudos[11], List.getElem_mem _, by decide, by decide, rfl⟩
  | filled => exact ⟨pseudos[11], List.getElem_mem _, by decide, by decide, rfl⟩
  | parity => exact ⟨pseudos[2], List.getElem_mem _, by decide, by decide, rfl⟩

/-- The handlers of the directives. -/
def run (x : Extra) (o : Option Str) : M Unit :=
  match x with
  | .text _ => xAsc o
  | .area _ _ => xDs o
  | .parity _ => xAlign o

theorem extra_run (x : Extra) (self : Status → M RC) (fuel : Nat) (md : Int) (label o : Option Str) :
    callHandler self fuel (.pseudo (pseudoOf x)) md label o = (run x o >>= fun _ => pure .cont) := by
  cases x <;> rfl

theorem toward_ok {α : Type} {r r' : Res α} (h : Toward r r') {a : α} {s : St} (hr : r = .ok a s) : r' = .ok a s := by
  rcases h with rfl | ⟨t, rfl⟩
  · exact hr
  · cases hr

theorem extra_ok {P : Prop} {keys : Str → Prop} {x : Extra} {m : Str} {o : Option Str} (h : x.Writes m o) {ρ : Str → Int} {φ : Str → Bool}
    (hg : Given s) (hp : Numeric keys s) (hk : Outside keys s x.names) (hv : Values P s ρ φ x.names) (ha : s.advance = 0) {u : Unit}
    (hr : run x o s = .ok u s') :
    ∃ bs, Gen bs s s' ∧ Star HStep (s, .live) (s', .live) ∧ (∀ n ∈ x.names, Met s (canon s.segment n)) ∧ (P → x.Code ρ s.code.pc.toInt bs) := by
  cases h with
  | @text d t cs hd ht =>
    have hb : d ≠ '\\' := by rcases hd with rfl | rfl <;> decide
    change xAsc (some (d :: (t ++ [d]))) s = _ at hr
    simp only [xAsc, if_pos hd] at hr
    rcases ascLoop_gen hb ht s hg with ⟨s1, e, g⟩ | ⟨w, s1, e⟩
    · rw [e] at hr
      cases hr
      exact ⟨_, g, star_of ((twalk_asc (N := fun _ => True) d _ _).mono fun _ _ h => h.h) e, fun n hn => (by cases hn), fun _ => .text⟩
    · rw [e] at hr; cases hr
  | @area t n hn =>
    obtain ⟨ho, k, ht⟩ := hn
    have hr := toward_ok (ds_one ho s) hr
    obtain ⟨m, g, st, hm, hmet, hc⟩ := area_ok ht hp hk hv ha hr
    refine ⟨_, g, st, hmet, fun hP => ?_⟩
    obtain ⟨v, h1, h2⟩ := hc hP
    exact .area h1 hm h2
  | @filled t f o n e hn he hj =>
    obtain ⟨ho, k, ht⟩ := hn
    obtain ⟨hf, kf, hft⟩ := he
    obtain ⟨b, htw⟩ := ds_two ho hf hj s
    have hr := toward_ok htw hr
    have hk1 : Outside keys s e.names := fun y hy => hk y (List.mem_append_left _ hy)
    have hk2 : Outside keys s n.names := fun y hy => hk y (List.mem_append_right _ hy)
    have hv1 : Values P s ρ φ e.names := fun hP y hy => hv hP y (List.mem_append_left _ hy)
    have hv2 : Values P s ρ φ n.names := fun hP y hy => hv hP y (List.mem_append_right _ hy)
    obtain ⟨r, s1, h1, h2⟩ := bind_ok hr
    obtain ⟨_, s2, h3, h4⟩ := bind_ok h2
    have hpa := (parseAbs_ok h1).1
    have g0 := gen_bufpos s b
    have g1 : Gen [] { s with bufpos := b } s1 := nwalk_gen (m := parseAbs (some f)) W.walk h1
    have g2 : Gen [] s1 s2 := nwalk_gen (by walk) h3
    have g := (g0.trans g1).trans g2
    simp only [List.nil_append] at g
    have hadv : s2.advance = 0 := by rw [g.advance, ha]; rfl
    have hk2' : Outside keys s2 n.names := by
      unfold Outside
      rw [g.segment]; exact hk2
    obtain ⟨m, g3, st, hm, hmet, hc⟩ := area_ok ht (hp.gen g) hk2' (hv2.gen g) hadv h4
    have gg := g.trans g3
    simp only [List.nil_append] at gg
    have st0 : Star HStep (s, .live) ({ s with bufpos := b }, .live) := .one (.n (.scratch s s.lst b s.calcR s.flags.listOn))
    refine ⟨_, gg, ((st0.trans (star_of (m := parseAbs (some f)) W.walk h1)).trans (star_of (by walk) h3)).trans st, fun y hy => ?_, fun hP => ?_⟩
    · rcases List.mem_append.1 hy with hy | hy
      · exact parse_met hft hpa y hy
      · have := hmet y hy
        rw [g.segment] at this
        exact this.back g.tree
    · obtain ⟨v, c1, c2⟩ := hc hP
      rw [low8_int]
      exact .filled c1 hm c2 ((parse_tells hft (s := { s with bufpos := b }) (hp.gen g0) hk1 (hv1.gen g0) hpa).2 hP).1
  | @parity o odd ho =>
    obtain ⟨b, htw⟩ := align_run ho s
    have hr := toward_ok htw hr
    refine ⟨if (decide (s.code.pc &&& 1 ≠ 0) != odd) = true then [0] else [], ?_, ?_, fun n hn => (by cases hn), fun _ => ?_⟩
    rotate_left
    · have st0 : Star HStep (s, .live) ({ s with bufpos := b }, .live) := .one (.n (.scratch s s.lst b s.calcR s.flags.listOn))
      exact st0.trans (star_of (by walk) hr)
    rotate_left
    · have g0 := gen_bufpos s b
      unfold whenM at hr
      split at hr
      · rename_i hc
        rw [if_pos hc]
        exact g0.trans (insert8_gen hr)
      · rename_i hc
        rw [if_neg hc]
        cases hr
        exact g0
    · rw [← parity_bytes]
      exact .parity

theorem extra_goes {keys : Str → Prop} {x : Extra} {m : Str} {o : Option Str} (h : x.Writes m o) (hp : Able keys s) (ha : s.advance = 0)
    (hk : ∀ n ∈ x.names, ¬ keys (canon 0 n) ∧ N (canon 0 n)) (hst : Steady N s x.fixed) : Goes N s (run x o s) := by
  cases h with
  | @text d t cs hd ht =>
    show Goes N s (xAsc (some (d :: (t ++ [d]))) s)
    simp only [xAsc, if_pos hd]
    exact (twalk_asc d _ _).goes s
  | @area t n hn =>
    obtain ⟨ho, k, ht⟩ := hn
    exact .toward (ds_one ho s) (area_goes ht hp hk ha hst)
  | @filled t f o n e hn he hj =>
    obtain ⟨ho, k, ht⟩ := hn
    obtain ⟨hf, kf, hft⟩ := he
    obtain ⟨b, htw⟩ := ds_two ho hf hj s
    refine .toward htw ?_
    have st0 : Star (TStep N) (s, .live) ({ s with bufpos := b }, .live) := .one (.scratch s s.lst b s.calcR s.flags.listOn)
    refine .after st0 ?_
    have hp0 : Able keys { s with bufpos := b } := hp.tstar st0
    have hs := parseAbs_sure hft hp0 fun y hy => hk y (List.mem_append_left _ hy)
    refine Goes.bind hs.goes fun r s1 st1 e1 => ?_
    have hw : Walk (TStep N) (whenM (r.value.setWidth 32 &&& 0xffffff00 ≠ (0 : BitVec 32)) (warning c!"multiple byte initialiser")) := by walk
    refine Goes.bind (hw.goes s1) fun _ s2 st2 e2 => ?_
    have g1 : Gen [] { s with bufpos := b } s1 := nwalk_gen (m := parseAbs (some f)) W.walk e1
    have g2 : Gen [] s1 s2 := nwalk_gen (by walk) e2
    have hadv : s2.advance = 0 := by
      rw [g2.advance, g1.advance]
      show s.advance + _ + _ = 0
      rw [ha]; rfl
    exact area_goes ht ((hp0.tstar st1).tstar st2) (fun y hy => hk y (List.mem_append_right _ hy)) hadv (hst.after ((st0.trans st1).trans st2))
  | @parity o odd ho =>
    exact (show Walk (TStep N) (xAlign (some o)) by unfold xAlign; walk).goes s

theorem Safe.toward {α : Type} {Q : St → Prop} {r r' : Res α} (h : Toward r r') (h' : Safe Q r') : Safe Q r := by
  rcases h with rfl | ⟨t, rfl⟩
  · exact h'
  · trivial

theorem extra_safe {keys : Str → Prop} {x : Extra} {m : Str} {o : Option Str} (h : x.Writes m o) (hp : Able keys s)
    (hk : ∀ n ∈ x.names, ¬ keys (canon 0 n)) (ho : Given s) : Safe (fun s' => ∀ n ∈ x.names, Has s' (canon 0 n)) (run x o s) := by
  cases h with
  | @text d t cs hd ht =>
    have hb : d ≠ '\\' := by rcases hd with rfl | rfl <;> decide
    show Safe _ (xAsc (some (d :: (t ++ [d]))) s)
    simp only [xAsc, if_pos hd]
    rcases ascLoop_gen hb ht s ho with ⟨s1, e, g⟩ | ⟨w, s1, e⟩ <;> rw [e]
    · intro n hn; cases hn
    · trivial
  | @area t n hn =>
    obtain ⟨ht0, k, ht⟩ := hn
    exact .toward (ds_one ht0 s) ((area_safe ht hp hk ho).mono fun _ h => h.2)
  | @filled t f o n e hn he hj =>
    obtain ⟨ht0, k, ht⟩ := hn
    obtain ⟨hf, kf, hft⟩ := he
    obtain ⟨b, htw⟩ := ds_two ht0 hf hj s
    refine .toward htw ?_
    have hp0 : Able keys { s with bufpos := b } := C42.Able.gen hp (gen_bufpos s b)
    refine (parseAbs_safe hft hp0 (fun y hy => hk y (List.mem_append_left _ hy)) ho).bind fun r s1 _ ⟨h1, g1, h2⟩ => ?_
    have hq : Quiet (whenM (r.value.setWidth 32 &&& 0xffffff00 ≠ (0 : BitVec 32)) (warning c!"multiple byte initialiser")) := by quiet
    refine Safe.bind (Q := fun s' => Gen [] s1 s') ?_ fun _ s2 _ g2 => ?_
    · have q := hq.run s1
      cases eq : whenM (r.value.setWidth 32 &&& 0xffffff00 ≠ (0 : BitVec 32)) (warning c!"multiple byte initialiser") s1 with
      | stop w s' => trivial
      | err s' => rw [eq] at q; exact q.elim
      | ok u s' =>
        rw [eq] at q
        exact SameBut.gen q
    · refine (area_safe ht (C42.Able.gen (C42.Able.gen hp0 g1) g2) (fun y hy => hk y (List.mem_append_right _ hy)) (h1.gen g2)).mono fun s3 ⟨a1, a2⟩ y hy => ?_
      rcases List.mem_append.1 hy with hy | hy
      · exact ((h2 y hy).alike g2.tree).alike a1
      · exact a2 y hy
  | @parity o odd hod =>
    obtain ⟨b, htw⟩ := align_run hod s
    refine .toward htw ?_
    have h0 : Given { s with bufpos := b } := ho
    unfold whenM
    split
    · exact (insert8_safe h0).mono fun _ _ n hn => by cases hn
    · intro n hn; cases hn

variable {isa : Isa} {voc : List Entry} {cf : Option Int}

theorem Core.plus (M : Core isa voc cf) (hf : ∀ i, isa.fixed i = []) : Machine isa.plus voc cf where
  words := M.words
  tidy := M.tidy
  short := by
    intro i m o ρ φ a bs hw hl hc
    cases i with
    | inl i => exact M.short hc
    | inr x =>
      change x.Writes m o at hw
      change x.Code ρ a bs at hc
      cases hc with
      | text =>
        cases hw with
        | text _ he =>
          have h1 := escaped_len he
          have h2 := hl _ rfl
          simp only [List.length_cons, List.length_append, List.length_map] at h2 ⊢
          omega
      | area _ hm => rw [List.length_replicate]; omega
      | filled _ hm => rw [List.length_replicate]; omega
      | parity =>
        have : ∀ p : Prop, [Decidable p] → (if p then [] else [(0 : BitVec 8)]).length < 2 ^ 63 := by
          intro p _; split <;> decide
        exact this _
  fixed := by
    intro i n hn
    cases i with
    | inl i =>
      change n ∈ isa.fixed i at hn
      rw [hf] at hn
      cases hn
    | inr x =>
      change n ∈ x.fixed at hn
      show n ∈ x.names
      cases x with
      | area c f =>
        cases f with
        | none => exact hn
        | some f => exact List.mem_append_right _ hn
      | _ => cases hn
  ins := by
    intro i m o hw
    cases i with
    | inl i =>
      obtain ⟨e, he, hn, hI, h, hp, h1, h2⟩ := M.ins (i := i) hw
      refine ⟨e, List.mem_append_right _ he, hn, hI, h, hp, ?_, ?_⟩
      · intro P ρ φ self fuel label s rc s' hr ho hv hc
        obtain ⟨bs, g, st, hm, hc⟩ := h1 (s := s) ⟨hr.org, hr.lohi, hr.cpu, hr.seg, hr.numeric, hr.vocab, hr.fresh⟩ ho hv hc
        exact ⟨bs, g, st.mono fun _ _ h => h.h, hm, hc⟩
      · intro N keys self fuel label s ha hv _ hk _
        exact h2 ha hv hk
    | inr x =>
      change x.Writes m o at hw
      obtain ⟨e, he, hn, hI, hp⟩ := extra_entry hw
      refine ⟨e, List.mem_append_left _ he, hn, hI, _, hp, ?_, ?_⟩
      · intro P ρ φ self fuel label s rc s' hr ho hv hc
        rw [extra_run] at hc
        obtain ⟨u, s1, h1, h2⟩ := bind_ok hc
        cases h2
        obtain ⟨bs, g, st, hm, hc⟩ := extra_ok hw hr.org hr.numeric ho hv hr.fresh h1
        exact ⟨bs, g, st, hm, hc⟩
      · intro N keys self fuel label s ha hv hadv hk hst
        rw [extra_run]
        exact (extra_goes hw ha hadv hk hst).bind fun _ s1 _ _ => .refl _

theorem Takes.plus (K : Takes isa voc cf) : Complete isa.plus voc cf where
  ins := by
    intro i m o hw
    cases i with
    | inl i =>
      obtain ⟨e, he, hn, h, hp, h1⟩ := K.ins (i := i) hw
      refine ⟨e, List.mem_append_right _ he, hn, h, hp, ?_⟩
      intro keys ρ ρ1 φ bs self fuel label s hr
      exact h1 (s := s) ⟨hr.org, hr.lohi, hr.cpu, hr.seg, hr.numeric, hr.vocab, hr.fresh⟩
    | inr x =>
      change x.Writes m o at hw
      obtain ⟨e, he, hn, hI, hp⟩ := extra_entry hw
      refine ⟨e, List.mem_append_left _ he, hn, _, hp, ?_⟩
      intro keys ρ ρ1 φ bs self fuel label s hr ha hk _ _ _ _
      rw [extra_run]
      have h1 := extra_safe hw ha hk hr.org
      have h2 : Safe (fun s' => ∀ n ∈ x.names, Has s' (canon 0 n)) ((run x o >>= fun _ => pure RC.cont) s) :=
        h1.bind fun _ s' _ h => h
      refine Comes.not (fun s' e => ?_) fun rc s' e => ?_
      · rw [e] at h2; exact h2
      · rw [e] at h2
        rw [hr.seg]
        exact h2

theorem count_one {v : Int} {m m' : Nat} (h1 : m < 2 ^ 31) (h2 : (v - m) % 2 ^ 32 = 0) (h3 : m' < 2 ^ 31) (h4 : (v - m') % 2 ^ 32 = 0) : m = m' := by
  omega

theorem Definite.plus (D : Definite isa) : Definite isa.plus where
  fixed := by
    intro i n hn
    cases i with
    | inl i => exact D.fixed (i := i) hn
    | inr x =>
      change n ∈ x.fixed at hn
      show n ∈ x.names
      cases x with
      | area c f =>
        cases f with
        | none => exact hn
        | some f => exact List.mem_append_right _ hn
      | _ => cases hn
  size := by
    intro i ρ ρ' φ φ' a bs bs' h h' hn hf
    cases i with
    | inl i => exact D.size (i := i) h h' hn hf
    | inr x =>
      change x.Code ρ a bs at h
      change x.Code ρ' a bs' at h'
      change ∀ n ∈ x.names, _ at hn
      change ∀ n ∈ x.fixed, _ at hf
      cases h with
      | text => cases h'; rfl
      | @area n v m h1 h2 h3 =>
        cases h' with
        | @area _ v' m' k1 k2 k3 =>
        rw [eval_same (ρ' := ρ') n fun y hy => (hn y hy).2 (hf y hy), k1] at h1
        cases h1
        rw [count_one h2 h3 k2 k3]
      | @filled n e v w m h1 h2 h3 h4 =>
        cases h' with
        | @filled _ _ v' w' m' k1 k2 k3 k4 =>
        rw [eval_same (ρ' := ρ') n fun y hy => (hn y (List.mem_append_right _ hy)).2 (hf y hy), k1] at h1
        cases h1
        rw [count_one h2 h3 k2 k3, List.length_replicate, List.length_replicate]
      | parity => cases h'; rfl
  bytes := by
    intro i ρ ρ' φ φ' a bs bs' h h' hn
    cases i with
    | inl i => exact D.bytes (i := i) h h' hn
    | inr x =>
      change x.Code ρ a bs at h
      change x.Code ρ' a bs' at h'
      change ∀ n ∈ x.names, _ at hn
      cases h with
      | text => cases h'; rfl
      | @area n v m h1 h2 h3 =>
        cases h' with
        | @area _ v' m' k1 k2 k3 =>
        rw [eval_same (ρ' := ρ') n fun y hy => (hn y hy).2, k1] at h1
        cases h1
        rw [count_one h2 h3 k2 k3]
      | @filled n e v w m h1 h2 h3 h4 =>
        cases h' with
        | @filled _ _ v' w' m' k1 k2 k3 k4 =>
        rw [eval_same (ρ' := ρ') n fun y hy => (hn y (List.mem_append_right _ hy)).2, k1] at h1
        rw [eval_same (ρ' := ρ') e fun y hy => (hn y (List.mem_append_left _ hy)).2, k4] at h4
        cases h1
        cases h4
        rw [count_one h2 h3 k2 k3]
      | parity => cases h'; rfl

end Crasm.C42

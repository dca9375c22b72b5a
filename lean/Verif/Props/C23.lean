import Verif.Props.C22
import Verif.Spec.M6800

/-! # C23: instructions of the 6800 and 6801 -/

namespace Crasm
namespace C23
open _root_.Spec.M6800 (Chip Form Written Meaning encode bare)
open C6800

/-! ### The form of the operand -/

def shiftOf : Form → BitVec 32
  | .imm => 0
  | .index => 0x20
  | .addr => 0x30

theorem findmode_run {o t : Str} {add : BitVec 32} (pre : List (Str × BitVec 32)) (pat : Str) (post : List (Str × BitVec 32))
    (hpre : ∀ p ∈ pre, (filter o p.1).ok = false)
    (h : ∃ caps w k, filter o pat = ⟨true, caps, w, k⟩ ∧ (caps = [t] ∨ caps = [] ∧ t = c!"0")) (s : St) :
    ∃ b, Toward (findmode (some o) (pre ++ (pat, add) :: post) s) (modeValue add t { s with bufpos := b }) := by
  obtain ⟨caps, w, k, h, hc⟩ := h
  refine ⟨s.bufpos + w, ?_⟩
  induction pre with
  | nil =>
    simp only [List.nil_append]
    unfold findmode
    have := filterC_run o pat s
    rw [h] at this
    simp only [if_true] at this
    by_cases hb : bufSize ≤ s.bufpos + w
    · rw [if_pos hb] at this
      exact .inr ⟨s, run_stop this⟩
    · rw [if_neg hb] at this
      dsimp only
      rw [run_ok this]
      rcases hc with rfl | ⟨rfl, rfl⟩ <;> exact .refl _
  | cons p pre ih =>
    simp only [List.cons_append]
    unfold findmode
    have := filterC_run o p.1 s
    rw [hpre p (by simp)] at this
    by_cases hb : bufSize ≤ s.bufpos + (filter o p.1).wrote
    · rw [if_pos hb] at this
      exact .inr ⟨s, run_stop this⟩
    · rw [if_neg hb] at this
      simp only [Bool.false_eq_true, if_false] at this
      dsimp only
      rw [run_ok this]
      exact ih fun q hq => hpre q (by simp [hq])

theorem ch_x {x : Char} (h : x = 'X' ∨ x = 'x') : litMatch 'x' x = true ∧ isblank x = false := by
  rcases h with rfl | rfl <;> decide

theorem first_not_comma {e : Str} (h : Spec.Operand e) : ∀ c r, e = c :: r → c ≠ ',' := by
  intro c r he hc
  subst hc
  exact absurd rfl (Operand.noComma h [] ',' r he (by decide))

theorem form_text {f : Form} {t o : Str} (h : Written f t o) (s : St) :
    ∃ b, Toward (findmode (some o) addmodes s) (modeValue (shiftOf f) t { s with bufpos := b }) := by
  cases h with
  | @imm b _ hb he =>
    refine findmode_run [] c!"#_?" _ (by simp) ?_ s
    obtain ⟨w, k, h⟩ := filter_one_rest (pat := c!"#_?") (seg0 := ['#', '_']) rfl (match_open (by decide) (by decide) (.of hb) (Operand.lead he))
    exact ⟨_, w, k, h, .inl rfl⟩
  | addr he h =>
    refine findmode_run [(c!"#_?", 0x00), (c!",_x", 0x20), (c!"?_,_x", 0x20)] c!"?" _ ?_ ?_ s
    · have hh := hash_miss h
      have hx : (filter t c!",_x").ok = false := first_miss (p := ',') rfl (by decide) (by decide) (by decide) (first_not_comma he)
      obtain ⟨n, -, hs⟩ := seek_sep_none (e := true) (tail := ['_', 'x']) (by decide) (Operand.noComma he)
      have mx : (filter t c!"?_,_x").ok = false := filter_one_miss (seg0 := []) (seg := c!"_,_x") rfl (by decide) (matchSeg_nil _ _) hs
      simp only [List.mem_cons, List.not_mem_nil, or_false, forall_eq_or_imp, forall_eq]
      exact ⟨hh, hx, mx⟩
    · obtain ⟨w, k, h⟩ := filter_one_rest (s := t) (pat := c!"?") (seg0 := []) rfl (matchSeg_nil _ _)
      exact ⟨_, w, k, h, .inl rfl⟩
  | @index _ b1 b2 x he h h1 h2 hx =>
    have hd : ∀ c r, t ++ (b1 ++ ',' :: (b2 ++ [x])) = c :: r → c ≠ '#' ∧ c ≠ ',' := by
      intro c r hc
      have h3 := first_not_comma he
      cases t with
      | nil => exact absurd rfl he.ne
      | cons d e => cases hc; exact ⟨h _ e rfl, h3 _ e rfl⟩
    refine findmode_run [(c!"#_?", 0x00), (c!",_x", 0x20)] c!"?_,_x" _ ?_ ?_ s
    · have hh := hash_miss fun c r h' => (hd c r h').1
      have hx : (filter _ c!",_x").ok = false := first_miss (p := ',') rfl (by decide) (by decide) (by decide) fun c r h' => (hd c r h').2
      simp only [List.mem_cons, List.not_mem_nil, or_false, forall_eq_or_imp, forall_eq]
      exact ⟨hh, hx⟩
    · obtain ⟨w, k, h⟩ := filter_one_hit (pat := c!"?_,_x") (seg0 := []) (seg := c!"_,_x") rfl (by decide) (matchSeg_nil _ _)
        (seek_index he (by decide) (ch_x hx).1 (ch_x hx).2 (.of h1) (.of h2))
      exact ⟨_, w, k, h, .inl rfl⟩
  | @index0 b x hb hx =>
    refine findmode_run [(c!"#_?", 0x00)] c!",_x" _ ?_ ?_ s
    · simp only [List.mem_cons, List.not_mem_nil, or_false, forall_eq]
      exact hash_miss (by intro c r h; cases h; decide)
    · have hm : matchSeg Quote.zero true c!",_x" (',' :: (b ++ [x])) = .ok [] := by
        rw [matchSeg_lit _ _ (by decide), if_pos ⟨rfl, by decide⟩]
        exact match_letter (by decide) (ch_x hx).1 (ch_x hx).2 (.of hb)
      refine ⟨[], (filter (',' :: (b ++ [x])) c!",_x").wrote, (filter (',' :: (b ++ [x])) c!",_x").consumed, ?_, .inr ⟨rfl, rfl⟩⟩
      unfold filter
      rw [show splitPat c!",_x" = (c!",_x", []) from rfl]
      simp only [List.isEmpty_nil]
      rw [hm]
      rfl

/-! ### Running the handlers -/

def bigB (v : BitVec 32) : Bool := v &&& 0xff00 ≠ 0

theorem big64 (v : Word) : (v &&& 0xff00 = 0) ↔ bigB (v.setWidth 32) = false := by
  have hk : ∀ i < 64, (0xff00 : Word).getLsbD i = decide (8 ≤ i ∧ i < 16) := by decide
  have hk' : ∀ i < 32, (0xff00 : BitVec 32).getLsbD i = decide (8 ≤ i ∧ i < 16) := by decide
  unfold bigB
  rw [decide_eq_false_iff_not, Decidable.not_not]
  constructor
  · intro h
    apply BitVec.eq_of_getLsbD_eq
    intro i hi
    have := congrArg (fun x : Word => x.getLsbD i) h
    simp only [BitVec.getLsbD_and, hk i (by omega)] at this
    rw [BitVec.getLsbD_and, hk' i hi, BitVec.getLsbD_setWidth]
    simpa [hi] using this
  · intro h
    apply BitVec.eq_of_getLsbD_eq
    intro i hi
    rw [BitVec.getLsbD_and, hk i hi]
    by_cases h32 : i < 32
    · have := congrArg (fun x : BitVec 32 => x.getLsbD i) h
      simp only [BitVec.getLsbD_and, hk' i h32, BitVec.getLsbD_setWidth] at this
      simpa [h32] using this
    · have : ¬ (8 ≤ i ∧ i < 16) := by omega
      simp [this]

def widthOf (code add : BitVec 32) : Nat := if add = 0 ∧ imm16 code ∨ add = 0x30 then 2 else 1
def bytesHL (v : BitVec 32) : Byte × Nat → List Byte
  | (op, 1) => [op, lowByte v]
  | (op, _) => [op, lowByte (v >>> 8), lowByte v]

theorem codemode_run {code add v : BitVec 32} {s : St} (ho : s.flags.orgGv = true) (hl : s.flags.lohi = false) :
    Makes (if add = 0x20 ∧ bigB v = true then none else some (bytesHL v (lowByte (code + add), widthOf code add))) s
      (codemode code add v s) := by
  unfold codemode
  rcases insert8_no_err (x := lowByte (code + add)) ho with ⟨s1, e1, g1⟩ | ⟨w, s1, e1⟩
  rotate_left
  · rw [run_stop e1]; trivial
  rw [run_ok e1]
  have ho1 : s1.flags.orgGv = true := by rw [g1.orgGv]; exact ho
  have h16 : ∀ {want : List Byte}, want = [lowByte (code + add), lowByte (v >>> 8), lowByte v] →
      Makes (some want) s (insert16 (v.setWidth 16) s1) := by
    intro want hw
    rcases insert16_no_err (x := v.setWidth 16) (s := s1) ho1 with ⟨s2, e2, g2⟩ | h
    · rw [e2]
      rw [g1.lohi, hl] at g2
      simp only [Bool.false_eq_true, if_false] at g2
      have a1 : BitVec.setWidth 8 (BitVec.setWidth 16 v) = lowByte v := by unfold lowByte; ext i; simp
      have a2 : BitVec.setWidth 8 (BitVec.setWidth 16 v >>> 8) = lowByte (v >>> 8) := by
        unfold lowByte; ext i; simp; omega
      rw [a1, a2] at g2
      exact ⟨_, rfl, by rw [hw]; exact g1.trans g2⟩
    · exact .stop h
  by_cases c1 : add = 0 ∧ imm16 code = true
  · rw [if_pos c1, if_neg (by rintro ⟨h, -⟩; rw [c1.1] at h; exact absurd h (by decide))]
    apply h16
    unfold widthOf
    rw [if_pos (.inl c1)]
    rfl
  · rw [if_neg c1]
    by_cases c2 : add = 0x30
    · rw [if_pos c2, if_neg (by rintro ⟨h, -⟩; rw [c2] at h; exact absurd h (by decide))]
      apply h16
      unfold widthOf
      rw [if_pos (.inr c2)]
      rfl
    · rw [if_neg c2]
      have hw : bytesHL v (lowByte (code + add), widthOf code add) = [lowByte (code + add), lowByte v] := by
        unfold widthOf
        rw [if_neg (fun h => h.elim c1 c2)]
        rfl
      rw [hw]
      rcases insert8_no_err (x := lowByte v) ho1 with ⟨s2, e2, g2⟩ | ⟨w, s2, e2⟩
      rotate_left
      · rw [run_stop e2]; trivial
      rw [run_ok e2]
      have g := g1.trans g2
      by_cases hb : v &&& 0xff00 ≠ 0
      · have hb' : bigB v = true := decide_eq_true hb
        rw [if_pos hb]
        by_cases c3 : add = 0x20
        · rw [if_pos c3, if_pos ⟨c3, hb'⟩]
          exact Makes.bad
        · rw [if_neg c3, if_neg (fun h => c3 h.1)]
          obtain ⟨l, hw⟩ := warning_run c!"operand overflow" s2
          rw [hw]
          refine ⟨_, rfl, ?_⟩
          have := g.trans (nwalk_gen W.walk hw)
          simpa using this
      · rw [if_neg hb, if_neg (by
          rintro ⟨-, h⟩
          unfold bigB at h
          rw [decide_eq_true_eq] at h
          exact hb h)]
        exact ⟨_, rfl, g⟩

def bigV (r : Result) : Bool := bigB (r.value.setWidth 32)

theorem modeValue_run {f : Form} {t : Str} {s s1 : St} {r : Result} (hp : parse (some t) s = .ok r s1) (ht : r.type = .absolute) :
    modeValue (shiftOf f) t s =
      .ok (if shiftOf f = 0x30 ∧ r.flags.forward = false ∧ bigV r = false then 0x10 else shiftOf f, r.value.setWidth 32) s1 := by
  unfold modeValue
  rw [run_ok (parseAbs_of hp ht)]
  by_cases h : shiftOf f = 0x30 ∧ r.flags.forward = false ∧ bigV r = false
  · rw [if_pos h, if_pos ⟨h.1, by rw [h.2.1]; rfl, (big64 _).mpr h.2.2⟩]
    rfl
  · rw [if_neg h, if_neg]
    · rfl
    · rintro ⟨h1, h2, h3⟩
      exact h ⟨h1, by simpa using h2, (big64 _).mp h3⟩

def addOf (k : H6800) (f : Form) (big later : Bool) : BitVec 32 :=
  let a := if shiftOf f = 0x30 ∧ later = false ∧ big = false then 0x10 else shiftOf f
  if k = .standard3 ∧ a = 0x10 then 0x30 else a
def refused (k : H6800) (a : BitVec 32) (big : Bool) : Bool :=
  (a = 0x20 ∧ big = true) ∨ (k = .standard2 ∧ a = 0) ∨ (k = .standard3 ∧ a.toNat ≤ 0x10)
def plan (k : H6800) (code : BitVec 32) (f : Form) (big later : Bool) : Option (Byte × Nat) :=
  let a := addOf k f big later
  if refused k a big then none else some (lowByte (code + a), widthOf code a)

def operandKinds : List H6800 := [.standard, .standard2, .standard3]

theorem call_run {k : H6800} (hk : k ∈ operandKinds) {md : Int} {o : Str} {f : Form} {v : BitVec 32} {later : Bool} {s0 s : St}
    (h : findmode (some o) addmodes s0 =
      .ok (if shiftOf f = 0x30 ∧ later = false ∧ bigB v = false then 0x10 else shiftOf f, v) s)
    (ho : s.flags.orgGv = true) (hl : s.flags.lohi = false) :
    Makes ((plan k (BitVec.ofInt 32 md) f (bigB v) later).map (bytesHL v)) s (C6800.call k md (some o) s0) := by
  unfold plan addOf
  generalize (if shiftOf f = 0x30 ∧ later = false ∧ bigB v = false then (0x10 : BitVec 32) else shiftOf f) = a at h
  generalize hcode : BitVec.ofInt 32 md = code
  have after : ∀ {a : BitVec 32} {c : Prop} [Decidable c] {msg : Str} {r : Bool},
      (r = true ↔ (a = 0x20 ∧ bigB v = true) ∨ c) →
      Makes (if r = true then none else some (bytesHL v (lowByte (code + a), widthOf code a))) s
        ((do codemode code a v; whenM c (error msg) : M Unit) s) := by
    intro a c _ msg r hr
    have hm := codemode_run (code := code) (add := a) (v := v) ho hl
    by_cases hc : c
    · rw [if_pos (hr.mpr (.inr hc))]
      rcases res_cases (codemode code a v s) with ⟨u, s', h'⟩ | ⟨s', h'⟩ | ⟨w, s', h'⟩
      · rw [run_ok h']
        unfold whenM
        rw [if_pos hc]
        exact Makes.bad
      · rw [run_err h']; exact rfl
      · rw [run_stop h']; trivial
    · have : (if r = true then none else some (bytesHL v (lowByte (code + a), widthOf code a))) =
          if a = 0x20 ∧ bigB v = true then none else some (bytesHL v (lowByte (code + a), widthOf code a)) := by
        by_cases hb : a = 0x20 ∧ bigB v = true
        · rw [if_pos hb, if_pos (hr.mpr (.inl hb))]
        · rw [if_neg hb, if_neg (fun h => (hr.mp h).elim hb hc)]
      rw [this]
      refine Makes.then hm (fun {_ s1} _ => ?_)
      unfold whenM
      rw [if_neg hc]
      exact ⟨[], rfl, .refl _⟩
  have out : ∀ {r : Bool} {x : Byte × Nat}, (if r = true then none else some x).map (bytesHL v) =
      if r = true then none else some (bytesHL v x) := by
    intro r x; cases r <;> rfl
  simp only [operandKinds, List.mem_cons, List.not_mem_nil, or_false] at hk
  rcases hk with rfl | rfl | rfl
  · change Makes _ s ((C6800.standard (BitVec.ofInt 32 md) (some o)) s0)
    unfold C6800.standard
    rw [run_ok h, hcode]
    simp only [out, reduceCtorEq, false_and, if_false]
    have hm := codemode_run (code := code) (add := a) (v := v) ho hl
    by_cases hb : a = 0x20 ∧ bigB v = true
    · rw [if_pos hb] at hm
      rw [if_pos (by unfold refused; rw [decide_eq_true_eq]; exact .inl hb)]
      exact hm
    · rw [if_neg hb] at hm
      rw [if_neg (by unfold refused; rw [decide_eq_true_eq]; simp only [reduceCtorEq, false_and, or_false]; exact hb)]
      exact hm
  · change Makes _ s ((C6800.standard2 (BitVec.ofInt 32 md) (some o)) s0)
    unfold C6800.standard2
    rw [run_ok h, hcode]
    simp only [out, reduceCtorEq, false_and, if_false]
    refine after ?_
    unfold refused
    simp
  · change Makes _ s ((C6800.standard3 (BitVec.ofInt 32 md) (some o)) s0)
    unfold C6800.standard3
    rw [run_ok h, hcode]
    simp only [out, true_and]
    refine after ?_
    unfold refused
    simp

/-! ### The tables of the assembler against the published ones -/

def table : Chip → List Entry
  | .m6800 => m6800
  | .m6801 => m6800 ++ m6801
def kindOfOp (e : Entry) : Option H6800 :=
  match e.label.ptr with
  | .handler (.h6800 k) => if k ∈ operandKinds then some k else none
  | _ => none
def isSingle (e : Entry) : Bool := e.label.ptr = .handler (.h6800 .single)

def cpus : List Chip := [.m6800, .m6801]
def forms : List Form := [.imm, .addr, .index]
theorem mem_cpus (c : Chip) : c ∈ cpus := by cases c <;> decide
theorem mem_forms (f : Form) : f ∈ forms := by cases f <;> decide

def asOp (x : Nat × Nat) : Byte × Nat := (BitVec.ofNat 8 x.1, x.2)
/-- The short form of JSR of the 6801 is not known to the assembler. -/
def oddNum (c : Chip) (name : Str) (f : Form) (small later : Bool) : Bool :=
  c = .m6801 ∧ name = c!"JSR" ∧ f = .addr ∧ small = true ∧ later = false

def numOk (c : Chip) (e : Entry) (k : H6800) (f : Form) (big later : Bool) : Bool :=
  oddNum c (C22.upper e) f (!big) later ||
    plan k (BitVec.ofInt 32 e.label.modifier) f big later = (_root_.Spec.M6800.mode c (C22.upper e) f (!big) later).map asOp

theorem tables_agree : (cpus.all fun c => (table c).all fun e => match kindOfOp e with
    | none => true
    | some k => forms.all fun f => [false, true].all fun b => [false, true].all fun l => numOk c e k f b l) = true := by
  decide +kernel

theorem agree {c : Chip} {e : Entry} (he : e ∈ table c) {k : H6800} (hk : kindOfOp e = some k) (f : Form) (b l : Bool) :
    numOk c e k f b l = true := by
  have h := List.all_eq_true.mp (List.all_eq_true.mp tables_agree c (mem_cpus c)) e he
  rw [hk] at h
  exact List.all_eq_true.mp (List.all_eq_true.mp (List.all_eq_true.mp h f (mem_forms f)) b (by cases b <;> decide)) l
    (by cases l <;> decide)

/-- What the value of an operand is to the instruction. -/
def meaning (r : Result) : Meaning := if r.type = .absolute then .num r.value.toNat r.flags.forward else .other

/-- The cases in which the assembler departs from the published instruction sets. -/
def odd (c : Chip) (name : Str) (f : Form) : Meaning → Prop
  | .num v later => (256 ≤ v ∧ v % 65536 < 256 ∧ f ≠ .imm) ∨ oddNum c name f (v < 256) later = true
  | .other => False

theorem lowByte_lo (v : Word) : lowByte (v.setWidth 32) = _root_.Spec.M6800.lo v.toNat := C22.lowByte_lo v
theorem lowByte_hi (v : Word) : lowByte ((v.setWidth 32 : BitVec 32) >>> 8) = _root_.Spec.M6800.hi v.toNat := C22.lowByte_hi v

theorem plan_enc {c : Chip} {e : Entry} (he : e ∈ table c) {k : H6800} (hk : kindOfOp e = some k) {f : Form} {v : Result}
    (ht : v.type = .absolute) (ho : ¬ odd c (C22.upper e) f (meaning v)) :
    encode c (C22.upper e) f (meaning v) = (plan k (BitVec.ofInt 32 e.label.modifier) f (bigB (v.value.setWidth 32)) v.flags.forward).map
      (bytesHL (v.value.setWidth 32)) := by
  have hm : meaning v = .num v.value.toNat v.flags.forward := by unfold meaning; rw [if_pos ht]
  rw [hm] at ho ⊢
  simp only [odd, not_or, Bool.not_eq_true] at ho
  change (_root_.Spec.M6800.mode c (C22.upper e) f (decide (v.value.toNat < 256)) v.flags.forward).map (fun x =>
      if x.2 = 1 then [_root_.Spec.M6800.lo x.1, _root_.Spec.M6800.lo v.value.toNat] else
        [_root_.Spec.M6800.lo x.1, _root_.Spec.M6800.hi v.value.toNat, _root_.Spec.M6800.lo v.value.toNat]) = _
  have hs : _root_.Spec.M6800.mode c (C22.upper e) f (decide (v.value.toNat < 256)) v.flags.forward =
        _root_.Spec.M6800.mode c (C22.upper e) f (!bigB (v.value.setWidth 32)) v.flags.forward ∧
      oddNum c (C22.upper e) f (!bigB (v.value.setWidth 32)) v.flags.forward = false := by
    by_cases hf : f = .imm
    · subst hf
      exact ⟨rfl, by simp [oddNum]⟩
    · have hb : (!bigB (v.value.setWidth 32)) = decide (v.value.toNat < 256) := by
        unfold bigB
        have h1 := big_iff v.value
        by_cases hbig : 256 ≤ v.value.toNat % 65536
        · have h2 : ¬ v.value.toNat < 256 := by have := Nat.mod_le v.value.toNat 65536; omega
          rw [decide_eq_true (h1.mpr hbig), decide_eq_false h2]; rfl
        · have h2 : v.value.toNat < 256 := by
            rcases Nat.lt_or_ge v.value.toNat 256 with h | h
            · exact h
            · exact absurd ⟨h, by omega, hf⟩ ho.1
          have h3 : ¬ (v.value.setWidth 32 : BitVec 32) &&& 0xff00 ≠ 0 := fun h => hbig (h1.mp h)
          rw [decide_eq_false h3, decide_eq_true h2]; rfl
      rw [hb]
      exact ⟨rfl, ho.2⟩
  rw [hs.1]
  have h := agree he hk f (bigB (v.value.setWidth 32)) v.flags.forward
  unfold numOk at h
  rw [hs.2] at h
  simp only [Bool.false_or, decide_eq_true_eq] at h
  rw [h]
  have hn : ∀ x, _root_.Spec.M6800.mode c (C22.upper e) f (!bigB (v.value.setWidth 32)) v.flags.forward = some x → x.2 = 1 ∨ x.2 = 2 := by
    intro x hx
    unfold _root_.Spec.M6800.mode at hx
    cases f with
    | imm =>
      simp only at hx
      cases h1 : _root_.Spec.M6800.opcode c (C22.upper e) .imm with
      | some op => rw [h1] at hx; cases hx; exact .inl rfl
      | none =>
        rw [h1] at hx
        cases h2 : _root_.Spec.M6800.opcode c (C22.upper e) .imm16 with
        | some op => rw [h2] at hx; cases hx; exact .inr rfl
        | none => rw [h2] at hx; cases hx
    | index =>
      simp only at hx
      split at hx
      · simp only [Option.map_eq_some_iff] at hx
        obtain ⟨a, -, rfl⟩ := hx
        exact .inl rfl
      · cases hx
    | addr =>
      simp only at hx
      split at hx
      · cases hx; exact .inl rfl
      · simp only [Option.map_eq_some_iff] at hx
        obtain ⟨a, -, rfl⟩ := hx
        exact .inr rfl
  cases hmo : _root_.Spec.M6800.mode c (C22.upper e) f (!bigB (v.value.setWidth 32)) v.flags.forward with
  | none => rfl
  | some x =>
    obtain ⟨op, n⟩ := x
    rcases hn _ hmo with h1 | h1 <;> cases h1
    · simp [asOp, bytesHL, lowByte_lo]; rfl
    · simp [asOp, bytesHL, lowByte_lo, lowByte_hi]; rfl

end C23
open C23
open _root_.Spec.M6800 (Chip Form Written Meaning encode bare)

/-- **C23**, instructions with operand.  For each processor, each mnemonic with addressing modes, each way to write an
    operand and each expression in it: the instruction makes the opcode of the published table, followed by one or two
    bytes of the value of the expression, high byte first; it is refused if there is no such instruction or the
    expression is refused. Excepted are the cases listed in `odd`. -/
theorem C23_operand_partial {c : Chip} {e : Entry} (he : e ∈ table c) {k : H6800} (hs : kindOfOp e = some k) {f : Form} {t o : Str}
    (hw : Written f t o) {self : Status → M RC} {fuel : Nat} {label : Option Str} {s : St} (ho : s.flags.orgGv = true)
    (hl : s.flags.lohi = false) :
    ∃ h, e.label.ptr = .handler h ∧ Does meaning t (encode c (C22.upper e) f) (odd c (C22.upper e) f) s
      (callHandler self fuel h e.label.modifier label (some o) s) := by
  have hk : e.label.ptr = .handler (.h6800 k) ∧ k ∈ operandKinds := by
    unfold kindOfOp at hs
    split at hs
    · next k' h1 =>
      split at hs
      · next h2 => cases hs; exact ⟨h1, h2⟩
      · cases hs
    · cases hs
  refine ⟨_, hk.1, ?_⟩
  change Does meaning t _ _ s ((do C6800.call k e.label.modifier (some o); pure RC.cont : M RC) s)
  refine does_of ?_
  have early : (∃ w s', C6800.findmode (some o) C6800.addmodes s = .stop w s') →
      ∃ w s', C6800.call k e.label.modifier (some o) s = .stop w s' := by
    rintro ⟨w, s', h⟩
    have h2 := hk.2
    simp only [operandKinds, List.mem_cons, List.not_mem_nil, or_false] at h2
    rcases h2 with rfl | rfl | rfl
    all_goals
      simp only [C6800.call, C6800.standard, C6800.standard2, C6800.standard3]
      exact ⟨w, s', run_stop h⟩
  have failed : (∃ s', C6800.findmode (some o) C6800.addmodes s = .err s') →
      ∃ s', C6800.call k e.label.modifier (some o) s = .err s' := by
    rintro ⟨s', h⟩
    have h2 := hk.2
    simp only [operandKinds, List.mem_cons, List.not_mem_nil, or_false] at h2
    rcases h2 with rfl | rfl | rfl
    all_goals
      simp only [C6800.call, C6800.standard, C6800.standard2, C6800.standard3]
      exact ⟨s', run_err h⟩
  obtain ⟨b, hb | ⟨s1, hb⟩⟩ := form_text hw s
  rotate_left
  · exact .inl (early ⟨_, _, hb⟩)
  rcases res_cases (parse (some t) { s with bufpos := b }) with ⟨v, s1, hp⟩ | ⟨s1, hp⟩ | ⟨w, s1, hp⟩
  · refine .inr (.inr (.inr ⟨b, v, s1, hp, ?_⟩))
    by_cases hodd : odd c (C22.upper e) f (meaning v)
    · exact .inl hodd
    right
    by_cases ht : v.type = .absolute
    · rw [modeValue_run hp ht] at hb
      rw [plan_enc he hs ht hodd]
      have g : Gen [] s s1 := by
        have := (gen_bufpos s b).trans (nwalk_gen W.walk hp)
        simpa using this
      refine Makes.before g ?_
      exact call_run hk.2 hb (by rw [g.orgGv]; exact ho) (by rw [g.lohi]; exact hl)
    · have hm : meaning v = .other := by unfold meaning; rw [if_neg ht]
      rw [hm]
      have : (∃ s', C6800.modeValue (shiftOf f) t { s with bufpos := b } = .err s') ∨
          (∃ w s', C6800.modeValue (shiftOf f) t { s with bufpos := b } = .stop w s') := by
        unfold C6800.modeValue parseAbs
        rw [bind_assoc, run_ok hp, bind_assoc]
        unfold checktype
        rw [if_neg ht]
        rcases error_cases (α := Unit) (typeMsg v.type) s1 with ⟨s2, h⟩ | ⟨w, s2, h⟩
        · exact .inl ⟨s2, run_err h⟩
        · exact .inr ⟨w, s2, run_stop h⟩
      rw [← hb] at this
      rcases this with h | h
      · obtain ⟨s', h⟩ := failed h
        rw [h]; exact rfl
      · exact .stop (early h)
  · refine .inr (.inr (.inl ⟨b, ⟨s1, hp⟩, failed ⟨s1, ?_⟩⟩))
    rw [hb]
    unfold C6800.modeValue parseAbs
    rw [bind_assoc, run_err hp]
  · refine .inl (early ⟨w, s1, ?_⟩)
    rw [hb]
    unfold C6800.modeValue parseAbs
    rw [bind_assoc, run_stop hp]

/-! ### Without operand -/

namespace C23

def bareOk (c : Chip) (e : Entry) : Bool :=
  (!isSingle e || bare c (C22.upper e) = some [lowByte (BitVec.ofInt 32 e.label.modifier)]) &&
  ((kindOfOp e).isNone || bare c (C22.upper e) = none)
theorem bare_agree : (cpus.all fun c => (table c).all fun e => bareOk c e) = true := by decide +kernel

def known (c : Chip) (x : Str × List (_root_.Spec.M6800.Mode × Nat)) : Bool :=
  (table c).any (fun e => C22.upper e = x.1) &&
  (table c).all fun e => C22.upper e ≠ x.1 || (match x.2 with
    | [(.inherent, _)] => isSingle e
    | [(.rel, op)] => isBranch e op
    | _ => (kindOfOp e).isSome)

end C23

/-- Every instruction of each processor is in its vocabulary, as what it is (for branches see C21), and nothing else is. -/
theorem C23_vocabulary :
    (cpus.all fun c => _root_.Spec.M6800.base.all (known c)) = true ∧
    _root_.Spec.M6800.more.all (known .m6801) = true ∧
    (cpus.all fun c => (table c).all fun e =>
      (_root_.Spec.M6800.base.any fun x => x.1 = C22.upper e) ||
      (c = .m6801 && _root_.Spec.M6800.more.any fun x => x.1 = C22.upper e)) = true := by
  refine ⟨?_, ?_, ?_⟩ <;> decide +kernel

/-- **C23**, instructions without operand. -/
theorem C23_bare {c : Chip} {e : Entry} (he : e ∈ table c) (hs : isSingle e = true ∨ (kindOfOp e).isSome = true)
    {self : Status → M RC} {fuel : Nat} {label : Option Str} {s : St} (ho : s.flags.orgGv = true) :
    ∃ h, e.label.ptr = .handler h ∧ Makes (bare c (C22.upper e)) s (callHandler self fuel h e.label.modifier label none s) := by
  have hb := List.all_eq_true.mp (List.all_eq_true.mp bare_agree c (mem_cpus c)) e he
  unfold bareOk at hb
  simp only [Bool.and_eq_true] at hb
  rcases hs with hs | hs
  · refine ⟨_, of_decide_eq_true hs, ?_⟩
    have h1 := hb.1
    rw [hs] at h1
    simp only [Bool.not_true, Bool.false_or, decide_eq_true_eq] at h1
    rw [h1]
    change Makes _ s ((do C6800.single (BitVec.ofInt 32 e.label.modifier) none; pure RC.cont : M RC) s)
    unfold C6800.single
    rw [bind_assoc]
    rcases insert8_no_err (x := lowByte (BitVec.ofInt 32 e.label.modifier)) ho with ⟨s1, e1, g1⟩ | ⟨w, s1, e1⟩
    · rw [run_ok e1]
      exact ⟨_, rfl, g1⟩
    · rw [run_stop e1]; trivial
  · have h1 := hb.2
    obtain ⟨k, hk⟩ := Option.isSome_iff_exists.mp hs
    rw [hk] at h1
    simp only [Option.isNone_some, Bool.false_or, decide_eq_true_eq] at h1
    rw [h1]
    unfold kindOfOp at hk
    split at hk
    · next k' hp =>
      split at hk
      · next h2 =>
        cases hk
        refine ⟨_, hp, ?_⟩
        change Makes none s ((do C6800.call k e.label.modifier none; pure RC.cont : M RC) s)
        have hf : C6800.findmode none C6800.addmodes = error c!"Unknown addressing mode" := rfl
        simp only [operandKinds, List.mem_cons, List.not_mem_nil, or_false] at h2
        rcases h2 with rfl | rfl | rfl
        all_goals
          simp only [C6800.call, C6800.standard, C6800.standard2, C6800.standard3, hf]
          rw [bind_assoc]
          exact Makes.bad_bind
      · cases hk
    · cases hk

/-- An operand on an instruction that has none is refused, and there is no such instruction. -/
theorem C23_no_operand {c : Chip} {e : Entry} (he : e ∈ table c) (hs : isSingle e = true) {o : Str}
    {self : Status → M RC} {fuel : Nat} {label : Option Str} {s : St} :
    (∀ f m, encode c (C22.upper e) f m = none) ∧
    ∃ h, e.label.ptr = .handler h ∧ ∀ rc s', callHandler self fuel h e.label.modifier label (some o) s ≠ .ok rc s' := by
  constructor
  · have : (cpus.all fun c => (table c).all fun e => !isSingle e || (
        forms.all fun f => [false, true].all fun b => [false, true].all fun l => _root_.Spec.M6800.mode c (C22.upper e) f b l = none)) = true := by
      decide +kernel
    have h := List.all_eq_true.mp (List.all_eq_true.mp this c (mem_cpus c)) e he
    rw [hs] at h
    simp only [Bool.not_true, Bool.false_or] at h
    intro f m
    cases m with
    | num v l =>
      have h1 := List.all_eq_true.mp (List.all_eq_true.mp (List.all_eq_true.mp h f (mem_forms f)) (decide (v < 256))
        (by cases decide (v < 256) <;> decide)) l (by cases l <;> decide)
      change (_root_.Spec.M6800.mode c (C22.upper e) f (decide (v < 256)) l).map _ = none
      rw [of_decide_eq_true h1]
      rfl
    | other => rfl
  · refine ⟨_, of_decide_eq_true hs, ?_⟩
    intro rc s' h
    change (do C6800.single (BitVec.ofInt 32 e.label.modifier) (some o); pure RC.cont : M RC) s = .ok rc s' at h
    obtain ⟨_, s1, h1, -⟩ := bind_ok h
    unfold C6800.single at h1
    obtain ⟨_, s2, -, h3⟩ := bind_ok h1
    exact absurd h3 error_not_ok

/-! ### Examples and exceptions -/

example : ∃ e ∈ table .m6800, C22.upper e = c!"LDAA" ∧ kindOfOp e = some .standard := by decide +kernel
example : Written .index c!"0" c!",x" := .index0 (b := []) (by unfold _root_.Spec.M6800.Bl; decide) (.inr rfl)
example : outcome c!" cpu 6801
port = $80
 *= $1000
 ldaa #3
 staa port
 ldx #port
 clr port
 ldaa ,x
 std 5,X
 jsr later
later rts
" =
  some (0, [0x86, 3, 0x97, 0x80, 0xce, 0, 0x80, 0x7f, 0, 0x80, 0xa6, 0, 0xed, 5, 0xbd, 0x10, 0x11, 0x39]) := by decide +kernel

/-- The exceptions are real. -/
theorem C23_false_jsr : outcome c!" cpu 6801
 *= 0
 jsr $12
" = some (0, [0xbd, 0, 0x12]) ∧
    _root_.Spec.M6800.encode .m6801 c!"JSR" .addr (.num 0x12 false) = some [0x9d, 0x12] := by decide +kernel
theorem C23_false_wide : outcome c!" cpu 6800
 *= 0
 ldaa $10012
 ldaa $10012,x
" = some (0, [0x96, 0x12, 0xa6, 0x12]) ∧
    _root_.Spec.M6800.encode .m6800 c!"LDAA" .addr (.num 0x10012 false) = some [0xb6, 0x00, 0x12] ∧
    _root_.Spec.M6800.encode .m6800 c!"LDAA" .index (.num 0x10012 false) = none := by decide +kernel

end Crasm

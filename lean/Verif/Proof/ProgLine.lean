import Verif.Proof.Prog
import Verif.Props.C41
import Verif.Proof.LockH

/-! Programs: what one line does in pass 2, seen as a step of the reference semantics. -/

namespace Crasm.C42
open Spec.Program (Isa key Free Body Line State)

/-! ### What instructions leave alone -/

/-- The sources, the processor and the notes made so far. -/
structure Fr (s s' : St) : Prop where
  stack : s'.stack = s.stack
  main : s'.main = s.main
  eof : s'.mainEof = s.mainEof
  cpu : s'.cpuflag = s.cpuflag
  notes : s.notes <:+ s'.notes

theorem Fr.refl (s : St) : Fr s s := ⟨rfl, rfl, rfl, rfl, List.suffix_refl _⟩
theorem Fr.trans {a b c : St} (h : Fr a b) (h' : Fr b c) : Fr a c :=
  ⟨h'.stack.trans h.stack, h'.main.trans h.main, h'.eof.trans h.eof, h'.cpu.trans h.cpu, h.notes.trans h'.notes⟩

theorem Fr.hstep {a b : Cfg} (h : HStep a b) : Fr a.1 b.1 := by
  cases h with
  | n h =>
    cases h with
    | odd s => exact ⟨rfl, rfl, rfl, rfl, List.suffix_cons _ _⟩
    | _ => exact ⟨rfl, rfl, rfl, rfl, List.suffix_refl _⟩
  | note s n hn => exact ⟨rfl, rfl, rfl, rfl, List.suffix_cons _ _⟩
  | _ => exact ⟨rfl, rfl, rfl, rfl, List.suffix_refl _⟩
theorem Fr.hstar {a b : Cfg} (h : Star HStep a b) : Fr a.1 b.1 := by
  induction h with
  | refl => exact .refl _
  | tail _ r ih => exact ih.trans (Fr.hstep r)

theorem star_of {m : M α} (w : Walk HStep m) {s s' : St} {a : α} (e : m s = .ok a s') : Star HStep (s, .live) (s', .live) := by
  have := w s
  rw [e] at this
  exact this
theorem star_n {m : M α} (w : Walk NStep m) {s s' : St} {a : α} (e : m s = .ok a s') : Star HStep (s, .live) (s', .live) :=
  (walk_nstar w e).mono fun _ _ h => .n h

/-! ### Names -/

theorem upper_eq {c d : Char} (h : c.toUpper = d) (hd : ¬ ('A' ≤ d ∧ d ≤ 'Z')) : c = d := by
  unfold Char.toUpper at h
  split at h
  · rename_i hc
    refine absurd ?_ hd
    subst h
    have h1 : (97 : UInt32).toNat ≤ c.val.toNat := UInt32.le_iff_toNat_le.1 hc.1
    have h2 : c.val.toNat ≤ (122 : UInt32).toNat := UInt32.le_iff_toNat_le.1 hc.2
    have h1 : 97 ≤ c.val.toNat := h1
    have h2 : c.val.toNat ≤ 122 := h2
    rw [Char.le_def, Char.le_def, UInt32.le_iff_toNat_le, UInt32.le_iff_toNat_le]
    show 65 ≤ (c.val + (4294967264 : UInt32)).toNat ∧ (c.val + (4294967264 : UInt32)).toNat ≤ 90
    rw [UInt32.toNat_add]
    show 65 ≤ (c.val.toNat + 4294967264) % 2 ^ 32 ∧ (c.val.toNat + 4294967264) % 2 ^ 32 ≤ 90
    omega
  · exact h

theorem up_key (n : Str) : n.map toupper = key n := List.map_congr_left fun c _ => toupper_eq c

theorem canon_key {n : Str} (hl : n.length ≤ LABLEN) (hd : (key n).head? ≠ some '.') : canon 0 n = key n := by
  unfold canon
  rw [up_key]
  split
  · exact absurd rfl hd
  · rw [List.nil_append]
    exact List.take_of_length_le (by simpa [key] using hl)

theorem isName_len {x : Str} (h : Spec.IsName x) : x.length ≤ LABLEN ∧ ∃ c r, x = c :: r ∧ (c.isAlpha ∨ c = '_' ∨ c = '.') := by
  cases x with
  | nil => exact h.elim
  | cons c r =>
    refine ⟨?_, c, r, rfl, h.1⟩
    have := h.2.2
    unfold LABLEN
    simp only [List.length_cons]
    omega

/-- Whatever is spelled like a label, up to case, is one. -/
theorem free_key {isa : Isa} {n x : Str} (h : Free isa x) (e : key n = key x) : canon 0 n = key n ∧ ¬ Reserved isa (key n) := by
  obtain ⟨hl, c, r, rfl, hc⟩ := isName_len h.name
  have hlen : n.length = (c :: r).length := by
    have := congrArg List.length e
    simpa [key] using this
  have hne : c ≠ '.' := fun e => h.global (by simp [e])
  have hh : (key n).head? = some c.toUpper := by rw [e]; rfl
  refine ⟨canon_key (by rw [hlen]; exact hl) ?_, ?_⟩
  · rw [hh]
    intro hx
    injection hx with hx
    exact hne (upper_eq hx (by decide))
  · rintro (hx | hx)
    · rw [hx] at hh
      injection hh with hh
      have := upper_eq hh.symm (by decide)
      subst this
      revert hc
      decide
    · exact h.free (e ▸ hx)

theorem canon_star : canon 0 ['*'] = starKey := by decide

theorem key_star {n : Str} (h : key n = ['*']) : n = ['*'] := by
  cases n with
  | nil => cases h
  | cons c r =>
    cases r with
    | cons d r => have := congrArg List.tail h; cases this
    | nil =>
      have h := List.head_eq_of_cons_eq h
      rw [upper_eq h (by decide)]

/-! ### Between the lines of pass 2 -/

theorem SameL.all {a b : Label} (h : SameL a b) : b.flags.nolabel = a.flags.nolabel ∧ b.flags.deflabel = a.flags.deflabel ∧
    b.flags.defmacro = a.flags.defmacro ∧ b.flags.defcond = a.flags.defcond ∧ b.flags.noredef = a.flags.noredef := by
  unfold SameL at h
  exact ⟨(congrArg (fun l : Label => l.flags.nolabel) h).symm, (congrArg (fun l : Label => l.flags.deflabel) h).symm,
    (congrArg (fun l : Label => l.flags.defmacro) h).symm, (congrArg (fun l : Label => l.flags.defcond) h).symm,
    (congrArg (fun l : Label => l.flags.noredef) h).symm⟩

theorem AsWord.same {a b c : Label} (h : AsWord a b) (h' : SameL b c) : AsWord a c := by
  obtain ⟨h1, h2, h3, h4, h5, h6, h7, h8, h9⟩ := h
  obtain ⟨g1, g2, g3, g4, -⟩ := SameL.all h'
  exact ⟨h'.value.2.1.trans h1, h'.value.2.2.1.trans h2, h'.value.2.2.2.trans h3, h'.undef.1.trans h4, g1.trans h5, g2.trans h6,
    g3.trans h7, g4.trans h8, h'.value.1.trans h9⟩

theorem Vocab.alike {voc : List Entry} {s s' : St} (h : Vocab voc s) (ht : Alike s.tree s'.tree) : Vocab voc s' := by
  intro e he
  obtain ⟨l, h1, h2⟩ := h e he
  obtain ⟨l', h3, h4⟩ := ht.some h1
  exact ⟨l', h3, h2.same h4⟩

/-- The state of affairs once the processor has been chosen. -/
structure Base (isa : Isa) (voc : List Entry) (s : St) : Prop where
  stack : s.stack = []
  seg : s.segment = 0
  on : s.flags.codeOn = true
  rel : s.flags.relatif = false
  numeric : Numeric (Worded isa) s
  vocab : Vocab (pseudos ++ voc) s
  star : ∃ l, s.tree.find starKey = some l ∧ (l.flags.undef = false → l.type = .absolute)

theorem Base.here {isa : Isa} {voc : List Entry} {s : St} (h : Base isa voc s) : (s.tree.find starKey).isSome := by
  obtain ⟨l, h1, -⟩ := h.star
  rw [h1]; rfl

/-- In pass 2. -/
structure Inv (isa : Isa) (voc : List Entry) (cf : Option Int) (s : St) : Prop extends Base isa voc s where
  pass : s.passnumber = 2
  lohi : s.flags.lohi = isa.little
  cpu : ∀ k ∈ cf, s.cpuflag = k

theorem Base.same {isa : Isa} {voc : List Entry} {s s' : St} (h : Base isa voc s) (h1 : s'.stack = s.stack) (h2 : s'.segment = s.segment)
    (h3 : s'.flags.codeOn = s.flags.codeOn) (h4 : s'.flags.relatif = s.flags.relatif) (h5 : s'.tree = s.tree) : Base isa voc s' := by
  refine ⟨h1.trans h.stack, h2.trans h.seg, h3.trans h.on, h4.trans h.rel, ⟨by rw [h5]; exact h.numeric.star, .inl (h4.trans h.rel), fun k l hk hl => ?_⟩, fun e he => ?_, ?_⟩
  · rw [h5] at hl; exact h.numeric.abs k l hk hl
  · rw [h5]; exact h.vocab e he
  · rw [h5]; exact h.star

/-- Has an origin been given? -/
def Placed (s : St) : Prop := (starLabel s).flags.undef = false

theorem Inv.gen {isa : Isa} {voc : List Entry} {cf : Option Int} {s s' : St} {bs : List Byte} (h : Inv isa voc cf s) (g : Gen bs s s')
    (hs : Star HStep (s, .live) (s', .live)) : Inv isa voc cf s' := by
  have f := Fr.hstar hs
  obtain ⟨b, hb⟩ := g.flags
  refine ⟨⟨f.stack.trans h.stack, g.segment.trans h.seg, by rw [hb]; exact h.on,
    by rw [hb]; exact h.rel, h.numeric.hstar hs, h.vocab.alike g.tree, ?_⟩, g.pass.trans h.pass, by rw [hb]; exact h.lohi, (fun k hk => f.cpu.trans (h.cpu k hk))⟩
  obtain ⟨l, h1, h2⟩ := h.star
  obtain ⟨l', h3, h4⟩ := g.tree.some h1
  exact ⟨l', h3, fun hu => h4.value.2.1.trans (h2 (h4.undef.1.symm.trans hu))⟩

theorem star_gen {bs : List Byte} {s s' : St} (g : Gen bs s s') (h : (s.tree.find starKey).isSome) :
    (starLabel s').value = (starLabel s).value ∧ (starLabel s').flags.undef = (starLabel s).flags.undef ∧
    (s'.tree.find starKey).isSome ∧ (starLabel s').flags.forward = (starLabel s).flags.forward := by
  unfold starLabel
  cases e : s.tree.find starKey with
  | none => rw [e] at h; cases h
  | some l =>
    obtain ⟨l', h1, h2⟩ := g.tree.some e
    rw [h1]
    exact ⟨h2.value.1, h2.undef.1, rfl, h2.undef.2⟩

/-- What the semantics knows is what the symbol table says: the location counter, the equates, the labels `ls`; at least
    the names `ds` are equates met already; of the equates `qs`, those not met are not marked. -/
structure Match (addr : Str → Int) (late : Str → Bool) (ls qs ds : List Str) (σ : State) (s : St) : Prop where
  pc : Placed s → σ.pc = some (starLabel s).value.toInt
  env : ∀ k v b, σ.env k = some (v, b) → k ≠ starKey ∧ ∃ l, s.tree.find k = some l ∧ l.value.toInt = v ∧ l.flags.forward = b
  lab : ∀ k ∈ ls, k ≠ starKey ∧ σ.env k = none ∧ ∃ l, s.tree.find k = some l ∧ l.value.toInt = addr k ∧ l.flags.forward = late k
  eqs : ∀ k ∈ ds, (σ.env k).isSome
  pre : ∀ k ∈ qs, σ.env k = none → k ≠ starKey ∧ ∃ l, s.tree.find k = some l ∧ l.flags.forward = false
  calm : (starLabel s).flags.forward = false

/-- Nothing but marks on symbols. -/
theorem Match.tree {addr : Str → Int} {late : Str → Bool} {ls qs ds : List Str} {σ : State} {s s' : St} (h : Match addr late ls qs ds σ s)
    (ht : ∀ k l, k ≠ starKey → s.tree.find k = some l → ∃ l', s'.tree.find k = some l' ∧ l'.value = l.value ∧ l'.flags.forward = l.flags.forward)
    {pc : Option Int} (hs : Placed s' → pc = some (starLabel s').value.toInt)
    (hc : (starLabel s').flags.forward = false) : Match addr late ls qs ds { σ with pc := pc } s' := by
  refine ⟨hs, fun k v b he => ?_, fun k hk => ?_, h.eqs, fun k hk he => ?_, hc⟩
  · obtain ⟨hn, l, h1, h2, h3⟩ := h.env k v b he
    obtain ⟨l', g1, g2, g3⟩ := ht k l hn h1
    exact ⟨hn, l', g1, by rw [g2]; exact h2, g3.trans h3⟩
  · obtain ⟨hn, he, l, h1, h2, h3⟩ := h.lab k hk
    obtain ⟨l', g1, g2, g3⟩ := ht k l hn h1
    exact ⟨hn, he, l', g1, by rw [g2]; exact h2, g3.trans h3⟩
  · obtain ⟨hn, l, h1, h2⟩ := h.pre k hk he
    obtain ⟨l', g1, g2, g3⟩ := ht k l hn h1
    exact ⟨hn, l', g1, g3.trans h2⟩

theorem Match.gen {addr : Str → Int} {late : Str → Bool} {ls qs ds : List Str} {σ : State} {s s' : St} {bs : List Byte} (h : Match addr late ls qs ds σ s)
    (g : Gen bs s s') (hs : (s.tree.find starKey).isSome) : Match addr late ls qs ds σ s' := by
  obtain ⟨h1, h2, -, h3⟩ := star_gen g hs
  refine h.tree (fun k l _ hl => ?_) (pc := σ.pc) (fun hp => ?_) (h3.trans h.calm)
  · obtain ⟨l', h1, h2⟩ := g.tree.some hl
    exact ⟨l', h1, h2.value.1, h2.undef.2⟩
  · unfold Placed at hp
    rw [h1]
    exact h.pc (h2.symm.trans hp)

/-- The names used in a line have these values. -/
theorem Match.values {P : Prop} {isa : Isa} {addr : Str → Int} {late : Str → Bool} {ls qs ds : List Str} {σ : State} {s : St} {names : List Str}
    (h : P → Match addr late ls qs ds σ s) (hseg : s.segment = 0) (hst : (s.tree.find starKey).isSome) (hw : ¬ Worded isa starKey) (hl : P → starKey ∉ ls ∧ late starKey = false)
    (hn : ∀ n ∈ names, (key n ∈ ls ∨ key n ∈ ds) ∨ (key n = ['*'] ∧ Placed s))
    (hf : ∀ k, k ∈ ls ∨ k ∈ ds → ∃ y, Free isa y ∧ key y = k) :
    Outside (Worded isa) s names ∧ Values P s (σ.value addr) (σ.late late) names := by
  have hc : ∀ n ∈ names, canon s.segment n = key n ∧ ¬ Worded isa (key n) := by
    intro n hm
    rw [hseg]
    rcases hn n hm with hk | ⟨hk, -⟩
    · obtain ⟨y, h1, h2⟩ := hf _ hk
      exact ⟨(free_key h1 h2.symm).1, fun hx => (free_key h1 h2.symm).2 (.inr hx)⟩
    · cases key_star hk
      exact ⟨canon_star, hw⟩
  refine ⟨fun n hm => by rw [(hc n hm).1]; exact (hc n hm).2, fun hP n hm => ?_⟩
  unfold searchlabel Spec.Program.State.value Spec.Program.State.late
  rw [(hc n hm).1]
  cases e : σ.env (key n) with
  | some v =>
    obtain ⟨-, l, h1, h2, h3⟩ := (h hP).env _ v.1 v.2 (by rw [e])
    rw [h1]
    exact ⟨h2, h3⟩
  | none =>
    rcases hn n hm with (hk | hk) | ⟨hk, hp⟩
    · obtain ⟨h0, -, l, h1, h2, h3⟩ := (h hP).lab _ hk
      rw [h1]
      dsimp only
      rw [if_neg (show key n ≠ ['*'] from h0)]
      exact ⟨h2, h3⟩
    · have := (h hP).eqs _ hk
      rw [e] at this
      cases this
    · obtain ⟨l, h1⟩ := Option.isSome_iff_exists.1 hst
      have h2 : starLabel s = l := by unfold starLabel; rw [h1]; rfl
      have h3 := (h hP).pc hp
      have h4 := (h hP).calm
      rw [h2] at h3 h4
      dsimp only
      rw [hk, if_pos rfl, show s.tree.find ['*'] = some l from h1, h3]
      exact ⟨rfl, h4.trans (hl hP).2.symm⟩

theorem Match.present {isa : Isa} {addr : Str → Int} {late : Str → Bool} {ls qs ds : List Str} {σ : State} {s : St} {names : List Str}
    (h : Match addr late ls qs ds σ s) (hseg : s.segment = 0) (hst : (s.tree.find starKey).isSome)
    (hn : ∀ n ∈ names, (key n ∈ ls ∨ key n ∈ ds) ∨ (key n = ['*'] ∧ Placed s))
    (hf : ∀ k, k ∈ ls ∨ k ∈ ds → ∃ y, Free isa y ∧ key y = k) : ∀ x ∈ names, ∃ l, searchlabel s x = some l := by
  intro n hm
  unfold searchlabel
  rw [hseg]
  rcases hn n hm with hn | ⟨hk, -⟩
  rotate_left
  · cases key_star hk
    rw [canon_star]
    exact Option.isSome_iff_exists.1 hst
  obtain ⟨y, h1, h2⟩ := hf _ hn
  rw [(free_key h1 h2.symm).1]
  rcases hn with hk | hk
  · obtain ⟨-, -, l, h1, -⟩ := h.lab _ hk
    exact ⟨l, h1⟩
  · have := h.eqs _ hk
    cases e : σ.env (key n) with
    | some v =>
      obtain ⟨-, l, h1, -⟩ := h.env _ v.1 v.2 (by rw [e])
      exact ⟨l, h1⟩
    | none => rw [e] at this; cases this

/-! ### The bytes -/

/-- The code generated in pass 2, with addresses as numbers. -/
def image (log : List Event) : List (Int × Byte) := (codeOf 2 log).map fun p => (p.1.toInt, p.2)

theorem codeOf_append (p : Nat) (a b : List Event) : codeOf p (a ++ b) = codeOf p b ++ codeOf p a := by
  unfold codeOf
  rw [List.reverse_append, List.filterMap_append]

theorem codeOf_bytes (bs : List Byte) : ∀ a : Word, a.toInt + bs.length < 2 ^ 63 →
    (codeOf 2 (byteEvents 2 true a bs).reverse).map (fun p => (p.1.toInt, p.2)) = Spec.Program.place a.toInt bs := by
  induction bs with
  | nil => intro a _; rfl
  | cons b bs ih =>
    intro a ha
    simp only [List.length_cons] at ha
    unfold byteEvents Spec.Program.place
    rw [List.reverse_cons, codeOf_append, List.map_append]
    cases bs with
    | nil => rfl
    | cons c cs =>
      simp only [List.length_cons] at ha
      have e : (a + 1).toInt = a.toInt + 1 := by
        rw [BitVec.toInt_add]
        have h1 : (1 : Word).toInt = 1 := by decide
        have h2 := BitVec.le_toInt (x := a)
        rw [h1]
        exact Int.bmod_eq_of_le (by omega) (by omega)
      rw [ih (a + 1) (by rw [e]; simp only [List.length_cons]; omega), e]
      rfl

theorem image_gen {bs : List Byte} {s s' : St} (g : Gen bs s s') (hp : s.passnumber = 2) (ho : s.flags.codeOn = true)
    (hl : bs ≠ [] → s.code.pc.toInt + bs.length < 2 ^ 63) : image s'.log = image s.log ++ Spec.Program.place s.code.pc.toInt bs := by
  unfold image
  rw [g.log, hp, ho, codeOf_append, List.map_append]
  cases bs with
  | nil => rfl
  | cons b bs => rw [codeOf_bytes _ _ (hl (by simp))]

/-- The bytes `B`, and then bytes of pass 2 with CODE in force only. -/
def Over (B : List ByteEv) (log : List Event) : Prop := ∃ L, bytesOf log = L ++ B ∧ ∀ x ∈ L, x.1 = 2 ∧ x.2.2.2 = true

theorem bytesOf_append (a b : List Event) : bytesOf (a ++ b) = bytesOf a ++ bytesOf b := List.filterMap_append

theorem byteEvents_all {q : Nat} {on : Bool} (bs : List Byte) : ∀ a : Word, ∀ x ∈ bytesOf (byteEvents q on a bs).reverse, x.1 = q ∧ x.2.2.2 = on := by
  induction bs with
  | nil => intro a x hx; cases hx
  | cons b bs ih =>
    intro a x hx
    unfold byteEvents at hx
    rw [List.reverse_cons, bytesOf_append, List.mem_append] at hx
    rcases hx with hx | hx
    · exact ih _ x hx
    · rw [show bytesOf [Event.byte q a b on] = [(q, a, b, on)] from rfl, List.mem_singleton] at hx
      subst hx
      exact ⟨rfl, rfl⟩

theorem gen_over {B : List ByteEv} {bs : List Byte} {s s' : St} (g : Gen bs s s') (hp : s.passnumber = 2) (ho : s.flags.codeOn = true) (h : Over B s.log) :
    Over B s'.log := by
  obtain ⟨L, h1, h2⟩ := h
  refine ⟨bytesOf (byteEvents 2 true s.code.pc bs).reverse ++ L, ?_, fun x hx => ?_⟩
  · rw [g.log, hp, ho, bytesOf_append, h1, List.append_assoc]
  · rcases List.mem_append.1 hx with hx | hx
    · exact byteEvents_all bs _ x hx
    · exact h2 x hx

/-- The location counter is moved on. -/
theorem bump_ok {s s' : St} {u : Unit} (h : bumpStar s = .ok u s') :
    ∃ v, addS (starLabel s).value (BitVec.ofInt 64 s.advance) = some v ∧
      s' = { s with tree := s.tree.put starKey { starLabel s with value := v } } := by
  unfold bumpStar at h
  rw [getS_bind_run] at h
  revert h
  cases e : addS (starLabel s).value (BitVec.ofInt 64 s.advance) with
  | none => intro h; cases h
  | some v => intro h; cases h; exact ⟨v, rfl, rfl⟩

theorem bump_sum {a v : Word} {n : Nat} (h : addS a (BitVec.ofInt 64 (n : Int)) = some v) (hn : n < 2 ^ 63) :
    v.toInt = a.toInt + n ∧ a.toInt + n < 2 ^ 63 := by
  have e : (BitVec.ofInt 64 (n : Int)).toInt = n := by
    rw [BitVec.toInt_ofInt]
    exact Int.bmod_eq_of_le (by omega) (by omega)
  obtain ⟨h1, h2⟩ := (addS_does a (BitVec.ofInt 64 (n : Int))).1 v h
  rw [e] at h1 h2
  exact ⟨h2, h1.2⟩

theorem sum_text {a b v : Word} (h : addS a b = some v) : v = a + b := by
  unfold addS at h
  split at h
  · cases h
  · cases h; rfl

theorem Base.bumped {isa : Isa} {voc : List Entry} {s : St} {v : Word} (h : Base isa voc s) (hv : ∀ e ∈ pseudos ++ voc, e.name.map toupper ≠ starKey) :
    Base isa voc { s with tree := s.tree.put starKey { starLabel s with value := v } } := by
  refine ⟨h.stack, h.seg, h.on, h.rel, ⟨.inr (by show ((s.tree.put starKey _).find starKey).isSome; rw [Tree.find_put_self]; rfl), .inl h.rel, fun k l hk hl => ?_⟩, fun e he => ?_, ?_⟩
  · change (s.tree.put starKey _).find k = some l at hl
    by_cases hne : k = starKey
    · subst hne
      rw [Tree.find_put_self] at hl
      cases hl
      obtain ⟨l, h1, -⟩ := h.star
      have e : starLabel s = l := by unfold starLabel; rw [h1]; rfl
      rw [e]
      exact h.numeric.abs _ l hk h1
    · rw [Tree.find_put_ne _ _ hne] at hl
      exact h.numeric.abs k l hk hl
  · obtain ⟨l, h1, h2⟩ := h.vocab e he
    exact ⟨l, by show (s.tree.put starKey _).find _ = _; rw [Tree.find_put_ne _ _ (hv e he)]; exact h1, h2⟩
  · obtain ⟨l, h1, h2⟩ := h.star
    refine ⟨_, Tree.find_put_self _ _ _, fun hu => ?_⟩
    have e : starLabel s = l := by unfold starLabel; rw [h1]; rfl
    rw [e] at hu ⊢
    exact h2 hu
theorem Inv.bumped {isa : Isa} {voc : List Entry} {cf : Option Int} {s : St} {v : Word} (h : Inv isa voc cf s) (hv : ∀ e ∈ pseudos ++ voc, e.name.map toupper ≠ starKey) :
    Inv isa voc cf { s with tree := s.tree.put starKey { starLabel s with value := v } } :=
  ⟨h.toBase.bumped hv, h.pass, h.lohi, h.cpu⟩

/-! ### The words of a line -/

theorem pseudos_tidy : ∀ e ∈ pseudos, e.name.length ≤ LABLEN ∧ e.name.head? ≠ some '.' ∧ e.name.head? ≠ some '*' := by decide +kernel

section
variable {isa : Isa} {voc : List Entry} {cf : Option Int} {s : St}

theorem tidy (M : Machine isa voc cf) {e : Entry} (he : e ∈ pseudos ++ voc) :
    e.name.length ≤ LABLEN ∧ e.name.head? ≠ some '.' ∧ e.name.head? ≠ some '*' := by
  rcases List.mem_append.1 he with he | he
  · exact pseudos_tidy e he
  · exact M.tidy e he

theorem not_star (M : Machine isa voc cf) : ∀ e ∈ pseudos ++ voc, e.name.map toupper ≠ starKey := by
  intro e he h
  have := (tidy M he).2.2
  rw [up_key] at h
  cases hx : e.name with
  | nil => rw [hx] at h; cases h
  | cons c r =>
    rw [hx] at h this
    injection h with h _
    exact this (congrArg some (upper_eq h (by decide)))

theorem star_word (M : Machine isa voc cf) : ¬ Worded isa starKey := by
  intro h
  obtain ⟨e, he, h⟩ := List.mem_map.1 ((M.words _).1 h)
  exact not_star M e he h

theorem word_entry (M : Machine isa voc cf) (hi : Base isa voc s) {e : Entry} (he : e ∈ pseudos ++ voc) (ht : e.label.type = .mnemo)
    {m : Str} (hm : e.name.map toupper = key m) : ∃ l, entryOf s m = some (key m, l) ∧ AsWord e.label l ∧ searchlabel s m ≠ none := by
  obtain ⟨l, h1, h2⟩ := hi.vocab e he
  obtain ⟨t1, t2, -⟩ := tidy M he
  rw [up_key] at hm h1
  have hlen : m.length = e.name.length := by
    have := congrArg List.length hm
    simpa [key] using this.symm
  have hc : canon 0 m = key m := by
    refine canon_key (by rw [hlen]; exact t1) ?_
    rw [← hm]
    cases hx : e.name with
    | nil => simp [key]
    | cons c r =>
      rw [hx] at t2
      intro h
      injection h with h
      exact t2 (congrArg some (upper_eq h (by decide)))
  rw [hm] at h1
  have hs : searchlabel s m = some l := by
    unfold searchlabel
    rw [hi.seg, hc, h1]
  refine ⟨l, ?_, h2, by rw [hs]; simp⟩
  unfold entryOf
  rw [hs, hi.seg, hc]
  unfold usable
  dsimp only
  rw [h2.2.2.2.1, h2.1, ht]
  rfl

theorem not_known (hi : Base isa voc s) {x : Str} (hx : x = ['*'] ∨ Free isa x) : ¬ C41.Known s x := by
  have key : ∀ l, s.tree.find (canon 0 x) = some l → usable (canon 0 x) l = none := by
    intro l hl
    have : l.flags.undef = true ∨ l.type = .absolute := by
      cases hu : l.flags.undef with
      | true => exact .inl rfl
      | false =>
        right
        rcases hx with rfl | hx
        · obtain ⟨l', h1, h2⟩ := hi.star
          rw [canon_star, h1] at hl
          cases hl
          exact h2 hu
        · obtain ⟨h1, h2⟩ := free_key (n := x) hx rfl
          rw [h1] at hl
          exact hi.numeric.abs _ _ (fun hx => h2 (.inr hx)) hl (.inl hu)
    unfold usable
    rcases this with h | h <;> rw [h]
    · rfl
    · cases l.flags.undef <;> rfl
  have dot : '.' ∉ x := by
    rcases hx with rfl | hx
    · decide
    · exact hx.global
  unfold C41.Known entryOf searchlabel
  rw [hi.seg]
  cases h : s.tree.find (canon 0 x) with
  | some l => dsimp only; rw [key l h]; simp
  | none => dsimp only; rw [if_neg dot]; simp

/-- The line is taken apart with the assembler's own vocabulary. -/
theorem stmt_known (hi : Base isa voc s) {t m : Str} {l o : Option Str} (h : Spec.Stmt (fun w => key w ∈ isa.words) t l m o)
    (hm : C41.Known s m) (hl : ∀ x ∈ l, x = ['*'] ∨ Free isa x) : Spec.Stmt (C41.Known s) t l m o := by
  cases h with
  | one h => exact .one h
  | oper h1 h2 h3 h4 h5 => exact .oper h1 h2 h3 h4 hm
  | label h1 h2 h3 h4 h5 => exact .label h1 h2 h3 h4 (not_known hi (hl _ rfl))
  | both h1 h2 h3 h4 h5 h6 h7 => exact .both h1 h2 h3 h4 h5 h6 (not_known hi (hl _ rfl))
  | equate h1 h2 h3 h4 h5 => exact .equate h1 h2 h3 h4 h5

/-- What becomes of the label field. -/
def Labelled (defl : Bool) (label : Option Str) (s s' : St) : Prop :=
  match label with
  | none => s' = s
  | some x => if defl then s' = s else herelabel x s = .ok () s'

theorem mnemo_ok {self : Status → M RC} {n : Nat} {flush : Bool} {label oper : Option Str} {m k : Str} {l : Label} {s' : St} {rc : RC} {hd : Handler}
    (h : doFields self n ⟨true, true⟩ flush ⟨label, m, oper, some (k, l)⟩ s = .ok rc s') (ht : l.type = .mnemo) (hc : l.flags.defcond = false)
    (hdm : l.flags.defmacro = false) (hp : l.ptr = .handler hd) :
    rc = .cont ∧ ∃ r s2 s3 s4 u u', Labelled l.flags.deflabel label s s2 ∧ callHandler self n hd l.modifier label oper s2 = .ok r s3 ∧
      bumpStar s3 = .ok u s4 ∧ outputline s4 = .ok u' s' := by
  unfold doFields at h
  dsimp only at h
  by_cases hn : (l.flags.nolabel && label.isSome) = true
  · rw [if_pos hn] at h
    exact (error_not_ok h).elim
  rw [if_neg hn] at h
  obtain ⟨u0, s2, h1, h⟩ := bind_ok h
  have hL : Labelled l.flags.deflabel label s s2 := by
    unfold Labelled
    cases label with
    | none =>
      dsimp only at h1 ⊢
      cases hx : l.flags.deflabel with
      | true => rw [hx] at h1; exact (error_not_ok h1).elim
      | false => rw [hx] at h1; cases h1; rfl
    | some x =>
      dsimp only at h1 ⊢
      cases hx : l.flags.deflabel with
      | true => rw [hx] at h1; cases h1; rfl
      | false => rw [hx] at h1; exact h1
  unfold execLine at h
  rw [hc, hdm, ht, hp] at h
  rw [if_neg (by decide), if_neg (by decide), if_pos rfl] at h
  obtain ⟨u1, s3, h2, h⟩ := bind_ok h
  obtain ⟨r, s3', h3, h2⟩ := bind_ok (show (callHandler self n hd l.modifier label oper >>= fun _ => pure ()) s2 = .ok u1 s3 from h2)
  cases h2
  obtain ⟨u2, s4, h4, h⟩ := bind_ok h
  obtain ⟨u3, s5, h5, h⟩ := bind_ok h
  cases h
  exact ⟨rfl, r, s2, s3, s4, u2, u3, hL, h3, h4, h5⟩

theorem here_ok {x : Str} {s' : St} {u : Unit} (h : herelabel x s = .ok u s') (ho : s.flags.codeOn = true) (hr : s.flags.relatif = false) :
    s.flags.orgGv = true ∧ s' = { s with
      tree := s.tree.put (canon s.segment x) (defdLabel (s.tree.find (canon s.segment x)) { noredef := true } .absolute (starLabel s).value)
      notes := (s.passnumber, .label (canon s.segment x) (starLabel s).value) :: s.notes } := by
  unfold herelabel at h
  by_cases hs : x = starKey
  · rw [if_pos hs] at h; exact (error_not_ok h).elim
  rw [if_neg hs, getS_bind_run] at h
  cases hg : s.flags.orgGv with
  | false => rw [hg] at h; exact (error_not_ok h).elim
  | true =>
    rw [hg, if_pos rfl] at h
    obtain ⟨k, s1, h1, h⟩ := bind_ok h
    rcases deflabel_run x { noredef := true } (addrType s.flags) (starLabel s).value s with ⟨msg, e⟩ | ⟨-, e⟩
    · rw [e] at h1; exact (error_not_ok h1).elim
    · rw [e] at h1
      cases h1
      rw [ho] at h
      have : addrType s.flags = .absolute := by unfold addrType; rw [hr]; rfl
      rw [this] at h
      cases h
      exact ⟨rfl, rfl⟩

/-! ### One line -/

theorem Base.split (hi : Base isa voc s) {s1 : St} (h : Split s s1) : Base isa voc s1 := by
  obtain ⟨b, cl, nts, rfl, -, -⟩ := h
  exact hi.same rfl rfl rfl rfl rfl
theorem Inv.split (hi : Inv isa voc cf s) {s1 : St} (h : Split s s1) : Inv isa voc cf s1 := by
  have hb := hi.toBase.split h
  obtain ⟨b, cl, nts, rfl, -, -⟩ := h
  exact ⟨hb, hi.pass, hi.lohi, hi.cpu⟩

theorem Base.label (hi : Base isa voc s) {x : Str} (hx : Free isa x) {v : Word} {fl : LFlags} {ns : List (Nat × Note)} {m : Int} {p : Ptr}
    (M : Machine isa voc cf) :
    Base isa voc { s with tree := s.tree.put (key x) { defdLabel (s.tree.find (key x)) fl .absolute v with modifier := m, ptr := p }, notes := ns } := by
  obtain ⟨-, hr⟩ := free_key (n := x) hx rfl
  refine ⟨hi.stack, hi.seg, hi.on, hi.rel, ⟨hi.numeric.star.imp_right fun h => ?_, .inl hi.rel, fun k l hk hl hd => ?_⟩, fun e he => ?_, ?_⟩
  · show ((s.tree.put (key x) _).find starKey).isSome
    rw [Tree.find_put_ne _ _ fun h => hr (.inl h.symm)]
    exact h
  · change (s.tree.put (key x) _).find k = some l at hl
    by_cases e : k = key x
    · subst e
      rw [Tree.find_put_self] at hl
      cases hl
      rfl
    · rw [Tree.find_put_ne _ _ e] at hl
      exact hi.numeric.abs k l hk hl hd
  · obtain ⟨l, h1, h2⟩ := hi.vocab e he
    have hne : e.name.map toupper ≠ key x := by
      intro h
      refine hr (.inr ?_)
      rw [M.words, ← h]
      exact List.mem_map_of_mem he
    exact ⟨l, by show (s.tree.put (key x) _).find _ = _; rw [Tree.find_put_ne _ _ hne]; exact h1, h2⟩
  · obtain ⟨l, h1, h2⟩ := hi.star
    have hne : starKey ≠ key x := fun h => hr (.inl h.symm)
    exact ⟨l, by show (s.tree.put (key x) _).find _ = _; rw [Tree.find_put_ne _ _ hne]; exact h1, h2⟩
theorem Inv.label (hi : Inv isa voc cf s) {x : Str} (hx : Free isa x) {v : Word} {fl : LFlags} {ns : List (Nat × Note)} {m : Int} {p : Ptr}
    (M : Machine isa voc cf) :
    Inv isa voc cf { s with tree := s.tree.put (key x) { defdLabel (s.tree.find (key x)) fl .absolute v with modifier := m, ptr := p }, notes := ns } :=
  ⟨hi.toBase.label hx M, hi.pass, hi.lohi, hi.cpu⟩

/-- What is to be shown of a line. -/
structure Did (isa : Isa) (voc : List Entry) (cf : Option Int) (P : Prop) (addr : Str → Int) (late : Str → Bool) (ls qs ds : List Str) (σ : State) (s : St)
    (x : Option Str) (body : Body isa.Ins) (s' : St) : Prop where
  inv : Inv isa voc cf s'
  main : s'.main = s.main
  eof : s'.mainEof = s.mainEof
  placed : Placed s → Placed s'
  org : Spec.Program.hasOrg [(x, body)] = true → Placed s'
  met : ∀ n ∈ body.uses, key n ∉ Spec.Program.labels [(x, body)] → Met s (key n)
  noted : ∀ y, x = some y → (∀ e, body ≠ .equ e) → (2, Note.label (key y) (starLabel s).value) ∈ s'.notes
  over : ∀ B, Over B s.log → Over B s'.log
  step : P → ∃ img σ', Spec.Program.Step isa addr late σ (x, body) img σ' ∧
    Match addr late ls qs (Spec.Program.equates [(x, body)] ++ ds) σ' s' ∧ image s'.log = image s.log ++ img
  here : Spec.Program.hasOrg [(x, body)] = false → Placed s' → s'.code.pc = (starLabel s').value

/-- What is known when a line is reached. -/
structure Before (isa : Isa) (voc : List Entry) (cf : Option Int) (P : Prop) (addr : Str → Int) (late : Str → Bool) (ls qs ds : List Str) (σ : State) (s : St)
    (x : Option Str) (body : Body isa.Ins) : Prop where
  inv : Inv isa voc cf s
  len : s.curline.length ≤ 600
  org : body.generates = true → Placed s
  mat : P → Match addr late ls qs ds σ s
  used : ∀ n ∈ body.uses, (key n ∈ ls ∨ key n ∈ ds) ∨ (key n = ['*'] ∧ Placed s)
  free : ∀ k, k ∈ ls ∨ k ∈ ds → ∃ y, Free isa y ∧ key y = k
  lab : ∀ y, x = some y → (∀ e, body ≠ .equ e) → key y ∈ ls
  equ : ∀ y e, x = some y → body = .equ e → key y ∉ ls ∧ key y ∈ qs
  self : P → ∀ y, x = some y → (∀ e, body ≠ .equ e) → addr (key y) = (starLabel s).value.toInt
  here : P → starKey ∉ ls ∧ late starKey = false
  calm : P → ∀ e, body = .org e → ∀ n ∈ e.names, σ.late late n = false

theorem split_facts {s1 : St} (h : Split s s1) : s1.tree = s.tree ∧ s1.segment = s.segment ∧ s1.log = s.log ∧ s1.main = s.main ∧ s1.mainEof = s.mainEof ∧
    s1.advance = 0 ∧ s1.flags.orgGv = !(starLabel s).flags.undef ∧ (Placed s → s1.code.pc = (starLabel s).value) := by
  obtain ⟨b, cl, nts, rfl, -, -⟩ := h
  refine ⟨rfl, rfl, rfl, rfl, rfl, rfl, rfl, fun hp => ?_⟩
  unfold startedSt
  dsimp only
  unfold Placed at hp
  rw [hp, if_neg (by decide)]
  by_cases e : (starLabel s).value = s.code.pc
  · rw [if_pos e]; exact e.symm
  · rw [if_neg e]

theorem Match.split {addr : Str → Int} {late : Str → Bool} {ls qs ds : List Str} {σ : State} {s1 : St} (h : Match addr late ls qs ds σ s) (hs : Split s s1) :
    Match addr late ls qs ds σ s1 := by
  have ht := (split_facts hs).1
  have hl : starLabel s1 = starLabel s := by unfold starLabel; rw [ht]
  refine h.tree (fun k l _ hl => ⟨l, by rw [ht]; exact hl, rfl, rfl⟩) (pc := σ.pc) (fun hp => ?_) (by rw [hl]; exact h.calm)
  unfold Placed at hp
  rw [hl] at hp ⊢
  exact h.pc hp

variable {P : Prop} {addr : Str → Int} {late : Str → Bool} {ls qs ds : List Str} {σ : State}

theorem Match.labelled (hm : Match addr late ls qs ds σ s) {x : Str} (hx : Free isa x) (hk : key x ∈ ls) (ha : addr (key x) = (starLabel s).value.toInt)
    {ns : List (Nat × Note)} : Match addr late ls qs ds σ { s with
      tree := s.tree.put (key x) (defdLabel (s.tree.find (key x)) { noredef := true } .absolute (starLabel s).value)
      notes := ns } := by
  obtain ⟨-, hr⟩ := free_key (n := x) hx rfl
  have hne : starKey ≠ key x := fun h => hr (.inl h.symm)
  have hs : ∀ y, (s.tree.put (key x) y).find starKey = s.tree.find starKey := fun y => Tree.find_put_ne _ _ hne
  obtain ⟨-, -, l, h1, h2, h3⟩ := hm.lab _ hk
  refine hm.tree (fun k l' _ hl => ?_) (pc := σ.pc) (fun hp => ?_) (by unfold starLabel; dsimp only; rw [hs]; exact hm.calm)
  · show ∃ l'', (s.tree.put (key x) _).find k = some l'' ∧ _
    by_cases e : k = key x
    · subst e
      rw [h1] at hl
      cases hl
      refine ⟨_, Tree.find_put_self _ _ _, ?_, ?_⟩
      · rw [h1]
        exact BitVec.eq_of_toInt_eq (ha.symm.trans h2.symm)
      · rw [h1]
        show (l.flags.forward || false) = _
        rw [Bool.or_false]
    · exact ⟨l', by rw [Tree.find_put_ne _ _ e]; exact hl, rfl, rfl⟩
  · unfold Placed starLabel at hp
    unfold starLabel
    dsimp only at hp ⊢
    rw [hs] at hp ⊢
    exact hm.pc hp

/-- The label field of a line that is not an equate. -/
theorem labelled_ok (M : Machine isa voc cf) {s1 s2 : St} {x : Option Str} {body : Body isa.Ins} (B : Before isa voc cf P addr late ls qs ds σ s x body)
    (hb : ∀ e, body ≠ .equ e) (hx : ∀ y ∈ x, Free isa y) (hs : Split s s1) (h : Labelled false x s1 s2) :
    Inv isa voc cf s2 ∧ (P → Match addr late ls qs ds σ s2) ∧ s2.log = s.log ∧ s2.main = s.main ∧ s2.mainEof = s.mainEof ∧ s2.advance = 0 ∧
    s2.flags.orgGv = !(starLabel s).flags.undef ∧ s2.code = s1.code ∧ starLabel s2 = starLabel s ∧
    (∀ y, x = some y → Placed s ∧ (2, Note.label (key y) (starLabel s).value) ∈ s2.notes) ∧
    (∀ k, k ∉ Spec.Program.labels [(x, body)] → s2.tree.find k = s.tree.find k) := by
  obtain ⟨f1, f2, f3, f4, f5, f6, f7, f8⟩ := split_facts hs
  have hst : starLabel s1 = starLabel s := by unfold starLabel; rw [f1]
  have hi1 := B.inv.split hs
  cases x with
  | none =>
    cases h
    exact ⟨hi1, fun hP => (B.mat hP).split hs, f3, f4, f5, f6, f7, rfl, hst, fun y h => (by cases h), fun k _ => by rw [f1]⟩
  | some y =>
    have hy := hx y rfl
    obtain ⟨hc, hr⟩ := free_key (n := y) hy rfl
    have hne : starKey ≠ key y := fun h => hr (.inl h.symm)
    obtain ⟨ho, he⟩ := here_ok (show herelabel y s1 = .ok () s2 from h) hi1.on hi1.rel
    rw [show canon s1.segment y = key y by rw [hi1.seg, hc]] at he
    subst he
    refine ⟨hi1.label hy (fl := { noredef := true }) (v := (starLabel s1).value) (p := .null)
      (m := (defdLabel (s1.tree.find (key y)) { noredef := true } .absolute (starLabel s1).value).modifier) M, fun hP => ?_, f3, f4, f5, f6, f7, rfl, ?_, ?_, fun k hk => ?_⟩
    · exact ((B.mat hP).split hs).labelled hy (B.lab y rfl hb) (by rw [hst]; exact B.self hP y rfl hb)
    · rw [← hst]
      unfold starLabel
      dsimp only
      rw [Tree.find_put_ne _ _ hne]
    · intro z hz
      cases hz
      refine ⟨?_, ?_⟩
      · unfold Placed
        rw [ho] at f7
        simpa using f7.symm
      · rw [hi1.pass, hst]
        exact List.mem_cons_self
    · have : k ≠ key y := by
        rintro rfl
        refine hk ?_
        cases body with
        | equ e => exact absurd rfl (hb e)
        | _ => exact List.mem_cons_self
      show (s1.tree.put (key y) _).find k = _
      rw [Tree.find_put_ne _ _ this, f1]

/-- The names used in a line are as they are written. -/
theorem Before.names {x : Option Str} {body : Body isa.Ins} (B : Before isa voc cf P addr late ls qs ds σ s x body) :
    ∀ n ∈ body.uses, canon 0 n = key n := by
  intro n hn
  rcases B.used n hn with hk | ⟨hk, -⟩
  · obtain ⟨y, h1, h2⟩ := B.free _ hk
    exact (free_key h1 h2.symm).1
  · cases key_star hk
    exact canon_star

/-- Data and instructions. -/
theorem gen_line (M : Machine isa voc cf) {n : Nat} {t m : Str} {x o : Option Str} {body : Body isa.Ins} (B : Before isa voc cf P addr late ls qs ds σ s x body)
    (hb : body.generates = true) (hS : Spec.Stmt (fun w => key w ∈ isa.words) t x m o) (hA : Spec.Around t s.curline)
    (hx : ∀ y ∈ x, Free isa y) {e : Entry} (he : e ∈ pseudos ++ voc) (hn : e.name.map toupper = key m) (hI : Instr e.label)
    {hd : Handler} (hp : e.label.ptr = .handler hd)
    (hrun : ∀ {s2 s3 rc}, Ready isa voc cf s2 → Inv isa voc cf s2 → (Placed s → Placed s2) → (P → Match addr late ls qs ds σ s2) →
      callHandler (asmline n) n hd e.label.modifier x o s2 = .ok rc s3 →
      ∃ bs, Gen bs s2 s3 ∧ Star HStep (s2, .live) (s3, .live) ∧ (∀ n ∈ body.uses, Met s2 (canon s2.segment n)) ∧ (P → bs.length < 2 ^ 63 ∧
        (σ.pc = some s2.code.pc.toInt → (∀ y ∈ x, addr (key y) = s2.code.pc.toInt) →
          Spec.Program.Step isa addr late σ (x, body) (Spec.Program.place s2.code.pc.toInt bs) { σ with pc := some (s2.code.pc.toInt + bs.length) })))
    {rc : RC} {s' : St} (h : asmline (n + 1) ⟨true, true⟩ s = .ok rc s') :
    rc = .cont ∧ Did isa voc cf P addr late ls qs ds σ s x body s' := by
  have hne : ∀ e, body ≠ .equ e := by rintro e rfl; cases hb
  obtain ⟨l, hl, hw, -⟩ := word_entry M B.inv.toBase he hI.1 hn
  have hk := stmt_known B.inv.toBase hS (by unfold C41.Known; rw [hl]; rfl) fun y hy => .inr (hx y hy)
  obtain ⟨s1, hs, h1⟩ := C41.C41_line (n := n) (st := ⟨true, true⟩) hk hA B.len
  rw [h1, hl] at h
  obtain ⟨w1, w2, w3, w4, w5, w6, w7, w8, -⟩ := hw
  obtain ⟨i1, i2, i3, i4, i5⟩ := hI
  obtain ⟨rfl, r, s2, s3, s4, u, u', hL, h2, h3, h4⟩ := mnemo_ok h (w1.trans i1) (w8.trans i5) (w7.trans i4) (w3.trans hp)
  refine ⟨rfl, ?_⟩
  rw [w6, i3] at hL
  rw [w2] at h2
  obtain ⟨hi2, hm2, e1, e2, e3, e4, e5, e6, e7, e8, e9⟩ := labelled_ok M B hne hx hs hL
  have hP := B.org hb
  have hpc : s2.code.pc = (starLabel s).value := by rw [e6]; exact (split_facts hs).2.2.2.2.2.2.2 hP
  obtain ⟨bs, g, hst, hmet, hstep⟩ := hrun ⟨by rw [e5]; unfold Placed at hP; rw [hP]; rfl, hi2.lohi, hi2.cpu, hi2.seg, hi2.numeric,
    fun e he => hi2.vocab e (List.mem_append_right _ he), e4⟩ hi2 (by unfold Placed; rw [e7]; exact id) hm2 h2
  have hi3 := hi2.gen g hst
  have hs2 : (s2.tree.find starKey).isSome := by obtain ⟨l, h, -⟩ := hi2.star; rw [h]; rfl
  obtain ⟨a1, a2, a3, a4⟩ := star_gen g hs2
  obtain ⟨v, hv, rfl⟩ := bump_ok h3
  have hi4 := hi3.bumped (v := v) (not_star M)
  have g5 := nwalk_gen (m := outputline) W.walk h4
  have st5 := star_n (m := outputline) W.walk h4
  have hi5 := hi4.gen g5 st5
  have f5 := Fr.hstar st5
  have f3 := Fr.hstar hst
  have hs4 : (({ s3 with tree := s3.tree.put starKey { starLabel s3 with value := v } } : St).tree.find starKey).isSome := by
    show ((s3.tree.put starKey _).find starKey).isSome
    rw [Tree.find_put_self]; rfl
  have hl4 : starLabel { s3 with tree := s3.tree.put starKey { starLabel s3 with value := v } } = { starLabel s3 with value := v } := by
    unfold starLabel
    dsimp only
    rw [Tree.find_put_self]; rfl
  obtain ⟨b1, b2, -⟩ := star_gen g5 hs4
  have hp4 : Placed { s3 with tree := s3.tree.put starKey { starLabel s3 with value := v } } := by
    unfold Placed
    rw [hl4]
    show (starLabel s3).flags.undef = false
    rw [a2, e7]
    exact hP
  have hp5 : Placed s' := by
    unfold Placed
    rw [b2]
    exact hp4
  refine ⟨hi5, f5.main.trans (f3.main.trans e2), f5.eof.trans (f3.eof.trans e3), fun _ => hp5, fun _ => hp5, fun n hn hk => ?_, fun y hy _ => ?_,
    fun B hB => gen_over g5 hi4.pass hi4.on (gen_over (s' := s3) g hi2.pass hi2.on (show Over B s2.log by rw [e1]; exact hB)), fun hPP => ?_, fun _ _ => ?_⟩
  · have := hmet n hn
    rw [hi2.seg, B.names n hn] at this
    intro l hl
    exact this l (by rw [e9 _ hk]; exact hl)
  · exact f5.notes.subset (f3.notes.subset (e8 y hy).2)
  · obtain ⟨hlen, hstep⟩ := hstep hPP
    have m2 := hm2 hPP
    have hadv : s3.advance = (bs.length : Int) := by rw [g.advance, e4, Int.zero_add]
    rw [hadv, a1, e7, ← hpc] at hv
    obtain ⟨v1, v2⟩ := bump_sum hv hlen
    have hpc' : σ.pc = some s2.code.pc.toInt := by
      rw [hpc, ← e7]
      refine m2.pc ?_
      unfold Placed
      rw [e7]; exact hP
    have hlab : ∀ y ∈ x, addr (key y) = s2.code.pc.toInt := by
      intro y hy
      rw [hpc]
      exact B.self hPP y hy hne
    refine ⟨_, _, hstep hpc' hlab, ?_, ?_⟩
    · have hq : Spec.Program.equates [(x, body)] = [] := by
        cases x with
        | none => rfl
        | some y =>
          cases body with
          | equ e => exact absurd rfl (hne e)
          | _ => rfl
      rw [hq, List.nil_append]
      refine Match.gen ?_ g5 hs4
      refine (m2.gen g hs2).tree (fun k l hk hl => ?_) (fun _ => ?_) (by rw [hl4]; exact a4.trans m2.calm)
      · exact ⟨l, by show (s3.tree.put starKey _).find k = _; rw [Tree.find_put_ne _ _ hk]; exact hl, rfl, rfl⟩
      · rw [hl4]
        show some _ = some v.toInt
        rw [v1]
    · have i3 := image_gen g hi2.pass hi2.on fun _ => v2
      have i5 := image_gen g5 hi4.pass hi4.on fun h => absurd rfl h
      rw [i5, show Spec.Program.place _ [] = [] from rfl, List.append_nil]
      show image s3.log = _
      rw [i3, e1]
  · have hadv : s3.advance = (bs.length : Int) := by rw [g.advance, e4, Int.zero_add]
    rw [hadv, a1, e7, ← hpc] at hv
    rw [b1, hl4, g5.pc]
    show s3.code.pc + BitVec.ofNat 64 0 = v
    rw [g.pc, sum_text hv, BitVec.ofInt_natCast]
    exact BitVec.add_zero _

theorem oper_short {known : Str → Prop} {t m line : Str} {x o : Option Str} (hS : Spec.Stmt known t x m o) (hA : Spec.Around t line)
    (hl : line.length ≤ 600) : ∀ w ∈ o, w.length ≤ 600 := by
  intro w hw
  have h1 : t.length ≤ line.length := by cases hA <;> simp only [List.length_append, List.length_cons] <;> omega
  have h2 : w.length ≤ t.length := by
    cases hS <;> cases hw <;> simp only [List.length_append, List.length_cons] <;> omega
  omega

theorem ins_line (M : Machine isa voc cf) {n : Nat} {t m : Str} {x o : Option Str} {i : isa.Ins} (B : Before isa voc cf P addr late ls qs ds σ s x (.ins i))
    (hS : Spec.Stmt (fun w => key w ∈ isa.words) t x m o) (hA : Spec.Around t s.curline) (hw : isa.writes i (key m) o)
    (hx : ∀ y ∈ x, Free isa y) {rc : RC} {s' : St} (h : asmline (n + 1) ⟨true, true⟩ s = .ok rc s') :
    rc = .cont ∧ Did isa voc cf P addr late ls qs ds σ s x (.ins i) s' := by
  obtain ⟨e, he, hn, hI, hd, hp, hr, -⟩ := M.ins hw
  refine gen_line M B rfl hS hA hx he hn hI hp (fun {s2 s3 rc} hrd hi hpp hm hc => ?_) h
  obtain ⟨ho, hv⟩ := Match.values (isa := isa) hm hi.seg hi.toBase.here (star_word M) B.here (fun n hn => (B.used n hn).imp_right fun h => ⟨h.1, hpp h.2⟩) B.free
  obtain ⟨bs, g, hst, hmet, hcode⟩ := hr hrd ho hv hc
  exact ⟨bs, g, hst, hmet, fun hP => ⟨M.short hw (oper_short hS hA B.len) (hcode hP), fun h1 h2 => .ins h1 h2 (hcode hP)⟩⟩

theorem data_words : ∀ d ∈ Spec.Program.directives, ∃ e ∈ pseudos, e.name = d.1 ∧ e.name.map toupper = d.1 ∧ Instr e.label ∧
    ∃ d' ∈ dataDirectives, d'.1 = d.1 ∧ d'.2.2 = d.2 := by decide +kernel

theorem joined_len {os : List Str} {t : Str} (h : Spec.Joined os t) : os.length ≤ t.length + 1 := by
  induction h with
  | one => simp
  | more o b b' t os _ _ _ ih => simp; omega

theorem endian_len (b : Bool) (n v : Nat) : (Spec.endian b n v).length = n := by
  have h : ∀ n v, (Spec.littleEndian n v).length = n := by
    intro n
    induction n with
    | zero => intro v; rfl
    | succ n ih => intro v; simp [Spec.littleEndian, ih]
  unfold Spec.endian Spec.bigEndian
  cases b <;> simp [h]

theorem flatMap_len {α β : Type} (f : α → List β) (n : Nat) (hf : ∀ a, (f a).length = n) (as : List α) : (as.flatMap f).length = as.length * n := by
  induction as with
  | nil => simp
  | cons a as ih => simp [hf, ih, Nat.add_mul, Nat.add_comm]

theorem pairs_len {R : α → β → Prop} {as : List α} {bs : List β} (h : Pairs R as bs) : bs.length = as.length := by
  induction h with
  | nil => rfl
  | cons _ _ ih => simp [ih]

/-- The values of the operands, when the names in them have values. -/
theorem data_values {s2 : St} {names : List Str} (hi : Inv isa voc cf s2) {ρ : Str → Int} {φ : Str → Bool} (ho : Outside (Worded isa) s2 names)
    (hv : Values True s2 ρ φ names) (hs2 : ∀ x ∈ names, ∃ l, searchlabel s2 x = some l) {os : List Str} {es : List Spec.Expr} (h2 : Spec.Program.All2 Spec.Program.Number os es) :
    (∀ e ∈ es, ∀ x ∈ e.names, x ∈ names) → ∀ {vs : List Word}, Pairs (HasValue s2) os vs →
    Spec.Program.All2 (fun (e : Spec.Expr) v => e.eval ρ = .ok v) es (vs.map BitVec.toInt) := by
  induction h2 with
  | nil =>
    intro _ vs hp
    cases hp
    exact .nil
  | @cons o e os es hN _ ih =>
    intro hn vs hp
    cases hp with
    | cons h1 h3 =>
      refine .cons ?_ (ih (fun e he => hn e (List.mem_cons_of_mem _ he)) h3)
      obtain ⟨s3, r, s4, ha, hseg, hpar, -, rfl⟩ := h1
      obtain ⟨-, k, ht⟩ := hN
      have hin := hn e (List.mem_cons_self)
      have num : Numeric (fun k => ¬ ∃ x ∈ names, canon s2.segment x = k) s3 := by
        refine ⟨?_, .inr fun k hk => ?_, fun k l hk hl hd => ?_⟩
        · obtain ⟨l, h1, -⟩ := hi.star
          obtain ⟨l', h', -⟩ := ha.some h1
          exact .inr (by rw [h']; rfl)
        · obtain ⟨x, hx, rfl⟩ := Classical.not_not.1 hk
          obtain ⟨l, h⟩ := hs2 x hx
          obtain ⟨l', h', -⟩ := ha.some (show s2.tree.find (canon s2.segment x) = some l from h)
          rw [h']; rfl
        · obtain ⟨x, hx, rfl⟩ := Classical.not_not.1 hk
          obtain ⟨l1, h⟩ := hs2 x hx
          obtain ⟨l', h', hs'⟩ := ha.some (show s2.tree.find (canon s2.segment x) = some l1 from h)
          rw [hl] at h'
          cases h'
          rw [hs'.value.2.1]
          refine hi.numeric.abs _ _ (ho x hx) h ?_
          rw [← hs'.undef.1, ← hs'.undef.2]
          exact hd
      have out : Outside (fun k => ¬ ∃ x ∈ names, canon s2.segment x = k) s3 e.names := by
        intro x hx h
        exact h ⟨x, hin x hx, by rw [hseg]⟩
      have val : Values True s3 ρ φ e.names := by
        intro _ x hx
        obtain ⟨l, h1⟩ := hs2 x (hin x hx)
        have hv := hv trivial x (hin x hx)
        rw [h1] at hv
        obtain ⟨l', g1, g2⟩ := ha.some (show s2.tree.find (canon s2.segment x) = some l from h1)
        unfold searchlabel
        rw [hseg, g1]
        exact ⟨by rw [g2.value.1]; exact hv.1, g2.undef.2.trans hv.2⟩
      exact ((parse_tells ht num out val hpar).2 trivial).1

theorem data_met {s2 : St} {os : List Str} {es : List Spec.Expr} (h2 : Spec.Program.All2 Spec.Program.Number os es) :
    ∀ {vs : List Word}, Pairs (HasValue s2) os vs → ∀ x ∈ es.flatMap Spec.Expr.names, Met s2 (canon s2.segment x) := by
  induction h2 with
  | nil => intro _ _ x hx; cases hx
  | @cons o e os es hN _ ih =>
    intro vs hp x hx
    cases hp with
    | cons h1 h3 =>
      rw [List.flatMap_cons, List.mem_append] at hx
      rcases hx with hx | hx
      · obtain ⟨s3, r, s4, ha, hseg, hpar, -, rfl⟩ := h1
        obtain ⟨-, k, ht⟩ := hN
        have := parse_met ht hpar x hx
        rw [hseg] at this
        exact this.back ha
      · exact ih h3 x hx

theorem data_line (M : Machine isa voc cf) {n : Nat} {t m o : Str} {x : Option Str} {size : Nat} {swap : Bool} {es : List Spec.Expr} {os : List Str}
    (B : Before isa voc cf P addr late ls qs ds σ s x (.data size swap es))
    (hS : Spec.Stmt (fun w => key w ∈ isa.words) t x m (some o)) (hA : Spec.Around t s.curline) (hw : (key m, size, swap) ∈ Spec.Program.directives)
    (hx : ∀ y ∈ x, Free isa y) (hj : Spec.Joined os o) (h2 : Spec.Program.All2 Spec.Program.Number os es)
    {rc : RC} {s' : St} (h : asmline (n + 1) ⟨true, true⟩ s = .ok rc s') :
    rc = .cont ∧ Did isa voc cf P addr late ls qs ds σ s x (.data size swap es) s' := by
  obtain ⟨e, he, hn0, hn, hI, ⟨d1, d2, d3⟩, hd, hd1, hd2⟩ := data_words _ hw
  have hops : ∀ y ∈ os, Spec.Operand y := by
    clear hj B h
    induction h2 with
    | nil => intro y hy; cases hy
    | cons h _ ih =>
      intro y hy
      rcases List.mem_cons.1 hy with rfl | hy
      · exact h.1
      · exact ih y hy
  have hlo : o.length ≤ 600 := by
    have h1 : o.length ≤ t.length := by
      cases hS <;> simp only [List.length_append, List.length_cons] <;> omega
    have h2 : t.length ≤ s.curline.length := by
      generalize s.curline = line at hA
      cases hA <;> simp only [List.length_append] <;> omega
    have := B.len
    omega
  obtain ⟨ht, hd', hp, hr⟩ := C06_data he hd (hn0.trans hd1.symm) hops hj
  cases hd2
  refine gen_line M B rfl hS hA hx (List.mem_append_left _ he) hn hI hp (fun {s2 s3 rc} hrd hi hpp hm hc => ?_) h
  obtain ⟨-, vs, hvs, g⟩ := hr hc
  dsimp only at g
  rw [hi.lohi] at g
  have hptr : hd' = .pseudo .dc := by
    have : ∀ e ∈ pseudos, ∀ d ∈ dataDirectives, e.name = d.1 → e.label.ptr = .handler (.pseudo .dc) := by decide +kernel
    have := this e he _ hd (hn0.trans hd1.symm)
    rw [hp] at this
    cases this
    rfl
  subst hptr
  refine ⟨_, g, star_of (m := callHandler (asmline n) n (.pseudo .dc) e.label.modifier x (some o)) (by unfold callHandler; walk) hc,
    data_met h2 hvs, fun hP => ?_⟩
  obtain ⟨ho, hv⟩ := Match.values (isa := isa) hm hi.seg hi.toBase.here (star_word M) B.here (fun n hn => (B.used n hn).imp_right fun h => ⟨h.1, hpp h.2⟩) B.free
  have hz : ∀ d ∈ Spec.Program.directives, d.2.1 ≤ 4 := by decide
  have hz := hz _ hw
  dsimp only at hz
  have hvl : vs.length ≤ 601 := by
    have := pairs_len hvs
    have := joined_len hj
    omega
  have hev := data_values hi ho (fun _ => hv hP) ((hm hP).present hi.seg hi.toBase.here (fun n hn => (B.used n hn).imp_right fun h => ⟨h.1, hpp h.2⟩) B.free) h2 (fun e he x hx => List.mem_flatMap.2 ⟨e, he, hx⟩) hvs
  have hbits : (vs.map BitVec.toInt).flatMap (fun v => Spec.endian (isa.little != swap) size (Spec.Program.bits v)) =
      vs.flatMap fun v => Spec.endian (isa.little != swap) size v.toNat := by
    rw [List.flatMap_map]
    congr 1
    funext v
    unfold Spec.Program.bits
    rw [BitVec.ofInt_toInt]
  refine ⟨?_, fun h1 h2 => ?_⟩
  · rw [flatMap_len _ size (fun _ => endian_len _ _ _)]
    have : vs.length * size ≤ 601 * 4 := Nat.mul_le_mul hvl hz
    omega
  · rw [← hbits]
    exact .data h1 h2 hev

/-- The label an equate makes. -/
def equLabel (old : Option Label) (r : Result) : Label :=
  { defdLabel old { r.flags with undef := false, used := false, noredef := false } r.type r.value with modifier := r.modifier, ptr := r.ptr }

theorem equ_run {x o : Str} {s' : St} {u : Unit} (h : xEqu (some x) (some o) s = .ok u s') :
    ∃ r s1 s2, parse (some o) s = .ok r s1 ∧ Gen [] s s2 ∧ Star HStep (s, .live) (s2, .live) ∧
      s' = { s2 with tree := s2.tree.put (canon s.segment x) (equLabel (s2.tree.find (canon s.segment x)) r) } := by
  unfold xEqu at h
  obtain ⟨r, s1, h1, h⟩ := bind_ok h
  have g1 := nwalk_gen (m := parse (some o)) W.walk h1
  have t1 := star_n (m := parse (some o)) W.walk h1
  obtain ⟨_, s1', h2, h⟩ := bind_ok h
  cases h2
  obtain ⟨_, s3, h3, h⟩ := bind_ok h
  have w3 : Walk NStep (whenM (r.type = .absolute ∨ r.type = .relative) (echoAddr r.value)) := by walk
  have g3 := nwalk_gen w3 h3
  have t3 := star_n w3 h3
  obtain ⟨_, s3', h3', h⟩ := bind_ok h
  have g4 : Gen [] s3 s3' ∧ Star HStep (s3, .live) (s3', .live) := by
    unfold whenM at h3'
    by_cases hs : (some x = some starKey : Prop)
    · rw [if_pos (by simpa using hs)] at h3'
      cases h3'
      refine ⟨⟨by simp [byteEvents], by simp, by simp, ⟨s3.flags.listOn, rfl⟩, rfl, rfl, .refl _, .refl _ _⟩, ?_⟩
      exact .tail (.refl _) (.note s3 _ (by intro k v; simp))
    · rw [if_neg (by simpa using hs)] at h3'
      cases h3'
      exact ⟨.refl _, .refl _⟩
  change (deflabel x _ _ _ >>= _) s3' = _ at h
  obtain ⟨k, s4, h4, h⟩ := bind_ok h
  have g2 : Gen [] s1 { s1 with calcR := { r with flags := { r.flags with undef := false, used := false, noredef := false } } } :=
    ⟨by simp [byteEvents], by simp, by simp, ⟨s1.flags.listOn, rfl⟩, rfl, rfl, .refl _, .refl _ _⟩
  have t2 : Star HStep (s1, .live) ({ s1 with calcR := { r with flags := { r.flags with undef := false, used := false, noredef := false } } }, .live) :=
    .tail (.refl _) (.n (.scratch s1 s1.lst s1.bufpos _ s1.flags.listOn))
  have g := ((g1.trans g2).trans g3).trans g4.1
  have st := ((t1.trans t2).trans t3).trans g4.2
  have hseg : s3'.segment = s.segment := g.segment
  rcases deflabel_run x { r.flags with undef := false, used := false, noredef := false } r.type r.value s3' with ⟨msg, e⟩ | ⟨-, e⟩
  · rw [e] at h4; exact (error_not_ok h4).elim
  · rw [e] at h4
    injection h4 with e1 e2
    subst e1; subst e2
    rw [getS_bind_run] at h
    have hf : ∀ y, (s3'.putL (canon s3'.segment x) y).tree.find (canon s3'.segment x) = some y := fun y => Tree.find_put_self _ _ _
    rw [hf] at h
    cases h
    refine ⟨r, s1, s3', h1, g, st, ?_⟩
    rw [← hseg]
    simp only [St.putL, Tree.put_put]
    rfl

theorem equ_word : ∃ e ∈ pseudos, e.name.map toupper = c!"EQU" ∧ e.label.type = .mnemo ∧ e.label.ptr = .handler (.pseudo .equ) ∧
    e.label.flags.deflabel = true ∧ e.label.flags.defmacro = false ∧ e.label.flags.defcond = false ∧ e.label.flags.nolabel = false := by decide +kernel

theorem equ_front (M : Machine isa voc cf) {n : Nat} {t m x o : Str} (hi : Inv isa voc cf s) (hlen : s.curline.length ≤ 600)
    (hS : Spec.Stmt (fun w => key w ∈ isa.words) t (some x) m (some o)) (hA : Spec.Around t s.curline) (hm : key m = c!"EQU")
    (hx : x = ['*'] ∨ Free isa x) {rc : RC} {s' : St} (h : asmline (n + 1) ⟨true, true⟩ s = .ok rc s') :
    rc = .cont ∧ ∃ s1 s3 s4 u0 u u', Split s s1 ∧ xEqu (some x) (some o) s1 = .ok u0 s3 ∧ bumpStar s3 = .ok u s4 ∧ outputline s4 = .ok u' s' := by
  obtain ⟨e, he, e1, e2, e3, e4, e5, e6, -⟩ := equ_word
  obtain ⟨l, hl, hw, -⟩ := word_entry M hi.toBase (List.mem_append_left _ he) e2 (e1.trans hm.symm)
  have hk := stmt_known hi.toBase hS (by unfold C41.Known; rw [hl]; rfl) fun y hy => by cases hy; exact hx
  obtain ⟨s1, hs, h1⟩ := C41.C41_line (n := n) (st := ⟨true, true⟩) hk hA hlen
  rw [h1, hl] at h
  obtain ⟨w1, w2, w3, w4, w5, w6, w7, w8, -⟩ := hw
  obtain ⟨rfl, r, s2, s3, s4, u, u', hL, h2, h3, h4⟩ := mnemo_ok h (w1.trans e2) (w8.trans e6) (w7.trans e5) (w3.trans e3)
  rw [w6, e4] at hL
  cases hL
  refine ⟨rfl, s1, s3, s4, (), u, u', hs, ?_, h3, h4⟩
  obtain ⟨u1, s3', h5, h6⟩ := bind_ok (show (xEqu (some x) (some o) >>= fun _ => pure RC.cont) s1 = .ok r s3 from h2)
  cases h6
  exact h5

/-- The location counter is put in. -/
theorem Base.put_star (M : Machine isa voc cf) (h : Base isa voc s) {l : Label} (hl : l.type = .absolute) :
    Base isa voc { s with tree := s.tree.put starKey l } := by
  refine ⟨h.stack, h.seg, h.on, h.rel, ⟨.inr (by show ((s.tree.put starKey _).find starKey).isSome; rw [Tree.find_put_self]; rfl), .inl h.rel, fun k l' hk hl' => ?_⟩, fun e he => ?_, ?_⟩
  · change (s.tree.put starKey _).find k = some l' at hl'
    by_cases hne : k = starKey
    · subst hne
      rw [Tree.find_put_self] at hl'
      cases hl'
      exact fun _ => hl
    · rw [Tree.find_put_ne _ _ hne] at hl'
      exact h.numeric.abs k l' hk hl'
  · obtain ⟨l, h1, h2⟩ := h.vocab e he
    exact ⟨l, by show (s.tree.put starKey _).find _ = _; rw [Tree.find_put_ne _ _ (not_star M e he)]; exact h1, h2⟩
  · exact ⟨_, Tree.find_put_self _ _ _, fun _ => hl⟩
theorem Inv.put_star (M : Machine isa voc cf) (h : Inv isa voc cf s) {l : Label} (hl : l.type = .absolute) :
    Inv isa voc cf { s with tree := s.tree.put starKey l } :=
  ⟨h.toBase.put_star M hl, h.pass, h.lohi, h.cpu⟩

theorem star_put (l : Label) : starLabel { s with tree := s.tree.put starKey l } = l := by
  unfold starLabel
  dsimp only
  rw [Tree.find_put_self]; rfl

theorem org_line (M : Machine isa voc cf) {n : Nat} {t m o : Str} {k : Spec.Level} {e : Spec.Expr} (B : Before isa voc cf P addr late ls qs ds σ s none (.org e))
    (hS : Spec.Stmt (fun w => key w ∈ isa.words) t (some ['*']) m (some o)) (hA : Spec.Around t s.curline) (hm : key m = c!"EQU")
    (ht : Spec.Text k e o) {rc : RC} {s' : St} (h : asmline (n + 1) ⟨true, true⟩ s = .ok rc s') :
    rc = .cont ∧ Did isa voc cf P addr late ls qs ds σ s none (.org e) s' := by
  obtain ⟨rfl, s1, s3, s4, u0, u, u', hs, h1, h2, h3⟩ := equ_front M B.inv B.len hS hA hm (.inl rfl) h
  refine ⟨rfl, ?_⟩
  obtain ⟨f1, f2, f3, f4, f5, f6, f7, f8⟩ := split_facts hs
  have hi1 := B.inv.split hs
  have hm1 := fun hP => (B.mat hP).split hs
  obtain ⟨ho, hv⟩ := Match.values (isa := isa) hm1 hi1.seg hi1.toBase.here (star_word M) B.here (fun n hn => (B.used n hn).imp_right fun h => ⟨h.1, by
    have : starLabel s1 = starLabel s := by unfold starLabel; rw [f1]
    unfold Placed
    rw [this]
    exact h.2⟩) B.free
  obtain ⟨r, s1', s2, hpar, g, st, rfl⟩ := equ_run h1
  rw [hi1.seg, canon_star] at h2
  obtain ⟨hty, hval⟩ := parse_tells ht hi1.numeric ho hv hpar
  have hi2 := hi1.gen g st
  have fr := Fr.hstar st
  obtain ⟨v, hv', rfl⟩ := bump_ok h2
  rw [star_put] at hv' h3
  have hadv : s2.advance = 0 := by rw [g.advance, f6]; rfl
  change addS r.value (BitVec.ofInt 64 s2.advance) = some v at hv'
  rw [hadv, addS_zero] at hv'
  cases hv'
  have h3 : outputline { s2 with tree := s2.tree.put starKey (equLabel (s2.tree.find starKey) r) } = .ok u' s' := by
    rw [← h3]
    congr 2
    exact (Tree.put_put _ _ _ _).symm
  have hi4 : Inv isa voc cf { s2 with tree := s2.tree.put starKey (equLabel (s2.tree.find starKey) r) } := hi2.put_star M hty
  have g5 := nwalk_gen (m := outputline) W.walk h3
  have st5 := star_n (m := outputline) W.walk h3
  have f5' := Fr.hstar st5
  have hs4 : (({ s2 with tree := s2.tree.put starKey (equLabel (s2.tree.find starKey) r) } : St).tree.find starKey).isSome := by
    show ((s2.tree.put starKey _).find starKey).isSome
    rw [Tree.find_put_self]; rfl
  obtain ⟨b1, b2, -⟩ := star_gen g5 hs4
  have hp5 : Placed s' := by
    unfold Placed
    rw [b2, star_put]
    rfl
  refine ⟨hi4.gen g5 st5, f5'.main.trans (fr.main.trans f4), f5'.eof.trans (fr.eof.trans f5), fun _ => hp5, fun _ => hp5, fun n hn _ => ?_, fun y hy => (by cases hy),
    fun B hB => gen_over g5 hi4.pass hi4.on (gen_over (s' := s2) g hi1.pass hi1.on (show Over B s1.log by rw [f3]; exact hB)), fun hP => ?_, fun h => (by cases h)⟩
  · have := parse_met ht hpar n hn
    rw [hi1.seg, B.names n hn] at this
    intro l hl
    exact this l (by rw [f1]; exact hl)
  have hs1 := hi1.toBase.here
  have hf : (equLabel (s2.tree.find starKey) r).flags.forward = false := by
    have h1 : r.flags.forward = false := by
      rw [(hval hP).2, List.any_eq_false]
      intro n hn
      rw [B.calm hP e rfl n hn]
      decide
    have h2 := ((hm1 hP).gen g hs1).calm
    obtain ⟨l, h3⟩ := Option.isSome_iff_exists.1 (star_gen g hs1).2.2.1
    unfold starLabel at h2
    rw [h3] at h2 ⊢
    show (l.flags.forward || r.flags.forward) = false
    rw [h1, Bool.or_false]
    exact h2
  refine ⟨_, _, .org (hval hP).1, ?_, ?_⟩
  · refine Match.gen ?_ g5 hs4
    refine ((hm1 hP).gen g hs1).tree (fun k l hk hl => ?_) (fun _ => ?_) (by rw [star_put]; exact hf)
    · exact ⟨l, by show (s2.tree.put starKey _).find k = _; rw [Tree.find_put_ne _ _ hk]; exact hl, rfl, rfl⟩
    · rw [star_put]
      rfl
  · have i3 := image_gen g hi1.pass hi1.on fun h => absurd rfl h
    have i5 := image_gen g5 hi4.pass hi4.on fun h => absurd rfl h
    rw [i5, show Spec.Program.place _ [] = [] from rfl, List.append_nil, List.append_nil]
    show image s2.log = _
    rw [i3, f3, show Spec.Program.place _ [] = [] from rfl, List.append_nil]

theorem equ_line (M : Machine isa voc cf) {n : Nat} {t m x o : Str} {k : Spec.Level} {e : Spec.Expr} (B : Before isa voc cf P addr late ls qs ds σ s (some x) (.equ e))
    (hS : Spec.Stmt (fun w => key w ∈ isa.words) t (some x) m (some o)) (hA : Spec.Around t s.curline) (hm : key m = c!"EQU")
    (hx : Free isa x) (ht : Spec.Text k e o) {rc : RC} {s' : St} (h : asmline (n + 1) ⟨true, true⟩ s = .ok rc s') :
    rc = .cont ∧ Did isa voc cf P addr late ls qs ds σ s (some x) (.equ e) s' := by
  obtain ⟨rfl, s1, s3, s4, u0, u, u', hs, h1, h2, h3⟩ := equ_front M B.inv B.len hS hA hm (.inr hx) h
  refine ⟨rfl, ?_⟩
  obtain ⟨f1, f2, f3, f4, f5, f6, f7, f8⟩ := split_facts hs
  have hst : starLabel s1 = starLabel s := by unfold starLabel; rw [f1]
  have hi1 := B.inv.split hs
  have hm1 := fun hP => (B.mat hP).split hs
  obtain ⟨ho, hv⟩ := Match.values (isa := isa) hm1 hi1.seg hi1.toBase.here (star_word M) B.here (fun n hn => (B.used n hn).imp_right fun h => ⟨h.1, by
    have : starLabel s1 = starLabel s := by unfold starLabel; rw [f1]
    unfold Placed
    rw [this]
    exact h.2⟩) B.free
  obtain ⟨r, s1', s2, hpar, g, st, rfl⟩ := equ_run h1
  obtain ⟨hc, hr⟩ := free_key (n := x) hx rfl
  have hne : starKey ≠ key x := fun h => hr (.inl h.symm)
  rw [hi1.seg, hc] at h2
  obtain ⟨hty, hval⟩ := parse_tells ht hi1.numeric ho hv hpar
  have hi2 := hi1.gen g st
  have fr := Fr.hstar st
  have hs1 : (s1.tree.find starKey).isSome := by obtain ⟨l, h, -⟩ := hi1.star; rw [h]; rfl
  obtain ⟨a1, a2, a3, a4⟩ := star_gen g hs1
  have hi3 : Inv isa voc cf { s2 with tree := s2.tree.put (key x) (equLabel (s2.tree.find (key x)) r) } := by
    have := hi2.label hx (v := r.value) (fl := { r.flags with undef := false, used := false, noredef := false }) (m := r.modifier) (p := r.ptr) (ns := s2.notes) M
    unfold equLabel
    rw [hty]
    exact this
  have hst3 : starLabel { s2 with tree := s2.tree.put (key x) (equLabel (s2.tree.find (key x)) r) } = starLabel s2 := by
    unfold starLabel
    dsimp only
    rw [Tree.find_put_ne _ _ hne]
  obtain ⟨v, hv', rfl⟩ := bump_ok h2
  have hadv : s2.advance = 0 := by rw [g.advance, f6]; rfl
  change addS (starLabel _).value (BitVec.ofInt 64 s2.advance) = some v at hv'
  rw [hst3, hadv, addS_zero] at hv'
  cases hv'
  have hi4 := hi3.bumped (v := (starLabel s2).value) (not_star M)
  generalize e3 : ({ s2 with tree := s2.tree.put (key x) (equLabel (s2.tree.find (key x)) r) } : St) = s3 at *
  have e4 : starLabel { s3 with tree := s3.tree.put starKey { starLabel s3 with value := (starLabel s2).value } } = starLabel s2 := by
    rw [star_put, hst3]
  have g5 := nwalk_gen (m := outputline) W.walk h3
  have st5 := star_n (m := outputline) W.walk h3
  have f5' := Fr.hstar st5
  have hs4 : (({ s3 with tree := s3.tree.put starKey { starLabel s3 with value := (starLabel s2).value } } : St).tree.find starKey).isSome := by
    show ((s3.tree.put starKey _).find starKey).isSome
    rw [Tree.find_put_self]; rfl
  obtain ⟨b1, b2, -⟩ := star_gen g5 hs4
  have hpl : Placed s → Placed s' := by
    unfold Placed
    rw [b2, e4, a2, hst]
    exact id
  have m1 : s3.main = s2.main := by rw [← e3]
  have m2 : s3.mainEof = s2.mainEof := by rw [← e3]
  refine ⟨hi4.gen g5 st5, f5'.main.trans (m1.trans (fr.main.trans f4)), f5'.eof.trans (m2.trans (fr.eof.trans f5)), hpl, fun h => (by cases h),
    fun n hn _ => ?_, fun y hy hn => absurd rfl (hn e), fun _ hB => ?_, fun hP => ?_, fun _ hq => ?_⟩
  · have := parse_met ht hpar n hn
    rw [hi1.seg, B.names n hn] at this
    intro l hl
    exact this l (by rw [f1]; exact hl)
  · refine gen_over g5 hi4.pass hi4.on ?_
    show Over _ s3.log
    rw [show s3.log = s2.log by rw [← e3]]
    exact gen_over g hi1.pass hi1.on (by rw [f3]; exact hB)
  rotate_left
  · unfold Placed at hq
    rw [b2, e4, a2, hst] at hq
    rw [b1, e4, a1, hst, g5.pc]
    show s3.code.pc + BitVec.ofNat 64 0 = _
    rw [show s3.code = s2.code by rw [← e3], g.pc, f8 hq]
    simp
  obtain ⟨hev, hfw⟩ := hval hP
  have mm := (hm1 hP).gen g hs1
  obtain ⟨hkls, hkqs⟩ := B.equ x e rfl rfl
  have hmark : (equLabel (s2.tree.find (key x)) r).flags.forward = ((σ.env (key x)).any (·.2) || e.names.any (σ.late late)) := by
    have : ∃ l, s2.tree.find (key x) = some l ∧ l.flags.forward = (σ.env (key x)).any (·.2) := by
      cases hen : σ.env (key x) with
      | none =>
        obtain ⟨-, l, h1, h2⟩ := mm.pre _ hkqs hen
        exact ⟨l, h1, h2⟩
      | some w =>
        obtain ⟨-, l, h1, -, h2⟩ := mm.env _ w.1 w.2 (by rw [hen])
        exact ⟨l, h1, h2⟩
    obtain ⟨l, h1, h2⟩ := this
    rw [← h2, ← hfw, h1]
    rfl
  refine ⟨_, _, .equ hev, ?_, ?_⟩
  · refine Match.gen ?_ g5 hs4
    have ft : ∀ k, k ≠ starKey → k ≠ key x → (s3.tree.put starKey { starLabel s3 with value := (starLabel s2).value }).find k = s2.tree.find k := by
      intro k h1 h2
      rw [Tree.find_put_ne _ _ h1, ← e3]
      exact Tree.find_put_ne _ _ h2
    have fx : (s3.tree.put starKey { starLabel s3 with value := (starLabel s2).value }).find (key x) = some (equLabel (s2.tree.find (key x)) r) := by
      rw [Tree.find_put_ne _ _ hne.symm, ← e3]
      exact Tree.find_put_self _ _ _
    refine ⟨fun hp => ?_, fun k v b hk => ?_, fun k hk => ?_, fun k hk => ?_, fun k hk he => ?_, by rw [e4]; exact mm.calm⟩
    · unfold Placed at hp
      rw [e4] at hp ⊢
      exact mm.pc hp
    · unfold Spec.Program.State.set at hk
      dsimp only at hk
      by_cases ek : k = key x
      · rw [if_pos ek] at hk
        cases hk
        subst ek
        exact ⟨hne.symm, _, fx, rfl, hmark⟩
      · rw [if_neg ek] at hk
        obtain ⟨h1, l, h2, h3⟩ := mm.env k v b hk
        exact ⟨h1, l, by show (s3.tree.put starKey _).find k = _; rw [ft k h1 ek]; exact h2, h3⟩
    · obtain ⟨h1, h2, l, h3, h4⟩ := mm.lab k hk
      have ek : k ≠ key x := fun e => hkls (e ▸ hk)
      refine ⟨h1, ?_, l, by show (s3.tree.put starKey _).find k = _; rw [ft k h1 ek]; exact h3, h4⟩
      unfold Spec.Program.State.set
      dsimp only
      rw [if_neg ek]
      exact h2
    · unfold Spec.Program.State.set
      dsimp only
      by_cases ek : k = key x
      · rw [if_pos ek]; rfl
      · rw [if_neg ek]
        rcases List.mem_append.1 hk with hk | hk
        · exact absurd (List.mem_singleton.1 hk) ek
        · exact mm.eqs k hk
    · unfold Spec.Program.State.set at he
      dsimp only at he
      by_cases ek : k = key x
      · rw [if_pos ek] at he; cases he
      · rw [if_neg ek] at he
        obtain ⟨h1, l, h2, h3⟩ := mm.pre k hk he
        exact ⟨h1, l, by show (s3.tree.put starKey _).find k = _; rw [ft k h1 ek]; exact h2, h3⟩
  · have i3 := image_gen g hi1.pass hi1.on fun h => absurd rfl h
    have i5 := image_gen g5 hi4.pass hi4.on fun h => absurd rfl h
    rw [i5, show Spec.Program.place _ [] = [] from rfl, List.append_nil, List.append_nil]
    have : s3.log = s2.log := by rw [← e3]
    show image s3.log = _
    rw [this, i3, f3, show Spec.Program.place _ [] = [] from rfl, List.append_nil]

/-- Nothing but the listing. -/
theorem list_line {s2 s' : St} {x : Option Str} {u : Unit} (hi2 : Inv isa voc cf s2) (hm2 : P → Match addr late ls qs ds σ s2) (h3 : outputline s2 = .ok u s')
    (e1 : s2.log = s.log) (e2 : s2.main = s.main) (e3 : s2.mainEof = s.mainEof) (e4 : starLabel s2 = starLabel s)
    (e5 : ∀ y, x = some y → (2, Note.label (key y) (starLabel s).value) ∈ s2.notes)
    (e6 : Placed s → s2.code.pc = (starLabel s).value)
    (hst : P → Spec.Program.Step isa addr late σ (x, .nothing) [] σ) : Did isa voc cf P addr late ls qs ds σ s x .nothing s' := by
  have g5 := nwalk_gen (m := outputline) W.walk h3
  have st5 := star_n (m := outputline) W.walk h3
  have f5 := Fr.hstar st5
  have hs2 : (s2.tree.find starKey).isSome := by obtain ⟨l, h, -⟩ := hi2.star; rw [h]; rfl
  obtain ⟨b1, b2, -⟩ := star_gen g5 hs2
  refine ⟨hi2.gen g5 st5, f5.main.trans e2, f5.eof.trans e3, ?_, fun h => (by cases x <;> cases h), fun n hn => (by cases hn), fun y hy _ => f5.notes.subset (e5 y hy),
    fun _ hB => gen_over g5 hi2.pass hi2.on (by rw [e1]; exact hB), fun hP => ?_, fun _ hq => ?_⟩
  · unfold Placed
    rw [b2, e4]
    exact id
  · refine ⟨[], σ, hst hP, ?_, ?_⟩
    · have : Spec.Program.equates ([(x, .nothing)] : Spec.Program.Lines isa) = [] := by cases x <;> rfl
      rw [this]
      exact (hm2 hP).gen g5 hs2
    · rw [image_gen g5 hi2.pass hi2.on fun h => absurd rfl h, e1]
      rfl
  · unfold Placed at hq
    rw [b2, e4] at hq
    rw [b1, e4, g5.pc, e6 hq]
    exact BitVec.add_zero _

theorem label_line (M : Machine isa voc cf) {n : Nat} {x : Str} (B : Before isa voc cf P addr late ls qs ds σ s (some x) .nothing)
    (hA : Spec.Around x s.curline) (hc : ∃ c r, s.curline = c :: r ∧ ¬ Spec.IsBlank c)
    (hx : Free isa x) {rc : RC} {s' : St} (h : asmline (n + 1) ⟨true, true⟩ s = .ok rc s') :
    rc = .cont ∧ Did isa voc cf P addr late ls qs ds σ s (some x) .nothing s' := by
  have hw : Spec.Word x := by
    obtain ⟨-, c, r, rfl, -⟩ := isName_len hx.name
    refine ⟨by simp, fun d hd => ?_⟩
    have hd' : d.isAlphanum ∨ d = '_' ∨ d = '.' := by
      rcases List.mem_cons.1 hd with rfl | hd
      · exact hx.name.1.imp_left fun h => by simp [Char.isAlphanum, h]
      · exact hx.name.2.1 d hd
    intro hm
    revert hd'
    simp only [List.mem_cons, List.not_mem_nil, or_false] at hm
    rcases hm with rfl | rfl | rfl | rfl | rfl | rfl | rfl | rfl <;> decide
  obtain ⟨s1, hs, h1⟩ := C41.C41_lone (n := n) hw hA B.len (not_known B.inv.toBase (.inr hx)) hc
  rw [h1] at h
  obtain ⟨u1, s2, h2, h⟩ := bind_ok h
  obtain ⟨u2, s3, h3, h⟩ := bind_ok h
  cases h
  refine ⟨rfl, ?_⟩
  have hL : Labelled false (some x) s1 s2 := h2
  obtain ⟨hi2, hm2, e1, e2, e3, e4, e5, e6, e7, e8, e9⟩ := labelled_ok M B (fun e => by simp) (fun y hy => by cases hy; exact hx) hs hL
  refine list_line hi2 hm2 h3 e1 e2 e3 e7 (fun y hy => (e8 y hy).2) (fun hq => by rw [e6]; exact (split_facts hs).2.2.2.2.2.2.2 hq) fun hP => ?_
  refine .label (a := (starLabel s).value.toInt) ?_ (B.self hP x rfl fun e => by simp)
  exact (B.mat hP).pc (e8 x rfl).1

theorem blank_line {n : Nat} (B : Before isa voc cf P addr late ls qs ds σ s none .nothing)
    (hA : Spec.Around [] s.curline) {rc : RC} {s' : St} (h : asmline (n + 1) ⟨true, true⟩ s = .ok rc s') :
    rc = .cont ∧ Did isa voc cf P addr late ls qs ds σ s none .nothing s' := by
  obtain ⟨b, cl, h1, hb, hc⟩ := stripLine_around (s := startedSt s) InLine.nil hA
    (by have := B.len; show 0 + (2 + s.curline.length) < 4000; omega)
  have hs : Split s { startedSt s with bufpos := b, curline := cl } := by
    refine ⟨b, cl, s.notes, rfl, ?_, hc⟩
    change b ≤ 0 + (2 + s.curline.length) at hb
    omega
  change asmlineF (asmline n) n ⟨true, true⟩ s = _ at h
  unfold asmlineF at h
  rw [run_ok (startLine_eq s), getS_bind_run, run_ok h1, if_pos rfl] at h
  obtain ⟨u2, s3, h3, h⟩ := bind_ok h
  cases h
  obtain ⟨f1, f2, f3, f4, f5, f6, f7, f8⟩ := split_facts hs
  have hst : starLabel { startedSt s with bufpos := b, curline := cl } = starLabel s := by unfold starLabel; rw [f1]
  exact ⟨rfl, list_line (B.inv.split hs) (fun hP => (B.mat hP).split hs) h3 f3 f4 f5 hst (fun y hy => by cases hy) f8 fun _ => .nothing⟩

/-- **One line.**  Any line of the language does what the semantics says. -/
theorem line_ok (M : Machine isa voc cf) {n : Nat} {x : Option Str} {body : Body isa.Ins} (hl : Line isa s.curline x body)
    (B : Before isa voc cf P addr late ls qs ds σ s x body) {rc : RC} {s' : St} (h : asmline (n + 1) ⟨true, true⟩ s = .ok rc s') :
    rc = .cont ∧ Did isa voc cf P addr late ls qs ds σ s x body s' := by
  generalize hc : s.curline = line at hl
  cases hl with
  | blank hA => exact blank_line B (hc ▸ hA) h
  | label hA hf hx => exact label_line M B (hc ▸ hA) (hc ▸ hf) hx h
  | org hA hS hm ht => exact org_line M B hS (hc ▸ hA) hm ht h
  | equ hA hS hm hx ht => exact equ_line M B hS (hc ▸ hA) hm hx ht h
  | data hA hS hd hx hj h2 => exact data_line M B hS (hc ▸ hA) hd hx hj h2 h
  | ins hA hS hw hx => exact ins_line M B hS (hc ▸ hA) hw hx h
end

end Crasm.C42

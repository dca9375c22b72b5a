import Verif.Proof.Comp
import Verif.Proof.ProgFirst

/-! Programs that stand for something are not refused: pass 1. -/

namespace Crasm.C42
open Spec.Program (Isa key Free Body Line State Lines Proper All2 labels hasOrg)

section
variable {isa : Isa}

/-- A name used in the lines. -/
def Used (a : Lines isa) (k : Str) : Prop := ∃ x ∈ a, ∃ n ∈ x.2.uses, key n = k

theorem late_used (a : Lines isa) {x : Option Str × Body isa.Ins} {b : Lines isa} {k : Str} (hk : k ∈ labels [x])
    (hl : Spec.Program.late (a ++ x :: b) k = true) : Used a k := by
  induction a with
  | nil =>
    rw [List.nil_append] at hl
    unfold Spec.Program.late at hl
    rw [show (labels [x]).contains k = true from List.contains_iff_mem.2 hk] at hl
    cases hl
  | cons z a ih =>
    rw [List.cons_append] at hl
    unfold Spec.Program.late at hl
    simp only [Bool.and_eq_true, Bool.or_eq_true, List.contains_iff_mem] at hl
    rcases hl.2 with h | h
    · obtain ⟨n, hn, e⟩ := List.mem_map.1 h.1
      exact ⟨z, List.mem_cons_self, n, hn, e⟩
    · obtain ⟨y, hy, h⟩ := ih h
      exact ⟨y, List.mem_cons_of_mem _ hy, h⟩

variable {voc : List Entry} {cf : Option Int} {p a b : Lines isa} {x : Option Str × Body isa.Ins} {s s' : St} {addr : Str → Int} {σ σ' : State} {top : Option Int × Nat}

/-- The address behind the latest byte, and the number of bytes; all are part of the code. -/
def Tip (top : Option Int × Nat) (log : List Event) : Prop :=
  (bytesOf log).head?.map (fun x => (x.2.1 + 1).toInt) = top.1 ∧ (bytesOf log).length = top.2 ∧ ∀ x ∈ bytesOf log, x.2.2.2 = true

/-- The address behind the last byte of some code. -/
def topOf (img : List (Int × Byte)) : Option Int := img.getLast?.map (·.1 + 1)

/-- The same, with more code. -/
def grown (top : Option Int × Nat) (img : List (Int × Byte)) : Option Int × Nat := ((topOf img).or top.1, top.2 + img.length)
theorem grown_nil (top : Option Int × Nat) : grown top [] = top := rfl

theorem grown_append (top : Option Int × Nat) (a b : List (Int × Byte)) : grown (grown top a) b = grown top (a ++ b) := by
  unfold grown topOf
  refine Prod.ext ?_ (by show top.2 + a.length + b.length = _; rw [List.length_append]; omega)
  dsimp only
  cases b with
  | nil => simp
  | cons x b =>
    rw [List.getLast?_append]
    cases h : (x :: b).getLast? with
    | none => simp at h
    | some y => rfl

theorem place_length (bs : List Byte) : ∀ a : Int, (Spec.Program.place a bs).length = bs.length := by
  induction bs with
  | nil => intro a; rfl
  | cons b bs ih => intro a; exact congrArg (· + 1) (ih (a + 1))

theorem topOf_place (bs : List Byte) : ∀ a : Int, topOf (Spec.Program.place a bs) = if bs = [] then none else some (a + bs.length) := by
  induction bs with
  | nil => intro a; rfl
  | cons b bs ih =>
    intro a
    unfold Spec.Program.place
    cases bs with
    | nil => rfl
    | cons c bs =>
      have := ih (a + 1)
      unfold topOf at this ⊢
      rw [if_neg (by simp)] at this ⊢
      rw [show ((a, b) :: Spec.Program.place (a + 1) (c :: bs)).getLast? = (Spec.Program.place (a + 1) (c :: bs)).getLast? from by
        unfold Spec.Program.place; exact List.getLast?_cons_cons, this]
      congr 1
      simp only [List.length_cons]
      omega

theorem tip_bytes {q : Nat} {on : Bool} (bs : List Byte) : ∀ (a : Word) (log : List Event), bs ≠ [] →
    (bytesOf ((byteEvents q on a bs).reverse ++ log)).head?.map (fun x => x.2.1 + 1) = some (a + BitVec.ofNat 64 bs.length) := by
  induction bs with
  | nil => intro a log h; exact absurd rfl h
  | cons b bs ih =>
    intro a log _
    unfold byteEvents
    rw [List.reverse_cons, List.append_assoc]
    cases bs with
    | nil => rfl
    | cons c bs =>
      rw [ih _ _ (by simp), BitVec.add_assoc]
      congr 2
      simp only [List.length_cons]
      apply BitVec.eq_of_toNat_eq
      simp only [BitVec.toNat_add, BitVec.toNat_ofNat, show (1 : Word).toNat = 1 from rfl]
      omega

theorem count_bytes {q : Nat} {on : Bool} (bs : List Byte) : ∀ (a : Word) (log : List Event),
    (bytesOf ((byteEvents q on a bs).reverse ++ log)).length = bs.length + (bytesOf log).length ∧
    ∀ x ∈ bytesOf ((byteEvents q on a bs).reverse ++ log), x.2.2.2 = on ∨ x ∈ bytesOf log := by
  induction bs with
  | nil => intro a log; exact ⟨(Nat.zero_add _).symm, fun x hx => .inr hx⟩
  | cons b bs ih =>
    intro a log
    unfold byteEvents
    rw [List.reverse_cons, List.append_assoc]
    obtain ⟨h1, h2⟩ := ih (a + 1) ([Event.byte q a b on] ++ log)
    refine ⟨?_, fun x hx => ?_⟩
    · rw [h1]
      show bs.length + ((bytesOf log).length + 1) = bs.length + 1 + _
      omega
    · rcases h2 x hx with h | h
      · exact .inl h
      · rcases List.mem_cons.1 h with rfl | h
        · exact .inl rfl
        · exact .inr h

/-- Between two lines in pass 1: `a` are the lines done, `σ` is what the program stands for so far. -/
structure First (isa : Isa) (cf : Option Int) (addr : Str → Int) (p a : Lines isa) (top : Option Int × Nat) (σ : State) (s : St) : Prop where
  pass : s.passnumber = 1
  lohi : s.flags.lohi = isa.little
  cpu : ∀ k ∈ cf, s.cpuflag = k
  pc : ∀ v, σ.pc = some v → (starLabel s).value.toInt = v
  labs : ∀ k ∈ labels a, ∃ l, s.tree.find k = some l ∧ l.flags.undef = false ∧ l.flags.noredef = true ∧ l.value.toInt = addr k ∧
    l.flags.forward = Spec.Program.late p k
  equs : ∀ k ∈ Spec.Program.equates a, ∃ l v, s.tree.find k = some l ∧ σ.env k = some (v, l.flags.forward) ∧
    (l.flags.forward = false → l.value.toInt = v)
  rest : ∀ k, k ∉ Spec.Program.equates a → σ.env k = none
  used : ∀ k, Used a k → Has s k
  org : hasOrg a = true → σ.pc.isSome
  /-- where the latest byte ends -/
  tip : Tip top s.log

theorem Site.labs (S : Site isa p a x b) {k : Str} : k ∈ labels p ↔ k ∈ labels a ∨ k ∈ labels [x] ∨ k ∈ labels b := by
  rw [S.eq, labels_append, labels_cons, List.mem_append, List.mem_append]
theorem Site.sep (S : Site isa p a x b) {k : Str} (h : k ∈ labels a) : k ∉ labels [x] := by
  have := S.proper.once
  rw [S.eq, labels_append, labels_cons] at this
  exact fun h' => (List.nodup_append.1 this).2.2 _ h _ (List.mem_append_left _ h') rfl
theorem Site.apart (S : Site isa p a x b) {k : Str} (h : k ∈ labels p) : k ∉ Spec.Program.equates a := fun h' => S.proper.apart k (S.equates h') h
theorem Site.nostar (S : Site isa p a x b) {k : Str} (h : k ∈ labels p ∨ k ∈ Spec.Program.equates p) : k ≠ starKey := by
  rintro rfl
  obtain ⟨y, h1, h2⟩ := S.free starKey h
  have := (free_key (n := y) h1 rfl).2
  rw [h2] at this
  exact this (.inl rfl)
theorem Site.real (S : Site isa p a x b) {k : Str} (h : k ∈ labels p ∨ k ∈ Spec.Program.equates p) : ¬ Reserved isa k := by
  obtain ⟨y, h1, rfl⟩ := S.free k h
  exact (free_key h1 rfl).2

/-- The label of the line. -/
theorem first_label (S : Site isa p a x b) (h : Half isa voc p a (x :: b) s) (F : First isa cf addr p a top σ s) {s2 : St} (A : After isa voc p a x b s s2) :
    ∀ k ∈ labels [x], ∃ l, s2.tree.find k = some l ∧ l.flags.undef = false ∧ l.flags.noredef = true ∧ l.value = (starLabel s).value ∧
      l.flags.forward = Spec.Program.late p k := by
  intro k hk
  have hkp := S.own k hk
  refine ⟨_, A.defd k hk, rfl, ?_, rfl, ?_⟩
  · cases s.tree.find k with
    | none => rfl
    | some q => show (q.flags.noredef || true) = true; rw [Bool.or_true]
  · cases hf : s.tree.find k with
    | none =>
      show false = _
      cases hl : Spec.Program.late p k with
      | false => rfl
      | true =>
        rw [S.eq] at hl
        have := F.used k (late_used a hk hl)
        unfold Has at this
        rw [hf] at this
        cases this
    | some q =>
      show (q.flags.forward || false) = _
      rw [Bool.or_false]
      have hu := h.mid.ahead k (by rw [labels_cons]; exact List.mem_append_left _ hk) q hf
      have hq := (h.mid.alive F.pass k q (S.real (.inl hkp)) hf).resolve_left (by rw [hu]; decide)
      have := h.mid.forw k q (S.real (.inl hkp)) hf hq
      rw [marks_off _ _ (S.apart hkp)] at this
      rw [hq, this]

/-- What the names stand for in pass 1. -/
theorem first_use (M : Machine isa voc cf) (S : Site isa p a x b) (h : Half isa voc p a (x :: b) s) (F : First isa cf addr p a top σ s) {s2 : St} (A : After isa voc p a x b s s2)
    (hself : ∀ k ∈ labels [x], addr k = (starLabel s).value.toInt) :
    ∃ ρ1 : Str → Int, Values True s2 ρ1 (σ.late (Spec.Program.late p)) x.2.uses ∧ ∀ n ∈ x.2.uses,
      (σ.late (Spec.Program.late p) n = false → σ.value addr n = ρ1 n) ∧
      (σ.late (Spec.Program.late p) n = true → Spec.Program.marks (Spec.Program.late p) a (key n) = true) := by
  have key1 : ∀ n ∈ x.2.uses, match s2.tree.find (key n) with
      | some l => l.flags.forward = σ.late (Spec.Program.late p) n ∧ (σ.late (Spec.Program.late p) n = false → σ.value addr n = l.value.toInt) ∧
          (σ.late (Spec.Program.late p) n = true → Spec.Program.marks (Spec.Program.late p) a (key n) = true)
      | none => σ.late (Spec.Program.late p) n = true ∧ Spec.Program.marks (Spec.Program.late p) a (key n) = true := by
    intro n hn
    have hres := (S.names M hn).2
    have hlab : key n ∈ labels p → σ.late (Spec.Program.late p) n = Spec.Program.late p (key n) ∧ σ.value addr n = addr (key n) := by
      intro hk
      have := F.rest (key n) (S.apart hk)
      unfold State.late State.value
      rw [this]
      exact ⟨rfl, if_neg (S.nostar (.inl hk))⟩
    rcases S.proper.closed a x b S.eq n hn with (hp | he) | ⟨he, ho⟩
    · obtain ⟨g1, g2⟩ := hlab hp
      rcases S.labs.1 hp with h1 | h1 | h1
      · obtain ⟨l, k1, -, -, k4, k5⟩ := F.labs _ h1
        rw [A.other _ (S.sep h1), k1, g1, g2]
        exact ⟨k5, fun _ => k4.symm, marks_mono _ _⟩
      · obtain ⟨l, k1, -, -, k4, k5⟩ := first_label S h F A _ h1
        rw [k1, g1, g2]
        exact ⟨k5, fun _ => by rw [k4]; exact hself _ h1, marks_mono _ _⟩
      · have hno : key n ∉ labels [x] := fun hc => S.nodup _ hc h1
        have hlt : Spec.Program.late p (key n) = true := by
          have := S.proper.once
          rw [S.eq] at this ⊢
          exact late_of a this hn h1
        rw [A.other _ hno, g1, hlt]
        cases hf : s.tree.find (key n) with
        | none => exact ⟨rfl, marks_mono _ _ hlt⟩
        | some q =>
          have hu := h.mid.ahead (key n) (by rw [labels_cons]; exact List.mem_append_right _ h1) q hf
          exact ⟨(h.mid.alive F.pass _ q (S.real (.inl hp)) hf).resolve_left (by rw [hu]; decide), (fun h => by cases h), fun _ => marks_mono _ _ hlt⟩
    · obtain ⟨l, v, k1, k2, k3⟩ := F.equs _ he
      have hno : key n ∉ labels [x] := fun hc => S.proper.apart _ (S.equates he) (S.own _ hc)
      have : σ.late (Spec.Program.late p) n = l.flags.forward ∧ σ.value addr n = v := by
        unfold State.late State.value
        rw [k2]
        exact ⟨rfl, rfl⟩
      rw [A.other _ hno, k1, this.1, this.2]
      exact ⟨rfl, fun h => (k3 h).symm, fun hf => h.mid.marked hres k1 hf⟩
    · have hno : starKey ∉ labels [x] := fun hc => S.nostar (.inl (S.own _ hc)) rfl
      have hne : starKey ∉ Spec.Program.equates a := fun hc => S.nostar (.inr (S.equates hc)) rfl
      obtain ⟨l, k1, k2⟩ := star_some h.mid.base
      obtain ⟨v, k3⟩ := Option.isSome_iff_exists.1 (F.org ho)
      have k4 := F.pc v k3
      rw [k2] at k4
      have hlt : Spec.Program.late p starKey = false := by
        cases hx : Spec.Program.late p starKey with
        | false => rfl
        | true => exact absurd rfl (S.nostar (.inl (late_mem p hx)))
      have he : key n = starKey := he
      have : σ.late (Spec.Program.late p) n = false ∧ σ.value addr n = v := by
        unfold State.late State.value
        rw [he, F.rest _ hne, k3]
        exact ⟨hlt, if_pos rfl⟩
      rw [he, A.other _ hno, k1, this.1, this.2]
      exact ⟨(h.mid.loc l k1).2, fun _ => k4.symm, fun h => by cases h⟩
  refine ⟨fun n => match s2.tree.find (key n) with | some l => l.value.toInt | none => 0, fun _ n hn => ?_, fun n hn => ?_⟩
  · have := key1 n hn
    unfold searchlabel
    rw [A.mid.base.seg, (S.names M hn).1]
    revert this
    dsimp only
    cases s2.tree.find (key n) with
    | none => exact fun h => ⟨rfl, h.1⟩
    | some l => exact fun h => ⟨rfl, h.1⟩
  · have := key1 n hn
    revert this
    dsimp only
    cases s2.tree.find (key n) with
    | none => exact fun h => ⟨fun h' => (by rw [h.1] at h'; cases h'), fun _ => h.2⟩
    | some l => exact fun h => h.2

theorem After.star (S : Site isa p a x b) {s2 : St} (A : After isa voc p a x b s s2) : starLabel s2 = starLabel s := by
  unfold starLabel
  rw [A.other _ fun h => S.nostar (.inl (S.own _ h)) rfl]

theorem step_org {img : List (Int × Byte)} {late : Str → Bool} (hst : Spec.Program.Step isa addr late σ x img σ') (h : hasOrg a = true → σ.pc.isSome) :
    hasOrg (a ++ [x]) = true → σ'.pc.isSome := by
  intro ho
  rw [hasOrg_append, Bool.or_eq_true] at ho
  cases hst with
  | org _ => rfl
  | data h1 => rfl
  | ins h1 => rfl
  | label h1 => rw [h1]; rfl
  | nothing => exact ho.elim h fun h => by cases h
  | equ _ => exact ho.elim h fun h => by cases h

/-- A line that is not an equate. -/
theorem First.plain (M : Machine isa voc cf) (S : Site isa p a x b) (h : Half isa voc p a (x :: b) s) (F : First isa cf addr p a top σ s) {s2 : St} (A : After isa voc p a x b s s2)
    (hb : ∀ e, x.2 ≠ .equ e) (hself : ∀ k ∈ labels [x], addr k = (starLabel s).value.toInt) (K : Kin [] s2 s')
    (hlo : s'.flags.lohi = s2.flags.lohi) (hpc : ∀ v, σ'.pc = some v → (starLabel s').value.toInt = v) (ho : hasOrg (a ++ [x]) = true → σ'.pc.isSome) (henv : σ'.env = σ.env)
    (hu : ∀ n ∈ x.2.uses, Has s' (canon 0 n)) {top' : Option Int × Nat} (ht : Tip top' s'.log) : First isa cf addr p (a ++ [x]) top' σ' s' := by
  have K' := A.kin.trans (K.mono (List.nil_subset (labels [x])))
  refine ⟨K'.pass.trans F.pass, hlo.trans (A.lohi.trans F.lohi), fun k hk => K'.cpu.trans (F.cpu k hk), hpc, fun k hk => ?_, fun k hk => ?_, fun k hk => ?_, fun k hk => ?_, ho, ht⟩
  · rw [labels_append, List.mem_append] at hk
    rcases hk with hk | hk
    · obtain ⟨l, k1, k2, k3, k4, k5⟩ := F.labs k hk
      obtain ⟨l', j1, j2, j3, j4, j5⟩ := K'.find k l (S.nostar (.inl (S.labs.2 (.inl hk)))) (S.sep hk) k1
      exact ⟨l', j1, j3.trans k2, j5.trans k3, by rw [j4]; exact k4, j2.trans k5⟩
    · obtain ⟨l, k1, k2, k3, k4, k5⟩ := first_label S h F A k hk
      obtain ⟨l', j1, j2, j3, j4, j5⟩ := K.find k l (S.nostar (.inl (S.own k hk))) (by simp) k1
      exact ⟨l', j1, j3.trans k2, j5.trans k3, by rw [j4, k4]; exact (hself k hk).symm, j2.trans k5⟩
  · rw [equates_append, equates_plain hb, List.append_nil] at hk
    obtain ⟨l, v, k1, k2, k3⟩ := F.equs k hk
    have hq := S.equates hk
    obtain ⟨l', j1, j2, j3, j4, j5⟩ := K'.find k l (S.nostar (.inr hq)) (fun hc => S.proper.apart _ hq (S.own _ hc)) k1
    exact ⟨l', v, j1, by rw [henv, j2]; exact k2, fun hf => by rw [j4]; exact k3 (j2.symm.trans hf)⟩
  · rw [equates_append, equates_plain hb, List.append_nil] at hk
    rw [henv]
    exact F.rest k hk
  · obtain ⟨y, hy, n, hn, rfl⟩ := hk
    rcases List.mem_append.1 hy with hy | hy
    · exact K'.some _ (F.used _ ⟨y, hy, n, hn, rfl⟩)
    · rw [List.mem_singleton] at hy
      subst hy
      rw [← (S.names M hn).1]
      exact hu n hn

/-! ### Data and instructions -/

/-- How a statement of `n` bytes ends. -/
def Ends (names : List Str) (n : Nat) (s : St) : Res RC → Prop
  | .ok _ s' => ∃ bs, Gen bs s s' ∧ bs.length = n ∧ ∀ x ∈ names, Has s' (canon 0 x)
  | .err s' => ∃ bs s2 msg, Gen bs s s2 ∧ bs.length = n ∧ (∀ x ∈ names, Has s2 (canon 0 x)) ∧ (error msg : M Unit) s2 = .err s'
  | .stop _ _ => True

/-- What comes after it. -/
theorem ends_after {names : List Str} {n : Nat} {act : M RC} (he : Ends names n s (act s)) (hz : s.advance = 0) (hs : (s.tree.find starKey).isSome)
    (hn : n < 2 ^ 63) : Fares (fun s' => (starLabel s').value.toInt = (starLabel s).value.toInt + n ∧ s'.flags.lohi = s.flags.lohi ∧ (∀ x ∈ names, Has s' (canon 0 x)) ∧
      ∃ bs s2, Gen bs s s2 ∧ bs.length = n ∧ bytesOf s'.log = bytesOf s2.log)
      ((act >>= fun _ => afterwards) s) := by
  rw [bind_run]
  cases e : act s with
  | stop w s' => trivial
  | err s' =>
    rw [e] at he
    obtain ⟨bs, s2, msg, g, hlen, hh, herr⟩ := he
    obtain ⟨b1, -, -⟩ := star_gen g hs
    obtain ⟨f, hf⟩ := g.flags
    have hadv : s2.advance = (n : Int) := by rw [g.advance, hz, hlen]; omega
    rcases error_run (α := Unit) msg s2 with ⟨w, s3, e3, -⟩ | ⟨s3, s4, e3, ⟨l3, b3, f3, rfl⟩, hc⟩
    · rw [e3] at herr; cases herr
    · rw [e3] at herr
      cases herr
      rcases hc with ⟨h0, rfl⟩ | ⟨t, -, ⟨v, hv, rfl⟩, rfl⟩
      · have : n = 0 := by omega
        subst this
        refine ⟨?_, ?_, hh, bs, s2, g, hlen, rfl⟩
        · rw [← b1]
          show (starLabel s2).value.toInt = _
          omega
        · show s2.flags.lohi = _
          rw [hf]
      · rw [hadv] at hv
        obtain ⟨h1, -⟩ := bump_sum hv hn
        refine ⟨?_, ?_, fun x hx => put_has (hh x hx), bs, s2, g, hlen, rfl⟩
        · have : starLabel { s2 with lst := l3, bufpos := b3, tree := s2.tree.put starKey { starLabel s2 with value := v }, log := Event.error s2.passnumber (!s2.flags.noerror) :: s2.log } = { starLabel s2 with value := v } := by
            unfold starLabel
            dsimp only
            rw [Tree.find_put_self]; rfl
          show (starLabel { s2 with lst := l3, bufpos := b3, tree := s2.tree.put starKey { starLabel s2 with value := v }, log := Event.error s2.passnumber (!s2.flags.noerror) :: s2.log }).value.toInt = _
          rw [this, ← b1]
          exact h1
        · show s2.flags.lohi = _
          rw [hf]
  | ok r s1 =>
    rw [e] at he
    obtain ⟨bs, g, hlen, hh⟩ := he
    obtain ⟨b1, -, -⟩ := star_gen g hs
    obtain ⟨f, hf⟩ := g.flags
    have hadv : s1.advance = (n : Int) := by rw [g.advance, hz, hlen]; omega
    show Fares _ (afterwards s1)
    unfold afterwards
    rw [bind_run]
    cases e2 : bumpStar s1 with
    | err s' =>
      unfold bumpStar at e2
      rw [getS_bind_run] at e2
      revert e2
      cases addS (starLabel s1).value (BitVec.ofInt 64 s1.advance) <;> intro e2 <;> cases e2
    | stop w s' => trivial
    | ok u s2 =>
      obtain ⟨v, hv, rfl⟩ := bump_ok e2
      rw [hadv] at hv
      obtain ⟨h1, -⟩ := bump_sum hv hn
      have q := (inferInstance : Quiet outputline).run { s1 with tree := s1.tree.put starKey { starLabel s1 with value := v } }
      show Fares _ ((outputline >>= fun _ => pure .cont : M RC) _)
      rw [bind_run]
      cases e3 : outputline { s1 with tree := s1.tree.put starKey { starLabel s1 with value := v } } with
      | err s' => rw [e3] at q; exact q.elim
      | stop w s' => trivial
      | ok u' s3 =>
        rw [e3] at q
        obtain ⟨l3, b3, f3, rfl⟩ := q
        refine ⟨rfl, ?_, ?_, fun x hx => put_has (hh x hx), bs, s1, g, hlen, rfl⟩
        · have : ∀ (t : St), t.tree = s1.tree.put starKey { starLabel s1 with value := v } → (starLabel t).value = v := by
            intro t ht
            unfold starLabel
            rw [ht, Tree.find_put_self]; rfl
          rw [this _ rfl, ← b1]
          exact h1
        · show s1.flags.lohi = _
          rw [hf]

theorem step_self {img : List (Int × Byte)} (hS : Spec.Program.Step isa addr (Spec.Program.late p) σ x img σ') {v : Int} (hv : ∀ w, σ.pc = some w → v = w) :
    ∀ k ∈ labels [x], addr k = v := by
  intro k hk
  cases hS with
  | nothing => cases hk
  | org _ => cases hk
  | equ _ => cases hk
  | label h1 h2 =>
    rw [show labels _ = _ from label_own (by simp), List.mem_singleton] at hk
    subst hk
    exact h2.trans (hv _ h1).symm
  | @data a l _ _ _ _ h1 h2 _ =>
    cases l with
    | none => cases hk
    | some l =>
      rw [show labels _ = _ from label_own (by simp), List.mem_singleton] at hk
      subst hk
      exact (h2 l rfl).trans (hv _ h1).symm
  | @ins a l _ _ h1 h2 _ =>
    cases l with
    | none => cases hk
    | some l =>
      rw [show labels _ = _ from label_own (by simp), List.mem_singleton] at hk
      subst hk
      exact (h2 l rfl).trans (hv _ h1).symm

theorem Half.base_star (h : Half isa voc p a b s) : (s.tree.find starKey).isSome := by
  obtain ⟨l, h1, -⟩ := h.mid.base.star
  rw [h1]; rfl

/-- Lines that generate bytes, in pass 1. -/
theorem gen_first (M : Machine isa voc cf) (S : Site isa p a x b) (h : Half isa voc p a (x :: b) s) (F : First isa cf addr p a top σ s) {s2 : St}
    (A : After isa voc p a x b s s2) (hb : x.2.generates = true) {img : List (Int × Byte)} (hS : Spec.Program.Step isa addr (Spec.Program.late p) σ x img σ')
    (henv : σ'.env = σ.env) {len : Nat} (hlen : len < 2 ^ 63) {v : Int} (hpc : σ.pc = some v) (hpc' : σ'.pc = some (v + len))
    (himg : topOf img = if len = 0 then none else some (v + len)) (himl : img.length = len) {act : Crasm.M RC}
    (hgo : Goes (fun k => (s2.tree.find k).isSome ∨ (Spec.Program.marks (Spec.Program.late p) a k = true ∧ k ∈ labels p)) s2 (act s2))
    (hend : Ends x.2.uses len s2 (act s2)) : Fares (First isa cf addr p (a ++ [x]) (grown top img) σ') ((act >>= fun _ => afterwards) s2) := by
  have hne : ∀ e, x.2 ≠ .equ e := by intro e h; rw [h] at hb; cases hb
  have h1 := handler_fares M A.mid S.star hgo
  have h2 := ends_after hend A.fresh (by obtain ⟨l, h1, -⟩ := A.mid.base.star; rw [h1]; rfl) hlen
  refine (h1.and h2).mono ?_
  rintro s' ⟨⟨-, K⟩, e1, e2, e3, bs, s3, g, e4, e5⟩
  rw [A.star S, F.pc v hpc] at e1
  refine F.plain M S h A hne (step_self hS fun w hw => F.pc w hw) K e2 (fun w hw => ?_) (step_org hS F.org) henv e3 ?_
  · rw [hpc'] at hw
    cases hw
    exact e1
  · have hpl := h.org (S.proper.origin a _ b S.eq (.inl hb))
    have c1 := (A.here hpl).1
    obtain ⟨ft, fn, fo⟩ := F.tip
    unfold Tip
    rw [e5, g.log]
    obtain ⟨n1, n2⟩ := count_bytes (q := s2.passnumber) (on := s2.flags.codeOn) bs s2.code.pc s2.log
    refine ⟨?_, by rw [n1, A.log, fn, e4, ← himl]; exact Nat.add_comm _ _, fun x hx => (n2 x hx).elim (fun h => h.trans A.mid.base.on) fun h => fo x (A.log ▸ h)⟩
    unfold grown
    dsimp only
    rw [himg]
    by_cases h0 : len = 0
    · have : bs = [] := List.length_eq_zero_iff.1 (e4.trans h0)
      subst this
      rw [if_pos h0, A.log]
      exact ft
    · have hne : bs ≠ [] := fun h => h0 (by rw [← e4, h]; rfl)
      rw [if_neg h0]
      show _ = some _
      have := tip_bytes (q := s2.passnumber) (on := s2.flags.codeOn) bs s2.code.pc s2.log hne
      obtain ⟨y, y1, y2⟩ := Option.map_eq_some_iff.1 this
      rw [y1]
      show some (y.2.1 + 1).toInt = some _
      rw [y2, e4, c1, BitVec.toInt_add, F.pc v hpc]
      have u1 := BitVec.toInt_lt (x := (starLabel s').value)
      have u2 := BitVec.le_toInt (x := (starLabel s).value)
      rw [F.pc v hpc] at u2
      rw [e1] at u1
      have u3 : (BitVec.ofNat 64 len).toInt = len := by
        rw [BitVec.toInt_eq_toNat_of_lt (by rw [BitVec.toNat_ofNat, Nat.mod_eq_of_lt (by omega)]; omega), BitVec.toNat_ofNat, Nat.mod_eq_of_lt (by omega)]
      rw [u3]
      congr 1
      exact Int.bmod_eq_of_le (by omega) (by omega)

theorem ins_first (M : Machine isa voc cf) (C : Complete isa voc cf) (D : Definite isa) {l : Option Str} {i : isa.Ins} (S : Site isa p a (l, .ins i) b)
    (h : Half isa voc p a ((l, .ins i) :: b) s) (F : First isa cf addr p a top σ s) (hlen : s.curline.length ≤ 600) {n : Nat} {t mn : Str} {o : Option Str}
    (hS : Spec.Stmt (fun w => key w ∈ isa.words) t l mn o) (hA : Spec.Around t s.curline) (hw : isa.writes i (key mn) o)
    (hx : ∀ y ∈ l, Free isa y) {img : List (Int × Byte)} (hst : Spec.Program.Step isa addr (Spec.Program.late p) σ (l, .ins i) img σ') :
    Fares (First isa cf addr p (a ++ [(l, .ins i)]) (grown top img) σ') (asmline (n + 1) ⟨true, true⟩ s) := by
  obtain ⟨e, he, hn, hI, hd, hp, hr1, hr2⟩ := M.ins hw
  obtain ⟨s2, A, h2⟩ := gen_front M S h hlen (n := n) rfl hS hA hx he hn hI hp
  rw [h2]
  obtain ⟨ρ1, hv, hρ⟩ := first_use M S h F A (step_self hst fun w hw => F.pc w hw)
  have hself := hst
  obtain ⟨ab, hN⟩ := A.able M S h (After.met M h S F.pass)
  have hvoc : Vocab voc s2 := fun e he => A.mid.base.vocab e (List.mem_append_right _ he)
  have hgo := hr2 (N := fun k => (s2.tree.find k).isSome ∨ (Spec.Program.marks (Spec.Program.late p) a k = true ∧ k ∈ labels p)) (self := asmline n) (fuel := n) (label := l) ab hvoc A.fresh hN (A.steady M S)
  cases hst with
  | @ins v _ _ bs h1 h3 h4 =>
  have hpl := h.org (S.proper.origin a _ b S.eq (.inl rfl))
  obtain ⟨c1, c2⟩ := A.here hpl
  have hpc : s2.code.pc.toInt = v := by rw [c1]; exact F.pc v h1
  have rdy : Ready isa voc cf s2 := ⟨c2, A.lohi.trans F.lohi, fun k hk => A.kin.cpu.trans (F.cpu k hk), A.mid.base.seg, A.mid.base.numeric, hvoc, A.fresh⟩
  have hout : Outside (Worded isa) s2 (isa.uses i) := by
    intro n hn
    rw [A.mid.base.seg, (S.names M (n := n) hn).1]
    exact (S.names M (n := n) hn).2
  obtain ⟨e', he', hn', hd', hp', hc⟩ := C.ins hw
  have same : hd' = hd ∧ e'.label.modifier = e.label.modifier := by
    obtain ⟨q, q1, q2⟩ := A.mid.base.vocab e he
    obtain ⟨q', q3, q4⟩ := A.mid.base.vocab e' he'
    rw [hn] at q1
    rw [hn', q1] at q3
    cases q3
    refine ⟨?_, q4.2.1.symm.trans q2.2.1⟩
    have := q4.2.2.1.symm.trans q2.2.2.1
    rw [hp, hp'] at this
    cases this
    rfl
  have hcm := hc (self := asmline n) (fuel := n) (label := l) rdy ab (fun n hn => (hN n hn).1) hout hv (by rw [hpc]; exact h4) fun n hn hf => (hρ n hn).1 hf
  rw [same.1, same.2] at hcm
  refine gen_first M S h F A rfl hself rfl (M.short hw (oper_short hS hA hlen) h4) h1 rfl (by rw [topOf_place]; simp only [← List.length_eq_zero_iff]) (place_length _ _) hgo ?_
  show Ends (isa.uses i) bs.length s2 (callHandler (asmline n) n hd e.label.modifier l o s2)
  cases er : callHandler (asmline n) n hd e.label.modifier l o s2 with
  | stop w s' => trivial
  | err s' =>
    rw [er] at hcm
    obtain ⟨-, bs', s3, msg, k1, k2, k3, k4⟩ := hcm
    rw [A.mid.base.seg] at k3
    exact ⟨bs', s3, msg, k1, k2, k3, k4⟩
  | ok r s' =>
    rw [er] at hcm
    have hcm : ∀ x ∈ isa.uses i, Has s' (canon s2.segment x) := hcm
    rw [A.mid.base.seg] at hcm
    obtain ⟨bs', k1, -, -, k4⟩ := hr1 rdy hout hv er
    refine ⟨bs', k1, ?_, hcm⟩
    have k4 := k4 trivial
    rw [hpc] at k4
    refine (D.size h4 k4 (fun n hn => ⟨rfl, fun hf => (hρ n hn).1 hf⟩) fun n hn => ?_).symm
    have hset := S.proper.settled a _ b S.eq n hn
    cases hl : σ.late (Spec.Program.late p) n with
    | false => rfl
    | true => rw [(hρ n (M.fixed hn)).2 hl] at hset; cases hset

/-- No error, and the property if there is an end. -/
def Safe {α : Type} (Q : St → Prop) : Res α → Prop
  | .ok _ s' => Q s'
  | .err _ => False
  | .stop _ _ => True

theorem Safe.bind {α β : Type} {Q Q' : St → Prop} {m : M α} {f : α → M β} (h : Safe Q (m s)) (hf : ∀ a s', m s = .ok a s' → Q s' → Safe Q' (f a s')) :
    Safe Q' ((m >>= f) s) := by
  rw [bind_run]
  cases e : m s with
  | ok a s' => rw [e] at h; exact hf a s' e h
  | err s' => rw [e] at h; exact h.elim
  | stop w s' => trivial

theorem Safe.mono {α : Type} {Q Q' : St → Prop} {r : Res α} (h : Safe Q r) (hq : ∀ s, Q s → Q' s) : Safe Q' r := by
  cases r with
  | ok a s' => exact hq _ h
  | err s' => exact h
  | stop w s' => trivial

def Given (s : St) : Prop := s.flags.orgGv = true

theorem Given.gen {bs : List Byte} (h : Given s) (g : Gen bs s s') : Given s' := by
  obtain ⟨f, hf⟩ := g.flags
  unfold Given
  rw [hf]; exact h

theorem insert8_safe {v : Byte} (h : Given s) : Safe Given (insert8 v s) := by
  rcases insert8_no_err (x := v) h with ⟨s1, e, g⟩ | ⟨w, s1, e⟩ <;> rw [e]
  · exact h.gen g
  · trivial
theorem insert16_safe {v : BitVec 16} (h : Given s) : Safe Given (insert16 v s) := by
  rcases insert16_no_err (x := v) h with ⟨s1, e, g⟩ | ⟨w, s1, e⟩ <;> rw [e]
  · exact h.gen g
  · trivial
theorem insert32_safe {v : BitVec 32} (h : Given s) : Safe Given (insert32 v s) := by
  unfold insert32
  rw [getS_bind_run]
  split
  · exact (insert16_safe h).bind fun _ s' _ h => insert16_safe h
  · exact (insert16_safe h).bind fun _ s' _ h => insert16_safe h

theorem stocke_safe {k : Spec.Level} {e : Spec.Expr} {o : Str} {keys : Str → Prop} {md : Int} (ht : Spec.Text k e o) (ha : Able keys s)
    (hk : ∀ n ∈ e.names, ¬ keys (canon 0 n)) (ho : Given s) : Safe (fun s' => Given s' ∧ ∀ n ∈ e.names, Has s' (canon 0 n)) (stocke (some o) md s) := by
  have hsure := parse_sure (N := fun _ => True) ht ha fun n hn => ⟨hk n hn, trivial⟩
  unfold stocke
  refine Safe.bind (Q := fun s' => Given s' ∧ ∀ n ∈ e.names, Has s' (canon 0 n)) ?_ fun r s1 _ h1 => ?_
  · unfold parseAbs
    refine Safe.bind (Q := fun s' => Given s' ∧ ∀ n ∈ e.names, Has s' (canon 0 n)) ?_ fun r s1 e1 h1 => ?_
    · cases e1 : parse (some o) s with
      | stop w s' => trivial
      | err s' => rw [e1] at hsure; exact hsure.elim
      | ok r s' =>
        have := parse_enter ht e1
        rw [ha.seg] at this
        exact ⟨ho.gen (nwalk_gen (m := parse (some o)) W.walk e1), this⟩
    · rw [e1] at hsure
      have hty : r.type = .absolute := hsure.2.1
      unfold checktype
      rw [if_pos hty]
      exact h1
  · have keep : ∀ {α : Type} {m : M α} (w : Walk ChipStep m), Safe Given (m s1) → Safe (fun s' => Given s' ∧ ∀ n ∈ e.names, Has s' (canon 0 n)) (m s1) := by
      intro α m w hs
      cases em : m s1 with
      | stop w s' => trivial
      | err s' => rw [em] at hs; exact hs
      | ok u s' =>
        rw [em] at hs
        exact ⟨hs, fun n hn => walk_has w em (h1.2 n hn)⟩
    refine keep (by walk) ?_
    refine Safe.bind (Q := Given) ?_ fun mask s2 _ h2 => ?_
    · split
      · exact (insert8_safe h1.1).bind fun _ s' _ h => h
      · split
        · refine Safe.bind (Q := Given) (show Given _ from h1.1) fun _ s2 _ h2 => ?_
          refine (insert16_safe h2).bind fun _ s3 _ h3 => ?_
          exact Safe.bind (Q := Given) (show Given _ from h3) fun _ s4 _ h4 => h4
        · split
          · exact (insert16_safe h1.1).bind fun _ s' _ h => h
          · split
            · exact (insert32_safe h1.1).bind fun _ s' _ h => h
            · exact h1.1
    · have hq : Quiet (whenM (r.value &&& mask ≠ 0) (warning c!"Operand overflow")) := by quiet
      have q := hq.run s2
      cases eq : whenM (r.value &&& mask ≠ 0) (warning c!"Operand overflow") s2 with
      | stop w s' => trivial
      | err s' => rw [eq] at q; exact q.elim
      | ok u s' =>
        rw [eq] at q
        obtain ⟨_, _, _, rfl⟩ := q
        exact h2

theorem tstar_has {N : Str → Prop} {a b : Cfg} (h : Star (TStep N) a b) {k : Str} (hk : Has a.1 k) : Has b.1 k := by
  induction h with
  | refl => exact hk
  | tail _ r ih =>
    unfold Has at *
    cases r with
    | use s k' => exact put_has ih
    | error1 s t ha hb =>
      obtain ⟨v, -, rfl⟩ := hb
      exact put_has ih
    | _ => exact ih

theorem each_safe {keys : Str → Prop} {md : Int} {os : List Str} {es : List Spec.Expr} (h2 : All2 Spec.Program.Number os es) :
    ∀ {ws : List Nat} {s : St}, ws.length = os.length → Able keys s → (∀ n ∈ es.flatMap Spec.Expr.names, ¬ keys (canon 0 n)) → Given s →
      Safe (fun s' => ∀ n ∈ es.flatMap Spec.Expr.names, Has s' (canon 0 n)) (eachOperand (fun o => stocke (some o) md) (os.zip ws) s) := by
  induction h2 with
  | nil =>
    intro ws s _ _ _ _ n hn
    cases hn
  | @cons o e os es hoe hr ih =>
    intro ws s hlen ha hk ho
    obtain ⟨-, k, ht⟩ := hoe
    have hk1 : ∀ n ∈ e.names, ¬ keys (canon 0 n) := fun n hn => hk n (by simp [hn])
    have hk2 : ∀ n ∈ es.flatMap Spec.Expr.names, ¬ keys (canon 0 n) := fun n hn => hk n (by
      rw [List.flatMap_cons, List.mem_append]
      exact .inr hn)
    cases ws with
    | nil => cases hlen
    | cons w ws =>
      have hlen : ws.length = os.length := by simpa using hlen
      rw [List.zip_cons_cons]
      cases hz : os.zip ws with
      | nil =>
        have hos : es.flatMap Spec.Expr.names = [] := by
          cases hr with
          | nil => rfl
          | cons _ _ =>
            cases ws with
            | nil => cases hlen
            | cons w ws => rw [List.zip_cons_cons] at hz; cases hz
        show Safe _ ((room w >>= fun _ => stocke (some o) md) s)
        refine Safe.bind (Q := fun s' => s' = s) ?_ fun _ s' _ e' => ?_
        · unfold room
          by_cases hb : bufSize ≤ s.bufpos + w
          · rw [if_pos hb]; trivial
          · rw [if_neg hb]; rfl
        · subst e'
          refine (stocke_safe ht ha hk1 ho).mono fun s'' h n hn => ?_
          rw [List.flatMap_cons, hos, List.append_nil] at hn
          exact h.2 n hn
      | cons y ys =>
        show Safe _ ((spend w >>= fun _ => stocke (some o) md >>= fun _ => eachOperand (fun o => stocke (some o) md) (y :: ys)) s)
        refine Safe.bind (Q := fun s' => Given s' ∧ Able keys s') ?_ fun _ s' _ e' => ?_
        · unfold spend
          by_cases hb : bufSize ≤ s.bufpos + w
          · rw [if_pos hb]; trivial
          · rw [if_neg hb]
            exact ⟨ho, ha.tstar (N := fun _ => True) (.one (.scratch s s.lst _ s.calcR s.flags.listOn))⟩
        · obtain ⟨ho', ha'⟩ := e'
          refine (stocke_safe ht ha' hk1 ho').bind fun _ s'' e2 h2 => ?_
          rw [← hz]
          have go := stocke_goes (m := md) (parse_sure (N := fun _ => True) ht ha' fun n hn => ⟨hk1 n hn, trivial⟩).goes
          rw [e2] at go
          have ha'' : Able keys s'' := ha'.tstar (show Star (TStep fun _ => True) (s', .live) (s'', .live) from go)
          have hs := ih hlen ha'' hk2 h2.1
          have go2 := each_goes (N := fun _ => True) (md := md) hr (ws := ws) ha'' fun n hn => ⟨hk2 n hn, trivial⟩
          cases e3 : eachOperand (fun o => stocke (some o) md) (os.zip ws) s'' with
          | stop w s' => trivial
          | err s' => rw [e3] at hs; exact hs
          | ok u s3 =>
            rw [e3] at hs go2
            intro n hn
            rw [List.flatMap_cons, List.mem_append] at hn
            rcases hn with hn | hn
            · exact tstar_has (show Star (TStep fun _ => True) (s'', .live) (s3, .live) from go2) (h2.2 n hn)
            · exact hs n hn

theorem all2_len {α β : Type} {R : α → β → Prop} {as : List α} {bs : List β} (h : All2 R as bs) : as.length = bs.length := by
  induction h with
  | nil => rfl
  | cons _ _ ih => simp [ih]

/-- The data directives, as they are run. -/
theorem data_call {os : List Str} {es : List Spec.Expr} {o : Str} {e : Entry} {d : Str × Int × Nat × Bool} (he : e ∈ pseudos) (hd : d ∈ dataDirectives)
    (hn : e.name = d.1) (hj : Spec.Joined os o) (h2 : All2 Spec.Program.Number os es) {keys : Str → Prop} (ha : Able keys s)
    (hk : ∀ n ∈ es.flatMap Spec.Expr.names, ¬ keys (canon 0 n)) (ho : Given s) {self : Status → M RC} {fuel : Nat} {label : Option Str} :
    ∃ hd', e.label.ptr = .handler hd' ∧ Safe (fun s' => (∃ bs, Gen bs s s' ∧ bs.length = es.length * d.2.2.1) ∧
      ∀ n ∈ es.flatMap Spec.Expr.names, Has s' (canon 0 n)) (callHandler self fuel hd' e.label.modifier label (some o) s) := by
  have hops : ∀ y ∈ os, Spec.Operand y := by
    clear hj ha hk
    induction h2 with
    | nil => intro y hy; cases hy
    | cons h _ ih =>
      intro y hy
      rcases List.mem_cons.1 hy with rfl | hy
      · exact h.1
      · exact ih y hy
  have hptr : e.label.ptr = .handler (.pseudo .dc) := by
    have : ∀ e ∈ pseudos, ∀ d ∈ dataDirectives, e.name = d.1 → e.label.ptr = .handler (.pseudo .dc) := by decide +kernel
    exact this e he _ hd hn
  refine ⟨_, hptr, ?_⟩
  obtain ⟨-, hd', hp, hr⟩ := C06_data he hd hn hops hj
  rw [hptr] at hp
  cases hp
  obtain ⟨ws, hws, -, hx⟩ := C13_data e.label.modifier hops hj
  have hs : Safe (fun s' => ∀ n ∈ es.flatMap Spec.Expr.names, Has s' (canon 0 n)) (callHandler self fuel (.pseudo .dc) e.label.modifier label (some o) s) := by
    show Safe _ ((xDc e.label.modifier (some o) >>= fun _ => pure RC.cont) s)
    rw [hx]
    exact (each_safe h2 hws ha hk ho).bind fun _ s' _ h => h
  cases er : callHandler self fuel (.pseudo .dc) e.label.modifier label (some o) s with
  | stop w s' => trivial
  | err s' => rw [er] at hs; exact hs
  | ok rc s' =>
    rw [er] at hs
    obtain ⟨-, vs, h3, g⟩ := hr er
    refine ⟨⟨_, g, ?_⟩, hs⟩
    rw [flatMap_len _ d.2.2.1 (fun _ => endian_len _ _ _), pairs_len h3, all2_len h2]

theorem data_first (M : Machine isa voc cf) {l : Option Str} {size : Nat} {swap : Bool} {es : List Spec.Expr} (S : Site isa p a (l, .data size swap es) b)
    (h : Half isa voc p a ((l, .data size swap es) :: b) s) (F : First isa cf addr p a top σ s) (hlen : s.curline.length ≤ 600) {n : Nat} {t mn o : Str} {os : List Str}
    (hS : Spec.Stmt (fun w => key w ∈ isa.words) t l mn (some o)) (hA : Spec.Around t s.curline) (hw : (key mn, size, swap) ∈ Spec.Program.directives)
    (hx : ∀ y ∈ l, Free isa y) (hj : Spec.Joined os o) (h2 : All2 Spec.Program.Number os es)
    {img : List (Int × Byte)} (hst : Spec.Program.Step isa addr (Spec.Program.late p) σ (l, .data size swap es) img σ') :
    Fares (First isa cf addr p (a ++ [(l, .data size swap es)]) (grown top img) σ') (asmline (n + 1) ⟨true, true⟩ s) := by
  obtain ⟨e, he, hn0, hn, hI, ⟨d1, d2, d3⟩, hd, hd1, hd2⟩ := data_words _ hw
  cases hd2
  have hptr : e.label.ptr = .handler (.pseudo .dc) := by
    have : ∀ e ∈ pseudos, ∀ d ∈ dataDirectives, e.name = d.1 → e.label.ptr = .handler (.pseudo .dc) := by decide +kernel
    exact this e he _ hd (hn0.trans hd1.symm)
  have hops : ∀ y ∈ os, Spec.Operand y := by
    clear hj h S hst
    induction h2 with
    | nil => intro y hy; cases hy
    | cons h _ ih =>
      intro y hy
      rcases List.mem_cons.1 hy with rfl | hy
      · exact h.1
      · exact ih y hy
  obtain ⟨s2, A, h3⟩ := gen_front M S h hlen (n := n) rfl hS hA hx (List.mem_append_left _ he) hn hI hptr
  rw [h3]
  obtain ⟨ab, hN⟩ := A.able M S h (After.met M h S F.pass)
  have hpl := h.org (S.proper.origin a _ b S.eq (.inl rfl))
  obtain ⟨c1, c2⟩ := A.here hpl
  obtain ⟨hd', q1, q2⟩ := data_call he hd (hn0.trans hd1.symm) hj h2 ab (fun n hn => (hN n hn).1) c2 (self := asmline n) (fuel := n) (label := l)
  rw [hptr] at q1
  cases q1
  have hlo : es.length * size < 2 ^ 63 := by
    have h1 : o.length ≤ t.length := by
      cases hS <;> simp only [List.length_append, List.length_cons] <;> omega
    have h2' : t.length ≤ s.curline.length := by
      generalize s.curline = line at hA
      cases hA <;> simp only [List.length_append] <;> omega
    have hz : ∀ d ∈ Spec.Program.directives, d.2.1 ≤ 4 := by decide
    have hz := hz _ hw
    have := joined_len hj
    have := all2_len h2
    have : es.length * size ≤ 601 * 4 := Nat.mul_le_mul (by omega) hz
    omega
  have hgo : Goes (fun k => (s2.tree.find k).isSome ∨ (Spec.Program.marks (Spec.Program.late p) a k = true ∧ k ∈ labels p)) s2
      (callHandler (asmline n) n (.pseudo .dc) e.label.modifier l (some o) s2) := by
    obtain ⟨ws, -, -, hx⟩ := C13_data e.label.modifier hops hj
    show Goes _ s2 ((xDc e.label.modifier (some o) >>= fun _ => pure RC.cont) s2)
    rw [hx]
    exact (each_goes (N := fun k => (s2.tree.find k).isSome ∨ (Spec.Program.marks (Spec.Program.late p) a k = true ∧ k ∈ labels p)) h2 ab hN).bind fun _ s' _ _ => .refl _
  have hself := hst
  cases hst with
  | @data v _ _ _ vs _ h4 h5 h6 =>
  have hbl : (vs.flatMap fun v => Spec.endian (isa.little != swap) size (Spec.Program.bits v)).length = es.length * size := by
    rw [flatMap_len _ size (fun _ => endian_len _ _ _), all2_len h6]
  refine gen_first M S h F A rfl hself rfl hlo h4 ?_ ?_ ((place_length _ _).trans hbl) hgo ?_
  · rw [hbl]
  · rw [topOf_place, hbl, ← hbl]
    simp only [← List.length_eq_zero_iff]
  · show Ends (es.flatMap Spec.Expr.names) _ s2 (callHandler (asmline n) n (.pseudo .dc) e.label.modifier l (some o) s2)
    cases er : callHandler (asmline n) n (.pseudo .dc) e.label.modifier l (some o) s2 with
    | stop w s' => trivial
    | err s' => rw [er] at q2; exact q2.elim
    | ok rc s' =>
      rw [er] at q2
      obtain ⟨⟨bs, j1, j2⟩, j3⟩ := q2
      exact ⟨bs, j1, j2, j3⟩

/-! ### Lines without a statement -/

theorem list_first (M : Machine isa voc cf) (S : Site isa p a x b) (h : Half isa voc p a (x :: b) s) (F : First isa cf addr p a top σ s) {s2 : St} (A : After isa voc p a x b s s2)
    (hb : x.2 = .nothing) {img : List (Int × Byte)} (hst : Spec.Program.Step isa addr (Spec.Program.late p) σ x img σ') (hσ : σ' = σ) (hi : img = []) :
    Fares (First isa cf addr p (a ++ [x]) (grown top img) σ') ((outputline >>= fun _ => pure .cont : Crasm.M RC) s2) := by
  have q := (inferInstance : Quiet outputline).run s2
  rw [bind_run]
  cases e : outputline s2 with
  | stop w s' => trivial
  | err s' => rw [e] at q; exact q.elim
  | ok u s' =>
    rw [e] at q
    obtain ⟨l, b, f, rfl⟩ := q
    subst hσ
    refine ⟨rfl, F.plain (s' := { s2 with lst := l, bufpos := b, flags := { s2.flags with listOn := f } }) M S h A (by rw [hb]; simp) (step_self hst fun w hw => F.pc w hw) (Kin.same rfl rfl rfl rfl rfl rfl) rfl (fun v hv => ?_) (step_org hst F.org) rfl ?_ (top' := grown top img) ?_⟩
    · have := F.pc v hv
      rw [← A.star S] at this
      exact this
    · rw [hb]
      intro n hn
      cases hn
    · rw [hi]
      show Tip _ s2.log
      rw [A.log]
      exact F.tip

/-! ### Equates and origins -/

/-- A line without a label. -/
theorem First.step (M : Machine isa voc cf) (S : Site isa p a x b) (F : First isa cf addr p a top σ s) (hl : labels [x] = []) (K : Kin (labels [x] ++ Spec.Program.equates [x]) s s')
    (hlo : s'.flags.lohi = s.flags.lohi) (hpc : ∀ v, σ'.pc = some v → (starLabel s').value.toInt = v) (ho : hasOrg (a ++ [x]) = true → σ'.pc.isSome)
    (hequ : ∀ k ∈ Spec.Program.equates [x], ∃ l v, s'.tree.find k = some l ∧ σ'.env k = some (v, l.flags.forward) ∧ (l.flags.forward = false → l.value.toInt = v))
    (henv : ∀ k, k ∉ Spec.Program.equates [x] → σ'.env k = σ.env k)
    (hu : ∀ n ∈ x.2.uses, Has s' (canon 0 n)) {top' : Option Int × Nat} (ht : Tip top' s'.log) : First isa cf addr p (a ++ [x]) top' σ' s' := by
  have hxp : ∀ k ∈ Spec.Program.equates [x], k ∈ Spec.Program.equates p := by
    intro k hk
    rw [S.eq, show x :: b = [x] ++ b from rfl, equates_append, equates_append]
    simp [hk]
  rw [hl, List.nil_append] at K
  refine ⟨K.pass.trans F.pass, hlo.trans F.lohi, fun k hk => K.cpu.trans (F.cpu k hk), hpc, fun k hk => ?_, fun k hk => ?_, fun k hk => ?_, fun k hk => ?_, ho, ht⟩
  · rw [labels_append, hl, List.append_nil] at hk
    have hkp := S.labs.2 (.inl hk)
    obtain ⟨l, k1, k2, k3, k4, k5⟩ := F.labs k hk
    obtain ⟨l', j1, j2, j3, j4, j5⟩ := K.find k l (S.nostar (.inl hkp)) (fun h => S.proper.apart k (hxp k h) hkp) k1
    exact ⟨l', j1, j3.trans k2, j5.trans k3, by rw [j4]; exact k4, j2.trans k5⟩
  · by_cases hx : k ∈ Spec.Program.equates [x]
    · exact hequ k hx
    · rw [equates_append, List.mem_append] at hk
      have hk := hk.resolve_right hx
      obtain ⟨l, v, k1, k2, k3⟩ := F.equs k hk
      obtain ⟨l', j1, j2, j3, j4, j5⟩ := K.find k l (S.nostar (.inr (S.equates hk))) hx k1
      exact ⟨l', v, j1, by rw [henv k hx, j2]; exact k2, fun hf => by rw [j4]; exact k3 (j2.symm.trans hf)⟩
  · rw [equates_append, List.mem_append] at hk
    rw [henv k fun h => hk (.inr h)]
    exact F.rest k fun h => hk (.inl h)
  · obtain ⟨y, hy, n, hn, rfl⟩ := hk
    rcases List.mem_append.1 hy with hy | hy
    · exact K.some _ (F.used _ ⟨y, hy, n, hn, rfl⟩)
    · rw [List.mem_singleton] at hy
      subst hy
      rw [← (S.names M hn).1]
      exact hu n hn

theorem equ_first (M : Machine isa voc cf) {l : Str} {e : Spec.Expr} (S : Site isa p a (some l, .equ e) b)
    (h : Half isa voc p a ((some l, .equ e) :: b) s) (F : First isa cf addr p a top σ s) (hlen : s.curline.length ≤ 600) {n : Nat} {t mn o : Str} {k : Spec.Level}
    (hS : Spec.Stmt (fun w => key w ∈ isa.words) t (some l) mn (some o)) (hA : Spec.Around t s.curline) (hm : key mn = c!"EQU")
    (hx : Free isa l) (ht : Spec.Text k e o) {img : List (Int × Byte)}
    (hst : Spec.Program.Step isa addr (Spec.Program.late p) σ (some l, .equ e) img σ') :
    Fares (First isa cf addr p (a ++ [(some l, .equ e)]) (grown top img) σ') (asmline (n + 1) ⟨true, true⟩ s) := by
  have hnext := equ_half M S h hlen (After.met M h S F.pass) (n := n) hS hA hm hx ht
  obtain ⟨s1, hs, hnt, h1⟩ := equ_start M h hlen (n := n) hS hA hm (.inr hx)
  rw [h1] at hnext ⊢
  have hAf := equ_before h rfl hs hnt
  obtain ⟨ha, hN⟩ := hAf.able M S h (After.met M h S F.pass)
  obtain ⟨hc, hr⟩ := free_key (n := l) hx rfl
  have hqp : key l ∈ Spec.Program.equates p := by
    rw [S.eq, equates_append]
    exact List.mem_append_right _ List.mem_cons_self
  have hlp : key l ∉ labels p := S.proper.apart _ hqp
  have hcl : canon s1.segment l = key l := by rw [hAf.mid.base.seg, hc]
  have hkid : ∀ {s2 : St}, Star (TStep fun k => (s1.tree.find k).isSome ∨ (Spec.Program.marks (Spec.Program.late p) a k = true ∧ k ∈ labels p)) (s1, .live) (s2, .live) →
      Mid isa voc p (Spec.Program.marks (Spec.Program.late p) a) (labels b) s2 ∧ Kin [] s1 s2 := fun {s2} st =>
    Mid.tstar M st hAf.mid S.star fun k hk => hk
  have key1 := equ_sets (x := l) (parse_sure (N := fun k => (s1.tree.find k).isSome ∨ (Spec.Program.marks (Spec.Program.late p) a k = true ∧ k ∈ labels p)) ht ha hN) fun s2 st q hq => .inr ⟨(hkid st).1.equs _ q (by rw [hcl]; exact hr) (by rw [hcl]; exact hlp) hq, rfl⟩
  rw [bind_run] at hnext ⊢
  cases ee : xEqu (some l) (some o) s1 with
  | err s' => rw [ee] at key1; exact key1.elim
  | stop w s' => trivial
  | ok u s3 =>
    rw [ee] at key1 hnext
    obtain ⟨r, s1', s2, ⟨hpar, t2, lo2, ad2, -, lg2⟩, st, hty, hfw, rfl⟩ := key1
    obtain ⟨m2, k2⟩ := hkid st
    have hne : l ≠ starKey := by
      rintro rfl
      exact hr (.inl (by decide))
    have hne' : starKey ≠ key l := fun h => hr (.inl h.symm)
    have g := nwalk_gen (m := parse (some o)) W.walk hpar
    have hs1 : (s1.tree.find starKey).isSome := by obtain ⟨l, h1, -⟩ := hAf.mid.base.star; rw [h1]; rfl
    obtain ⟨b1, -, -⟩ := star_gen g hs1
    obtain ⟨f, hf⟩ := g.flags
    rw [if_neg hne, hcl] at hnext ⊢
    have hnext : Fares _ (afterwards _) := hnext
    have hstill := still_after (s := { s2 with tree := s2.tree.put (key l) (equLabel (s2.tree.find (key l)) r), notes := s1.notes })
      (by show s2.advance = 0; rw [ad2, g.advance, hAf.fresh]; rfl)
    refine (hnext.and hstill).mono ?_
    rintro s' ⟨⟨H, K⟩, e1, e2, e3, e4⟩
    have htip : Tip (grown top []) s'.log := by
      rw [e4]
      show Tip _ s2.log
      rw [lg2, g.log]
      show Tip _ s1.log
      rw [hAf.log]
      exact F.tip
    have hσ : ∀ y ∈ e.names, _ := fun y hy => hN y hy
    obtain ⟨ρ1, hv, hρ⟩ := first_use M S h F hAf (fun k hk => by cases hk)
    have hout : Outside (Worded isa) s1 e.names := by
      intro n hn
      rw [hAf.mid.base.seg, (S.names M (n := n) hn).1]
      exact (S.names M (n := n) hn).2
    obtain ⟨-, hval⟩ := parse_tells ht hAf.mid.base.numeric hout hv hpar
    obtain ⟨hev, hfo⟩ := hval trivial
    cases hst with
    | @equ _ _ v hv' =>
    have hso := step_org (a := a) (Spec.Program.Step.equ (isa := isa) (late := Spec.Program.late p) (l := l) hv') F.org
    have hfind : s'.tree.find (key l) = some (equLabel (s2.tree.find (key l)) r) := by
      rw [e1 _ hne'.symm]
      exact Tree.find_put_self _ _ _
    have hmark : (equLabel (s2.tree.find (key l)) r).flags.forward = ((σ.env (key l)).any (·.2) || e.names.any (σ.late (Spec.Program.late p))) := by
      rw [← hfo]
      by_cases hq : key l ∈ Spec.Program.equates a
      · obtain ⟨l0, v0, q1, q2, -⟩ := F.equs _ hq
        rw [← hAf.other _ (fun h => by cases h)] at q1
        obtain ⟨l1, q3, q4⟩ := g.tree.some q1
        rw [t2, q3, q2]
        show (l1.flags.forward || r.flags.forward) = _
        rw [q4.undef.2]
        rfl
      · rw [F.rest _ hq]
        cases hf2 : s2.tree.find (key l) with
        | none =>
          show (false || r.flags.forward) = _
          rfl
        | some q =>
          show (q.flags.forward || r.flags.forward) = (false || r.flags.forward)
          have : q.flags.forward = false := by
            cases hqf : q.flags.forward with
            | false => rfl
            | true =>
              have := m2.forw _ q hr hf2 hqf
              rw [marks_off _ _ hq] at this
              exact absurd (late_mem _ this) hlp
          rw [this]
    refine F.step M S rfl K (e3.trans (lo2.trans ((by rw [hf] : _ = _ ).trans hAf.lohi))) (fun w hw => ?_) hso (fun k hk => ?_) (fun k hk => ?_) (fun n hn => ?_) htip
    · change σ.pc = some w at hw
      rw [e2, ← F.pc w hw, ← hAf.star S, ← b1]
      unfold starLabel
      dsimp only
      rw [Tree.find_put_ne _ _ hne', t2]
    · rw [show Spec.Program.equates [(some l, (.equ e : Body isa.Ins))] = [key l] from rfl, List.mem_singleton] at hk
      subst hk
      refine ⟨_, v, hfind, ?_, fun hff => ?_⟩
      · unfold State.set
        dsimp only
        rw [if_pos rfl, hmark]
      · rw [hmark, Bool.or_eq_false_iff, List.any_eq_false] at hff
        have : e.eval (σ.value addr) = e.eval ρ1 := eval_same e fun n hn => (hρ n hn).1 (by simpa using hff.2 n hn)
        rw [this, hev] at hv'
        cases hv'
        rfl
    · rw [show Spec.Program.equates [(some l, (.equ e : Body isa.Ins))] = [key l] from rfl, List.mem_singleton] at hk
      unfold State.set
      dsimp only
      rw [if_neg hk]
    · have := parse_enter ht hpar n hn
      rw [hAf.mid.base.seg] at this
      unfold Has at this ⊢
      by_cases hns : canon 0 n = starKey
      · rw [hns]
        exact H.mid.base.here
      rw [e1 _ hns]
      refine put_has ?_
      rw [t2]
      exact this

theorem org_first (M : Machine isa voc cf) {e : Spec.Expr} (S : Site isa p a (none, .org e) b)
    (h : Half isa voc p a ((none, .org e) :: b) s) (F : First isa cf addr p a top σ s) (hlen : s.curline.length ≤ 600) {n : Nat} {t mn o : Str} {k : Spec.Level}
    (hS : Spec.Stmt (fun w => key w ∈ isa.words) t (some ['*']) mn (some o)) (hA : Spec.Around t s.curline) (hm : key mn = c!"EQU")
    (ht : Spec.Text k e o) {img : List (Int × Byte)} (hst : Spec.Program.Step isa addr (Spec.Program.late p) σ (none, .org e) img σ') :
    Fares (First isa cf addr p (a ++ [(none, .org e)]) (grown top img) σ') (asmline (n + 1) ⟨true, true⟩ s) := by
  have hnext := org_half M S h hlen (After.met M h S F.pass) (n := n) hS hA hm ht
  obtain ⟨s1, hs, hnt, h1⟩ := equ_start M h hlen (n := n) hS hA hm (.inl rfl)
  rw [h1] at hnext ⊢
  have hAf := equ_before h rfl hs hnt
  obtain ⟨ha, hN⟩ := hAf.able M S h (After.met M h S F.pass)
  have hcl : canon s1.segment ['*'] = starKey := by rw [hAf.mid.base.seg, canon_star]
  have hkid : ∀ {s2 : St}, Star (TStep fun k => (s1.tree.find k).isSome ∨ (Spec.Program.marks (Spec.Program.late p) a k = true ∧ k ∈ labels p)) (s1, .live) (s2, .live) →
      Mid isa voc p (Spec.Program.marks (Spec.Program.late p) a) (labels b) s2 ∧ Kin [] s1 s2 := fun {s2} st =>
    Mid.tstar M st hAf.mid S.star fun k hk => hk
  have key1 := equ_sets (x := ['*']) (parse_sure (N := fun k => (s1.tree.find k).isSome ∨ (Spec.Program.marks (Spec.Program.late p) a k = true ∧ k ∈ labels p)) ht ha hN) fun s2 st q hq => .inr ⟨((hkid st).1.loc q (by rw [← hcl]; exact hq)).1, rfl⟩
  rw [bind_run] at hnext ⊢
  cases ee : xEqu (some ['*']) (some o) s1 with
  | err s' => rw [ee] at key1; exact key1.elim
  | stop w s' => trivial
  | ok u s3 =>
    rw [ee] at key1 hnext
    obtain ⟨r, s1', s2, ⟨hpar, t2, lo2, ad2, -, lg2⟩, st, hty, hfw, rfl⟩ := key1
    have g := nwalk_gen (m := parse (some o)) W.walk hpar
    obtain ⟨f, hf⟩ := g.flags
    rw [if_pos (by decide), hcl] at hnext ⊢
    have hnext : Fares _ (afterwards _) := hnext
    have hstill := still_after (s := { s2 with tree := s2.tree.put starKey (equLabel (s2.tree.find starKey) r), notes := (s1.passnumber, .choice r.flags.forward (.origin r.value)) :: s1.notes })
      (by show s2.advance = 0; rw [ad2, g.advance, hAf.fresh]; rfl)
    refine (hnext.and hstill).mono ?_
    rintro s' ⟨⟨H, K⟩, e1, e2, e3, e4⟩
    have htip : Tip (grown top []) s'.log := by
      rw [e4]
      show Tip _ s2.log
      rw [lg2, g.log]
      show Tip _ s1.log
      rw [hAf.log]
      exact F.tip
    obtain ⟨ρ1, hv, hρ⟩ := first_use M S h F hAf (fun k hk => by cases hk)
    have hout : Outside (Worded isa) s1 e.names := by
      intro n hn
      rw [hAf.mid.base.seg, (S.names M (n := n) hn).1]
      exact (S.names M (n := n) hn).2
    obtain ⟨-, hval⟩ := parse_tells ht hAf.mid.base.numeric hout hv hpar
    obtain ⟨hev, -⟩ := hval trivial
    cases hst with
    | @org _ v hv' =>
    have hso := step_org (a := a) (Spec.Program.Step.org (isa := isa) (late := Spec.Program.late p) hv') F.org
    have hoff : ∀ n ∈ e.names, σ.late (Spec.Program.late p) n = false := by
      intro n hn
      cases hl : σ.late (Spec.Program.late p) n with
      | false => rfl
      | true =>
        have := (hρ n hn).2 hl
        rw [S.proper.settled a _ b S.eq n hn] at this
        cases this
    refine F.step (σ' := { σ with pc := some v }) M S rfl K (e3.trans (lo2.trans ((by rw [hf] : _ = _ ).trans hAf.lohi))) (fun w hw => ?_) hso (fun k hk => by cases hk) (fun k hk => rfl) (fun n hn => ?_) htip
    · cases hw
      rw [e2]
      have : e.eval (σ.value addr) = e.eval ρ1 := eval_same e fun n hn => (hρ n hn).1 (hoff n hn)
      rw [this, hev] at hv'
      cases hv'
      unfold starLabel
      dsimp only
      rw [Tree.find_put_self]
      rfl
    · have := parse_enter ht hpar n hn
      rw [hAf.mid.base.seg] at this
      unfold Has at this ⊢
      by_cases hns : canon 0 n = starKey
      · rw [hns]
        exact H.mid.base.here
      rw [e1 _ hns]
      refine put_has ?_
      rw [t2]
      exact this

/-- **One line of pass 1.** -/
theorem line_first (M : Machine isa voc cf) (C : Complete isa voc cf) (D : Definite isa) (S : Site isa p a x b) (h : Half isa voc p a (x :: b) s)
    (F : First isa cf addr p a top σ s) (hlen : s.curline.length ≤ 600) (hl : Line isa s.curline x.1 x.2) {img : List (Int × Byte)}
    (hst : Spec.Program.Step isa addr (Spec.Program.late p) σ x img σ') {n : Nat} :
    Fares (First isa cf addr p (a ++ [x]) (grown top img) σ') (asmline (n + 1) ⟨true, true⟩ s) := by
  obtain ⟨l, body⟩ := x
  dsimp only at hl
  generalize hc : s.curline = line at hl
  cases hl with
  | blank hA =>
    obtain ⟨s2, A, h2⟩ := blank_front h hlen (n := n) (hc ▸ hA)
    rw [h2]
    exact list_first M S h F A rfl hst (by cases hst; rfl) (by cases hst; rfl)
  | label hA hf hx =>
    obtain ⟨s2, A, h2⟩ := lone_front M S h hlen (n := n) (hc ▸ hA) (hc ▸ hf) hx
    rw [h2]
    exact list_first M S h F A rfl hst (by cases hst; rfl) (by cases hst; rfl)
  | org hA hS hm ht => exact org_first M S h F hlen hS (hc ▸ hA) hm ht hst
  | equ hA hS hm hx ht => exact equ_first M S h F hlen hS (hc ▸ hA) hm hx ht hst
  | data hA hS hd hx hj h2 => exact data_first M S h F hlen hS (hc ▸ hA) hd hx hj h2 hst
  | ins hA hS hw hx => exact ins_first M C D S h F hlen hS (hc ▸ hA) hw hx hst

/-- **What pass 1 leaves.** -/
theorem first_all (M : Machine isa voc cf) (D : Complete isa voc cf) (U : Definite isa) {c : Cpu} {tabs : List TableId} {f : Flags → Flags}
    (C : Chosen c tabs f voc cf isa.little) {fuel : Nat} {env : Env} {src : Str} {e : St} {rest : List Str} {first m b o name : Str} (hn : cpuOf name = some c)
    (hmild : Mild name) (S : Opening name src rest first m b o) (ht : Spec.Tame src) (hl : All2 (fun t x => Line isa t x.1 x.2) rest p) (hp : Proper p)
    (h : passLoop fuel fuel true (passStart 1 { initSt env src with tree := pseudoTree }) = .ok () e) {img : List (Int × Byte)}
    (hrun : Spec.Program.Run isa addr (Spec.Program.late p) {} p img σ') :
    ∃ s0, Half isa voc p p [] s0 ∧ First isa cf addr p p (topOf img, img.length) σ' s0 ∧ e.tree = s0.tree ∧ e.notes = s0.notes ∧ e.stack = [] ∧ bytesOf e.log = bytesOf s0.log := by
  have q : ∃ s0, Half isa voc p p [] s0 ∧ (∃ b top img' σ, p = p ++ b ∧ First isa cf addr p p top σ s0 ∧
      Spec.Program.Run isa addr (Spec.Program.late p) σ b img' σ' ∧ grown top img' = (topOf img, img.length)) ∧ e.tree = s0.tree ∧ e.notes = s0.notes ∧ e.stack = [] ∧
      bytesOf e.log = bytesOf s0.log ∧ Runout fuel s0 e := by
    refine first_end (J := fun a s => ∃ b top img' σ, p = a ++ b ∧ First isa cf addr p a top σ s ∧
      Spec.Program.Run isa addr (Spec.Program.late p) σ b img' σ' ∧ grown top img' = (topOf img, img.length)) M C ?_ ?_ ?_ hn hmild S ht hl hp h
    · rintro a s s' ⟨b, top, img', σ, e1, F, r, w⟩ h1 h2 h3 h4 h5 -
      have hs : starLabel s' = starLabel s := by unfold starLabel; rw [h1]
      refine ⟨b, top, img', σ, e1, ⟨h3.trans F.pass, by rw [h2]; exact F.lohi, fun k hk => h4.trans (F.cpu k hk), fun v hv => by rw [hs]; exact F.pc v hv,
        by rw [h1]; exact F.labs, by rw [h1]; exact F.equs, F.rest, fun k hk => ?_, F.org, by unfold Tip; rw [h5]; exact F.tip⟩, r, w⟩
      unfold Has
      rw [h1]
      exact F.used k hk
    · rintro a x b s n - S H - ⟨b', top, img', σ, e1, F, r, w⟩ hlen hl
      have : x :: b = b' := by
        have e2 := S.eq
        rw [e1] at e2
        exact (List.append_cancel_left e2).symm
      subst this
      cases r with
      | @cons _ _ img1 σ1 _ img2 _ st r =>
      refine (line_first M D U S H F hlen hl st).mono fun s' F' => ⟨b, _, img2, σ1, by rw [e1, List.append_assoc]; rfl, F', r, by rw [grown_append]; exact w⟩
    · intro s hp hlo hcpu hby _
      refine ⟨p, (none, 0), img, {}, rfl, ⟨hp, hlo, hcpu, (fun v hv => by cases hv), (fun k hk => by cases hk), (fun k hk => by cases hk), (fun _ _ => rfl), ?_, (fun h => by cases h), by unfold Tip; rw [hby]; exact ⟨rfl, rfl, fun x hx => by cases hx⟩⟩, hrun, by unfold grown; rw [Option.or_none, Nat.zero_add]⟩
      rintro k ⟨x, hx, -⟩
      cases hx
  obtain ⟨s0, h0, ⟨b', top, img', σ, e1, F, r, w⟩, g1, g2, g3, g4, -⟩ := q
  have : b' = [] := by
    have := congrArg List.length e1
    rw [List.length_append] at this
    exact List.length_eq_zero_iff.1 (by omega)
  subst this
  cases r
  exact ⟨s0, h0, w ▸ F, g1, g2, g3, g4⟩
end

end Crasm.C42

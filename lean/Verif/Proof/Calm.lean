import Verif.Proof.Run
import Verif.Proof.FilterL
import Verif.Proof.Lawful

/-!
Every function of the assembler that reads no further source line comes to an end: the fuel of the model is never
exhausted inside it, and it loops (operator.c:344) only on an operand that contains a minus sign.
-/

namespace Crasm

/-- `x` holds a minus sign only if `t` does. -/
def Sub (x t : Str) : Prop := '-' ∈ x → '-' ∈ t

/-- From every state, `m` neither exhausts its fuel nor, unless `t` holds a minus sign, loops; a normal result
    satisfies `Q`. -/
def Calm (t : Str) (m : M α) (Q : α → Prop) : Prop := ∀ s,
  match m s with
  | .ok a _ => Q a
  | .err _ => True
  | .stop w _ => w ≠ .fuel ∧ (w = .hang → '-' ∈ t)

abbrev Any (_ : α) : Prop := True

theorem Calm.bind {t : Str} {m : M α} {f : α → M β} {Q : α → Prop} {R : β → Prop} (hm : Calm t m Q)
    (hf : ∀ a, Q a → Calm t (f a) R) : Calm t (m >>= f) R := by
  intro s
  have h1 := hm s
  rw [bind_run]
  revert h1
  cases m s with
  | ok a s' => intro h1; exact hf a h1 s'
  | err s' => exact id
  | stop w s' => exact id
theorem Calm.pure {t : Str} {a : α} {Q : α → Prop} (h : Q a) : Calm t (Pure.pure a : M α) Q := fun _ => h
theorem Calm.weaken {t : Str} {m : M α} {Q R : α → Prop} (h : Calm t m Q) (hr : ∀ a, Q a → R a) :
    Calm t m R := by
  intro s
  have h1 := h s
  revert h1
  cases m s with
  | ok a s' => exact hr a
  | err s' => exact id
  | stop w s' => exact id
theorem Calm.getS {t : Str} : Calm t Crasm.getS Any := fun _ => trivial
theorem Calm.modS {t : Str} {g : St → St} : Calm t (Crasm.modS g) Any := fun _ => trivial
theorem Calm.whenM {t : Str} {c : Prop} [Decidable c] {a : M Unit} (ha : Calm t a Any) :
    Calm t (whenM c a) Any := by
  unfold Crasm.whenM; split
  · exact ha
  · exact Calm.pure trivial

/-- `m` never exhausts its fuel nor loops. -/
class Tame (m : M α) : Prop where
  run : Calm [] m Any

theorem Tame.calm {t : Str} {m : M α} [h : Tame m] : Calm t m Any := by
  intro s
  have h1 := h.run s
  revert h1
  cases m s with
  | ok a s' => exact id
  | err s' => exact id
  | stop w s' => intro h; exact ⟨h.1, fun e => absurd (h.2 e) (by simp)⟩

theorem Tame.bind {m : M α} {f : α → M β} (hm : Tame m) (hf : ∀ a, Tame (f a)) : Tame (m >>= f) :=
  ⟨Calm.bind hm.run fun a _ => (hf a).run⟩
theorem Tame.pure (a : α) : Tame (Pure.pure a : M α) := ⟨Calm.pure trivial⟩
theorem Tame.getS : Tame Crasm.getS := ⟨Calm.getS⟩
theorem Tame.modS (g : St → St) : Tame (Crasm.modS g) := ⟨Calm.modS⟩
theorem Tame.whenM {c : Prop} [Decidable c] {a : M Unit} (ha : Tame a) : Tame (whenM c a) :=
  ⟨Calm.whenM ha.run⟩
theorem Tame.catchErr {m h : M α} (hm : Tame m) (hh : Tame h) : Tame (catchErr m h) := by
  constructor
  intro s
  have h1 := hm.run s
  unfold Crasm.catchErr
  revert h1
  cases m s with
  | ok a s' => exact id
  | err s' => intro _; exact hh.run s'
  | stop w s' => exact id

macro "tame" : tactic => `(tactic| repeat' (first
  | infer_instance
  | exact Tame.pure _
  | exact Tame.getS
  | exact Tame.modS _
  | with_reducible refine Tame.bind ?_ (fun _ => ?_)
  | with_reducible refine Tame.whenM ?_
  | dsimp only
  | split))

instance (u : UB) : Tame (ubM u : M α) := ⟨fun _ => ⟨by simp, by simp⟩⟩
instance (m : Str) : Tame (fatal m : M α) := ⟨fun _ => ⟨by simp, by simp⟩⟩
instance : Tame (throwErr : M α) := ⟨fun _ => trivial⟩
instance (f : Lst → Lst) : Tame (modLst f) := Tame.modS _
instance (f : Flags → Flags) : Tame (modFlags f) := Tame.modS _
instance (f : Code → Code) : Tame (modCode f) := Tame.modS _
instance : Tame zerobuffer := Tame.modS _

/-! ### filter.c -/

theorem matchSeg_parts {q : Quote} {e : Bool} (seg s rest : Str) (h : matchSeg q e seg s = .ok rest) :
    (∃ p, s = p ++ rest) ∧ (seg.filter (· ≠ '_')).length + rest.length ≤ s.length := by
  induction seg generalizing s with
  | nil =>
    unfold matchSeg at h
    split at h
    · split at h
      · rename_i hh; cases h; exact ⟨⟨s, by simp⟩, by simp⟩
      · cases h
    · cases h; exact ⟨⟨[], rfl⟩, by simp⟩
  | cons p seg ih =>
    by_cases hp : p = '_'
    · subst hp
      have h' : matchSeg q e seg (skipBlanks s) = .ok rest := by rw [← h]; simp [matchSeg]
      obtain ⟨⟨x, hx⟩, hl⟩ := ih _ h'
      have hb : ∀ s : Str, ∃ y, s = y ++ skipBlanks s := by
        intro s
        induction s with
        | nil => exact ⟨[], rfl⟩
        | cons c s ih2 =>
          unfold skipBlanks
          split
          · obtain ⟨y, hy⟩ := ih2; exact ⟨c :: y, by rw [List.cons_append, ← hy]⟩
          · exact ⟨[], rfl⟩
      obtain ⟨y, hy⟩ := hb s
      refine ⟨⟨y ++ x, ?_⟩, ?_⟩
      · rw [List.append_assoc, ← hx]; exact hy
      · have : s.length = y.length + (skipBlanks s).length := by
          conv => lhs; rw [hy]
          simp
        have e : ('_' :: seg).filter (· ≠ '_') = seg.filter (· ≠ '_') := by simp
        rw [e]
        omega
    · cases s with
      | nil =>
        exfalso
        revert h
        unfold matchSeg
        split
        · rename_i heq _; simp_all
        · rename_i heq _; simp_all
        · simp
        · simp_all
      | cons c s =>
        have h' : matchSeg q e (p :: seg) (c :: s) =
            if q = Quote.zero ∧ litMatch p c then matchSeg q e seg s else .bad false := by
          conv => lhs; unfold matchSeg
          split
          · simp_all
          · simp_all
          · simp_all
          · rename_i h1 h2; simp at h1 h2; obtain ⟨rfl, rfl⟩ := h1; obtain ⟨rfl, rfl⟩ := h2; rfl
        rw [h'] at h
        split at h
        · obtain ⟨⟨x, hx⟩, hl⟩ := ih _ h
          refine ⟨⟨c :: x, by rw [List.cons_append, ← hx]⟩, ?_⟩
          have e : (p :: seg).filter (· ≠ '_') = p :: seg.filter (· ≠ '_') := by simp [hp]
          rw [e]
          simp only [List.length_cons]
          omega
        · cases h

theorem seek_parts {e : Bool} {seg : Str} (s : Str) {q q' : Quote} {cap rest : Str}
    (h : seek e seg q s = .ok (cap, rest, q')) :
    (∃ p, s = cap ++ p ++ rest) ∧ cap.length + (seg.filter (· ≠ '_')).length + rest.length ≤ s.length := by
  induction s generalizing q cap with
  | nil =>
    unfold seek at h
    cases hm : matchSeg q e seg [] with
    | bad b => rw [hm] at h; cases h
    | ok r =>
      rw [hm] at h; cases h
      obtain ⟨⟨p, hp⟩, hl⟩ := matchSeg_parts _ _ _ hm
      exact ⟨⟨p, by simpa using hp⟩, by simpa using hl⟩
  | cons c s ih =>
    unfold seek at h
    cases hm : matchSeg q e seg (c :: s) with
    | bad b =>
      rw [hm] at h
      cases b with
      | true => cases h
      | false =>
        simp only at h
        cases hs : seek e seg (q.step c) s with
        | error n => rw [hs] at h; cases h
        | ok r =>
          obtain ⟨cap', rest', q2⟩ := r
          rw [hs] at h; cases h
          obtain ⟨⟨p, hp⟩, hl⟩ := ih hs
          refine ⟨⟨p, ?_⟩, ?_⟩
          · conv => lhs; rw [hp]
            simp
          · simp only [List.length_cons] at hl ⊢; omega
    | ok r =>
      rw [hm] at h; cases h
      obtain ⟨⟨p, hp⟩, hl⟩ := matchSeg_parts _ _ _ hm
      exact ⟨⟨p, by simpa using hp⟩, by simpa using hl⟩

/-- Characters of a pattern that must each match one. -/
def literals (segs : List Str) : Nat := (segs.flatten.filter (· ≠ '_')).length

theorem wild_parts {total : Nat} (segs : List Str) (q : Quote) (s : Str)
    (h : (filterWild total segs q s).ok = true) :
    (∀ a ∈ (filterWild total segs q s).caps, ∀ c ∈ a, c ∈ s) ∧
    ((filterWild total segs q s).caps.map List.length).sum + literals segs ≤ s.length := by
  induction segs generalizing q s with
  | nil => simp [filterWild, literals]
  | cons seg segs ih =>
    by_cases hlast : seg = [] ∧ segs = []
    · obtain ⟨rfl, rfl⟩ := hlast
      simp [filterWild, literals]
    · have hw : filterWild total (seg :: segs) q s =
          match seek segs.isEmpty seg q s with
          | .error n => ⟨false, [], 1 + n, total - s.length⟩
          | .ok (cap, rest, q') =>
            let r := filterWild total segs q' rest
            ⟨r.ok, cap :: r.caps, 1 + cap.length + r.wrote,
              if segs.isEmpty then total - s.length else r.consumed⟩ := by
        conv => lhs; unfold filterWild
        split
        · simp_all
        · simp_all
        · rename_i h1; simp at h1; obtain ⟨rfl, rfl⟩ := h1; rfl
      rw [hw] at h ⊢
      cases hs : seek segs.isEmpty seg q s with
      | error n => rw [hs] at h; cases h
      | ok r =>
        obtain ⟨cap, rest, q'⟩ := r
        rw [hs] at h
        obtain ⟨⟨p, hp⟩, hl⟩ := seek_parts s hs
        obtain ⟨h1, h2⟩ := ih q' rest h
        refine ⟨?_, ?_⟩
        · intro a ha c hc
          simp only [List.mem_cons] at ha
          rw [hp]
          rcases ha with rfl | ha
          · simp [hc]
          · simp [h1 a ha c hc]
        · simp only [literals, List.map_cons, List.sum_cons, List.flatten_cons, List.filter_append,
            List.length_append] at h2 ⊢
          omega

/-- The text captured by a filter comes from the subject, and is shorter than it by the literal characters of
    the pattern. -/
theorem filter_parts (s pat : Str) (h : (filter s pat).ok = true) :
    (∀ a ∈ (filter s pat).caps, ∀ c ∈ a, c ∈ s) ∧
    ((filter s pat).caps.map List.length).sum + literals ((splitPat pat).1 :: (splitPat pat).2) ≤ s.length := by
  unfold filter at h ⊢
  dsimp only at h ⊢
  cases hm : matchSeg Quote.zero (splitPat pat).2.isEmpty (splitPat pat).1 s with
  | bad b => rw [hm] at h; cases h
  | ok rest =>
    rw [hm] at h
    obtain ⟨⟨p, hp⟩, hl⟩ := matchSeg_parts _ _ _ hm
    obtain ⟨h1, h2⟩ := wild_parts _ _ _ h
    refine ⟨fun a ha c hc => ?_, ?_⟩
    · have := h1 a ha c hc
      rw [hp]; simp [this]
    · simp only [literals, List.flatten_cons, List.filter_append, List.length_append] at h2 ⊢
      omega

/-- Of a pattern that has a literal character. -/
def hasLit (pat : Str) : Bool := 0 < literals ((splitPat pat).1 :: (splitPat pat).2)

theorem calm_filterC {t : Str} (s pat : Str) : Calm t (filterC s pat) fun r =>
    ∀ caps k, r = some (caps, k) → (∀ a ∈ caps, (∀ c ∈ a, c ∈ s) ∧
      (hasLit pat = true → a.length < s.length)) := by
  intro st
  simp only [filterC, getS_bind_run]
  by_cases hb : bufSize ≤ st.bufpos + (filter s pat).wrote
  · rw [if_pos hb]; exact ⟨by simp, by simp⟩
  · rw [if_neg hb]
    by_cases ho : (filter s pat).ok = true
    · rw [if_pos ho]
      rw [modS_bind_run]
      intro caps k hr a ha
      cases hr
      obtain ⟨h1, h2⟩ := filter_parts s pat ho
      refine ⟨h1 a ha, fun hl => ?_⟩
      have h3 : a.length ≤ ((filter s pat).caps.map List.length).sum := by
        have : ∀ (l : List Str), a ∈ l → a.length ≤ (l.map List.length).sum := by
          intro l
          induction l with
          | nil => intro h; cases h
          | cons b l ih =>
            intro h
            rcases List.mem_cons.1 h with rfl | h
            · simp
            · have := ih h; simp; omega
        exact this _ ha
      simp only [hasLit, decide_eq_true_eq] at hl
      omega
    · rw [if_neg ho]
      intro caps k hr
      cases hr

theorem calm_filter2 {t : Str} (s pat : Str) : Calm t (filter2 s pat) fun r =>
    ∀ a b, r = some (a, b) → ((∀ c ∈ a, c ∈ s) ∧ ∀ c ∈ b, c ∈ s) ∧
      (hasLit pat = true → a.length < s.length ∧ b.length < s.length) := by
  unfold filter2
  refine Calm.bind (calm_filterC s pat) fun r hr => ?_
  split
  · rename_i a b k
    refine Calm.pure fun x y h => ?_
    cases h
    have h1 := hr _ _ rfl a (by simp)
    have h2 := hr _ _ rfl b (by simp)
    exact ⟨⟨h1.1, h2.1⟩, fun h => ⟨h1.2 h, h2.2 h⟩⟩
  · exact Calm.pure fun x y h => by cases h

theorem calm_filter1 {t : Str} (s pat : Str) : Calm t (filter1 s pat) fun r =>
    ∀ a, r = some a → (∀ c ∈ a, c ∈ s) ∧ (hasLit pat = true → a.length < s.length) := by
  unfold filter1
  refine Calm.bind (calm_filterC s pat) fun r hr => ?_
  split
  · rename_i a k
    refine Calm.pure fun x h => ?_
    cases h
    exact hr _ _ rfl a (by simp)
  · exact Calm.pure fun x h => by cases h

instance (s pat : Str) : Tame (filterC s pat) := ⟨(calm_filterC s pat).weaken fun _ _ => trivial⟩
instance (s pat : Str) : Tame (filter0 s pat) := by unfold filter0; tame
instance (s pat : Str) : Tame (filter1 s pat) := by unfold filter1; tame
instance (s pat : Str) : Tame (filter2 s pat) := by unfold filter2; tame

/-- The captures of `filter2`, as far as minus signs are concerned. -/
theorem Calm.filter2 {t s pat : Str} {f : Option (Str × Str) → M β} {R : β → Prop} (hs : Sub s t)
    (h0 : Calm t (f none) R) (h1 : ∀ a b, Sub a t → Sub b t → Calm t (f (some (a, b))) R) :
    Calm t (Crasm.filter2 s pat >>= f) R := by
  refine Calm.bind (calm_filter2 s pat) fun r hr => ?_
  rcases r with _ | ⟨a, b⟩
  · exact h0
  · have := (hr a b rfl).1
    exact h1 a b (fun h => hs (this.1 _ h)) (fun h => hs (this.2 _ h))
theorem Calm.filter1 {t s pat : Str} {f : Option Str → M β} {R : β → Prop} (hs : Sub s t)
    (h0 : Calm t (f none) R) (h1 : ∀ a, Sub a t → Calm t (f (some a)) R) :
    Calm t (Crasm.filter1 s pat >>= f) R := by
  refine Calm.bind (calm_filter1 s pat) fun r hr => ?_
  rcases r with _ | a
  · exact h0
  · exact h1 a (fun h => hs ((hr a rfl).1 _ h))
theorem Calm.filterC {t s pat : Str} {f : Option (List Str × Nat) → M β} {R : β → Prop} (hs : Sub s t)
    (h0 : Calm t (f none) R) (h1 : ∀ c k, (∀ a ∈ c, Sub a t) → Calm t (f (some (c, k))) R) :
    Calm t (Crasm.filterC s pat >>= f) R := by
  refine Calm.bind (calm_filterC s pat) fun r hr => ?_
  rcases r with _ | ⟨c, k⟩
  · exact h0
  · exact h1 c k (fun a ha h => hs ((hr c k rfl a ha).1 _ h))

/-! ### output.c, error() -/

instance : Tame eject := by unfold eject; tame
instance (s : Str) : Tame (outputraw s) := by unfold outputraw; tame
instance : Tame outputEOL := by unfold outputEOL; tame
instance tame_eolLoop (n : Nat) : Tame (eolLoop n) := by
  induction n with
  | zero => exact Tame.pure _
  | succ n ih => unfold eolLoop; tame
instance : Tame outputEOP := by unfold outputEOP; tame
instance (c : Char) : Tame (putRaw c) := by unfold putRaw; tame
instance : Tame putSpace := by unfold putSpace; tame
instance tame_putSpaces (n : Nat) : Tame (putSpaces n) := by
  induction n with
  | zero => exact Tame.pure _
  | succ n ih => unfold putSpaces; tame
instance (n : Nat) : Tame (position n) := by unfold position; tame
instance tame_tryPats (t : Str) (ps : List Str) : Tame (tryPats t ps) := by
  induction ps with
  | nil => exact Tame.pure _
  | cons p ps ih => unfold tryPats; tame
instance (c : Char) : Tame (wrapLine c) := by unfold wrapLine; tame
instance (c : Char) : Tame (outputcar c) := by unfold outputcar; tame
instance tame_output (s : Str) : Tame (output s) := by
  induction s with
  | nil => exact Tame.pure _
  | cons p ps ih => unfold output; tame
instance : Tame outputline := by unfold outputline; tame
instance (a : Word) : Tame (outputaddr a) := by unfold outputaddr; tame
instance (b : Byte) : Tame (outputbyte b) := by unfold outputbyte; tame
instance (m : Str) : Tame (warning m) := by unfold warning; tame
instance (m : Str) : Tame (reportError m) := by
  unfold reportError
  refine Tame.bind Tame.getS fun s => ?_
  simp only
  split
  · infer_instance
  · exact Tame.bind inferInstance fun _ => inferInstance
instance : Tame bumpStar := by unfold bumpStar; tame
instance (m : Str) : Tame (error m : M α) := by unfold error; tame
instance (n : Note) : Tame (note n) := Tame.modS _
instance (m : Str) : Tame (refuse m : M α) := Tame.catchErr inferInstance (Tame.bind inferInstance fun _ => inferInstance)
instance (k : Str) (l : Label) : Tame (putLabel k l) := Tame.modS _
instance (n : Str) : Tame (findlabel n) := ⟨fun _ => trivial⟩
instance (n : Str) (f : LFlags) (t : LType) (v : Word) : Tame (deflabel n f t v) := by unfold deflabel; tame
instance (r : Result) (t : LType) : Tame (checktype r t) := by unfold checktype; tame

/-! ### parse.c -/

instance (tgt : Bool) (r : Result) : Tame (setRes tgt r) := by unfold setRes; tame
instance (tgt : Bool) (v : Nat) : Tame (cst tgt v) := by unfold cst; tame
instance (tgt : Bool) (v : Except Str Nat) : Tame (cstE tgt v) := by unfold cstE; tame
instance (tgt : Bool) (n : Str) : Tame (cstlabel tgt n) := by unfold cstlabel; tame
instance tame_parseConst (tgt : Bool) (e : Str) (rows : List (Str × Base)) : Tame (parseConst tgt e rows) := by
  induction rows with
  | nil => unfold parseConst; tame
  | cons r rows ih => obtain ⟨p, b⟩ := r; unfold parseConst; tame
instance (tgt : Bool) (e : Str) : Tame (parseLeaf tgt e) := by unfold parseLeaf; tame

theorem litMatch_minus {c : Char} (h : litMatch '-' c = true) : c = '-' := by
  have h1 : toupper c = '-' := by
    have : toupper '-' = toupper c ∨ ('-' = ' ' ∧ c = '\t') := by
      simpa [litMatch] using h
    rcases this with h | h
    · exact h.symm
    · exact absurd h.1 (by decide)
  unfold toupper at h1
  split at h1
  · rename_i hl
    exfalso
    have h2 : ∀ k < 123, 97 ≤ k → Char.ofNat (k - 32) ≠ '-' := by decide +kernel
    exact h2 c.toNat (by omega) hl.1 h1
  · exact h1

theorem skipBlanks_mem {c : Char} (s : Str) (h : c ∈ skipBlanks s) : c ∈ s := by
  induction s with
  | nil => exact h
  | cons d s ih =>
    unfold skipBlanks at h
    split at h
    · exact List.mem_cons_of_mem _ (ih h)
    · exact h

theorem matchSeg_minus {q : Quote} {e : Bool} (seg s rest : Str) (h : matchSeg q e seg s = .ok rest)
    (hm : '-' ∈ seg) : '-' ∈ s := by
  induction seg generalizing s with
  | nil => cases hm
  | cons p seg ih =>
    by_cases hp : p = '_'
    · subst hp
      have h' : matchSeg q e seg (skipBlanks s) = .ok rest := by rw [← h]; simp [matchSeg]
      exact skipBlanks_mem s (ih _ h' (by simpa using hm))
    · cases s with
      | nil =>
        exfalso
        revert h
        unfold matchSeg
        split
        · rename_i heq _; simp_all
        · rename_i heq _; simp_all
        · simp
        · simp_all
      | cons c s =>
        have h' : matchSeg q e (p :: seg) (c :: s) =
            if q = Quote.zero ∧ litMatch p c then matchSeg q e seg s else .bad false := by
          conv => lhs; unfold matchSeg
          split
          · simp_all
          · simp_all
          · simp_all
          · rename_i h1 h2; simp at h1 h2; obtain ⟨rfl, rfl⟩ := h1; obtain ⟨rfl, rfl⟩ := h2; rfl
        rw [h'] at h
        split at h
        · rename_i hc
          rcases List.mem_cons.1 hm with rfl | hm
          · rw [litMatch_minus hc.2]; simp
          · exact List.mem_cons_of_mem _ (ih _ h hm)
        · cases h

theorem seek_minus {e : Bool} {seg : Str} (s : Str) {q q' : Quote} {cap rest : Str}
    (h : seek e seg q s = .ok (cap, rest, q')) (hm : '-' ∈ seg) : '-' ∈ s := by
  induction s generalizing q cap with
  | nil =>
    unfold seek at h
    cases hs : matchSeg q e seg [] with
    | bad b => rw [hs] at h; cases h
    | ok r => exact matchSeg_minus _ _ _ hs hm
  | cons c s ih =>
    unfold seek at h
    cases hs : matchSeg q e seg (c :: s) with
    | bad b =>
      rw [hs] at h
      cases b with
      | true => cases h
      | false =>
        simp only at h
        cases hs2 : seek e seg (q.step c) s with
        | error n => rw [hs2] at h; cases h
        | ok r =>
          obtain ⟨cap', rest', q2⟩ := r
          rw [hs2] at h; cases h
          exact List.mem_cons_of_mem _ (ih hs2)
    | ok r => exact matchSeg_minus _ _ _ hs hm

/-- The pattern of a difference only matches text with a minus sign. -/
theorem filter_minus {s : Str} (h : (filter s c!"?_-_?").ok = true) : '-' ∈ s := by
  have e : filter s c!"?_-_?" = filterWild s.length [c!"_-_", []] Quote.zero s := rfl
  rw [e] at h
  have e2 : filterWild s.length [c!"_-_", []] Quote.zero s =
      match seek false c!"_-_" Quote.zero s with
      | .error n => ⟨false, [], 1 + n, s.length - s.length⟩
      | .ok (cap, rest, q') =>
        ⟨(filterWild s.length [[]] q' rest).ok, cap :: (filterWild s.length [[]] q' rest).caps,
          1 + cap.length + (filterWild s.length [[]] q' rest).wrote,
          (filterWild s.length [[]] q' rest).consumed⟩ := rfl
  rw [e2] at h
  cases hs : seek false c!"_-_" Quote.zero s with
  | error n => rw [hs] at h; cases h
  | ok r =>
    obtain ⟨cap, rest, q'⟩ := r
    exact seek_minus s hs (by decide)

theorem calm_minus {t : Str} (s : Str) : Calm t (filter2 s c!"?_-_?") fun r => r ≠ none → '-' ∈ s := by
  intro st
  unfold filter2
  simp only [filterC, bind_assoc, getS_bind_run]
  by_cases hb : bufSize ≤ st.bufpos + (filter s c!"?_-_?").wrote
  · rw [if_pos hb]; exact ⟨by simp, by simp⟩
  · rw [if_neg hb]
    by_cases ho : (filter s c!"?_-_?").ok = true
    · have hm := filter_minus ho
      rw [if_pos ho]
      simp only [bind_assoc, modS_bind_run, pure_bind]
      generalize (filter s c!"?_-_?").caps = l
      rcases l with _ | ⟨a, _ | ⟨b, _ | ⟨c, l⟩⟩⟩ <;> exact fun _ => hm
    · rw [if_neg ho]
      simp only [pure_bind]
      exact fun h => absurd rfl h

/-! ### parse.c, continued -/

/-- Alternatives of a row: captures and, for a difference, the minus sign. -/
theorem calm_firstMatch {t : Str} (e : Str) (alts : List (Str × Op2))
    (hl : ∀ x ∈ alts, hasLit x.1 = true) (hsub : ∀ x ∈ alts, x.2 = .sub → x.1 = c!"?_-_?") :
    Calm t (firstMatch e alts) fun r => ∀ a b op, r = some (a, b, op) →
      ((∀ c ∈ a, c ∈ e) ∧ ∀ c ∈ b, c ∈ e) ∧ (a.length < e.length ∧ b.length < e.length) ∧
      (op = .sub → '-' ∈ e) := by
  induction alts with
  | nil => exact Calm.pure fun a b op h => by cases h
  | cons x alts ih =>
    obtain ⟨pat, op⟩ := x
    have ih := ih (fun x hx => hl x (by simp [hx])) (fun x hx => hsub x (by simp [hx]))
    unfold firstMatch
    have hm : Calm t (filter2 e pat) fun r => (∀ a b, r = some (a, b) →
        ((∀ c ∈ a, c ∈ e) ∧ ∀ c ∈ b, c ∈ e) ∧ (a.length < e.length ∧ b.length < e.length)) ∧
        (r ≠ none → op = .sub → '-' ∈ e) := by
      intro s
      have h1 := calm_filter2 (t := t) e pat s
      have h2 : op = .sub → _ := fun h => (hsub (pat, op) (by simp) h) ▸ calm_minus (t := t) e s
      revert h1 h2
      cases filter2 e pat s with
      | ok r s' =>
        intro h1 h2
        refine ⟨fun a b h => ⟨(h1 a b h).1, (h1 a b h).2 (hl (pat, op) (by simp))⟩, fun hr ho => h2 ho hr⟩
      | err s' => intro _ _; trivial
      | stop w s' => intro h1 _; exact h1
    refine Calm.bind hm fun r hr => Calm.bind ih fun rest hrest => ?_
    rcases r with _ | ⟨ca, cb⟩
    · exact Calm.pure hrest
    · refine Calm.pure fun a b op' h => ?_
      cases h
      exact ⟨(hr.1 _ _ rfl).1, (hr.1 _ _ rfl).2, hr.2 (by simp)⟩

theorem applyOp2_hang {op : Op2} {p a : Result} (h : applyOp2 op p a = .hang) : op = .sub := by
  have ha : ∀ {p a : Result} {k : Result → OpRes}, (∀ r, k r ≠ .hang) → absolute2 p a k ≠ .hang := by
    intro p a k hk
    unfold absolute2
    split
    · simp
    · split
      · simp
      · exact hk _
  have ho : ∀ r v, ofOpt r v ≠ .hang := by intro r v; cases v <;> simp [ofOpt]
  cases op with
  | sub => rfl
  | add =>
    exfalso; revert h
    simp only [applyOp2]
    split
    · simp
    · split
      · simp
      · split <;> simp
  | rlist =>
    exfalso; revert h
    simp only [applyOp2]
    split
    · simp
    · split <;> simp
  | mul => exact absurd h (by simp only [applyOp2]; exact ha fun r => ho _ _)
  | div =>
    refine absurd h ?_
    simp only [applyOp2]
    refine ha fun r => ?_
    split
    · simp
    · split <;> simp
  | or => exact absurd h (by simp only [applyOp2]; exact ha fun r => by simp)
  | and => exact absurd h (by simp only [applyOp2]; exact ha fun r => by simp)
  | xor => exact absurd h (by simp only [applyOp2]; exact ha fun r => by simp)
  | lsh => refine absurd h ?_; simp only [applyOp2]; refine ha fun r => ?_; split <;> simp
  | rsh => refine absurd h ?_; simp only [applyOp2]; refine ha fun r => ?_; split <;> simp
  | bit => refine absurd h ?_; simp only [applyOp2]; refine ha fun r => ?_; split <;> simp

theorem applyOp1_hang {op : Op1} {p : Result} : applyOp1 op p ≠ .hang := by
  cases op <;> (simp only [applyOp1]; split <;> try simp)
  split <;> simp

theorem calm_finishOp {t : Str} (tgt : Bool) (o : OpRes) (h : o = .hang → '-' ∈ t) :
    Calm t (finishOp tgt o) Any := by
  cases o with
  | ok r => exact (inferInstance : Tame (setRes tgt r)).calm
  | err m r => exact Calm.bind Tame.calm fun _ _ => Tame.calm
  | ub u => exact (inferInstance : Tame (ubM u : M Result)).calm
  | hang => exact fun s => ⟨by simp, fun _ => h rfl⟩

/-- What the table of parse.c asks of an entry for the proof. -/
def goodEnt : Ent → Bool
  | .dya alts => alts.all fun x => hasLit x.1 && (x.2 ≠ .sub || x.1 = c!"?_-_?")
  | .mon pat _ => hasLit pat
  | .paren pat => hasLit pat

theorem calm_parseRows {t : Str} (rec : Bool → Str → M Result) (tgt : Bool) (e : Str) (he : Sub e t)
    (hrec : ∀ tgt x, x.length < e.length → Sub x t → Calm t (rec tgt x) Any) (rows : List Ent)
    (hg : rows.all goodEnt = true) : Calm t (parseRows rec tgt e rows) Any := by
  induction rows with
  | nil => exact (inferInstance : Tame (parseLeaf tgt (creverse e))).calm
  | cons r rows ih =>
    have hg' : goodEnt r = true ∧ rows.all goodEnt = true := by
      rw [List.all_cons] at hg; simpa using hg
    have ih := ih hg'.2
    cases r with
    | dya alts =>
      unfold parseRows
      have h1 : ∀ x ∈ alts, hasLit x.1 = true ∧ (x.2 = .sub → x.1 = c!"?_-_?") := by
        intro x hx
        have := List.all_eq_true.1 (show alts.all _ = true from hg'.1) x hx
        simp at this
        refine ⟨this.1, fun h => ?_⟩
        rcases this.2 with h2 | h2
        · exact absurd h h2
        · exact h2
      refine Calm.bind (calm_firstMatch e alts (fun x hx => (h1 x hx).1) (fun x hx => (h1 x hx).2))
        fun m hm => ?_
      rcases m with _ | ⟨c1, c2, op⟩
      · exact ih
      · obtain ⟨h2, h3, h4⟩ := hm c1 c2 op rfl
        dsimp only
        split
        · exact ih
        · refine Calm.bind (hrec _ _ h3.2 fun h => he (h2.2 _ h)) fun p _ =>
            Calm.bind (hrec _ _ h3.1 fun h => he (h2.1 _ h)) fun a _ => ?_
          exact calm_finishOp _ _ fun h => he (h4 (applyOp2_hang h))
    | mon pat op =>
      unfold parseRows
      refine Calm.bind (calm_filter1 e pat) fun r hr => ?_
      rcases r with _ | _ | ⟨c, ca⟩
      · exact ih
      · exact ih
      · have := hr _ rfl
        refine Calm.bind (hrec _ _ (this.2 hg'.1) fun h => he (this.1 _ h)) fun p _ => ?_
        exact calm_finishOp _ _ fun h => absurd h applyOp1_hang
    | paren pat =>
      unfold parseRows
      refine Calm.bind (calm_filter1 e pat) fun r hr => ?_
      rcases r with _ | _ | ⟨c, ca⟩
      · exact ih
      · exact ih
      · have := hr _ rfl
        exact hrec _ _ (this.2 hg'.1) fun h => he (this.1 _ h)

theorem calm_parse2 {t : Str} (n : Nat) (tgt : Bool) (e : Str) (hn : e.length < n) (he : Sub e t) :
    Calm t (parse2 n tgt e) Any := by
  induction n generalizing tgt e with
  | zero => omega
  | succ n ih =>
    exact calm_parseRows (parse2 n) tgt e he (fun tgt x hx hs => ih tgt x (by omega) hs) revTable
      (by decide +kernel)

theorem fixEscapes_perm (q : RQuote) (acc s : Str) : (fixEscapes q acc s).Perm (acc ++ s) := by
  induction s generalizing q acc with
  | nil =>
    have : fixEscapes q acc [] = acc.reverse := by cases q <;> rfl
    rw [this, List.append_nil]
    exact List.reverse_perm acc
  | cons c s ih =>
    have hc : ∀ q, (fixEscapes q (c :: acc) s).Perm (acc ++ c :: s) := fun q =>
      (ih q (c :: acc)).trans List.perm_middle.symm
    unfold fixEscapes
    split
    · split
      · exact hc _
      · exact hc _
      · exact hc _
    · split
      · split
        · exact hc _
        · exact hc _
        · exact hc _
      · split
        · rename_i h
          cases acc with
          | nil => exact hc _
          | cons p acc' =>
            refine (ih q (p :: '\\' :: acc')).trans ?_
            rw [h.1]
            show (p :: '\\' :: (acc' ++ s)).Perm (p :: (acc' ++ '\\' :: s))
            exact .cons _ List.perm_middle.symm
        · exact hc _

theorem creverse_perm (s : Str) : (creverse s).Perm s :=
  (fixEscapes_perm .none [] s.reverse).trans (List.reverse_perm s)

theorem calm_parse {t : Str} (o : Option Str) (ho : Sub (orEmpty o) t) : Calm t (parse o) Any := by
  unfold parse
  rcases o with _ | _ | ⟨c, e⟩
  · exact Tame.calm
  · exact Tame.calm
  · refine Calm.bind Tame.calm fun r _ => Calm.bind (Calm.whenM Tame.calm) fun _ _ => ?_
    have h := creverse_perm (c :: e)
    refine calm_parse2 _ _ _ ?_ fun hm => ho (h.mem_iff.1 hm)
    have h2 : (creverse (c :: e)).length = (c :: e).length := h.length_eq
    omega

theorem calm_parseAbs {t : Str} (o : Option Str) (ho : Sub (orEmpty o) t) : Calm t (parseAbs o) Any := by
  unfold parseAbs
  exact Calm.bind (calm_parse o ho) fun _ _ => Calm.bind Tame.calm fun _ _ => Calm.pure trivial

end Crasm

import Verif.Proof.ProgLine
import Verif.Proof.Source
import Verif.Props.C40

/-! Programs: all lines, in pass 2. -/

namespace Crasm.C42
open Spec.Program (Isa key Free Body Line State Lines Proper All2 labels hasOrg)

/-! ### Reading a line -/

theorem lineText_all {l r : Str} (h : ∀ c ∈ l, Spec.Plain c) (hr : r = [] ∨ r = ['\n']) : lineText (l ++ r) = l := by
  induction l with
  | nil => rcases hr with rfl | rfl <;> rfl
  | cons c l ih =>
    have hc := h c (by simp)
    have h1 : c ≠ '\n' := by rintro rfl; revert hc; unfold Spec.Plain; decide
    have h2 : c ≠ Char.ofNat 0 := by rintro rfl; revert hc; unfold Spec.Plain; decide
    have := ih fun d hd => h d (by simp [hd])
    unfold lineText at this ⊢
    rw [List.cons_append, List.takeWhile_cons, if_pos (by simp [h1, h2]), this]

theorem filter_all {l : Str} (h : ∀ c ∈ l, Spec.Plain c) : l.filter keepChar = l :=
  List.filter_eq_self.2 fun c hc => keep_plain (h c hc)

theorem image_line (p d : Nat) (t : Str) (log : List Event) : image (.line p d t :: log) = image log := by
  unfold image codeOf
  simp

/-- What is left to read of the source. -/
structure Rest (s : St) (ts : List Str) : Prop where
  tame : Spec.Tame s.main
  eof : s.mainEof = true → s.main = []
  left : left s.main s.mainEof = ts

theorem linegets_ok {s : St} {t : Str} {ts : List Str} (hs : s.stack = []) (h : Rest s (t :: ts)) :
    ∃ m e, linegets s = .ok () { s with curline := t, linenumber := s.linenumber + 1, log := .line s.passnumber 0 t :: s.log, main := m, mainEof := e } ∧
      t.length ≤ 248 ∧ ∀ s', s'.main = m → s'.mainEof = e → Rest s' ts := by
  obtain ⟨h1, h2, h3⟩ := h
  cases he : s.mainEof with
  | true => rw [he] at h3; cases h3
  | false =>
    rw [he] at h3
    have h3 : Spec.lines s.main = t :: ts := h3
    obtain ⟨g1, g2⟩ := h1 t (by rw [h3]; exact .head _)
    have run : ∀ raw m e, lineText raw = t → fgets (lineMax - 1) s.main = (raw, m, e) →
        linegets s = .ok () { s with curline := t, linenumber := s.linenumber + 1, log := .line s.passnumber 0 t :: s.log, main := m, mainEof := e } := by
      intro raw m e hraw hf
      unfold linegets
      rw [modS_bind_run, getS_bind_run, hs]
      have hp : popEnds [] s = s := rfl
      rw [hp, hs]
      dsimp only
      rw [hf]
      dsimp only
      unfold takeLine
      have hw : ∀ (k : Str), whenM (k.length ≠ k.length) (warning c!"Unprintable characters removed") = pure () := by
        intro k; unfold whenM; rw [if_neg (by simp)]
      have hk := filter_all g2
      rw [hraw]
      show ((modS (fun s => { s with curline := t.filter keepChar }) >>= fun _ => whenM ((t.filter keepChar).length ≠ t.length) (warning c!"Unprintable characters removed") >>= fun _ => modS (fun s => { s with linenumber := s.linenumber + 1, log := .line s.passnumber s.stack.length (t.filter keepChar) :: s.log })) >>= _) s = _
      rw [hk, hw t]
      show Res.ok () _ = Res.ok () _
      simp only [hs, he, List.length_nil, Bool.false_or]
    rcases fgets_line s.main 249 t ts h3 (by omega) with ⟨m, k1, k2⟩ | ⟨k1, k2⟩
    · refine ⟨m, false, run _ _ _ (lineText_all g2 (.inr rfl)) k2, g1, fun s' e1 e2 => ⟨?_, ?_, ?_⟩⟩
      · intro x hx
        rw [e1, k1] at hx
        exact h1 x (by rw [h3]; exact .tail _ hx)
      · rw [e2]; intro h; cases h
      · rw [e1, e2]; exact k1
    · refine ⟨[], true, run _ _ _ (by have := lineText_all g2 (.inl rfl); rwa [List.append_nil] at this) k2, g1, fun s' e1 e2 => ⟨?_, ?_, ?_⟩⟩
      · intro x hx
        rw [e1] at hx
        cases hx with
        | head => exact ⟨by simp, by simp⟩
        | tail _ h => cases h
      · exact fun _ => e1
      · rw [e2, k1]; rfl

/-! ### Lists of lines -/

theorem labels_append {isa : Isa} (a b : Lines isa) : labels (a ++ b) = labels a ++ labels b := by
  induction a with
  | nil => rfl
  | cons x a ih =>
    obtain ⟨l, body⟩ := x
    cases l with
    | none => exact ih
    | some l => cases body <;> simp [labels, ih]
theorem equates_append {isa : Isa} (a b : Lines isa) : Spec.Program.equates (a ++ b) = Spec.Program.equates a ++ Spec.Program.equates b := by
  induction a with
  | nil => rfl
  | cons x a ih =>
    obtain ⟨l, body⟩ := x
    cases l with
    | none => cases body <;> exact ih
    | some l => cases body <;> simp [Spec.Program.equates, ih]
theorem hasOrg_append {isa : Isa} (a b : Lines isa) : hasOrg (a ++ b) = (hasOrg a || hasOrg b) := by
  induction a with
  | nil => rfl
  | cons x a ih =>
    obtain ⟨l, body⟩ := x
    cases body <;> simp [hasOrg, ih]

theorem mem_labels {isa : Isa} {l : Str} {body : Body isa.Ins} (h : ∀ e, body ≠ .equ e) (p : Lines isa) : key l ∈ labels ((some l, body) :: p) := by
  cases body with
  | equ e => exact absurd rfl (h e)
  | _ => exact List.mem_cons_self

/-! ### The loop -/

/-- If there is nothing wrong with the next line, the pass goes on behind it. -/
theorem round_sure {fuel n : Nat} {s s' s1 : St} (h : passLoop fuel (n + 1) true s = .ok () s') (he : s.mainEof = false) (hg : linegets s = .ok () s1)
    (hne : ∀ t, asmline fuel ⟨true, true⟩ s1 ≠ .err t) (hrc : ∀ rc t, asmline fuel ⟨true, true⟩ s1 = .ok rc t → rc = .cont) :
    ∃ s2, asmline fuel ⟨true, true⟩ s1 = .ok .cont s2 ∧ passLoop fuel n true s2 = .ok () s' := by
  unfold passLoop at h
  rw [getS_bind_run, he, if_neg (by decide)] at h
  obtain ⟨again, t, h1, h2⟩ := bind_ok h
  unfold catchErr at h1
  have hb : passBody fuel s = (asmline fuel ⟨true, true⟩ >>= fun r => whenM (r ≠ .cont) (error c!"ELSE, ENDC, ENDM, EXITM illegal here")) s1 := by
    unfold passBody
    rw [bind_run, hg]
  rw [bind_run, hb, bind_run] at h1
  cases e : asmline fuel ⟨true, true⟩ s1 with
  | err t' => exact absurd e (hne t')
  | stop w t' => rw [e] at h1; cases h1
  | ok rc s2 =>
    cases hrc rc s2 e
    rw [e] at h1
    cases h1
    exact ⟨_, rfl, h2⟩

/-- If pass 2 ends without an error, its next line is executed without one. -/
theorem round_ok {fuel n : Nat} {s s' : St} (h : passLoop fuel (n + 1) true s = .ok () s') (he : s.mainEof = false) (hp : s.passnumber = 2)
    (hne : ∀ sh, Event.error 2 sh ∉ s'.log) :
    ∃ s1 s2, linegets s = .ok () s1 ∧ asmline fuel ⟨true, true⟩ s1 = .ok .cont s2 ∧ passLoop fuel n true s2 = .ok () s' := by
  unfold passLoop at h
  rw [getS_bind_run, he, if_neg (by decide)] at h
  obtain ⟨again, t, h1, h2⟩ := bind_ok h
  unfold catchErr at h1
  have hw : Walk Step (passBody fuel) := W.walk
  have hws := hw s
  cases hb : passBody fuel s with
  | stop w t' => rw [bind_run, hb] at h1; cases h1
  | err t' =>
    rw [hb] at hws
    have hk : K (s, .live) (t', .pend) := K.star ((show Star Step _ (t', .pend) from hws).mono fun _ _ h => K.s h)
    obtain ⟨sh, hsh⟩ := hk.err rfl rfl
    rw [bind_run, hb] at h1
    have ht : t.log = t'.log := by cases h1; rfl
    have hk2 : K (t, .live) (s', .live) := by
      have := walk_passLoop fuel n again t
      rw [h2] at this
      exact K.star ((show Star Step _ (s', .live) from this).mono fun _ _ h => K.s h)
    rw [hp] at hsh
    exact absurd (hk2.log.subset (by show _ ∈ t.log; rw [ht]; exact hsh)) (hne sh)
  | ok u t' =>
    rw [bind_run, hb] at h1
    cases h1
    unfold passBody at hb
    obtain ⟨u1, s1, g1, hb⟩ := bind_ok hb
    obtain ⟨rc, s2, g2, hb⟩ := bind_ok hb
    unfold whenM at hb
    by_cases hr : rc = .cont
    · subst hr
      rw [if_neg (by simp)] at hb
      cases hb
      exact ⟨s1, t, g1, g2, h2⟩
    · rw [if_pos hr] at hb
      exact (error_not_ok hb).elim

theorem later_notes {fuel n : Nat} {s s' : St} (h : passLoop fuel n true s = .ok () s') : s.notes ⊆ s'.notes := by
  have := walk_passLoop fuel n true s
  rw [h] at this
  obtain ⟨ns, e, -⟩ := (K.star ((show Star Step _ (s', .live) from this).mono fun _ _ h => K.s h)).notes
  intro x hx
  show x ∈ s'.notes
  have e : s'.notes = ns ++ s.notes := e
  rw [e]
  exact List.mem_append_right _ hx

/-- The lines of pass 2: what each of them is, and the states before and after it. -/
inductive Trace (isa : Isa) (voc : List Entry) (cf : Option Int) (fuel : Nat) (addr : Str → Int) (late : Str → Bool) :
    State → St → List Str → Lines isa → List (Int × Byte) → State → St → Prop
  | nil {σ s} : Trace isa voc cf fuel addr late σ s [] [] [] σ s
  | cons {σ s t x img σ' s2 ts p img' σ'' s' m e ls qs ds} : Line isa t x.1 x.2 → t.length ≤ 248 → (∀ c ∈ t, Spec.Plain c) →
      Inv isa voc cf { s with curline := t, linenumber := s.linenumber + 1, log := .line s.passnumber 0 t :: s.log, main := m, mainEof := e } →
      asmline fuel ⟨true, true⟩ { s with curline := t, linenumber := s.linenumber + 1, log := .line s.passnumber 0 t :: s.log, main := m, mainEof := e } = .ok .cont s2 →
      Spec.Program.Step isa addr late σ x img σ' → Match addr late ls qs ds σ' s2 → (hasOrg [x] = true → Placed s2) → Inv isa voc cf s2 →
      image s2.log = image s.log ++ img → (hasOrg [x] = false → Placed s2 → s2.code.pc = (starLabel s2).value) → Trace isa voc cf fuel addr late σ' s2 ts p img' σ'' s' →
      Trace isa voc cf fuel addr late σ s (t :: ts) (x :: p) (img ++ img') σ'' s'

/-- After a line that is no origin, the next byte goes where the location counter is. -/
theorem Trace.at_end {isa : Isa} {voc : List Entry} {cf : Option Int} {fuel : Nat} {addr : Str → Int} {late : Str → Bool} {σ σ' : State} {s s' : St} {ts : List Str}
    {p : Lines isa} {img : List (Int × Byte)} (h : Trace isa voc cf fuel addr late σ s ts p img σ' s') : p ≠ [] → hasOrg p.getLast?.toList = false → Placed s' →
    s'.code.pc = (starLabel s').value := by
  induction h with
  | nil => exact fun h => absurd rfl h
  | cons _ _ _ _ _ _ _ _ _ _ hh T ih =>
    intro _ hx hp
    cases T with
    | nil => exact hh hx hp
    | cons => exact ih (by simp) hx hp

theorem Trace.run {isa : Isa} {voc : List Entry} {cf : Option Int} {fuel : Nat} {addr : Str → Int} {late : Str → Bool} {σ σ' : State} {s s' : St} {ts : List Str}
    {p : Lines isa} {img : List (Int × Byte)} (h : Trace isa voc cf fuel addr late σ s ts p img σ' s') :
    Spec.Program.Run isa addr late σ p img σ' ∧ image s'.log = image s.log ++ img := by
  induction h with
  | nil => exact ⟨.nil, by rw [List.append_nil]⟩
  | cons _ _ _ _ _ h _ _ _ hi _ _ ih => exact ⟨.cons h ih.1, by rw [ih.2, hi, List.append_assoc]⟩

theorem late_mem {isa : Isa} (p : Lines isa) : ∀ {k}, Spec.Program.late p k = true → k ∈ labels p := by
  induction p with
  | nil => intro k h; cases h
  | cons x p ih =>
    intro k h
    unfold Spec.Program.late at h
    simp only [Bool.and_eq_true, Bool.or_eq_true, List.contains_iff_mem] at h
    rw [show x :: p = [x] ++ p from rfl, labels_append, List.mem_append]
    exact .inr (h.2.elim (·.2) ih)

/-- What is marked in the state is marked by the lines done. -/
def Marked {isa : Isa} (p a : Lines isa) (σ : State) : Prop :=
  ∀ n, σ.late (Spec.Program.late p) n = true → Spec.Program.marks (Spec.Program.late p) a (key n) = true

theorem Marked.nil {isa : Isa} {p : Lines isa} : Marked p [] {} := fun _ h => h

theorem marks_append {isa : Isa} (m : Str → Bool) (a b : Lines isa) : Spec.Program.marks m (a ++ b) = Spec.Program.marks (Spec.Program.marks m a) b := by
  induction a generalizing m with
  | nil => rfl
  | cons x a ih =>
    obtain ⟨l, body⟩ := x
    cases l <;> cases body <;> exact ih _

theorem Marked.step {isa : Isa} {p a : Lines isa} {addr : Str → Int} {σ σ' : State} {x : Option Str × Body isa.Ins} {img : List (Int × Byte)} (h : Marked p a σ)
    (hs : Spec.Program.Step isa addr (Spec.Program.late p) σ x img σ') : Marked p (a ++ [x]) σ' := by
  intro n hn
  rw [marks_append]
  cases hs with
  | nothing => exact h n hn
  | label _ _ => exact h n hn
  | org _ => exact h n hn
  | @equ l e v _ =>
    show (Spec.Program.marks (Spec.Program.late p) a (key n) || (decide (key n = key l) && e.names.any fun z => Spec.Program.marks (Spec.Program.late p) a (key z))) = true
    unfold State.late State.set at hn
    dsimp only at hn
    by_cases he : key n = key l
    · rw [if_pos he] at hn
      dsimp only at hn
      rw [Bool.or_eq_true] at hn ⊢
      rcases hn with hn | hn
      · left
        refine h n ?_
        unfold State.late
        rw [he]
        cases hv : σ.env (key l) with
        | none => rw [hv] at hn; cases hn
        | some v => rw [hv] at hn; exact hn
      · right
        rw [List.any_eq_true] at hn
        obtain ⟨z, h1, h2⟩ := hn
        rw [List.any_eq_true.2 ⟨z, h1, h z h2⟩, he]
        simp
    · rw [if_neg he] at hn
      rw [h n hn]; rfl
  | @data _ l => cases l <;> exact h n hn
  | @ins _ l => cases l <;> exact h n hn

theorem loop_ok {isa : Isa} {voc : List Entry} {cf : Option Int} (M : Machine isa voc cf) {P : Prop} {addr : Str → Int} {late : Str → Bool} {p : Lines isa}
    (hp : Proper p) (hfree : ∀ k, k ∈ labels p ∨ k ∈ Spec.Program.equates p → ∃ y, Free isa y ∧ key y = k) {fuel : Nat} {s' : St}
    (hne : ∀ sh, Event.error 2 sh ∉ s'.log) (hlate : P → late = Spec.Program.late p) (hself : P → ∀ k ∈ labels p, ∀ v, (2, Note.label k v) ∈ s'.notes → addr k = v.toInt) (ts : List Str) :
    ∀ (rest a : Lines isa) (n : Nat) (s : St) (ds : List Str) (σ : State), p = a ++ rest → All2 (fun t x => Line isa t x.1 x.2) ts rest →
      Rest s ts → Inv isa voc cf s → (hasOrg a = true → Placed s) → (∀ k, k ∈ ds ↔ k ∈ Spec.Program.equates a) →
      (P → Match addr late (labels p) (Spec.Program.equates p) ds σ s) → (P → Marked p a σ) → passLoop fuel n true s = .ok () s' →
      (∀ k ∈ labels rest, ∃ v, (2, Note.label k v) ∈ s'.notes) ∧
      (P → ∃ img σ', Trace isa voc cf fuel addr late σ s ts rest img σ' s' ∧ ∃ ds', (∀ k, k ∈ ds' ↔ k ∈ Spec.Program.equates p) ∧
        Match addr late (labels p) (Spec.Program.equates p) ds' σ' s') := by
  induction ts with
  | nil =>
    intro rest a n s ds σ ep h2 hr hi _ hd hm hmk h
    cases h2
    have he : s.mainEof = true := by
      cases he : s.mainEof with
      | true => rfl
      | false =>
        have := hr.left
        rw [he] at this
        exact absurd this (lines_ne _)
    cases n with
    | zero => cases h
    | succ n =>
      unfold passLoop at h
      rw [getS_bind_run, he, if_pos (by decide)] at h
      cases h
      refine ⟨fun k hk => ?_, fun hP => ⟨[], σ, .nil, ds, by rw [ep, List.append_nil]; exact hd, hm hP⟩⟩
      cases hk
  | cons t ts ih =>
    intro rest a n s ds σ ep h2 hr hi ho hd hm hmk h
    cases h2 with
    | @cons _ x _ rest hl h2 =>
    obtain ⟨l, body⟩ := x
    have he : s.mainEof = false := by
      cases he : s.mainEof with
      | false => rfl
      | true =>
        have := hr.left
        rw [he] at this
        cases this
    cases n with
    | zero => cases h
    | succ n =>
      obtain ⟨s1, s2, g1, g2, g3⟩ := round_ok h he hi.pass hne
      obtain ⟨m, e, k1, k2, k3⟩ := linegets_ok hi.stack hr
      rw [k1] at g1
      cases g1
      cases fuel with
      | zero => cases g2
      | succ fuel =>
      have i1 : Inv isa voc cf { s with curline := t, linenumber := s.linenumber + 1, log := .line s.passnumber 0 t :: s.log, main := m, mainEof := e } :=
        ⟨hi.toBase.same rfl rfl rfl rfl rfl, hi.pass, hi.lohi, hi.cpu⟩
      have B : ∀ Q : Prop, (Q → P) → (Q → ∀ y, l = some y → (∀ e, body ≠ .equ e) → addr (key y) = (starLabel s).value.toInt) →
          Before isa voc cf Q addr late (labels p) (Spec.Program.equates p) ds σ
          { s with curline := t, linenumber := s.linenumber + 1, log := .line s.passnumber 0 t :: s.log, main := m, mainEof := e } l body := by
        intro Q hQ hs
        refine ⟨i1, ?_, fun hb => ?_, fun hP => ?_, fun z hz => ?_, fun k hk => ?_, fun y hy hb => ?_, fun y e hy hb => ?_, hs, fun hP => ?_, fun hP e hb n hn => ?_⟩
        · show t.length ≤ 600
          omega
        · exact ho (hp.origin a _ rest ep (.inl hb))
        · have := hm (hQ hP)
          exact ⟨this.pc, this.env, this.lab, this.eqs, this.pre, this.calm⟩
        · exact (hp.closed a _ rest ep z hz).imp (fun h => h.imp_right (hd _).2) fun h => ⟨h.1, ho h.2⟩
        · refine hfree k (hk.imp_right fun hk => ?_)
          rw [ep, equates_append]
          exact List.mem_append_left _ ((hd k).1 hk)
        · subst hy
          rw [ep, labels_append]
          exact List.mem_append_right _ (mem_labels hb rest)
        · subst hy
          subst hb
          have : key y ∈ Spec.Program.equates p := by
            rw [ep, equates_append]
            exact List.mem_append_right _ List.mem_cons_self
          exact ⟨hp.apart _ this, this⟩
        · have hnl : starKey ∉ labels p := fun h => by
            obtain ⟨y, h1, h2⟩ := hfree starKey (.inl h)
            have := (free_key (n := y) h1 rfl).2
            rw [h2] at this
            exact this (.inl rfl)
          refine ⟨hnl, ?_⟩
          rw [hlate (hQ hP)]
          cases hx : Spec.Program.late p starKey with
          | false => rfl
          | true => exact absurd (late_mem p hx) hnl
        · subst hb
          rw [hlate (hQ hP)]
          cases hx : σ.late (Spec.Program.late p) n with
          | false => rfl
          | true =>
            have := hmk (hQ hP) n hx
            rw [hp.settled a _ rest ep n hn] at this
            cases this
      obtain ⟨-, D0⟩ := line_ok M hl (B False False.elim False.elim) g2
      have hnote : ∀ y, l = some y → (∀ e, body ≠ .equ e) → (2, Note.label (key y) (starLabel s).value) ∈ s'.notes :=
        fun y hy hb => later_notes g3 (D0.noted y hy hb)
      obtain ⟨-, D⟩ := line_ok M hl (B P id fun hP y hy hb => hself hP _ (by
        subst hy
        rw [ep, labels_append]
        exact List.mem_append_right _ (mem_labels hb rest)) _ (hnote y hy hb)) g2
      have hq : P → ∃ img σ', Spec.Program.Step isa addr late σ (l, body) img σ' ∧
          Match addr late (labels p) (Spec.Program.equates p) (Spec.Program.equates [(l, body)] ++ ds) σ' s2 ∧ image s2.log = image s.log ++ img := fun hP => by
        obtain ⟨img, σ', q1, q2, q3⟩ := D.step hP
        exact ⟨img, σ', q1, q2, by rw [q3, image_line]⟩
      have next : ∀ σ' : State, (P → Match addr late (labels p) (Spec.Program.equates p) (Spec.Program.equates [(l, body)] ++ ds) σ' s2) → (P → Marked p (a ++ [(l, body)]) σ') → _ := fun σ' hm' hk' =>
        ih rest (a ++ [(l, body)]) n s2 (Spec.Program.equates [(l, body)] ++ ds) σ' (by rw [ep, List.append_assoc]; rfl) h2 (k3 s2 D.main D.eof) D.inv
          (fun h => by
            rw [hasOrg_append, Bool.or_eq_true] at h
            rcases h with h | h
            · exact D.placed (ho h)
            · exact D.org h)
          (fun k => by rw [equates_append, List.mem_append, List.mem_append, hd k]; exact Or.comm) hm' hk' g3
      have A : ∀ k ∈ labels rest, ∃ v, (2, Note.label k v) ∈ s'.notes := by
        by_cases hP : P
        · obtain ⟨img, σ', q1, q2, -⟩ := hq hP
          exact (next σ' (fun _ => q2) fun _ => (hmk hP).step (hlate hP ▸ q1)).1
        · exact (next σ (fun h => absurd h hP) fun h => absurd h hP).1
      refine ⟨fun k hk => ?_, fun hP => ?_⟩
      · rw [show (l, body) :: rest = [(l, body)] ++ rest from rfl, labels_append, List.mem_append] at hk
        rcases hk with hk | hk
        · cases l with
          | none => cases body <;> cases hk
          | some y =>
            have hb : ∀ e, body ≠ .equ e := by rintro e rfl; cases hk
            have : k = key y := by
              cases body with
              | equ e => exact absurd rfl (hb e)
              | _ => exact List.mem_singleton.1 hk
            subst this
            exact ⟨_, hnote y rfl hb⟩
        · exact A k hk
      · obtain ⟨img, σ', q1, q2, q3⟩ := hq hP
        obtain ⟨img', σ'', r1, r2⟩ := (next σ' (fun _ => q2) fun _ => (hmk hP).step (hlate hP ▸ q1)).2 hP
        have hpl : ∀ c ∈ t, Spec.Plain c := by
          have := hr.left
          rw [he] at this
          exact (hr.tame t (by rw [show Spec.lines s.main = t :: ts from this]; exact .head _)).2
        exact ⟨img ++ img', σ'', .cons hl k2 hpl i1 g2 q1 q2 D.org D.inv q3 D.here r1, r2⟩

end Crasm.C42

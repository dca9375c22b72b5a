import Verif.Proof.ProgEither

/-! Programs: pass 1. -/

namespace Crasm.C42
open Spec.Program (Isa key Free Body Line State Lines Proper All2 labels hasOrg)

theorem keys_pseudo : ∀ x ∈ pseudoTree.toList, x.1 ∈ pseudoKeys := by decide +kernel

/-- The free names of a program. -/
theorem line_free {isa : Isa} {t : Str} {x : Option Str × Body isa.Ins} (h : Line isa t x.1 x.2) : ∀ y, x.1 = some y → Free isa y := by
  obtain ⟨l, body⟩ := x
  intro y hy
  change l = some y at hy
  subst hy
  change Line isa t (some y) body at h
  cases h with
  | label _ _ h => exact h
  | equ _ _ _ h _ => exact h
  | data _ _ _ h _ _ => exact h _ rfl
  | ins _ _ _ h => exact h _ rfl

theorem all_free {isa : Isa} {ts : List Str} {p : Lines isa} (h : All2 (fun t x => Line isa t x.1 x.2) ts p) :
    ∀ k, k ∈ labels p ∨ k ∈ Spec.Program.equates p → ∃ y, Free isa y ∧ key y = k := by
  induction h with
  | nil => intro k hk; rcases hk with hk | hk <;> cases hk
  | @cons t x ts p hl _ ih =>
    intro k hk
    have hf := line_free hl
    obtain ⟨l, body⟩ := x
    cases l with
    | none => cases body <;> exact ih k hk
    | some y =>
      have hy := hf y rfl
      cases body with
      | equ e =>
        rcases hk with hk | hk
        · exact ih k (.inl hk)
        · rcases List.mem_cons.1 hk with hk | hk
          · exact ⟨y, hy, hk.symm⟩
          · exact ih k (.inr hk)
      | _ =>
        rcases hk with hk | hk
        · rcases List.mem_cons.1 hk with hk | hk
          · exact ⟨y, hy, hk.symm⟩
          · exact ih k (.inl hk)
        · exact ih k (.inr hk)

section
variable {isa : Isa} {voc : List Entry} {cf : Option Int} {p : Lines isa}

theorem Half.same {a b : Lines isa} {s s' : St} (h : Half isa voc p a b s) (h1 : s'.stack = s.stack) (h2 : s'.segment = s.segment)
    (h3 : s'.flags.codeOn = s.flags.codeOn) (h4 : s'.flags.relatif = s.flags.relatif) (h5 : s'.tree = s.tree)
    (h6 : s'.notes = s.notes) (h7 : s'.passnumber = s.passnumber) : Half isa voc p a b s' := by
  refine ⟨h.mid.same h1 h2 h3 h4 h5 h6 h7, ?_, ?_⟩
  · rw [h5]; exact h.done
  · unfold Placed starLabel
    rw [h5]; exact h.org

theorem labels_star (hfree : ∀ k, k ∈ labels p ∨ k ∈ Spec.Program.equates p → ∃ y, Free isa y ∧ key y = k) : starKey ∉ labels p := by
  intro h
  obtain ⟨y, h1, h2⟩ := hfree starKey (.inl h)
  have := (free_key (n := y) h1 rfl).2
  rw [h2] at this
  exact this (.inl rfl)

/-- How pass 1 ends behind the last line: at once, or after an empty line has been read. -/
def Runout (fuel : Nat) (s e : St) : Prop :=
  e.lst = s.lst ∨ ∃ n, passLoop fuel n false s = .ok () e ∧ s.stack = [] ∧ s.main = [] ∧ s.mainEof = true

/-- The lines in pass 1, from any line on. -/
theorem first_loop (M : Machine isa voc cf) (hp : Proper p) (hfree : ∀ k, k ∈ labels p ∨ k ∈ Spec.Program.equates p → ∃ y, Free isa y ∧ key y = k)
    {J : Lines isa → St → Prop} (hsame : ∀ {a s s'}, J a s → s'.tree = s.tree → s'.flags = s.flags → s'.passnumber = s.passnumber → s'.cpuflag = s.cpuflag →
      bytesOf s'.log = bytesOf s.log → s'.lst = s.lst → J a s')
    (hstep : ∀ {a x b s n}, s.linenumber ≠ 0 → Site isa p a x b → Half isa voc p a (x :: b) s → Fares (Next isa voc p a x b s) (asmline (n + 1) ⟨true, true⟩ s) → J a s → s.curline.length ≤ 600 → Line isa s.curline x.1 x.2 →
      Fares (J (a ++ [x])) (asmline (n + 1) ⟨true, true⟩ s))
    {fuel : Nat} {e : St} (ts : List Str) :
    ∀ (rest a : Lines isa) (n : Nat) (s : St) (chk : Bool), p = a ++ rest → All2 (fun t x => Line isa t x.1 x.2) ts rest →
      Rest s ts → Half isa voc p a rest s → J a s → s.passnumber = 1 → passLoop fuel n chk s = .ok () e →
      ∃ s0, Half isa voc p p [] s0 ∧ J p s0 ∧ e.tree = s0.tree ∧ e.notes = s0.notes ∧ e.stack = [] ∧ bytesOf e.log = bytesOf s0.log ∧ Runout fuel s0 e := by
  induction ts with
  | nil =>
    intro rest a n s chk ep h2 hr hh hj hps h
    cases h2
    rw [List.append_nil] at ep
    subst ep
    have he : s.mainEof = true := by
      cases he : s.mainEof with
      | true => rfl
      | false =>
        have := hr.left
        rw [he] at this
        exact absurd this (lines_ne _)
    cases n with
    | zero => cases h
    | succ n =>
      cases chk with
      | true =>
        unfold passLoop at h
        rw [getS_bind_run, he, if_pos (by decide)] at h
        cases h
        exact ⟨_, hh, hj, rfl, rfl, hh.mid.base.stack, rfl, .inl rfl⟩
      | false =>
        have := idle_passLoop fuel (n + 1) s hh.mid.base.stack (hr.eof he) he
        rw [h] at this
        obtain ⟨⟨k1, k2, -, k4, k5⟩, -⟩ := this
        exact ⟨_, hh, hj, k2, k1, k4.trans hh.mid.base.stack, k5, .inr ⟨n + 1, h, hh.mid.base.stack, hr.eof he, he⟩⟩
  | cons t ts ih =>
    intro rest a n s chk ep h2 hr hh hj hps h
    cases h2 with
    | @cons _ x _ rest hl h2 =>
    have he : s.mainEof = false := by
      cases he : s.mainEof with
      | false => rfl
      | true =>
        have := hr.left
        rw [he] at this
        cases this
    cases n with
    | zero => cases h
    | succ n =>
      rw [passLoop_round (by rw [he]; simp)] at h
      obtain ⟨again, s3, g1, g2⟩ := bind_ok h
      obtain ⟨mn, eo, k1, k2, k3⟩ := linegets_ok hh.mid.base.stack hr
      cases fuel with
      | zero =>
        have : passBody 0 s = .stop .fuel { s with curline := t, linenumber := s.linenumber + 1, log := .line s.passnumber 0 t :: s.log, main := mn, mainEof := eo } := by
          unfold passBody
          rw [bind_run, k1]
          rfl
        unfold catchErr at g1
        rw [bind_run, this] at g1
        cases g1
      | succ fuel =>
      have S : Site isa p a x rest := ⟨ep, hp, hfree⟩
      have hh1 : Half isa voc p a (x :: rest) { s with curline := t, linenumber := s.linenumber + 1, log := .line s.passnumber 0 t :: s.log, main := mn, mainEof := eo } :=
        hh.same rfl rfl rfl rfl rfl rfl rfl
      have F := line_half M S hh1 (by show t.length ≤ 600; omega) (After.met M hh1 S hps) (n := fuel) hl
      have F := Fares.and F (hstep (n := fuel) (by show s.linenumber + 1 ≠ 0; omega) S hh1 F (hsame hj rfl rfl rfl rfl rfl rfl) (by show t.length ≤ 600; omega) hl)
      have fin : ∀ s2, Next isa voc p a x rest { s with curline := t, linenumber := s.linenumber + 1, log := .line s.passnumber 0 t :: s.log, main := mn, mainEof := eo } s2 → J (a ++ [x]) s2 →
          s3.tree = s2.tree → s3.notes = s2.notes → s3.stack = s2.stack → s3.segment = s2.segment → s3.flags = s2.flags → s3.passnumber = s2.passnumber →
          s3.main = s2.main → s3.mainEof = s2.mainEof → s3.cpuflag = s2.cpuflag → bytesOf s3.log = bytesOf s2.log → s3.lst = s2.lst →
          ∃ s0, Half isa voc p p [] s0 ∧ J p s0 ∧ e.tree = s0.tree ∧ e.notes = s0.notes ∧ e.stack = [] ∧ bytesOf e.log = bytesOf s0.log ∧ Runout (fuel + 1) s0 e := by
        intro s2 ⟨hN, hK⟩ hJ e1 e2 e3 e4 e5 e6 e7 e8 e9 e10 e11
        exact ih rest (a ++ [x]) n s3 again (by rw [ep, List.append_assoc]; rfl) h2 (k3 s3 (e7.trans hK.main) (e8.trans hK.eof))
          (hN.same e3 e4 (by rw [e5]) (by rw [e5]) e1 e2 e6) (hsame hJ e1 e5 e6 e9 e10 e11) (e6.trans (hK.pass.trans hps)) g2
      unfold catchErr at g1
      have hb : passBody (fuel + 1) s = (asmline (fuel + 1) ⟨true, true⟩ >>= fun r => whenM (r ≠ .cont) (error c!"ELSE, ENDC, ENDM, EXITM illegal here"))
          { s with curline := t, linenumber := s.linenumber + 1, log := .line s.passnumber 0 t :: s.log, main := mn, mainEof := eo } := by
        unfold passBody
        rw [bind_run, k1]
      rw [bind_run, hb, bind_run] at g1
      revert F g1
      cases asmline (fuel + 1) ⟨true, true⟩ { s with curline := t, linenumber := s.linenumber + 1, log := .line s.passnumber 0 t :: s.log, main := mn, mainEof := eo } with
      | ok rc s2 =>
        rintro g1 ⟨rfl, hN⟩
        cases g1
        exact fin _ hN.1 hN.2 rfl rfl rfl rfl rfl rfl rfl rfl rfl rfl rfl
      | err s2 =>
        intro g1 hN
        cases g1
        exact fin _ hN.1 hN.2 rfl rfl rfl rfl rfl rfl rfl rfl rfl rfl rfl
      | stop w s2 =>
        intro g1 _
        cases g1

/-- Nothing but the vocabulary is there at the beginning. -/
theorem fresh_tree {c : Cpu} {tabs : List TableId} {f : Flags → Flags} (M : Machine isa voc cf) (C : Chosen c tabs f voc cf isa.little) {T : Tree}
    (hT : bindsFresh tabs startTree = some T) :
    (∀ k l, T.find k = some l → Reserved isa k) ∧ (∀ e ∈ pseudos ++ voc, ∃ l, T.find (e.name.map toupper) = some l ∧ AsWord e.label l) ∧
    ∃ l, T.find starKey = some l ∧ l.flags.undef = true ∧ l.flags.noredef = false ∧ l.flags.forward = false := by
  refine ⟨fun k l hl => ?_, fun e he => ?_, ?_⟩
  · rcases (bindsFresh_find tabs hT k).2 l hl with h | h
    · by_cases hk : k = starKey
      · exact .inl hk
      · unfold startTree at h
        rw [Tree.find_put_ne _ _ hk] at h
        have hkp := keys_pseudo _ (Tree.mem_of_find h)
        obtain ⟨w, hw, e⟩ := List.mem_map.1 hkp
        refine .inr ((M.words _).2 ?_)
        rw [← (show w.name = k from e), ← (word_start w hw).1]
        exact List.mem_map_of_mem (List.mem_append_left _ hw)
    · obtain ⟨t, ht, hk⟩ := List.mem_flatMap.1 h
      obtain ⟨i, -, hi⟩ := List.mem_filterMap.1 hk
      obtain ⟨w, hw, e⟩ := Option.map_eq_some_iff.1 hi
      have hw := List.mem_of_getElem? hw
      subst e
      refine .inr ?_
      rw [((C.good t ht).2 w hw).1]
      exact (M.words _).2 (List.mem_map_of_mem (List.mem_append_right _ (C.back t ht w hw)))
  · rcases List.mem_append.1 he with he | he
    · obtain ⟨b1, l, b2, b3, -⟩ := word_start e he
      exact ⟨l, by rw [b1]; exact (bindsFresh_find tabs hT _).1 l b2, b3⟩
    · obtain ⟨t, ht, hw⟩ := C.entry e he
      have g := C.found t ht e hw
      rw [hT] at g
      obtain ⟨b1, b2, b3, b4, b5⟩ := (C.good t ht).2 e hw
      rw [← b1]
      exact ⟨_, g, rfl, rfl, rfl, b3, rfl, rfl, rfl, rfl, rfl⟩
  · refine ⟨_, (bindsFresh_find tabs hT starKey).1 _ (Tree.find_put_self _ _ _), rfl, rfl, rfl⟩

/-- What pass 1 leaves. -/
theorem first_end (M : Machine isa voc cf) {c : Cpu} {tabs : List TableId} {f : Flags → Flags} (C : Chosen c tabs f voc cf isa.little)
    {J : Lines isa → St → Prop} (hsame : ∀ {a s s'}, J a s → s'.tree = s.tree → s'.flags = s.flags → s'.passnumber = s.passnumber → s'.cpuflag = s.cpuflag →
      bytesOf s'.log = bytesOf s.log → s'.lst = s.lst → J a s')
    (hstep : ∀ {a x b s n}, s.linenumber ≠ 0 → Site isa p a x b → Half isa voc p a (x :: b) s → Fares (Next isa voc p a x b s) (asmline (n + 1) ⟨true, true⟩ s) → J a s → s.curline.length ≤ 600 → Line isa s.curline x.1 x.2 →
      Fares (J (a ++ [x])) (asmline (n + 1) ⟨true, true⟩ s))
    (hstart : ∀ s, s.passnumber = 1 → s.flags.lohi = isa.little → (∀ k ∈ cf, s.cpuflag = k) → bytesOf s.log = [] →
      (∃ s1 s2, s1.lst.pages = [] ∧ s1.linenumber = 1 ∧ afterwards s1 = .ok .cont s2 ∧ s.lst = s2.lst) → J [] s)
    {fuel : Nat} {env : Env} {src : Str} {e : St} {rest : List Str} {first m b o name : Str} (hn : cpuOf name = some c) (hmild : Mild name)
    (S : Opening name src rest first m b o) (ht : Spec.Tame src) (hl : All2 (fun t x => Line isa t x.1 x.2) rest p) (hp : Proper p)
    (h : passLoop fuel fuel true (passStart 1 { initSt env src with tree := pseudoTree }) = .ok () e) :
    ∃ s0, Half isa voc p p [] s0 ∧ J p s0 ∧ e.tree = s0.tree ∧ e.notes = s0.notes ∧ e.stack = [] ∧ bytesOf e.log = bytesOf s0.log ∧ Runout fuel s0 e := by
  obtain ⟨n, s, rfl, hT, a1, a2, a3, a4, a5, a6, a7, ⟨a8, a9, a10, a11, a12, a13⟩, hrun⟩ := first_front C hn hmild S ht h
  have hfree := all_free hl
  obtain ⟨t1, t2, l, t3, t4, t5⟩ := fresh_tree M C hT
  have h0 : Half isa voc p [] p s := by
    refine ⟨⟨⟨a3, a1, a5, a6, ⟨.inr (by rw [t3]; rfl), .inl a6, fun k l' hk hl => ?_⟩, t2, l, t3, fun h => by rw [t4] at h; cases h⟩, fun k l hk hl => ?_, fun k hk l hl => ?_,
      fun k l hk _ hl => ?_, fun l' hl => ?_, ?_, fun _ k l hk hl => ?_, fun k hk hs => ?_⟩, fun k hk => ?_, fun h => by cases h⟩
    · by_cases e : k = starKey
      · subst e
        rw [t3] at hl
        cases hl
        rw [t4, t5.2]
        rintro (h | h) <;> cases h
      · exact absurd (t1 k l' hl) fun h => h.elim e hk
    · exact absurd (t1 k l hl) hk
    · obtain ⟨y, h1, rfl⟩ := hfree k (.inl hk)
      exact absurd (t1 _ l hl) (free_key h1 rfl).2
    · exact absurd (t1 k l hl) hk
    · rw [t3] at hl; cases hl; exact t5
    · rw [a4]; intro x hx; cases hx
    · exact absurd (t1 k l hl) hk
    · obtain ⟨l, hl⟩ := Option.isSome_iff_exists.1 hs
      exact absurd (t1 k l hl) hk
    · rcases hk with hk | hk <;> cases hk
  obtain ⟨again, s3, g1, g2⟩ := bind_ok hrun
  have F := Fares.and (afterwards_fares M h0.mid (labels_star hfree)) (still_after a10)
  have fin : ∀ s2, (Mid isa voc p (Spec.Program.marks (isa := isa) (Spec.Program.late p) []) (labels p) s2 ∧ Kin [] s s2) → s2.flags.lohi = s.flags.lohi ∧ s2.log = s.log →
      s3.tree = s2.tree → s3.notes = s2.notes → s3.stack = s2.stack → s3.segment = s2.segment → s3.flags = s2.flags → s3.passnumber = s2.passnumber →
      s3.main = s2.main → s3.mainEof = s2.mainEof → s3.cpuflag = s2.cpuflag → bytesOf s3.log = bytesOf s2.log → s3.lst = s2.lst → afterwards s = .ok .cont s2 →
      ∃ s0, Half isa voc p p [] s0 ∧ J p s0 ∧ e.tree = s0.tree ∧ e.notes = s0.notes ∧ e.stack = [] ∧ bytesOf e.log = bytesOf s0.log ∧ Runout (n + 1) s0 e := by
    intro s2 ⟨hN, hK⟩ ⟨hlo, hlog⟩ e1 e2 e3 e4 e5 e6 e7 e8 e9 e10 e11 e12
    have hN : Half isa voc p [] p s2 := ⟨hN, (fun k hk => by rcases hk with hk | hk <;> cases hk), (fun h => by cases h)⟩
    exact first_loop (J := J) M hp hfree hsame hstep rest p [] n s3 again rfl hl (a7 s3 (e7.trans hK.main) (e8.trans hK.eof))
      (hN.same e3 e4 (by rw [e5]) (by rw [e5]) e1 e2 e6)
      (hstart s3 (e6.trans (hK.pass.trans a2)) (by rw [e5, hlo]; exact a8) (fun k hk => e9.trans (hK.cpu.trans (a9 k hk))) (by rw [e10, hlog]; exact a11) ⟨s, s2, a12, a13, e12, e11⟩) (e6.trans (hK.pass.trans a2)) g2
  unfold catchErr at g1
  rw [bind_run, bind_run] at g1
  revert F g1
  cases hA : afterwards s with
  | ok rc s2 =>
    rintro g1 ⟨rfl, hN⟩
    cases g1
    exact fin _ hN.1 hN.2.2.2 rfl rfl rfl rfl rfl rfl rfl rfl rfl rfl rfl hA
  | err s2 => exact absurd hA (afterwards_calm s s2)
  | stop w s2 =>
    intro g1 _
    cases g1

end

end Crasm.C42

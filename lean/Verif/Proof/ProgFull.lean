import Verif.Proof.ProgAll

/-! Programs: what pass 2 does with the marks left by pass 1, and the whole program. -/

namespace Crasm.C42
open Spec.Program (Isa key Free Body Line State Lines Proper All2 labels hasOrg)

section
variable {isa : Isa} {voc : List Entry} {cf : Option Int} {p : Lines isa}

/-- The lines in pass 2, from any line on: labels used above their definition are marked. -/
theorem second_loop (M : Machine isa voc cf) (hp : Proper p) (hfree : ∀ k, k ∈ labels p ∨ k ∈ Spec.Program.equates p → ∃ y, Free isa y ∧ key y = k)
    {fuel : Nat} {s' : St} (hne : ∀ sh, Event.error 2 sh ∉ s'.log) (ts : List Str) :
    ∀ (rest a : Lines isa) (n : Nat) (s : St), p = a ++ rest → All2 (fun t x => Line isa t x.1 x.2) ts rest →
      Rest s ts → Inv isa voc cf s → Half isa voc p a rest s → passLoop fuel n true s = .ok () s' →
      Half isa voc p p [] s' ∧ ∀ k l, Spec.Program.late rest k = true → s.tree.find k = some l → l.flags.forward = true := by
  induction ts with
  | nil =>
    intro rest a n s ep h2 hr hi hh h
    cases h2
    rw [List.append_nil] at ep
    subst ep
    have he : s.mainEof = true := by
      cases he : s.mainEof with
      | true => rfl
      | false =>
        have := hr.left
        rw [he] at this
        exact absurd this (lines_ne _)
    cases n with
    | zero => cases h
    | succ n =>
      unfold passLoop at h
      rw [getS_bind_run, he, if_pos (by decide)] at h
      cases h
      exact ⟨hh, fun k l hk => by cases hk⟩
  | cons t ts ih =>
    intro rest a n s ep h2 hr hi hh h
    cases h2 with
    | @cons _ x _ rest hl h2 =>
    have he : s.mainEof = false := by
      cases he : s.mainEof with
      | false => rfl
      | true =>
        have := hr.left
        rw [he] at this
        cases this
    cases n with
    | zero => cases h
    | succ n =>
      obtain ⟨s1, s2, g1, g2, g3⟩ := round_ok h he hi.pass hne
      obtain ⟨m, e, k1, k2, k3⟩ := linegets_ok hi.stack hr
      rw [k1] at g1
      cases g1
      cases fuel with
      | zero => cases g2
      | succ fuel =>
      have S : Site isa p a x rest := ⟨ep, hp, hfree⟩
      have i1 : Inv isa voc cf { s with curline := t, linenumber := s.linenumber + 1, log := .line s.passnumber 0 t :: s.log, main := m, mainEof := e } :=
        ⟨hi.toBase.same rfl rfl rfl rfl rfl, hi.pass, hi.lohi, hi.cpu⟩
      have hh1 : Half isa voc p a (x :: rest) { s with curline := t, linenumber := s.linenumber + 1, log := .line s.passnumber 0 t :: s.log, main := m, mainEof := e } :=
        hh.same rfl rfl rfl rfl rfl rfl rfl
      have B : Before isa voc cf False (fun _ => 0) (fun _ => false) (labels p) (Spec.Program.equates p) (Spec.Program.equates a) {}
          { s with curline := t, linenumber := s.linenumber + 1, log := .line s.passnumber 0 t :: s.log, main := m, mainEof := e } x.1 x.2 := by
        obtain ⟨l, body⟩ := x
        refine ⟨i1, ?_, fun hb => ?_, False.elim, fun z hz => ?_, fun k hk => ?_, fun y hy hb => ?_, fun y e hy hb => ?_, False.elim, False.elim, False.elim⟩
        · show t.length ≤ 600
          omega
        · exact hh.org (hp.origin a _ rest ep (.inl hb))
        · exact (hp.closed a _ rest ep z hz).imp_right fun h => ⟨h.1, hh.org h.2⟩
        · exact hfree k (hk.imp_right S.equates)
        · change l = some y at hy
          subst hy
          rw [ep, labels_append]
          exact List.mem_append_right _ (mem_labels hb rest)
        · change l = some y at hy
          change body = .equ e at hb
          subst hy
          subst hb
          have : key y ∈ Spec.Program.equates p := by
            rw [ep, equates_append]
            exact List.mem_append_right _ List.mem_cons_self
          exact ⟨hp.apart _ this, this⟩
      obtain ⟨-, D⟩ := line_ok M hl B g2
      have F := line_half M S hh1 (by show t.length ≤ 600; omega) D.met (n := fuel) hl
      rw [g2] at F
      obtain ⟨-, hN, hK⟩ := F
      obtain ⟨r1, r2⟩ := ih rest (a ++ [x]) n s2 (by rw [ep, List.append_assoc]; rfl) h2 (k3 s2 D.main D.eof) D.inv hN g3
      refine ⟨r1, fun k l hk hf => ?_⟩
      have hin := late_mem _ hk
      unfold Spec.Program.late at hk
      simp only [Bool.and_eq_true, Bool.or_eq_true, List.contains_iff_mem, Bool.not_eq_true', List.mem_map] at hk
      obtain ⟨h3, h4⟩ := hk
      have h3 : k ∉ labels [x] := fun hc => by
        rw [← List.contains_iff_mem] at hc
        rw [hc] at h3
        cases h3
      rcases h4 with ⟨⟨y, hy, rfl⟩, h5⟩ | h5
      · rcases D.met y hy h3 l hf with h6 | h6
        · have := hh.mid.ahead (key y) hin l hf
          rw [h6] at this
          cases this
        · exact h6
      · have hkp : k ∈ labels p := by
          rw [ep, labels_append]
          exact List.mem_append_right _ hin
        have hq : k ∉ Spec.Program.equates [x] := fun hc => hp.apart k (by
          rw [ep, show x :: rest = [x] ++ rest from rfl, equates_append, equates_append]
          simp [hc]) hkp
        obtain ⟨l', j1, j2, -⟩ := hK.find k l (by rintro rfl; exact labels_star hfree hkp) (by simp [h3, hq]) hf
        rw [← j2]
        exact r2 k l' h5 j1

/-- No word of the vocabulary is marked. -/
theorem word_forward (M : Machine isa voc cf) {c : Cpu} {tabs : List TableId} {f : Flags → Flags} (C : Chosen c tabs f voc cf isa.little)
    {fuel : Nat} {env : Env} {src : Str} {e : St} {rest : List Str} {first m b o name : Str} (hn : cpuOf name = some c) (hmild : Mild name)
    (S : Opening name src rest first m b o) (ht : Spec.Tame src)
    (h : passLoop fuel fuel true (passStart 1 { initSt env src with tree := pseudoTree }) = .ok () e) {k : Str} (hk : k ∈ isa.words) {l : Label}
    (hl : e.tree.find k = some l) : l.flags.forward = false := by
  obtain ⟨w, hw, rfl⟩ := List.mem_map.1 ((M.words k).1 hk)
  rcases List.mem_append.1 hw with hw | hw
  · obtain ⟨b1, l0, b2, b3, b4, b5, b6, b7, b8⟩ := word_start w hw
    rw [b1] at hl
    have hK : K (passStart 1 { initSt env src with tree := pseudoTree }, .live) (e, .live) := by
      have := walk_passLoop fuel fuel true (passStart 1 { initSt env src with tree := pseudoTree })
      rw [h] at this
      exact K.star ((show Star Step _ (e, .live) from this).mono fun _ _ h => K.s h)
    have hT := hK.tree
    rw [show ((passStart 1 { initSt env src with tree := pseudoTree }, Mode.live) : Cfg).1.tree = startTree from start_eq env src] at hT
    obtain ⟨l', c1, c2⟩ := hT.old _ _ b7 b2
    have c1 : e.tree.find w.name = some l' := c1
    rw [hl] at c1
    cases c1
    exact (c2.fixed b3.2.2.2.1 b4).2.1.trans b8
  · obtain ⟨t, ht', hw'⟩ := C.entry w hw
    obtain ⟨l', c1, c2⟩ := first_pass C hn hmild S ht h t ht' w hw'
    obtain ⟨b1, b2, b3, b4, b5⟩ := (C.good t ht').2 w hw'
    rw [b1, hl] at c1
    cases c1
    exact (c2.fixed b3 b2).2.1.trans (C.first t ht' w hw')

/-- Whoever cannot be redefined stays so. -/
theorem word_noredef (M : Machine isa voc cf) {c : Cpu} {tabs : List TableId} {f : Flags → Flags} (C : Chosen c tabs f voc cf isa.little)
    {fuel : Nat} {o : Opts} {env : Env} {src : Str} {e sC : St} {rest : List Str} {first m b op name : Str} (hn : cpuOf name = some c) (hmild : Mild name)
    (S : Opening name src rest first m b op) (ht : Spec.Tame src)
    (h : passLoop fuel fuel true (passStart 1 { initSt env src with tree := pseudoTree }) = .ok () e)
    (h3 : passLoop fuel fuel true (passStart 2 (betweenPasses o e)) = .ok () sC) {k : Str} (hk : k ∈ isa.words) {l : Label}
    (hl : sC.tree.find k = some l) : l.flags.noredef = true := by
  have go : ∀ l0, k ≠ starKey → e.tree.find k = some l0 → l0.flags.noredef = true → l.flags.noredef = true := by
    intro l0 hs hl0 hn0
    have hK : K (passStart 2 (betweenPasses o e), .live) (sC, .live) := by
      have := walk_passLoop fuel fuel true (passStart 2 (betweenPasses o e))
      rw [h3] at this
      exact K.star ((show Star Step _ (sC, .live) from this).mono fun _ _ h => K.s h)
    have f2 : (passStart 2 (betweenPasses o e)).tree.find k = some (undefOne l0) := by
      show ((e.tree.map undefOne).put starKey _).find k = _
      rw [Tree.find_put_ne _ _ hs, Tree.find_map, hl0]; rfl
    obtain ⟨l', c1, c2⟩ := hK.tree.old _ _ hs f2
    have c1 : sC.tree.find k = some l' := c1
    rw [hl] at c1
    cases c1
    exact c2.noredef hn0
  obtain ⟨w, hw, rfl⟩ := List.mem_map.1 ((M.words k).1 hk)
  rcases List.mem_append.1 hw with hw | hw
  · obtain ⟨b1, l0, b2, b3, b4, b5, b6, b7, b8⟩ := word_start w hw
    have hK : K (passStart 1 { initSt env src with tree := pseudoTree }, .live) (e, .live) := by
      have := walk_passLoop fuel fuel true (passStart 1 { initSt env src with tree := pseudoTree })
      rw [h] at this
      exact K.star ((show Star Step _ (e, .live) from this).mono fun _ _ h => K.s h)
    have hT := hK.tree
    rw [show ((passStart 1 { initSt env src with tree := pseudoTree }, Mode.live) : Cfg).1.tree = startTree from start_eq env src] at hT
    obtain ⟨l', c1, c2⟩ := hT.old _ _ b7 b2
    have c1 : e.tree.find w.name = some l' := c1
    exact go l' (by rw [b1]; exact b7) (by rw [b1]; exact c1) (c2.noredef b4)
  · obtain ⟨t, ht', hw'⟩ := C.entry w hw
    obtain ⟨l', c1, c2⟩ := first_pass C hn hmild S ht h t ht' w hw'
    obtain ⟨b1, b2, b3, b4, b5⟩ := (C.good t ht').2 w hw'
    exact go l' (by rw [← b1]; exact b5) (by rw [← b1]; exact c1) (c2.noredef b2)

theorem choicesOf_mem {p : Nat} {ns : List (Nat × Note)} {c : Bool × Choice} (h : c ∈ choicesOf p ns) : (p, Note.choice c.1 c.2) ∈ ns := by
  induction ns with
  | nil => cases h
  | cons x ns ih =>
    obtain ⟨q, x⟩ := x
    cases x with
    | choice f d =>
      unfold choicesOf at h
      by_cases hq : q = p
      · rw [if_pos hq, List.mem_append, List.mem_singleton] at h
        rcases h with h | rfl
        · exact .tail _ (ih h)
        · subst hq; exact .head _
      · rw [if_neg hq] at h
        exact .tail _ (ih h)
    | label k v => exact .tail _ (ih h)
    | odd => exact .tail _ (ih h)

theorem close_pc (b : Bool) (c : Code) : (c.close b).pc = c.pc := by
  have hw : ∀ (c : Code) (t : Str), (c.write t).pc = c.pc := fun c t => by
    unfold Code.write
    split <;> rfl
  unfold Code.close
  rw [hw]
  unfold Code.flush
  dsimp only
  split
  · rfl
  · generalize blockText b c.rawextended c.rawstart c.raw = q
    exact hw c q.1

/-- What the symbol table holds at the end, and where the next byte would go. -/
structure Charted (isa : Isa) (voc : List Entry) (p : Lines isa) (addr : Str → Int) (σ : State) (s : St) : Prop where
  labs : ∀ k ∈ labels p, ∃ l, s.tree.find k = some l ∧ l.flags.undef = false ∧ l.type = .absolute ∧ l.value.toInt = addr k ∧
    l.flags.forward = Spec.Program.late p k
  equs : ∀ k ∈ Spec.Program.equates p, ∃ l v b, σ.env k = some (v, b) ∧ s.tree.find k = some l ∧ l.flags.undef = false ∧ l.type = .absolute ∧
    l.value.toInt = v ∧ l.flags.forward = b
  only : ∀ k l, s.tree.find k = some l → k ∈ labels p ∨ k ∈ Spec.Program.equates p ∨ Reserved isa k
  words : ∀ k ∈ isa.words, ∀ l, s.tree.find k = some l → l.flags.noredef = true ∧ ∃ e ∈ pseudos ++ voc, l.type = e.label.type
  here : hasOrg p = true → hasOrg p.getLast?.toList = false → σ.pc = some s.code.pc.toInt

/-- A program that is assembled without error: both passes, and the lines of pass 2. -/
theorem program_trace (M : Machine isa voc cf) {c : Cpu} {tabs : List TableId} {f : Flags → Flags}
    (C : Chosen c tabs f voc cf isa.little) {name : Str} (hn : cpuOf name = some c) (hmild : Mild name)
    {fuel : Nat} {o : Opts} {env : Env} {src : Str} {s : St}
    (h : C40.Assembles fuel o env src s) (hsrc : Spec.Program.Source isa name src p) (ht : Spec.Tame src) (hp : Proper p) :
    ∃ first rest sA e sC n s0 addr σ', Spec.lines src = first :: rest ∧ initLabelList .pseudos pseudos (initSt env src) = .ok () sA ∧ pass fuel 1 sA = .ok () e ∧
      s = afterPasses sC ∧ passLoop fuel n true s0 = .ok () sC ∧
      (∃ s4 g bl, outputline s4 = .ok () s0 ∧ s4.lst = e.lst ∧ s4.linenumber = 1 ∧ s4.lineprefix = none ∧ s4.macrolevel = 0 ∧
        first = s4.curline ++ bl ∧ Blank bl ∧ s4.flags = f g ∧ g.listOn = (passStart 2 (betweenPasses o e)).flags.listOn ∧ g.addr24 = e.flags.addr24) ∧
      (∀ c ∈ first, Spec.Plain c) ∧ Charted isa voc p addr σ' sC ∧
      Trace isa voc cf fuel addr (Spec.Program.late p) {} s0 rest p (image s.log) σ' sC := by
  obtain ⟨first, rest, m, b, op, x1, x2, x3, x4, x5, hl⟩ := hsrc
  have S : Opening name src rest first m b op := ⟨x1, x2, x3, x4, x5⟩
  obtain ⟨sA, e, sC, h1, h2, h3, rfl, -⟩ := assemble_stages (inv_initSt env src) rfl h.1
  have he : C40.firstPass fuel env src = some e := by
    unfold C40.firstPass
    rw [bind_run, h1]
    dsimp only
    rw [h2]
  have hne : ∀ sh, Event.error 2 sh ∉ sC.log := C40.no_errors (by rw [← h.2]; exact (C34_error_count fuel o env src _ h.1).1.symm)
  have hfree := all_free hl
  have hres : ∀ k, k ∈ labels p ∨ k ∈ Spec.Program.equates p → ¬ Reserved isa k := by
    intro k hk
    obtain ⟨y, hy, rfl⟩ := hfree k hk
    exact (free_key hy rfl).2
  have h2' : passLoop fuel fuel true (passStart 1 { initSt env src with tree := pseudoTree }) = .ok () e := by
    rw [init_run] at h1
    cases h1
    have := h2
    unfold pass at this
    rw [bind_run, passInit_run] at this
    exact this
  -- pass 1
  obtain ⟨s0, H0, -, e1, e2, hst, -⟩ := first_end (J := fun _ _ => True) M C (fun _ _ _ _ _ _ _ => trivial) (fun _ _ _ F _ _ _ => F.mono fun _ _ => trivial) (fun _ _ _ _ _ _ => trivial) hn hmild S ht hl hp h2'
  have hfwd : ∀ k l, k ≠ starKey → e.tree.find k = some l → l.flags.noredef = true → l.flags.forward = true → l.type = .absolute := by
    intro k l hk hl _ hf
    by_cases hr : k ∈ isa.words
    · rw [word_forward M C hn hmild S ht h2' hr hl] at hf
      cases hf
    · rw [e1] at hl
      exact H0.mid.base.numeric.abs k l hr hl (.inr hf)
  obtain ⟨n, s, g1, g2, g3, g4, ⟨g5, -⟩, g6, g7, g8, g9, -, g11⟩ := second_start M C hn hmild S ht h1 h2 h3 hst hfwd
  -- pass 2
  have hback : ∀ k l, ¬ Reserved isa k → s.tree.find k = some l → ∃ l0, s0.tree.find k = some l0 ∧ l = undefOne l0 ∧ l.flags.undef = true ∧
      (l.flags.forward = true → l0.flags.forward = true ∧ l0.flags.noredef = true) := by
    intro k l hk hl
    rw [g7 k hk] at hl
    obtain ⟨l0, j1, j2⟩ := Option.map_eq_some_iff.1 hl
    subst j2
    refine ⟨l0, by rw [← e1]; exact j1, rfl, ?_, fun hf => ?_⟩
    · show (if l0.origin = some .pseudos then false else true) = true
      rw [if_neg (g8 k l0 hk j1)]
    · change (if (!l0.flags.noredef || l0.flags.undef) = true then false else l0.flags.forward) = true at hf
      by_cases hx : (!l0.flags.noredef || l0.flags.undef) = true
      · rw [if_pos hx] at hf; cases hf
      · rw [if_neg hx] at hf
        refine ⟨hf, ?_⟩
        cases h : l0.flags.noredef with
        | true => rfl
        | false => rw [h] at hx; exact absurd rfl hx
  have hforw : ∀ k l, ¬ Reserved isa k → s.tree.find k = some l → l.flags.forward = true → Spec.Program.late p k = true := by
    intro k l hk hl hf
    obtain ⟨l0, j1, -, -, j2⟩ := hback k l hk hl
    obtain ⟨j3, j4⟩ := j2 hf
    by_cases hkp : k ∈ labels p
    · have := H0.mid.forw k l0 hk j1 j3
      rwa [marks_off _ _ fun hq => hp.apart k hq hkp] at this
    · have := H0.mid.equs k l0 hk hkp j1
      rw [j4] at this
      cases this
  have H1 : Half isa voc p [] p s := by
    refine ⟨⟨g3.toBase, hforw, fun k hk l hl => ?_, fun k l hk hkp hl => ?_, g9, by rw [g6, e2]; exact H0.mid.mild, fun hps => ?_, fun k hk hs => ?_⟩,
      (fun k hk => by rcases hk with hk | hk <;> cases hk), (fun h => by cases h)⟩
    · obtain ⟨-, -, -, j, -⟩ := hback k l (hres k (.inl hk)) hl
      exact j
    · obtain ⟨l0, j1, rfl, -⟩ := hback k l hk hl
      exact H0.mid.equs k l0 hk hkp j1
    · rw [g3.pass] at hps
      cases hps
    · obtain ⟨l, hl⟩ := Option.isSome_iff_exists.1 hs
      obtain ⟨l0, j1, -⟩ := hback k l hk hl
      exact H0.mid.only k hk (by rw [j1]; rfl)
  obtain ⟨H2, L⟩ := second_loop M hp hfree hne rest p [] n s rfl hl g2 g3 H1 g1
  have hr : C40.Regular e (afterPasses sC) := by
    refine ⟨hst, H2.mid.base.stack, hfwd, fun q hq => (H2.mid.mild _ hq).1 rfl, fun i c1 c2 hc1 hc2 hor => ?_⟩
    have no : ∀ {q} {c : Bool × Choice}, c ∈ choicesOf q sC.notes → c.1 ≠ true := fun {q c} hc ht =>
      (H2.mid.mild _ (choicesOf_mem hc)).2 c.2 (by rw [ht])
    rcases hor with h | h
    · exact absurd h (no (List.mem_of_getElem? hc1))
    · exact absurd h (no (List.mem_of_getElem? hc2))
  -- labels have got their values in pass 1
  have hval : ∀ k ∈ labels p, ∀ v, (2, Note.label k v) ∈ sC.notes → ∃ l, s.tree.find k = some l ∧ l.value = v := by
    intro k hkp v hk
    obtain ⟨⟨l, y1, -, y2⟩, -⟩ := C40.C40_labels_agree_partial (k := k) (v := v) h he hr (C40.mem_labelsOf.2 hk)
    refine ⟨undefOne l, ?_, y2⟩
    rw [g7 k (hres k (.inl hkp)), y1]
    rfl
  let lab : Str → Label := fun k => (s.tree.find k).getD {}
  have hpre : ∀ k, k ∈ labels p ∨ k ∈ Spec.Program.equates p → ∃ l, s.tree.find k = some l := by
    intro k hk
    have := H0.seen k hk
    rw [← e1] at this
    obtain ⟨l, j⟩ := Option.isSome_iff_exists.1 this
    exact ⟨undefOne l, by rw [g7 k (hres k hk), j]; rfl⟩
  have hm : Match (fun k => (lab k).value.toInt) (Spec.Program.late p) (labels p) (Spec.Program.equates p) [] {} s := by
    refine ⟨fun h => absurd h g4, fun k v b h => (by cases h), fun k hk => ⟨fun e => hres k (.inl hk) (.inl e), rfl, ?_⟩, fun k hk => (by cases hk),
      fun k hk _ => ⟨fun e => hres k (.inr hk) (.inl e), ?_⟩, H1.mid.calm⟩
    · obtain ⟨l, hl⟩ := hpre k (.inl hk)
      refine ⟨l, hl, ?_, ?_⟩
      · show _ = ((s.tree.find k).getD {}).value.toInt
        rw [hl]; rfl
      · cases hlt : Spec.Program.late p k with
        | true => exact L k l hlt hl
        | false =>
          cases hf : l.flags.forward with
          | false => rfl
          | true => rw [hforw k l (hres k (.inl hk)) hl hf] at hlt; cases hlt
    · obtain ⟨l, hl⟩ := hpre k (.inr hk)
      refine ⟨l, hl, ?_⟩
      cases hf : l.flags.forward with
      | false => rfl
      | true =>
        exact absurd (late_mem _ (hforw k l (hres k (.inr hk)) hl hf)) (hp.apart k hk)
  have hself : ∀ k ∈ labels p, ∀ v, (2, Note.label k v) ∈ sC.notes → (lab k).value.toInt = v.toInt := by
    intro k hk v hv
    obtain ⟨l, y1, y2⟩ := hval k hk v hv
    show ((s.tree.find k).getD {}).value.toInt = _
    rw [y1, ← y2]
    rfl
  obtain ⟨-, B⟩ := loop_ok M (P := True) hp hfree hne (fun _ => rfl) (fun _ => hself) rest p [] n s [] {} rfl hl g2 g3 (fun h => by cases h)
    (fun k => by simp [Spec.Program.equates]) (fun _ => hm) (fun _ => Marked.nil) g1
  obtain ⟨img, σ', y1, ds, hds, hmE⟩ := B trivial
  have hch : Charted isa voc p (fun k => (lab k).value.toInt) σ' sC := by
    have habs : ∀ k, k ∈ labels p ∨ k ∈ Spec.Program.equates p → ∀ l, sC.tree.find k = some l → l.flags.undef = false ∧ l.type = .absolute := fun k hk l hl => by
      obtain ⟨l', j1, j2⟩ := H2.done k hk
      rw [hl] at j1
      cases j1
      exact ⟨j2, H2.mid.base.numeric.abs k l (fun h => hres k hk (.inr h)) hl (.inl j2)⟩
    refine ⟨fun k hk => ?_, fun k hk => ?_, fun k l hl => ?_, fun k hk l hl => ?_, fun ho hx => ?_⟩
    · obtain ⟨-, -, l, j1, j2, j3⟩ := hmE.lab k hk
      obtain ⟨j4, j5⟩ := habs k (.inl hk) l j1
      exact ⟨l, j1, j4, j5, j2, j3⟩
    · obtain ⟨⟨v, b⟩, hv⟩ := Option.isSome_iff_exists.1 (hmE.eqs k ((hds k).2 hk))
      obtain ⟨-, l, j1, j2, j3⟩ := hmE.env k v b hv
      obtain ⟨j4, j5⟩ := habs k (.inr hk) l j1
      exact ⟨l, v, b, hv, j1, j4, j5, j2, j3⟩
    · by_cases hr : Reserved isa k
      · exact .inr (.inr hr)
      · rcases H2.mid.only k hr (by rw [hl]; rfl) with h | h
        · exact .inl h
        · exact .inr (.inl h)
    · refine ⟨word_noredef M C hn hmild S ht h2' h3 hk hl, ?_⟩
      obtain ⟨w, hw, rfl⟩ := List.mem_map.1 ((M.words k).1 hk)
      obtain ⟨l', j1, j2⟩ := H2.mid.base.vocab w hw
      rw [hl] at j1
      cases j1
      exact ⟨w, hw, j2.1⟩
    · rw [y1.at_end (by rintro rfl; cases ho) hx (H2.org ho)]
      exact hmE.pc (H2.org ho)
  refine ⟨first, rest, sA, e, sC, n, s, fun k => (lab k).value.toInt, σ', x1, h1, h2, rfl, g1, g11, (ht first (by rw [x1]; exact .head _)).2, hch, ?_⟩
  have : image (afterPasses sC).log = img := by
    show image sC.log = _
    rw [y1.run.2, g5]
    rfl
  rw [this]
  exact y1

/-- A program that is assembled without error stands for the bytes the assembler generates. -/
theorem program_full (M : Machine isa voc cf) {c : Cpu} {tabs : List TableId} {f : Flags → Flags}
    (C : Chosen c tabs f voc cf isa.little) {name : Str} (hn : cpuOf name = some c) (hmild : Mild name)
    {fuel : Nat} {o : Opts} {env : Env} {src : Str} {s : St}
    (h : C40.Assembles fuel o env src s) (hsrc : Spec.Program.Source isa name src p) (ht : Spec.Tame src) (hp : Proper p) :
    ∃ addr σ', Spec.Program.Run isa addr (Spec.Program.late p) {} p (image s.log) σ' := by
  obtain ⟨_, _, _, _, _, _, _, addr, σ', -, -, -, -, -, -, -, -, t⟩ := program_trace M C hn hmild h hsrc ht hp
  exact ⟨addr, σ', t.run.1⟩

end

end Crasm.C42

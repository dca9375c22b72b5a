import Verif.Proof.ProgFirst

/-! Programs: both passes. -/

namespace Crasm.C42
open Spec.Program (Isa key Free Body Line State Lines Proper All2 labels hasOrg)

theorem star_p {m : M α} (w : Walk PStep m) {s s' : St} {a : α} (e : m s = .ok a s') : Star PStep (s, .live) (s', .live) := by
  have := w s
  rw [e] at this
  exact this

/-- The bytes of pass 1. -/
theorem bytes_first {o : Opts} {env : Env} {src : Str} {sA e : St} {fuel : Nat} (h1 : initLabelList .pseudos pseudos (initSt env src) = .ok () sA)
    (h2 : pass fuel 1 sA = .ok () e) : ∀ x ∈ bytesOf e.log, x.1 ≤ 1 := by
  have w0 : Star PStep (initSt env src, .live) (sA, .live) := star_p (walk_init .pseudos) h1
  have hc := codeInv_reach (o := o) (.pass1 (.init w0) (walk_pass h2)) (by simp)
  rintro ⟨q, a, v, on⟩ hx
  have := hc.passes q a v on hx
  omega

/-- No bytes of pass 2 in pass 1. -/
theorem image_first {o : Opts} {env : Env} {src : Str} {sA e : St} {fuel : Nat} (h1 : initLabelList .pseudos pseudos (initSt env src) = .ok () sA)
    (h2 : pass fuel 1 sA = .ok () e) : image e.log = [] := by
  have w0 : Star PStep (initSt env src, .live) (sA, .live) := star_p (walk_init .pseudos) h1
  have hc := codeInv_reach (o := o) (.pass1 (.init w0) (walk_pass h2)) (by simp)
  have : codeOf 2 e.log = [] := by
    unfold codeOf
    rw [List.filterMap_eq_nil_iff]
    intro ev hev
    cases ev with
    | byte q a v on =>
      dsimp only
      refine if_neg fun h => ?_
      have := hc.passes q a v on (List.mem_filterMap.2 ⟨_, List.mem_reverse.1 hev, rfl⟩)
      omega
    | _ => rfl
  unfold image
  rw [this]
  rfl

/-- Pass 2, up to the line that chooses the processor. -/
theorem second_start {isa : Isa} {voc : List Entry} {cf : Option Int} (M : Machine isa voc cf) {c : Cpu} {tabs : List TableId} {f : Flags → Flags}
    (C : Chosen c tabs f voc cf isa.little) {fuel : Nat} {o : Opts} {env : Env} {src : Str} {sA e sC : St}
    {rest : List Str} {first m b op name : Str} (hn : cpuOf name = some c) (hmild : Mild name) (S : Opening name src rest first m b op) (ht : Spec.Tame src)
    (h1 : initLabelList .pseudos pseudos (initSt env src) = .ok () sA) (h2 : pass fuel 1 sA = .ok () e)
    (h3 : passLoop fuel fuel true (passStart 2 (betweenPasses o e)) = .ok () sC) (hst : e.stack = [])
    (hfwd : ∀ k l, k ≠ starKey → e.tree.find k = some l → l.flags.noredef = true → l.flags.forward = true → l.type = .absolute)
    :
    ∃ n s, passLoop fuel n true s = .ok () sC ∧ Rest s rest ∧ Inv isa voc cf s ∧ ¬ Placed s ∧ (image s.log = [] ∧ bytesOf s.log = bytesOf e.log) ∧ s.notes = e.notes ∧
      (∀ k, ¬ Reserved isa k → s.tree.find k = (e.tree.find k).map undefOne) ∧
      (∀ k l, ¬ Reserved isa k → e.tree.find k = some l → l.origin ≠ some .pseudos) ∧
      (∀ l, s.tree.find starKey = some l → l.flags.noredef = false ∧ l.flags.forward = false) ∧ s.errnumber = 0 ∧
      ∃ s4 g bl, outputline s4 = .ok () s ∧ s4.lst = e.lst ∧ s4.linenumber = 1 ∧ s4.lineprefix = none ∧ s4.macrolevel = 0 ∧
        first = s4.curline ++ bl ∧ Blank bl ∧ s4.flags = f g ∧ g.listOn = (passStart 2 (betweenPasses o e)).flags.listOn ∧ g.addr24 = e.flags.addr24 := by
  have himg := image_first (o := o) h1 h2
  rw [init_run] at h1
  cases h1
  have hK := K.star ((walk_pass h2).mono fun _ _ h => K.s h)
  have hlast := lasting_star (walk_pass h2)
  have hvoc := first_pass C hn hmild S ht (by
    have := h2
    unfold pass at this
    rw [bind_run, passInit_run] at this
    exact this)
  have hgv : e.flags.cpuGv = false := gv_star (walk_pass h2) (by show (1 : Nat) ≠ 2; decide)
  have hT := hK.tree
  rw [show ((passStart 1 { initSt env src with tree := pseudoTree }, Mode.live) : Cfg).1.tree = startTree from start_eq env src] at hT
  have hT : TreeLE startTree e.tree := hT
  generalize hs : passStart 2 (betweenPasses o e) = s at h3
  have a1 : s.stack = [] := by rw [← hs]; exact hst
  have a2 : s.mainEof = false := by rw [← hs]; rfl
  have a3 : s.main = src := by rw [← hs]; exact hlast.source
  have a4 : s.segment = 0 := by rw [← hs]; rfl
  have a5 : s.passnumber = 2 := by rw [← hs]; rfl
  have a6 : s.flags.codeOn = true := by rw [← hs]; rfl
  have a7 : s.log = e.log := by rw [← hs]; rfl
  have a8 : ∀ k, k ≠ starKey → s.tree.find k = (e.tree.find k).map undefOne := by
    intro k hk
    rw [← hs]
    show ((e.tree.map undefOne).put starKey _).find k = _
    rw [Tree.find_put_ne _ _ hk, Tree.find_map]
  obtain ⟨ls, a9, a10, a11⟩ : ∃ l, s.tree.find starKey = some l ∧ l.flags.undef = true ∧ l.flags.noredef = false ∧ l.flags.forward = false := by
    rw [← hs]
    exact ⟨_, Tree.find_put_self _ _ _, rfl, rfl, rfl⟩
  have a12 : s.notes = e.notes := by rw [← hs]; rfl
  have a13 : s.errnumber = 0 := by rw [← hs]; rfl
  have a15 : s.lst = e.lst ∧ s.linenumber = 0 ∧ s.lineprefix = none ∧ s.macrolevel = 0 ∧ s.flags.addr24 = e.flags.addr24 := by
    rw [← hs]; exact ⟨rfl, rfl, rfl, rfl, rfl⟩
  have a14 : s.flags.cpuGv = false := by rw [← hs]; exact hgv
  have R : Rest s (first :: rest) := ⟨by rw [a3]; exact ht, (by rw [a2]; intro h; cases h), by rw [a3, a2]; exact S.lines⟩
  -- the words
  have hps : ∀ w ∈ pseudos, w.name.map toupper = w.name ∧ ∃ l, s.tree.find w.name = some l ∧ AsWord w.label l := by
    intro w hw
    obtain ⟨b1, l, b2, b3, b4, b5, b6, b7, -⟩ := word_start w hw
    obtain ⟨l', c1, c2⟩ := hT.old _ _ b7 b2
    obtain ⟨-, -, c3⟩ := c2.fixed b3.2.2.2.1 b4
    have c3 := c3 b5
    refine ⟨b1, undefOne l', by rw [a8 _ b7, c1]; rfl, ?_⟩
    have : (undefOne l').flags.undef = false := by
      show (if l'.origin = some .pseudos then false else true) = false
      rw [c2.origin, b6, if_pos rfl]
    obtain ⟨d1, d2, d3, d4, d5, d6, d7, d8, d9⟩ := b3
    refine ⟨?_, ?_, ?_, this, ?_, ?_, ?_, ?_, ?_⟩
    · show l'.type = _; rw [c3]; exact d1
    · show l'.modifier = _; rw [c3]; exact d2
    · show l'.ptr = _; rw [c3]; exact d3
    · show l'.flags.nolabel = _; rw [c3]; exact d5
    · show l'.flags.deflabel = _; rw [c3]; exact d6
    · show l'.flags.defmacro = _; rw [c3]; exact d7
    · show l'.flags.defcond = _; rw [c3]; exact d8
    · show l'.value = _; rw [c3]; exact d9
  have hws : ∀ t ∈ tabs, ∀ w ∈ tableOf t, ∃ l, s.tree.find (canon 0 w.name) = some l ∧ l.origin = some t ∧ l.flags.undef = true ∧ AsWord w.label (live l) := by
    intro t ht w hw
    obtain ⟨l', c1, c2⟩ := hvoc t ht w hw
    obtain ⟨b1, b2, b3, b4, b5⟩ := (C.good t ht).2 w hw
    obtain ⟨-, -, c3⟩ := c2.fixed b3 b2
    have c3 := c3 b4
    refine ⟨undefOne l', by rw [a8 _ b5, c1]; rfl, c2.origin, ?_, ?_⟩
    · show (if l'.origin = some .pseudos then false else true) = true
      rw [c2.origin, if_neg]
      intro h
      injection h with h
      exact (C.good t ht).1 h
    · refine ⟨?_, ?_, ?_, rfl, ?_, ?_, ?_, ?_, ?_⟩
      · show l'.type = _; rw [c3]
      · show l'.modifier = _; rw [c3]
      · show l'.ptr = _; rw [c3]
      · show l'.flags.nolabel = _; rw [c3]
      · show l'.flags.deflabel = _; rw [c3]
      · show l'.flags.defmacro = _; rw [c3]
      · show l'.flags.defcond = _; rw [c3]
      · show l'.value = _; rw [c3]
  have hkeys : ∀ t ∈ tabs, ∀ k ∈ keysOf (tableOf t) (visitOrder (tableOf t).length), ∃ w ∈ tableOf t, canon 0 w.name = k := by
    intro t _ k hk
    obtain ⟨i, -, hi⟩ := List.mem_filterMap.1 hk
    obtain ⟨w, hw, e⟩ := Option.map_eq_some_iff.1 hi
    exact ⟨w, List.mem_of_getElem? hw, e⟩
  have hres : ∀ k ∈ wordsOf tabs, k ∈ isa.words := by
    intro k hk
    obtain ⟨t, ht, hk⟩ := List.mem_flatMap.1 hk
    obtain ⟨w, hw, rfl⟩ := hkeys t ht k hk
    rw [((C.good t ht).2 w hw).1]
    exact (M.words _).2 (List.mem_map_of_mem (List.mem_append_right _ (C.back t ht w hw)))
  have hstar : starKey ∉ wordsOf tabs := by
    intro h
    obtain ⟨t, ht, hk⟩ := List.mem_flatMap.1 h
    obtain ⟨w, hw, e⟩ := hkeys t ht _ hk
    exact ((C.good t ht).2 w hw).2.2.2.2 e
  -- the line
  cases hf : fuel with
  | zero => rw [hf] at h3; cases h3
  | succ n =>
  rw [hf] at h3
  obtain ⟨mn, eo, k1, k2, k3⟩ := linegets_ok a1 R
  obtain ⟨-, lc, w2, w3⟩ := hps cpuEntry (by unfold pseudos cpuEntry; simp)
  obtain ⟨s1, hS, hnt, q1⟩ := cpu_line (n := n) (s := { s with curline := first, linenumber := s.linenumber + 1, log := .line s.passnumber 0 first :: s.log, main := mn, mainEof := eo })
    a4 ⟨lc, w2, w3⟩ (by show first.length ≤ 600; omega) S.around S.gap S.mnemo S.oper hmild hn
  have rl : s1.lst = e.lst ∧ s1.linenumber = 1 ∧ s1.lineprefix = none ∧ s1.macrolevel = 0 ∧ Cut first s1.curline ∧
      s1.flags.listOn = s.flags.listOn ∧ s1.flags.addr24 = e.flags.addr24 := by
    obtain ⟨b, cl, nts, rfl, -, hcut⟩ := hS
    obtain ⟨y1, y2, y3, y4, y5⟩ := a15
    refine ⟨y1, ?_, y3, y4, hcut, rfl, y5⟩
    show s.linenumber + 1 = 1
    rw [y2]
  have r : s1.tree = s.tree ∧ s1.segment = 0 ∧ s1.passnumber = 2 ∧ s1.stack = [] ∧ s1.flags.codeOn = true ∧
      s1.log = .line s.passnumber 0 first :: s.log ∧ s1.main = mn ∧ s1.mainEof = eo ∧ s1.errnumber = 0 ∧ s1.flags.cpuGv = false := by
    obtain ⟨b, cl, nts, rfl, -, -⟩ := hS
    exact ⟨rfl, a4, a5, a1, a6, rfl, rfl, rfl, a13, a14⟩
  obtain ⟨r1, r2, r3, r4, r5, r6, r7, r8, r9, r10⟩ := r
  obtain ⟨T, t1, t2⟩ := inits_old tabs { s1 with cpuflag := cf.getD s1.cpuflag, flags := f { s1.flags with cpuGv := true } } r2 C.nodup (fun t ht k hk => by
    obtain ⟨w, hw, rfl⟩ := hkeys t ht k hk
    obtain ⟨l, x1, x2, x3, -⟩ := hws t ht w hw
    exact ⟨l, by show s1.tree.find _ = _; rw [r1]; exact x1, x2, x3⟩)
  have t2 : ∀ k, T.find k = (s.tree.find k).map fun l => if k ∈ wordsOf tabs then live l else l := by
    intro k
    rw [t2 k]
    show (s1.tree.find k).map _ = _
    rw [r1]
  obtain ⟨s3, hs3⟩ : ∃ s3, s3 = { s1 with cpuflag := cf.getD s1.cpuflag, flags := f { s1.flags with cpuGv := true }, tree := T } := ⟨_, rfl⟩
  have g2 : choose c s1 = .ok () s3 := by
    unfold choose
    rw [getS_bind_run, if_neg (by rw [r10]; decide)]
    unfold whenM modFlags
    rw [if_pos r3, modS_bind_run, C.init]
    show inits tabs { s1 with cpuflag := cf.getD s1.cpuflag, flags := f { s1.flags with cpuGv := true } } = .ok () s3
    rw [t1, hs3]
  rw [run_ok g2] at q1
  obtain ⟨s2, g4, g3⟩ := round_sure h3 a2 k1 (by rw [q1]; exact afterwards_calm s3) (by rw [q1]; exact afterwards_cont s3)
  rw [q1] at g4
  have hstarT : T.find starKey = some ls := by
    rw [t2, a9, Option.map_some, if_neg hstar]
  have horig : ∀ k l, ¬ Reserved isa k → e.tree.find k = some l → l.origin ≠ some .pseudos := by
    intro k l0 hk hl0 horg
    have hk1 : k ≠ starKey := fun h => hk (.inl h)
    have hkp : k ∈ pseudoKeys := by
      cases hx : startTree.find k with
      | none => exact hT.new k l0 hk1 hx hl0 horg
      | some x =>
        unfold startTree at hx
        rw [Tree.find_put_ne _ _ hk1] at hx
        exact keys_pseudo _ (Tree.mem_of_find hx)
    obtain ⟨w, hw, rfl⟩ := List.mem_map.1 hkp
    refine absurd (.inr ((M.words _).2 ?_)) hk
    rw [← (hps w hw).1]
    exact List.mem_map_of_mem (List.mem_append_left _ hw)
  have I3 : Inv isa voc cf s3 := by
    subst hs3
    obtain ⟨f1, f2, f3⟩ := C.flags { s1.flags with cpuGv := true }
    refine ⟨⟨r4, r2, f3.trans r5, f2, ⟨.inr (by show (T.find starKey).isSome; rw [hstarT]; rfl), .inl f2, fun k l hk hl hd => ?_⟩, fun w hw => ?_, ⟨ls, hstarT, fun h => by rw [a10] at h; cases h⟩⟩, r3, f1, fun k hk => by cases hk; rfl⟩
    · change T.find k = some l at hl
      by_cases hk1 : k = starKey
      · subst hk1
        rw [hstarT] at hl
        cases hl
        rw [a10, a11.2] at hd
        rcases hd with hd | hd <;> cases hd
      have hk2 : k ∉ wordsOf tabs := fun h => hk (hres k h)
      rw [t2, a8 k hk1] at hl
      cases hl0 : e.tree.find k with
      | none => rw [hl0] at hl; cases hl
      | some l0 =>
        rw [hl0] at hl
        simp only [Option.map_some, if_neg hk2] at hl
        cases hl
        rcases hd with hd | hd
        · exact absurd (by
            change (if l0.origin = some .pseudos then false else true) = false at hd
            by_cases h : l0.origin = some .pseudos
            · exact h
            · rw [if_neg h] at hd; cases hd) (horig k l0 (fun h => h.elim hk1 hk) hl0)
        · change (if (!l0.flags.noredef || l0.flags.undef) = true then false else l0.flags.forward) = true at hd
          by_cases hx : (!l0.flags.noredef || l0.flags.undef) = true
          · rw [if_pos hx] at hd; cases hd
          · rw [if_neg hx] at hd
            have : l0.flags.noredef = true := by
              cases h : l0.flags.noredef with
              | true => rfl
              | false => rw [h] at hx; exact absurd rfl hx
            exact hfwd k l0 hk1 hl0 this hd
    · show ∃ l, T.find _ = some l ∧ _
      rcases List.mem_append.1 hw with hw | hw
      · obtain ⟨x1, l, x2, x3⟩ := hps w hw
        rw [x1, t2, x2]
        refine ⟨_, rfl, ?_⟩
        split
        · exact ⟨x3.1, x3.2.1, x3.2.2.1, rfl, x3.2.2.2.2⟩
        · exact x3
      · obtain ⟨t, ht, hw⟩ := C.entry w hw
        obtain ⟨l, x1, x2, x3, x4⟩ := hws t ht w hw
        rw [← ((C.good t ht).2 w hw).1, t2, x1]
        exact ⟨_, rfl, by show AsWord _ (if _ then _ else _); rw [if_pos (C.all t ht w hw)]; exact x4⟩
  unfold afterwards at g4
  obtain ⟨u1, s4, g5, g4⟩ := bind_ok g4
  obtain ⟨u2, s5, g6, g4⟩ := bind_ok g4
  cases g4
  obtain ⟨v, -, rfl⟩ := bump_ok g5
  have I4 := I3.bumped (v := v) (not_star M)
  have g7 := nwalk_gen (m := outputline) W.walk g6
  have st7 := star_n (m := outputline) W.walk g6
  have f7 := Fr.hstar st7
  have q8 : s2.tree = s3.tree.put starKey { starLabel s3 with value := v } ∧ s2.notes = s3.notes ∧ s2.errnumber = s3.errnumber := by
    have q := (inferInstance : Quiet outputline).run { s3 with tree := s3.tree.put starKey { starLabel s3 with value := v } }
    rw [g6] at q
    obtain ⟨_, _, _, rfl⟩ := q
    exact ⟨rfl, rfl, rfl⟩
  have hsl : starLabel s3 = ls := by
    unfold starLabel
    rw [hs3]
    show (T.find starKey).getD _ = _
    rw [hstarT]
    rfl
  obtain ⟨b1, b2, -⟩ := star_gen g7 (by obtain ⟨l, h, -⟩ := I4.star; rw [h]; rfl)
  refine ⟨n, s2, g3, k3 s2 (f7.main.trans ?_) (f7.eof.trans ?_), I4.gen g7 st7, ?_, ?_, ?_, fun k hk => ?_, horig, fun l hl => ?_, ?_, ?_⟩
  · rw [hs3]; exact r7
  · rw [hs3]; exact r8
  · unfold Placed
    rw [b2, star_put, hsl]
    show ¬ ls.flags.undef = false
    rw [a10]
    decide
  · have : s3.log = .line s.passnumber 0 first :: s.log := by rw [hs3]; exact r6
    refine ⟨?_, ?_⟩
    · rw [image_gen g7 I4.pass I4.on fun h => absurd rfl h]
      show image s3.log ++ _ = _
      rw [this, image_line, a7, himg]
      rfl
    · rw [g7.log]
      show bytesOf s3.log = _
      rw [this, ← a7]
      rfl
  · rw [q8.2.1]
    show s3.notes = _
    rw [hs3]
    exact hnt.trans a12
  · have hk1 : k ≠ starKey := fun h => hk (.inl h)
    have hk2 : k ∉ wordsOf tabs := fun h => hk (.inr (hres k h))
    rw [q8.1]
    show (s3.tree.put starKey _).find k = _
    rw [Tree.find_put_ne _ _ hk1, hs3]
    show T.find k = _
    rw [t2, a8 k hk1]
    simp only [if_neg hk2, Option.map_id']
  · rw [q8.1] at hl
    change (s3.tree.put starKey _).find starKey = some l at hl
    rw [Tree.find_put_self] at hl
    cases hl
    show (starLabel s3).flags.noredef = false ∧ (starLabel s3).flags.forward = false
    rw [hsl]
    exact a11
  · rw [q8.2.2, hs3]
    exact r9
  · obtain ⟨y1, y2, y3, y4, ⟨bl, y5, y6⟩, y7, y8⟩ := rl
    refine ⟨_, { s1.flags with cpuGv := true }, bl, g6, ?_, ?_, ?_, ?_, ?_, y6, ?_, ?_, y8⟩
    · rw [hs3]; exact y1
    · rw [hs3]; exact y2
    · rw [hs3]; exact y3
    · rw [hs3]; exact y4
    · rw [hs3]; exact y5
    · rw [hs3]
    · exact y7

end Crasm.C42

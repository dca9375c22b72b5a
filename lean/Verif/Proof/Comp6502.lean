import Verif.Proof.Comp

/-! The instructions of the 6500, 6502 and 65C02 are accepted. -/

namespace Crasm.C42
open _root_.Spec.M6502 (Chip Form Written Meaning encode bare Ins Writes Code isa)
open C22 C6502

/-- The names in the operand are entered. -/
theorem standard_enter {code : BitVec 32} {f : Form} {t o : Str} (hw : Written f t o) {k : Spec.Level} {e : _root_.Spec.Expr}
    (ht : _root_.Spec.Text k e t) {s s' : St} {u : Unit} (h : C6502.standard code (some o) s = .ok u s') :
    ∀ x ∈ e.names, Has s' (canon s.segment x) := by
  obtain ⟨b, hb | ⟨s1, hb⟩⟩ := mode_text hw s
  rotate_left
  · unfold C6502.standard at h
    rw [getS_bind_run] at h
    obtain ⟨_, _, h1, -⟩ := bind_ok h
    first
      | (rw [hb] at h1; cases h1)
      | (obtain ⟨_, _, h2, -⟩ := bind_ok h1; rw [hb] at h2; cases h2)
  rw [standard_some hb] at h
  unfold rest at h
  by_cases hE : early code (modeNum f) = true
  · rw [if_pos hE] at h
    exact absurd h error_not_ok
  rw [if_neg hE, if_pos (show modeNum f < 14 by cases f <;> decide)] at h
  obtain ⟨a, s1, h1, h2⟩ := bind_ok h
  unfold C6502.operand at h1
  obtain ⟨v, s3, h3, h4⟩ := bind_ok h1
  intro x hx
  have k1 := parse_enter ht h3 x hx
  have k2 : Has s1 (canon s.segment x) := walk_has (by walk) h4 k1
  exact walk_has (by walk) h2 k2

/-- When an operand is refused. -/
theorem refused16 {c : Chip} {e : Entry} (he : e ∈ table c) (hs : isStandard e = true) {f : Form} {t o : Str}
    (hw : Written f t o) {s s' : St} (ho : s.flags.orgGv = true) (hl : s.flags.lohi = true) (hc : s.cpuflag = cpuNum c)
    (hodd : oddNum c (upper e) f = false) (hsure : ∀ b s', parse (some t) { s with bufpos := b } ≠ .err s')
    (habs : ∀ b v s1, parse (some t) { s with bufpos := b } = .ok v s1 → v.type = .absolute)
    (h : C6502.standard (BitVec.ofInt 32 e.label.modifier) (some o) s = .err s') :
    (∀ m, encode c (upper e) f m = none) ∨ ∃ b v s1, parse (some t) { s with bufpos := b } = .ok v s1 ∧
      encode c (upper e) f (.num (v.value.toNat % 65536) v.flags.forward) = none := by
  generalize hcode : BitVec.ofInt 32 e.label.modifier = code at h
  obtain ⟨b, hb | ⟨s1, hb⟩⟩ := mode_text hw s
  rotate_left
  · unfold C6502.standard at h
    rw [getS_bind_run] at h
    change ((C6502.searchMode o C6502.addmodes >>= _) >>= _) s = Res.err s' at h
    rw [bind_assoc, run_stop hb] at h
    cases h
  rw [standard_some hb] at h
  unfold rest at h
  by_cases hE : early code (modeNum f) = true
  · exact .inl fun m => early_none he hs (by rw [hcode]; exact hE) m
  rw [if_neg hE, if_pos (show modeNum f < 14 by cases f <;> decide)] at h
  have hE : early code (modeNum f) = false := by simpa using hE
  cases hp : parse (some t) { s with bufpos := b } with
  | err s1 => exact absurd hp (hsure b s1)
  | stop w s1 =>
    have : operand (modeNum f) t { s with bufpos := b } = .stop w s1 := by
      unfold C6502.operand
      rw [run_stop hp]
    rw [run_stop this] at h
    cases h
  | ok v s1 =>
  refine .inr ⟨b, v, s1, hp, ?_⟩
  have henc := opMode_enc16 he hs (by rw [hcode]; exact hE) hodd (habs b v s1 hp)
  rw [henc, hcode]
  rcases operand_run (mode := modeNum f) hp with ⟨w, s2, h'⟩ | ⟨hn, s2, h'⟩ | ⟨m, s2, hn, h'⟩
  · rw [run_stop h'] at h; cases h
  · rw [hn]; rfl
  · have g : Gen [] s s2 := by
      have := (gen_bufpos s b).trans (nwalk_gen W.walk h')
      simpa using this
    rw [run_ok h', hc] at h
    rw [hn, Option.bind_some]
    have hm := finish_run (code := code) (m := m) (v := v.value.setWidth 32) (cf := cpuNum c) (s := s2) (by rw [g.orgGv]; exact ho) (by rw [g.lohi]; exact hl)
          (by rw [← hcode]; exact table_total he hs) (opMode_lt hn)
    have h3 : Makes (α := Unit) ((finalOp (cpuNum c) code m).map (bytesFor (v.value.setWidth 32))) s2 (Res.err s') := by
      rw [← h]; exact hm
    exact h3

/-- What can be assembled does not depend on the value of a name that is defined further below. -/
theorem encode_late {c : Chip} {n : Str} {f : Form} {x y : Nat} (h : encode c n f (.num x true) ≠ none) : encode c n f (.num y true) ≠ none := by
  intro h'
  apply h
  unfold encode at *
  rw [Option.map_eq_none_iff] at *
  unfold _root_.Spec.M6502.mode at *
  simp only [Bool.not_true, Bool.and_false] at *
  exact h'

theorem takes6502 (c : Chip) : Takes (isa c) (table c) (some (cpuNum c)) := by
  constructor
  intro i m o hw
  cases hw with
  | bare hb =>
    have hc := covered (bare_mem hb)
    unfold covers at hc
    simp only [Bool.and_eq_true, Bool.or_eq_true, decide_eq_true_eq] at hc
    obtain ⟨e, he, rfl, hi, hp⟩ := has_iff (hc.1.1.1.resolve_left hb)
    simp only [Bool.and_eq_true, Bool.or_eq_true, Bool.not_eq_true', Bool.and_eq_false_imp, decide_eq_true_eq, decide_eq_false_iff_not] at hp
    refine ⟨e, he, rfl, ?_⟩
    obtain ⟨x, hx⟩ : ∃ x, e.label.ptr = .handler (.h6502 x) := by
      rcases hp.1 with h | h
      · exact ⟨_, of_decide_eq_true h⟩
      · exact ⟨_, of_decide_eq_true h⟩
    refine ⟨_, hx, fun {keys ρ ρ1 φ bs self fuel label s} hr _ _ _ _ hcode _ => .not (fun s' hs' => ?_) fun a s' _ n hn => by cases hn⟩
    obtain ⟨h', e', hm⟩ := C22_bare_partial (self := self) (fuel := fuel) (label := label) he hp.1 (fun h => hp.2 h.1 h.2) hr.org hr.lohi (hr.cpu _ rfl)
    rw [hx] at e'
    cases e'
    rw [hs'] at hm
    exact hb hm
  | @acc n o hb ha =>
    have hc := covered (opcode_mem hb)
    unfold covers at hc
    simp only [Bool.and_eq_true, Bool.or_eq_true, decide_eq_true_eq] at hc
    obtain ⟨e, he, rfl, hi, hp⟩ := has_iff (hc.1.1.2.resolve_left hb)
    simp only [Bool.and_eq_true, Bool.not_eq_true'] at hp
    have hwr : Written .dir o o := by
      rcases ha with rfl | rfl
      · refine .dir ⟨.plain _ _ _ (by decide) (by decide) (by decide) (by decide) (by decide) (.nil _), by simp, ?_, ?_⟩ ?_
        · intro c r h; cases h; decide
        · intro c r h
          have := congrArg List.getLast? h
          simp at this
          subst this
          decide
        · intro c r h; cases h; decide
      · refine .dir ⟨.plain _ _ _ (by decide) (by decide) (by decide) (by decide) (by decide) (.nil _), by simp, ?_, ?_⟩ ?_
        · intro c r h; cases h; decide
        · intro c r h
          have := congrArg List.getLast? h
          simp at this
          subst this
          decide
        · intro c r h; cases h; decide
    refine ⟨e, he, rfl, _, of_decide_eq_true hp.1, fun {keys ρ ρ1 φ bs self fuel label s} hr _ _ _ _ hcode _ => .not (fun s' hs' => ?_) fun a s' _ n hn => by cases hn⟩
    obtain ⟨h', e', hm⟩ := C22_operand_partial (self := self) (fuel := fuel) (label := label) he hp.1 hwr hr.org hr.lohi (hr.cpu _ rfl)
    rw [of_decide_eq_true hp.1] at e'
    cases e'
    rw [hs'] at hm
    have hacc : encode c (upper e) .dir .acc ≠ none := by
      change (if Form.dir = .dir then (_root_.Spec.M6502.opcode c (upper e) .acc).map fun op => [_root_.Spec.M6502.lo op] else none) ≠ none
      rw [if_pos rfl]
      intro h
      exact hb (Option.map_eq_none_iff.1 h)
    rcases hm with hm | ⟨b, s1, h1⟩ | ⟨b, v, s1, h1, h2⟩
    · exact hacc (hm _)
    · obtain ⟨e1, he1, h2⟩ := List.any_eq_true.1 (List.all_eq_true.1 acc_entry c (mem_cpus c))
      simp only [Bool.and_eq_true, decide_eq_true_eq] at h2
      obtain ⟨l, hl, w1, w2, w3, w4, -⟩ := (ready_buf hr b).vocab e1 he1
      have hf : searchlabel { s with bufpos := b } o = some l := by
        unfold searchlabel
        have e1' : canon s.segment o = c!"A" := by rw [hr.seg]; rcases ha with rfl | rfl <;> rfl
        show ({ s with bufpos := b } : St).tree.find (canon s.segment o) = _
        rw [e1', ← h2.1.1]
        exact hl
      have hn : _root_.Spec.IsName o := by rcases ha with rfl | rfl <;> exact ⟨.inl (by decide), by simp, by decide⟩
      rcases C20_reference hn hf (r := { value := l.value, type := l.type, modifier := l.modifier, ptr := l.ptr, flags := {} })
        ⟨w4, rfl, rfl, rfl, rfl⟩ with ⟨r', s1, e2, -⟩ | ⟨t, e2⟩
      · rw [h1] at e2; cases e2
      · rw [h1] at e2; cases e2
    · obtain ⟨t1, t2⟩ := parse_acc (ready_buf hr b).vocab hr.seg ha h1
      have hmean : meaning v = .acc := by
        unfold meaning
        rw [if_neg (by rw [t1]; simp), if_pos ⟨t1, t2⟩]
      rw [hmean] at h2
      rcases h2 with h2 | h2
      · change oddAcc c (upper e) = true at h2
        rw [hp.2] at h2
        cases h2
      · exact hacc h2
  | @oper n f e' k t o hb hwr ht =>
    obtain ⟨a, b, hb⟩ := hb
    have hc := covered (mode_mem hb)
    unfold covers at hc
    simp only [Bool.and_eq_true] at hc
    have hc := List.all_eq_true.1 (List.all_eq_true.1 (List.all_eq_true.1 hc.1.2 f (mem_forms f)) a (by cases a <;> decide)) b (by cases b <;> decide)
    simp only [Bool.or_eq_true, decide_eq_true_eq] at hc
    obtain ⟨e, he, rfl, hi, hp⟩ := has_iff (hc.resolve_left hb)
    simp only [Bool.and_eq_true, Bool.not_eq_true'] at hp
    refine ⟨e, he, rfl, _, of_decide_eq_true hp.1, fun {keys ρ ρ1 φ bs self fuel label s} hr hab hkeys hout hval hcode hsame => ?_⟩
    have hsure : ∀ b s', parse (some t) { s with bufpos := b } ≠ .err s' := by
      intro b s' h
      have := parse_sure (N := fun _ => True) ht (fit_buf hab b) fun n hn => ⟨hkeys n hn, trivial⟩
      rw [h] at this
      exact this
    have htell : ∀ {b : Nat} {v : Result} {s1 : St}, parse (some t) { s with bufpos := b } = .ok v s1 → _ := fun {b v s1} h =>
      parse_tells (P := True) (ρ := ρ1) (φ := φ) (s := { s with bufpos := b }) ht (ready_buf hr b).numeric hout hval h
    refine .not (fun s' hs' => ?_) fun a s' hs' => ?_
    · have h1 : C6502.standard (BitVec.ofInt 32 e.label.modifier) (some o) s = .err s' := cont_err (m := C6502.call .standard e.label.modifier (some o)) hs'
      cases hcode with
      | @oper _ _ _ x _ hx henc =>
      rcases refused16 he hp.1 hwr hr.org hr.lohi (hr.cpu _ rfl) hp.2 hsure (fun b v s1 h => (htell h).1) h1 with h2 | ⟨b, v, s1, h2, h3⟩
      · rw [h2] at henc; cases henc
      · obtain ⟨-, q⟩ := htell h2
        obtain ⟨q1, q2⟩ := q trivial
        rw [q2] at h3
        cases hany : e'.names.any φ with
        | true =>
          rw [hany] at h3 henc
          exact encode_late (by rw [henc]; simp) h3
        | false =>
          have : e'.eval ρ = e'.eval ρ1 := eval_same e' fun n hn => hsame n hn (by
            rw [List.any_eq_false] at hany
            simpa using hany n hn)
          rw [this, q1] at hx
          cases hx
          rw [toNat_mod, h3] at henc
          cases henc
    · obtain ⟨u, s2, h1, h2⟩ := bind_ok hs'
      cases h2
      exact standard_enter hwr ht (u := u) h1
  | @branch n e' k o hb ht =>
    have hc := covered (opcode_mem hb)
    unfold covers at hc
    simp only [Bool.and_eq_true] at hc
    obtain ⟨op, hop⟩ := Option.ne_none_iff_exists'.1 hb
    have hc := hc.2
    rw [hop] at hc
    obtain ⟨e, he, rfl, hi, hp⟩ := has_iff hc
    simp only [Bool.and_eq_true, decide_eq_true_eq] at hp
    refine ⟨e, he, rfl, _, hp.2, fun {keys ρ ρ1 φ bs self fuel label s} hr hab hkeys hout hval hcode hsame => ?_⟩
    cases hcode with
    | @branch _ op' x _ d hop' hx hd =>
    refine rel_comes hr.org (fun s' h => ?_) fun r s1 h => ?_
    · have := parse_sure (N := fun _ => True) ht hab fun n hn => ⟨hkeys n hn, trivial⟩
      rw [h] at this
      exact this
    · obtain ⟨q1, q2⟩ := parse_tells (P := True) (ρ := ρ1) (φ := φ) ht hr.numeric hout hval h
      refine ⟨q1, parse_enter ht h, fun hno hall => ?_⟩
      have : e'.eval ρ = e'.eval ρ1 := eval_same e' hall
      rw [this, (q2 trivial).1] at hx
      cases hx
      exact hno d hd

end Crasm.C42

import Verif.Proof.RelL
import Verif.Proof.Fuel
import Verif.Proof.Grows

/-! Whole runs: what they print, and runs with different listing options. -/

namespace Crasm

theorem Inv.rr {s : St} (h : Inv s) : RR s s := ⟨.rfl' s, h, h⟩
theorem Rel.inv {m : M α} (h : Rel m) {s : St} (hs : Inv s) : Inv (m s).state := (h.go hs.rr).inv.1

theorem inv_initSt (env : Env) (src : Str) : Inv (initSt env src) :=
  ⟨by show 39 ≤ 76; omega, fun _ => ⟨rfl, rfl, rfl, (fun _ h => nomatch h), rfl⟩⟩

theorem inv_pass1 {s : St} (h : Inv s) (hp : s.passnumber ≤ 1) : Inv (passStart 1 s) := by
  refine ⟨h.1, fun _ => ?_⟩
  obtain ⟨a1, a2, a3, a4, a5⟩ := h.2 hp
  refine ⟨a1, a2, ?_, a4, a5⟩
  show (s.flags.listOn || !s.flags.nolist) = false
  rw [a2, a3]; rfl

theorem inv_pass2 {s : St} (o : Opts) (h : Inv s) : Inv (passStart 2 (betweenPasses o s)) :=
  ⟨h.1, fun hp => absurd hp (by show ¬ 2 ≤ 1; omega)⟩

theorem init_pass {s0 sA : St} (hA : initLabelList .pseudos pseudos s0 = .ok () sA) :
    sA.passnumber = s0.passnumber := by
  have h0 := init_out s0
  rw [hA] at h0
  have h1 : Star PStep (s0, .live) (sA, .live) := h0
  have h2 : Star Step (s0, .live) (sA, .live) := h1.mono fun _ _ h => .p h
  exact star_pass h2

theorem init_inv {s0 sA : St} (hA : initLabelList .pseudos pseudos s0 = .ok () sA) (h : Inv s0) : Inv sA := by
  have := Rel.inv (m := initLabelList .pseudos pseudos) inferInstance h
  rw [hA] at this
  exact this

/-- The state after the first pass. -/
theorem pass1_inv {fuel : Nat} {s0 sA : St} (h0 : Inv s0) (hp : s0.passnumber = 0)
    (hA : initLabelList .pseudos pseudos s0 = .ok () sA) :
    Inv (passStart 1 sA) ∧ Inv (pass fuel 1 sA).state := by
  have i1 := inv_pass1 (init_inv hA h0) (by rw [init_pass hA, hp]; omega)
  refine ⟨i1, ?_⟩
  unfold pass
  rw [bind_run, passInit_run]
  exact Rel.inv (m := passLoop fuel fuel true) inferInstance i1

/-- The stages of a run. -/
theorem assemble_stages {fuel : Nat} {o : Opts} {s0 s : St} (h0 : Inv s0) (hp : s0.passnumber = 0)
    (h : assemble fuel o s0 = .ok () s) :
    ∃ sA sB sC, initLabelList .pseudos pseudos s0 = .ok () sA ∧ pass fuel 1 sA = .ok () sB ∧
      passLoop fuel fuel true (passStart 2 (betweenPasses o sB)) = .ok () sC ∧ s = afterPasses sC ∧
      Inv sB ∧ sB.passnumber = 1 ∧ Inv sC := by
  unfold assemble at h
  obtain ⟨_, sA, hA, h⟩ := bind_ok h
  obtain ⟨_, sB, hB, h⟩ := bind_ok h
  obtain ⟨_, sB', hB', h⟩ := bind_ok h
  cases hB'
  obtain ⟨_, sB', hB', h⟩ := bind_ok h
  cases hB'
  obtain ⟨_, sC, hC, h⟩ := bind_ok h
  have iB : Inv sB := by
    have := (pass1_inv (fuel := fuel) h0 hp hA).2
    rw [hB] at this
    exact this
  have hC' : passLoop fuel fuel true (passStart 2 (betweenPasses o sB)) = .ok () sC := by
    unfold pass at hC
    rw [bind_run, passInit_run] at hC
    exact hC
  refine ⟨sA, sB, sC, hA, hB, hC', ?_, iB, star_pass (walk_pass hB), ?_⟩
  · simp only [modS_bind_run, modFlags, modS_run] at h
    cases h
    unfold afterPasses
    split <;> rfl
  · have := Rel.inv (m := passLoop fuel fuel true) inferInstance (inv_pass2 o iB)
    rw [hC'] at this
    exact this

/-- The state in which the second pass starts, for two sets of listing options. -/
theorem rr_pass2 {s : St} {o o' : Opts} (h : Inv s) (ho : o.scode.isNone = o'.scode.isNone) :
    RR (passStart 2 (betweenPasses o s)) (passStart 2 (betweenPasses o' s)) := by
  refine ⟨⟨s.lst, s.bufpos, s.curline, (passStart 2 (betweenPasses o' s)).flags.listOn,
    (passStart 2 (betweenPasses o' s)).flags.nolist, (passStart 2 (betweenPasses o' s)).flags.nowarning, s.stack,
    ?_, rfl⟩, inv_pass2 o h, inv_pass2 o' h⟩
  simp only [passStart, betweenPasses, pass2Flags, ho]
  rfl

/-! ### Text -/

/-- Characters that go to the listing as they are. -/
def shownChar (c : Char) : Bool := c = ' ' || (!isspace c && (isprint c || !isascii c))

theorem outputcar_plain {c : Char} {s : St} (hc : shownChar c = true) (h1 : s.lst.lpos < s.lst.llen)
    (h2 : s.lst.lpos + 1 < 1000) :
    outputcar c s = .ok () { s with lst := { s.lst with line := c :: s.lst.line, lpos := s.lst.lpos + 1 } } := by
  have hr : ∀ c, putRaw c s =
      .ok () { s with lst := { s.lst with line := c :: s.lst.line, lpos := s.lst.lpos + 1 } } := by
    intro c
    have : ¬ 1000 ≤ s.lst.lpos + 1 := by omega
    unfold putRaw
    rw [getS_bind_run]
    simp only [this, if_false]
    rfl
  unfold outputcar
  by_cases hs : isspace c = true
  · have : c = ' ' := by
      unfold shownChar at hc
      simp only [hs, Bool.not_true, Bool.false_and, Bool.or_false, decide_eq_true_eq] at hc
      exact hc
    subst this
    have e : (!isspace ' ') = false := rfl
    simp only [e, Bool.false_eq_true, if_false, if_true]
    unfold putSpace
    rw [getS_bind_run]
    simp only [h1, if_true]
    exact hr ' '
  · have hb : isspace c = false := by simpa using hs
    have hp : (isprint c || !isascii c) = true := by
      unfold shownChar at hc
      have : c ≠ ' ' := by rintro rfl; exact hs rfl
      simpa [hb, this] using hc
    have h3 : ¬ s.lst.llen ≤ s.lst.lpos := by omega
    simp only [hb, Bool.not_false, if_true]
    rw [getS_bind_run]
    simp only [whenM, h3, if_false, hp, if_true]
    rw [bind_run, pure_run]
    exact hr c

theorem output_plain {t : Str} : ∀ {s : St}, t.all shownChar = true → s.lst.lpos + t.length ≤ s.lst.llen →
    s.lst.lpos + t.length < 1000 →
    output t s = .ok () { s with lst := { s.lst with line := t.reverse ++ s.lst.line, lpos := s.lst.lpos + t.length } } := by
  induction t with
  | nil => intro s _ _ _; rfl
  | cons c t ih =>
    intro s ht h1 h2
    simp only [List.all_cons, Bool.and_eq_true, List.length_cons] at ht h1 h2
    unfold output
    rw [bind_run, outputcar_plain ht.1 (by omega) (by omega)]
    simp only
    rw [ih ht.2 (by simp only; omega) (by simp only; omega)]
    simp only [List.length_cons, List.reverse_cons, List.append_assoc, List.singleton_append]
    congr 3
    omega

/-- A printed line. -/
theorem outputEOL_text {s s' : St} {u : Unit} (hl : s.flags.listOn = true) (h : outputEOL s = .ok u s') :
    (s.lst.line.reverse ++ ['\n']) ∈ s'.lst.out ∧ s'.lst.lpos = 0 ∧ s'.lst.line = [] ∧ s'.lst.llen = s.lst.llen ∧
      s'.flags = s.flags := by
  unfold outputEOL outputraw at h
  simp only [bind_run, hl, if_true, modLst, modS_run, getS_run] at h
  cases h
  simp only [and_true, true_and]
  constructor <;> split <;> split <;> simp

theorem outputEOL_clear {s s' : St} {u : Unit} (h : outputEOL s = .ok u s') :
    s'.lst.lpos = 0 ∧ s'.lst.line = [] ∧ s'.lst.llen = s.lst.llen ∧ s'.flags = s.flags := by
  cases hl : s.flags.listOn with
  | true => exact (outputEOL_text hl h).2
  | false =>
    unfold outputEOL outputraw at h
    simp only [bind_run, hl, modLst, modS_run, getS_run] at h
    cases h
    exact ⟨rfl, rfl, rfl, rfl⟩

/-- Text short enough for one line is printed on a line of its own. -/
theorem output_line {t : Str} {s s' : St} {u : Unit} (hl : s.flags.listOn = true) (hw : 39 ≤ s.lst.llen)
    (h0 : s.lst.lpos = 0) (hn : s.lst.line = []) (ht : t.all shownChar = true) (h40 : t.length < 40)
    (h : (output t >>= fun _ => outputEOL) s = .ok u s') :
    (t ++ ['\n']) ∈ s'.lst.out ∧ s'.lst.lpos = 0 ∧ s'.lst.line = [] ∧ s'.lst.llen = s.lst.llen ∧
      s'.flags = s.flags := by
  rw [bind_run, output_plain ht (by omega) (by omega)] at h
  have := outputEOL_text (by exact hl) h
  simp only [hn, List.append_nil, List.reverse_reverse] at this
  exact this

theorem resultLine_ok {t : Str} {s s' : St} {u : Unit} (hl : s.flags.listOn = true) (hw : 39 ≤ s.lst.llen)
    (h0 : s.lst.lpos = 0) (hn : s.lst.line = []) (ht : t.all shownChar = true)
    (h : resultLine t s = .ok u s') :
    (t ++ ['\n']) ∈ s'.lst.out ∧ s'.lst.lpos = 0 ∧ s'.lst.line = [] ∧ s'.lst.llen = s.lst.llen ∧
      s'.flags = s.flags := by
  have e : resultLine t s = (if 40 ≤ t.length then ubM .resultBuffer else do output t; outputEOL) s := rfl
  rw [e] at h
  split at h
  · cases h
  · exact output_line hl hw h0 hn ht (by omega) h

/-- A printed piece stays. -/
theorem Grows.keep {m : M α} (g : Grows m) {s s' : St} {a : α} (h : m s = .ok a s') {x : Str} (hx : x ∈ s.lst.out) :
    x ∈ s'.lst.out := by
  obtain ⟨y, hy⟩ := g.out s
  rw [h] at hy
  simp only [Res.state] at hy
  rw [hy]
  exact List.mem_append_right _ hx

instance grows_eolLoop (n : Nat) : Grows (eolLoop n) := by
  induction n with
  | zero => exact Grows.pure _
  | succ n ih => unfold eolLoop; grows
instance : Grows outputEOP := by unfold outputEOP eject; grows
instance (t : Str) : Grows (resultLine t) := by unfold resultLine; grows
instance : Grows (outputaddr a) := by unfold outputaddr; grows
instance (k : Str) (l : Label) : Grows (printlabel k l) := by
  unfold printlabel
  refine Grows.bind Grows.getS fun _ => Grows.bind (by grows) fun _ => Grows.bind Grows.getS fun _ => ?_
  dsimp only
  split
  · exact Grows.pure _
  · exact Grows.bind inferInstance fun _ => Grows.bind (by grows) fun _ => Grows.bind inferInstance fun _ =>
      Grows.bind inferInstance fun _ => Grows.bind inferInstance fun _ => Grows.bind inferInstance fun _ =>
      inferInstance
instance grows_printlabels (ls : List (Str × Label)) : Grows (printlabels ls) := by
  induction ls with
  | nil => exact Grows.pure _
  | cons e ls ih => obtain ⟨k, l⟩ := e; unfold printlabels; grows
instance : Grows xref := by unfold xref; grows

theorem plain_digit (n : Nat) : shownChar (Char.ofNat (48 + n % 10)) = true := by
  have : ∀ k < 10, shownChar (Char.ofNat (48 + k)) = true := by decide
  exact this _ (Nat.mod_lt _ (by omega))

theorem plain_digitsAux (f : Nat) : ∀ n acc, acc.all shownChar = true → (digitsAux f n acc).all shownChar = true := by
  induction f with
  | zero => intro n acc h; exact h
  | succ f ih =>
    intro n acc h
    unfold digitsAux
    dsimp only
    split
    · simp [plain_digit, h]
    · exact ih _ _ (by simp [plain_digit, h])

theorem plain_digits (n : Nat) : (digits n).all shownChar = true := plain_digitsAux _ _ _ rfl

theorem plain_padLeft (w : Nat) {t : Str} (h : t.all shownChar = true) : (padLeft w t).all shownChar = true := by
  unfold padLeft
  rw [List.all_append, h, Bool.and_true, List.all_eq_true]
  intro c hc
  rw [List.eq_of_mem_replicate hc]
  rfl

/-- Flags and line length stay. -/
def Holds (s s' : St) : Prop := s'.flags = s.flags ∧ s'.lst.llen = s.lst.llen

theorem holds_eolLoop (n : Nat) : ∀ {s s' : St} {u : Unit}, eolLoop n s = .ok u s' → Holds s s' := by
  induction n with
  | zero => intro s s' u h; cases h; exact ⟨rfl, rfl⟩
  | succ n ih =>
    intro s s' u h
    unfold eolLoop at h
    rw [getS_bind_run] at h
    split at h
    · cases h; exact ⟨rfl, rfl⟩
    · obtain ⟨_, s1, h1, h⟩ := bind_ok h
      obtain ⟨-, -, a, b⟩ := outputEOL_clear h1
      obtain ⟨c, d⟩ := ih h
      exact ⟨c.trans b, d.trans a⟩

theorem holds_outputEOP {s s' : St} {u : Unit} (h : outputEOP s = .ok u s') : Holds s s' := by
  unfold outputEOP at h
  rw [getS_bind_run] at h
  split at h
  · split at h
    · exact holds_eolLoop _ h
    · cases h; exact ⟨rfl, rfl⟩
  · cases h; exact ⟨rfl, rfl⟩

/-- The summary: the number of errors, and the verdict. -/
theorem result_text {s s' : St} {u : Unit} (hl : s.flags.listOn = true) (hi : 39 ≤ s.lst.llen)
    (h : result s = .ok u s') :
    (c!"ERRORS:    " ++ padLeft 4 (digits s.errnumber) ++ ['\n']) ∈ s'.lst.out ∧
    (s.errnumber = 0 → (c!"Successful assembly...\n") ∈ s'.lst.out) ∧
    (s.errnumber ≠ 0 → (c!"No code generated...\n") ∈ s'.lst.out) := by
  unfold result at h
  rw [getS_bind_run] at h
  obtain ⟨_, s1, h1, h⟩ := bind_ok h
  have f1 : s1.flags.listOn = true ∧ 39 ≤ s1.lst.llen := by
    have : Holds s s1 := by
      unfold whenM at h1
      split at h1
      · obtain ⟨_, t1, k1, h1⟩ := bind_ok h1
        obtain ⟨_, t2, k2, k3⟩ := bind_ok h1
        obtain ⟨a, b⟩ := holds_outputEOP k1
        obtain ⟨-, -, c, d⟩ := outputEOL_clear k2
        obtain ⟨-, -, e, f⟩ := outputEOL_clear k3
        exact ⟨by rw [f, d, a], by rw [e, c, b]⟩
      · cases h1; exact ⟨rfl, rfl⟩
    rw [this.1, this.2]
    exact ⟨hl, hi⟩
  obtain ⟨_, s2, h2, h⟩ := bind_ok h
  obtain ⟨c1, c2, c3, c4⟩ := outputEOL_clear h2
  obtain ⟨_, s3, h3, h⟩ := bind_ok h
  obtain ⟨d0, d1, d2, d3, d4⟩ := resultLine_ok (by rw [c4]; exact f1.1) (by rw [c3]; exact f1.2) c1 c2
    (by rw [List.all_append, plain_padLeft _ (plain_digits _)]; rfl) h3
  obtain ⟨_, s4, h4, h⟩ := bind_ok h
  obtain ⟨e0, e1, e2, e3, e4⟩ := resultLine_ok (by rw [d4, c4]; exact f1.1) (by rw [d3, c3]; exact f1.2) d1 d2
    (by rw [List.all_append, plain_padLeft _ (plain_digits _)]; rfl) h4
  obtain ⟨_, s5, h5, h⟩ := bind_ok h
  obtain ⟨g1, g2, g3, g4⟩ := outputEOL_clear h5
  have k5 := Grows.keep inferInstance h5 (Grows.keep inferInstance h4 d0)
  have f5 : s5.flags.listOn = true := by rw [g4, e4, d4, c4]; exact f1.1
  have f5' : 39 ≤ s5.lst.llen := by rw [g3, e3, d3, c3]; exact f1.2
  split at h
  · rename_i h0
    have h : ((output c!"Successful assembly..." >>= fun _ => outputEOL) >>= fun _ => do
        resultLine (sizeLine c!" Last address " (s.code.pc - 1))
        resultLine (sizeLine c!" Code length  " s.code.codelen)) s5 = .ok u s' := by
      rw [← h]
      simp only [bind_run]
      cases output c!"Successful assembly..." s5 <;> rfl
    obtain ⟨_, s6, h6, h⟩ := bind_ok h
    have q := (output_line f5 f5' g1 g2 (by decide) (by decide) h6).1
    have k6 := Grows.keep (m := output c!"Successful assembly..." >>= fun _ => outputEOL) (by grows) h6 k5
    have gg : Grows (do
        resultLine (sizeLine c!" Last address " (s.code.pc - 1))
        resultLine (sizeLine c!" Code length  " s.code.codelen)) := by grows
    exact ⟨gg.keep h k6, fun _ => gg.keep h q, fun h1 => absurd h0 h1⟩
  · rename_i h0
    have q := (output_line f5 f5' g1 g2 (by decide) (by decide) h).1
    have k6 := Grows.keep (m := output c!"No code generated..." >>= fun _ => outputEOL) (by grows) h k5
    exact ⟨k6, fun h1 => absurd h1 h0, fun _ => q⟩

/-! ### Runs that get to their end -/

/-- The end of a run whose exit status is 0. -/
theorem finish_exit0 {fuel : Nat} {o : Opts} {s0 : St} {out : Str} {file : CodeFile}
    (h0 : Inv s0) (hp : s0.passnumber = 0) (h : finish fuel o s0 = .exit 0 out file) :
    ∃ s1, assemble fuel o s0 = .ok () s1 ∧
      file = (if s1.errnumber ≠ 0 ∧ o.scode.isSome then .removed else fileOf s1) ∧
      (c!"ERRORS:    " ++ padLeft 4 (digits s1.errnumber) ++ ['\n']) <:+: out ∧
      (s1.errnumber = 0 → c!"Successful assembly...\n" <:+: out) ∧
      (s1.errnumber ≠ 0 → c!"No code generated...\n" <:+: out) := by
  unfold finish at h
  cases ha : assemble fuel o s0 with
  | err s => rw [ha] at h; cases h
  | stop w s => rw [ha] at h; cases w <;> cases h
  | ok u s1 =>
    rw [ha] at h
    simp only at h
    cases hr : result s1 with
    | err s => rw [hr] at h; cases h
    | stop w s => rw [hr] at h; cases w <;> cases h
    | ok u s2 =>
      rw [hr] at h
      simp only at h
      have hl : s1.flags.listOn = true ∧ 39 ≤ s1.lst.llen := by
        obtain ⟨sA, sB, sC, -, -, -, rfl, -, -, hi⟩ := assemble_stages h0 hp ha
        exact ⟨rfl, hi.1⟩
      obtain ⟨t1, t2, t3⟩ := result_text hl.1 hl.2 hr
      have hf : fileOf s2 = fileOf s1 := by
        have := Quiet.run (m := result) s1
        rw [hr] at this
        unfold fileOf
        rw [this.code]
      have infx : ∀ {x : Str} {s : St}, x ∈ s.lst.out → x <:+: stdoutOf s := by
        intro x s hx
        unfold stdoutOf
        exact List.infix_of_mem_flatten (List.mem_reverse.2 hx)
      refine ⟨s1, rfl, ?_⟩
      rw [hf] at h
      split at h
      · cases hx : xref s2 with
        | err s => rw [hx] at h; cases h
        | stop w s => rw [hx] at h; cases w <;> cases h
        | ok u s3 =>
          rw [hx] at h
          simp only at h
          cases h
          have k : ∀ {x : Str}, x ∈ s2.lst.out → x ∈ s3.lst.out := fun hm => Grows.keep inferInstance hx hm
          exact ⟨rfl, infx (k t1), fun h => infx (k (t2 h)), fun h => infx (k (t3 h))⟩
      · cases h
        exact ⟨rfl, infx t1, fun h => infx (t2 h), fun h => infx (t3 h)⟩

theorem crasm_exit0 {fuel : Nat} {env : Env} {o : Opts} {name out : Str} {file : CodeFile}
    (h : crasm fuel env o name = .exit 0 out file) :
    ∃ src, env.fs name = some src ∧ finish fuel o (initSt env src) = .exit 0 out file := by
  unfold crasm at h
  cases hs : env.fs name with
  | none => rw [hs] at h; cases h
  | some src => rw [hs] at h; exact ⟨src, rfl, h⟩

/-- Two runs that differ in their listing options, and complete, agree on the code and on the errors. -/
theorem assemble_agree {fuel : Nat} {o o' : Opts} {s0 s s' : St} (h0 : Inv s0) (hp : s0.passnumber = 0)
    (ho : o.scode = o'.scode) (h : assemble fuel o s0 = .ok () s) (h' : assemble fuel o' s0 = .ok () s') :
    s.code = s'.code ∧ s.errnumber = s'.errnumber ∧ s.tree = s'.tree ∧ s.log = s'.log := by
  obtain ⟨sA, sB, sC, a1, a2, a3, rfl, iB, -, -⟩ := assemble_stages h0 hp h
  obtain ⟨sA', sB', sC', b1, b2, b3, rfl, -, -, -⟩ := assemble_stages h0 hp h'
  rw [a1] at b1; cases b1
  rw [a2] at b2; cases b2
  have r := (rel_passLoop fuel fuel true).go (rr_pass2 (o := o) (o' := o') iB (by rw [ho]))
  unfold RelAt at r
  rw [a3, b3] at r
  obtain ⟨-, ⟨l, b, c, x, y, z, st, rfl, e⟩, -, -⟩ := r
  exact ⟨rfl, rfl, rfl, rfl⟩

end Crasm

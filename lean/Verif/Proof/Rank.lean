import Verif.Proof.ExprP

/-! The expression parser on texts without parentheses around the operands. -/

namespace Crasm

theorem toward_any2 (e pat : Str) (s : St) : ∃ r b, Toward (filter2 e pat s) (.ok r { s with bufpos := b }) := by
  unfold filter2
  by_cases h : bufSize ≤ s.bufpos + (filter e pat).wrote
  · refine ⟨none, 0, .inr ⟨s, ?_⟩⟩
    exact run_stop (by rw [filterC_run, if_pos h]; rfl)
  · by_cases ho : (filter e pat).ok = true
    · have hr := filterC_run e pat s
      rw [if_neg h, if_pos ho] at hr
      generalize (filter e pat).caps = cs at hr
      match cs, hr with
      | [], hr => exact ⟨none, _, .inl ((run_ok hr).trans rfl)⟩
      | [_], hr => exact ⟨none, _, .inl ((run_ok hr).trans rfl)⟩
      | [a, b], hr => exact ⟨some (a, b), _, .inl ((run_ok hr).trans rfl)⟩
      | _ :: _ :: _ :: _, hr => exact ⟨none, _, .inl ((run_ok hr).trans rfl)⟩
    · have hr := filterC_run e pat s
      rw [if_neg h, if_neg ho] at hr
      exact ⟨none, s.bufpos, .inl ((run_ok hr).trans rfl)⟩

namespace C54

/-- A text whose only minus sign outside parentheses is its first character (the last one, in reverse). -/
def Lone (R : Str) : Prop := ∃ R' b, R = R' ++ (b ++ ['-']) ∧ RText R' ∧ NoTop '-' Quote.zero R' ∧ Blank b

/-- The characters of operators weaker than `r`. -/
def Below (r : Nat) (c : Char) : Prop := (∀ op : Spec.BinOp, c ∈ op.sym → op.rank < r) ∧ (c = '~' → 10 ≤ r)

structure Shape (l : Bool) (r : Nat) (R : Str) : Prop where
  text : RText R
  ops : ∀ c ∈ opChars, (c = '-' → l = false) → Below r c → NoTop c Quote.zero R
  sign : 2 ≤ r → NoTop '-' Quote.zero R ∨ Lone R

theorem Shape.tok {l : Bool} {r : Nat} {R : Str} (h : RTok R) : Shape l r R :=
  ⟨h.toRText, fun c hc _ _ => h.ops c hc, fun _ => .inl (h.ops _ (by decide))⟩

theorem op_chars (op : Spec.BinOp) : ∀ c ∈ op.sym, c ∈ opChars := by cases op <;> decide

theorem join_no {op : Spec.BinOp} {c : Char} {Ra Rb b1 b2 : Str} (hc : c ∈ opChars) (hcx : c ∉ op.sym)
    (ha : NoTop c Quote.zero Ra) (hb : NoTop c Quote.zero Rb) (hr : RPart Rb) (h1 : Blank b1) (h2 : Blank b2) :
    NoTop c Quote.zero (Rb ++ (b2 ++ (op.sym.reverse ++ (b1 ++ Ra)))) := by
  have hcb : isblank c = false := by clear hcx ha hb; revert hc; revert c; decide
  have hs : RPart op.sym.reverse := .plain (by cases op <;> decide)
  refine hb.append ?_
  rw [hr.zero]
  refine (NoTop.blank hcb h2).append ?_
  rw [run_blank h2]
  refine (noTop_plain (by simpa using hcx) hc).append ?_
  rw [hs.zero]
  refine (NoTop.blank hcb h1).append ?_
  rw [run_blank h1]
  exact ha

theorem own {p o : Spec.BinOp} {c : Char} (h : c ∈ p.sym) (h' : c ∈ o.sym) : o = p := by
  revert h h'
  cases p <;> simp only [Spec.BinOp.sym, List.mem_cons, List.not_mem_nil, or_false, or_self] <;> rintro rfl <;> cases o <;> decide
theorem own_rank {p o : Spec.BinOp} {c : Char} {r : Nat} (hr : p.rank < r) (h : c ∈ p.sym) (h' : c ∈ o.sym) : o.rank < r := by
  rw [own h h']; exact hr

theorem rank_sub {op : Spec.BinOp} (h : 2 ≤ op.rank) : '-' ∉ op.sym := by revert h; cases op <;> decide

theorem shape_join {l : Bool} {r : Nat} {op : Spec.BinOp} {Ra Rb b1 b2 : Str} (hr : r ≤ op.rank) (ha : Shape l op.rank Ra)
    (hb : Shape false (op.rank + 1) Rb) (h1 : Blank b1) (h2 : Blank b2) :
    Shape l r (Rb ++ (b2 ++ (op.sym.reverse ++ (b1 ++ Ra)))) := by
  refine ⟨RText.join hb.text ha.text h1 h2 (fun c hc => op_chars op c (List.mem_reverse.1 hc)), fun c hc hm hl => ?_, fun h => ?_⟩
  · refine join_no hc (fun h => ?_) (ha.ops c hc hm ⟨fun o ho => ?_, fun h => ?_⟩) (hb.ops c hc (fun _ => rfl) ⟨fun o ho => ?_, fun h => ?_⟩) hb.text.part h1 h2
    · have := hl.1 op h; omega
    · have := hl.1 o ho; omega
    · have := hl.2 h; omega
    · have := hl.1 o ho; omega
    · have := hl.2 h; omega
  · have hn := rank_sub (op := op) (by omega)
    have hbm : NoTop '-' Quote.zero Rb := hb.ops '-' (by decide) (fun _ => rfl)
      ⟨fun o ho => own_rank (p := .sub) (by change 1 < _; omega) (by decide) ho, fun h => absurd h (by decide)⟩
    rcases ha.sign (by omega) with h3 | ⟨R, b, rfl, h3, h4, h5⟩
    · exact .inl (join_no (by decide) hn h3 hbm hb.text.part h1 h2)
    · exact .inr ⟨Rb ++ (b2 ++ (op.sym.reverse ++ (b1 ++ R))), b, by simp, RText.join hb.text h3 h1 h2
        (fun c hc => op_chars op c (List.mem_reverse.1 hc)), join_no (by decide) hn h4 hbm hb.text.part h1 h2, h5⟩

theorem below9 {c : Char} (h : c ≠ '~') : Below 9 c := ⟨fun op _ => by cases op <;> decide, fun h' => absurd h' h⟩
theorem below10 {c : Char} : Below 10 c := ⟨fun op _ => by cases op <;> decide, fun _ => Nat.le_refl _⟩

theorem Shape.rtok {R : Str} (h : Shape false 10 R) : RTok R :=
  { toRText := h.text, ops := fun c hc => h.ops c hc (fun _ => rfl) below10 }

theorem sign_no {c x : Char} {Ra b1 : Str} (ha : RText Ra) (hn : NoTop x Quote.zero Ra) (hx : x ∈ opChars) (hc : x ≠ c) (h1 : Blank b1) :
    NoTop x Quote.zero (Ra ++ (b1 ++ [c])) := by
  have hxb : isblank x = false := by clear hc hn; revert hx; revert x; decide
  refine hn.append ?_
  rw [ha.part.zero]
  refine (NoTop.blank hxb h1).append ?_
  rw [run_blank h1]
  exact noTop_plain (by simpa using hc) hx

/-! ## The rows -/

theorem firstMatch_any (e : Str) : ∀ (alts : List (Str × Op2)) (s : St), ∃ r b, Toward (firstMatch e alts s) (.ok r { s with bufpos := b }) := by
  intro alts
  induction alts with
  | nil => intro s; exact ⟨none, s.bufpos, .refl _⟩
  | cons p alts ih =>
    intro s
    obtain ⟨r, b, h1⟩ := toward_any2 e p.1 s
    obtain ⟨r', b', h2⟩ := ih { s with bufpos := b }
    unfold firstMatch
    cases r with
    | none => exact ⟨r', b', Toward.bind h1 (Toward.bind h2 (.refl _))⟩
    | some q => obtain ⟨x, y⟩ := q; exact ⟨some (x, y, p.2), b', Toward.bind h1 (Toward.bind h2 (.refl _))⟩

/-- The first alternative that matches is taken, whether or not later ones do. -/
theorem firstMatch_first {e a b : Str} {pat : Str} {op : Op2} {w k : Nat} (post : List (Str × Op2)) : ∀ {pre : List (Str × Op2)},
    (∀ p ∈ pre, (filter e p.1).ok = false) → filter e pat = ⟨true, [a, b], w, k⟩ → ∀ s,
    ∃ u, Toward (firstMatch e (pre ++ (pat, op) :: post) s) (.ok (some (a, b, op)) { s with bufpos := u }) := by
  intro pre
  induction pre with
  | nil =>
    intro _ hf s
    obtain ⟨r, u, h⟩ := firstMatch_any e post { s with bufpos := s.bufpos + w }
    refine ⟨u, ?_⟩
    rw [List.nil_append]
    unfold firstMatch
    exact Toward.bind (toward_filter2 hf s) (Toward.bind h (.refl _))
  | cons p pre ih =>
    intro h1 hf s
    obtain ⟨u, h⟩ := ih (fun q hq => h1 q (by simp [hq])) hf s
    refine ⟨u, ?_⟩
    rw [List.cons_append]
    unfold firstMatch
    exact Toward.bind (toward_miss2 (h1 p (by simp)) s) (Toward.bind h (.refl _))

theorem rows_first {rec : Bool → Str → M Result} {tgt : Bool} {e a b pat : Str} {op : Op2} {w k : Nat}
    {pre post alts : List (Str × Op2)} {rows : List Ent} (he : alts = pre ++ (pat, op) :: post)
    (h1 : ∀ p ∈ pre, (filter e p.1).ok = false)
    (hf : filter e pat = ⟨true, [a, b], w, k⟩) (ha : a ≠ []) (hb : b ≠ []) (s : St) :
    ∃ u, Toward (parseRows rec tgt e (.dya alts :: rows) s) (both rec tgt op a b { s with bufpos := u }) := by
  obtain ⟨u, h⟩ := firstMatch_first (op := op) post h1 hf s
  refine ⟨u, ?_⟩
  rw [parseRows, he]
  refine Toward.bind h ?_
  simp only [ha, hb, or_self, if_false]
  exact .refl _

theorem hit {op : Spec.BinOp} {Ra Rb b1 b2 : Str} (ha : RText Ra) (hb : RText Rb) (hn : ∀ c ∈ op.sym, NoTop c Quote.zero Rb)
    (h1 : Blank b1) (h2 : Blank b2) :
    ∃ w k, filter (Rb ++ (b2 ++ (op.sym.reverse ++ (b1 ++ Ra)))) (['?', '_'] ++ op.sym ++ ['_', '?']) =
      ⟨true, [Rb, Ra], w, k⟩ := by
  have hs : skipBlanks (b1 ++ Ra) = Ra := by rw [skipBlanks_append h1, ha.lead.skip]
  have single : ∀ c ∈ opChars, NoTop c Quote.zero Rb → ∃ w k, filter (Rb ++ (b2 ++ ([c] ++ (b1 ++ Ra)))) ['?', '_', c, '_', '?'] =
      ⟨true, [Rb, Ra], w, k⟩ := by
    intro c hc hn
    obtain ⟨w, k, h, -⟩ := filter_sep (c := c) (x := c) (a := Rb) (bl := b2) (r := b1 ++ Ra)
      (by rintro rfl; revert hc; decide) (by rintro rfl; revert hc; decide) (by clear hn; revert hc; revert c; decide)
      hn hb.part.zero hb.trail h2 (by simp [litMatch])
    rw [hs] at h
    exact ⟨w, k, h⟩
  have double : ∀ c ∈ ['<', '>'], NoTop c Quote.zero Rb → ∃ w k, filter (Rb ++ (b2 ++ ([c, c] ++ (b1 ++ Ra)))) ['?', '_', c, c, '_', '?'] =
      ⟨true, [Rb, Ra], w, k⟩ := by
    intro c hc hn
    have h5 : isblank c = false := by clear hn; revert hc; revert c; decide
    have h3 : c ≠ '?' := by rintro rfl; revert hc; decide
    have h4 : c ≠ '_' := by rintro rfl; revert hc; decide
    have hl : litMatch c c = true := by simp [litMatch]
    unfold filter
    have e : splitPat ['?', '_', c, c, '_', '?'] = ([], [['_', c, c, '_'], []]) := by
      simp [splitPat, h3]
    rw [e]
    simp only [List.isEmpty_cons, matchSeg_nil]
    rw [filterWild]
    · have := seek_sep (e := false) (c := c) (x := c) (tail := [c, '_']) (bl := b2) (r := c :: (b1 ++ Ra)) (rest := Ra) h4 h5 h2 hl
        (by rw [matchSeg_lit _ _ h4, if_pos ⟨rfl, hl⟩, matchSeg_blank, matchSeg_nil, hs]) (a := Rb) (q := Quote.zero)
        hn hb.part.zero hb.trail
      simp only [List.isEmpty_cons, List.cons_append, List.nil_append]
      rw [this]
      simp only [filterWild]
      exact ⟨_, _, rfl⟩
    · intro h; cases h
  cases op
  · exact single _ (by decide) (hn _ (by decide))
  · exact single _ (by decide) (hn _ (by decide))
  · exact single _ (by decide) (hn _ (by decide))
  · exact single _ (by decide) (hn _ (by decide))
  · exact single _ (by decide) (hn _ (by decide))
  · exact single _ (by decide) (hn _ (by decide))
  · exact single _ (by decide) (hn _ (by decide))
  · exact double _ (by decide) (hn _ (by decide))
  · exact double _ (by decide) (hn _ (by decide))

/-- Past the row of `+` and `-`: a minus sign with nothing before it does not count. -/
theorem pass_sum {rec : Bool → Str → M Result} {tgt : Bool} {e : Str} (hp : NoTop '+' Quote.zero e)
    (hm : NoTop '-' Quote.zero e ∨ Lone e) (s : St) :
    ∃ b, Toward (parseRows rec tgt e (revTable.drop 1) s) (parseRows rec tgt e (revTable.drop 2) { s with bufpos := b }) := by
  have h1 : (filter e c!"?_+_?").ok = false := filter_wild (c := '+') rfl (by decide) hp
  rcases hm with hm | ⟨R, b, rfl, hR, hn, hb⟩
  · refine ⟨s.bufpos, rows_dya (fun p hp => ?_) s⟩
    simp only [List.mem_cons, List.not_mem_nil, or_false] at hp
    rcases hp with rfl | rfl
    · exact h1
    · exact filter_wild (c := '-') rfl (by decide) hm
  · obtain ⟨w, k, hf, -⟩ := filter_sep (c := '-') (x := '-') (a := R) (bl := b) (r := []) (by decide) (by decide) (by decide)
      hn hR.part.zero hR.trail hb (by decide)
    refine ⟨s.bufpos + w, ?_⟩
    refine Toward.bind (a := some (R, [], .sub)) (s' := { s with bufpos := s.bufpos + w }) ?_ ?_
    · refine firstMatch_one (pre := [(c!"?_+_?", Op2.add)]) (post := []) ?_ ?_ hf s
      · intro p hp; rw [List.mem_singleton] at hp; subst hp
        exact h1
      · intro p hp; cases hp
    · simp only [or_true, if_true]
      exact .refl _

/-- Where a text is split: the rightmost of its weakest operators. -/
theorem parse2_split {n : Nat} {tgt : Bool} {op : Spec.BinOp} {Ra Rb b1 b2 e : Str} (he : e = Rb ++ (b2 ++ (op.sym.reverse ++ (b1 ++ Ra))))
    (ha : RText Ra) (hb : RText Rb) (hn : ∀ c ∈ op.sym, NoTop c Quote.zero Rb) (h1 : Blank b1) (h2 : Blank b2)
    (hl : ∀ c ∈ opChars, c ≠ '-' → Below op.rank c → NoTop c Quote.zero e)
    (hm : 2 ≤ op.rank → NoTop '-' Quote.zero e ∨ Lone e) (s : St) :
    ∃ b, Toward (parse2 (n + 1) tgt e s) (both (parse2 n) tgt (Spec.BinOp.op op) Rb Ra { s with bufpos := b }) := by
  obtain ⟨w, k, hf⟩ := hit (op := op) ha hb hn h1 h2
  rw [← he] at hf
  have nil : ∀ p ∈ ([] : List (Str × Op2)), (filter e p.1).ok = false := by intro p hp; cases hp
  have miss : ∀ (c : Char) (pat seg : Str) (segs : List Str), splitPat pat = ([], ('_' :: c :: seg) :: segs) →
      c ∈ opChars → c ≠ '-' → c ≠ '~' → (∀ o : Spec.BinOp, c ∈ o.sym → o.rank < op.rank) → (filter e pat).ok = false :=
    fun c pat seg segs h1 h2 h3 h4 h5 => filter_wild h1 (by rintro rfl; revert h2; decide) (hl c h2 h3 ⟨h5, fun h => absurd h h4⟩)
  rw [parse2]
  have p0 : Toward (parseRows (parse2 n) tgt e revTable s) (parseRows (parse2 n) tgt e (revTable.drop 1) s) := by
    refine rows_dya (fun p hp => ?_) s
    rw [List.mem_singleton] at hp; subst hp
    exact miss '\\' _ _ _ rfl (by decide) (by decide) (by decide) (fun o ho => by cases o <;> simp [Spec.BinOp.sym] at ho)
  have p1 : 2 ≤ op.rank → ∃ b, Toward (parseRows (parse2 n) tgt e (revTable.drop 1) s) (parseRows (parse2 n) tgt e (revTable.drop 2) { s with bufpos := b }) := by
    intro h
    refine pass_sum (hl '+' (by decide) (by decide) ⟨fun o ho => own_rank (p := .add) (by change 0 < _; omega) (by decide) ho, fun h => absurd h (by decide)⟩) (hm h) s
  have p2 : 4 ≤ op.rank → ∀ s, Toward (parseRows (parse2 n) tgt e (revTable.drop 2) s) (parseRows (parse2 n) tgt e (revTable.drop 3) s) := by
    intro h s
    refine rows_dya (fun p hp => ?_) s
    simp only [List.mem_cons, List.not_mem_nil, or_false] at hp
    rcases hp with rfl | rfl
    · exact miss '*' _ _ _ rfl (by decide) (by decide) (by decide) (fun o ho => own_rank (p := .mul) (by change 2 < _; omega) (by decide) ho)
    · exact miss '/' _ _ _ rfl (by decide) (by decide) (by decide) (fun o ho => own_rank (p := .div) (by change 3 < _; omega) (by decide) ho)
  have p3 : 7 ≤ op.rank → ∀ s, Toward (parseRows (parse2 n) tgt e (revTable.drop 3) s) (parseRows (parse2 n) tgt e (revTable.drop 4) s) := by
    intro h s
    refine rows_dya (fun p hp => ?_) s
    simp only [List.mem_cons, List.not_mem_nil, or_false] at hp
    rcases hp with rfl | rfl | rfl
    · exact miss '|' _ _ _ rfl (by decide) (by decide) (by decide) (fun o ho => own_rank (p := .or) (by change 4 < _; omega) (by decide) ho)
    · exact miss '&' _ _ _ rfl (by decide) (by decide) (by decide) (fun o ho => own_rank (p := .and) (by change 5 < _; omega) (by decide) ho)
    · exact miss '^' _ _ _ rfl (by decide) (by decide) (by decide) (fun o ho => own_rank (p := .xor) (by change 6 < _; omega) (by decide) ho)
  cases op with
  | add =>
    obtain ⟨u, h⟩ := rows_first (rec := parse2 n) (tgt := tgt) (rows := revTable.drop 2) (pre := []) (post := [(c!"?_-_?", Op2.sub)]) (op := .add) rfl nil hf hb.ne ha.ne s
    exact ⟨u, p0.trans h⟩
  | sub =>
    obtain ⟨u, h⟩ := rows_first (rec := parse2 n) (tgt := tgt) (rows := revTable.drop 2) (pre := [(c!"?_+_?", Op2.add)]) (post := []) (op := .sub) rfl (fun p hp => by
      rw [List.mem_singleton] at hp; subst hp
      exact miss '+' _ _ _ rfl (by decide) (by decide) (by decide) (fun o ho => by cases o <;> simp [Spec.BinOp.sym] at ho <;> decide)) hf hb.ne ha.ne s
    exact ⟨u, p0.trans h⟩
  | mul =>
    obtain ⟨b, q1⟩ := p1 (by decide)
    obtain ⟨u, h⟩ := rows_first (rec := parse2 n) (tgt := tgt) (rows := revTable.drop 3) (pre := []) (post := [(c!"?_/_?", Op2.div)]) (op := .mul) rfl nil hf hb.ne ha.ne { s with bufpos := b }
    exact ⟨u, p0.trans (q1.trans h)⟩
  | div =>
    obtain ⟨b, q1⟩ := p1 (by decide)
    obtain ⟨u, h⟩ := rows_first (rec := parse2 n) (tgt := tgt) (rows := revTable.drop 3) (pre := [(c!"?_*_?", Op2.mul)]) (post := []) (op := .div) rfl (fun p hp => by
      rw [List.mem_singleton] at hp; subst hp
      exact miss '*' _ _ _ rfl (by decide) (by decide) (by decide) (fun o ho => by cases o <;> simp [Spec.BinOp.sym] at ho <;> decide)) hf hb.ne ha.ne { s with bufpos := b }
    exact ⟨u, p0.trans (q1.trans h)⟩
  | or =>
    obtain ⟨b, q1⟩ := p1 (by decide)
    obtain ⟨u, h⟩ := rows_first (rec := parse2 n) (tgt := tgt) (rows := revTable.drop 4) (pre := []) (post := [(c!"?_&_?", Op2.and), (c!"?_^_?", Op2.xor)]) (op := .or) rfl nil hf hb.ne ha.ne { s with bufpos := b }
    exact ⟨u, p0.trans (q1.trans ((p2 (by decide) _).trans h))⟩
  | and =>
    obtain ⟨b, q1⟩ := p1 (by decide)
    obtain ⟨u, h⟩ := rows_first (rec := parse2 n) (tgt := tgt) (rows := revTable.drop 4) (pre := [(c!"?_|_?", Op2.or)]) (post := [(c!"?_^_?", Op2.xor)]) (op := .and) rfl (fun p hp => by
      rw [List.mem_singleton] at hp; subst hp
      exact miss '|' _ _ _ rfl (by decide) (by decide) (by decide) (fun o ho => by cases o <;> simp [Spec.BinOp.sym] at ho <;> decide)) hf hb.ne ha.ne { s with bufpos := b }
    exact ⟨u, p0.trans (q1.trans ((p2 (by decide) _).trans h))⟩
  | xor =>
    obtain ⟨b, q1⟩ := p1 (by decide)
    obtain ⟨u, h⟩ := rows_first (rec := parse2 n) (tgt := tgt) (rows := revTable.drop 4) (pre := [(c!"?_|_?", Op2.or), (c!"?_&_?", Op2.and)]) (post := []) (op := .xor) rfl (fun p hp => by
      simp only [List.mem_cons, List.not_mem_nil, or_false] at hp
      rcases hp with rfl | rfl
      · exact miss '|' _ _ _ rfl (by decide) (by decide) (by decide) (fun o ho => by cases o <;> simp [Spec.BinOp.sym] at ho <;> decide)
      · exact miss '&' _ _ _ rfl (by decide) (by decide) (by decide) (fun o ho => by cases o <;> simp [Spec.BinOp.sym] at ho <;> decide)) hf hb.ne ha.ne { s with bufpos := b }
    exact ⟨u, p0.trans (q1.trans ((p2 (by decide) _).trans h))⟩
  | shl =>
    obtain ⟨b, q1⟩ := p1 (by decide)
    obtain ⟨u, h⟩ := rows_first (rec := parse2 n) (tgt := tgt) (rows := revTable.drop 5) (pre := []) (post := [(c!"?_>>_?", Op2.rsh)]) (op := .lsh) rfl nil hf hb.ne ha.ne { s with bufpos := b }
    exact ⟨u, p0.trans (q1.trans ((p2 (by decide) _).trans ((p3 (by decide) _).trans h)))⟩
  | shr =>
    obtain ⟨b, q1⟩ := p1 (by decide)
    obtain ⟨u, h⟩ := rows_first (rec := parse2 n) (tgt := tgt) (rows := revTable.drop 5) (pre := [(c!"?_<<_?", Op2.lsh)]) (post := []) (op := .rsh) rfl (fun p hp => by
      rw [List.mem_singleton] at hp; subst hp
      exact miss '<' _ _ _ rfl (by decide) (by decide) (by decide) (fun o ho => by cases o <;> simp [Spec.BinOp.sym] at ho <;> decide)) hf hb.ne ha.ne { s with bufpos := b }
    exact ⟨u, p0.trans (q1.trans ((p2 (by decide) _).trans ((p3 (by decide) _).trans h)))⟩

/-- Past the rows of dyadic operators. -/
theorem pass_dyadic {n : Nat} {tgt : Bool} {e : Str} (hl : ∀ c ∈ opChars, c ≠ '-' → c ≠ '~' → NoTop c Quote.zero e)
    (hm : NoTop '-' Quote.zero e ∨ Lone e) (s : St) :
    ∃ b, Toward (parse2 (n + 1) tgt e s) (parseRows (parse2 n) tgt e (revTable.drop 5) { s with bufpos := b }) := by
  have miss : ∀ (c : Char) (pat seg : Str) (segs : List Str), splitPat pat = ([], ('_' :: c :: seg) :: segs) →
      c ∈ opChars → c ≠ '-' → c ≠ '~' → (filter e pat).ok = false :=
    fun c pat seg segs h1 h2 h3 h4 => filter_wild h1 (by rintro rfl; revert h2; decide) (hl c h2 h3 h4)
  obtain ⟨b, h⟩ := pass_sum (rec := parse2 n) (tgt := tgt) (hl '+' (by decide) (by decide) (by decide)) hm s
  refine ⟨b, ?_⟩
  rw [parse2]
  refine (rows_dya (fun p hp => ?_) s).trans (h.trans ?_)
  · rw [List.mem_singleton] at hp; subst hp
    exact miss '\\' _ _ _ rfl (by decide) (by decide) (by decide)
  refine (rows_dya (fun p hp => ?_) _).trans ?_
  · simp only [List.mem_cons, List.not_mem_nil, or_false] at hp
    rcases hp with rfl | rfl
    · exact miss '*' _ _ _ rfl (by decide) (by decide) (by decide)
    · exact miss '/' _ _ _ rfl (by decide) (by decide) (by decide)
  refine (rows_dya (fun p hp => ?_) _).trans ?_
  · simp only [List.mem_cons, List.not_mem_nil, or_false] at hp
    rcases hp with rfl | rfl | rfl
    · exact miss '|' _ _ _ rfl (by decide) (by decide) (by decide)
    · exact miss '&' _ _ _ rfl (by decide) (by decide) (by decide)
    · exact miss '^' _ _ _ rfl (by decide) (by decide) (by decide)
  refine (rows_dya (fun p hp => ?_) _).trans (.refl _)
  simp only [List.mem_cons, List.not_mem_nil, or_false] at hp
  rcases hp with rfl | rfl
  · exact miss '<' _ _ _ rfl (by decide) (by decide) (by decide)
  · exact miss '>' _ _ _ rfl (by decide) (by decide) (by decide)

theorem filter_prefix {c : Char} {Ra b1 : Str} (hc : c ∈ opChars) (ha : RText Ra) (hn : NoTop c Quote.zero Ra) (h1 : Blank b1) :
    ∃ w k, filter (Ra ++ (b1 ++ [c])) ['?', '_', c] = ⟨true, [Ra], w, k⟩ := by
  have h5 : isblank c = false := by clear hn; revert hc; revert c; decide
  have h3 : c ≠ '?' := by rintro rfl; revert hc; decide
  have h4 : c ≠ '_' := by rintro rfl; revert hc; decide
  unfold filter
  have e : splitPat ['?', '_', c] = ([], [['_', c]]) := by simp [splitPat, h3]
  rw [e]
  simp only [List.isEmpty_cons, matchSeg_nil]
  rw [filterWild]
  · have := seek_sep (e := true) (c := c) (x := c) (tail := []) (bl := b1) (r := []) (rest := []) h4 h5 h1 (by simp [litMatch])
      (by simp [matchSeg]) (a := Ra) (q := Quote.zero) hn ha.part.zero ha.trail
    rw [show ([] : List Str).isEmpty = true from rfl, this]
    simp only [filterWild]
    exact ⟨_, _, rfl⟩
  · intro h; cases h

theorem parse2_minus_sign {n : Nat} {tgt : Bool} {Ra b1 : Str} (ha : Shape false 9 Ra) (h1 : Blank b1) (s : St) :
    ∃ b, Toward (parse2 (n + 1) tgt (Ra ++ (b1 ++ ['-'])) s) (one (parse2 n) tgt .minus Ra { s with bufpos := b }) := by
  have hn := ha.ops '-' (by decide) (fun _ => rfl) (below9 (by decide))
  obtain ⟨w, k, hf⟩ := filter_prefix (c := '-') (by decide) ha.text hn h1
  obtain ⟨b, h⟩ := pass_dyadic (n := n) (tgt := tgt) (e := Ra ++ (b1 ++ ['-']))
    (fun c hc h2 h3 => sign_no ha.text (ha.ops c hc (fun _ => rfl) (below9 h3)) hc h2 h1) (.inr ⟨_, _, rfl, ha.text, hn, h1⟩) s
  exact ⟨_, h.trans (rows_mon_hit hf ha.text.ne _)⟩

theorem parse2_not_sign {n : Nat} {tgt : Bool} {Ra b1 : Str} (ha : Shape false 10 Ra) (h1 : Blank b1) (s : St) :
    ∃ b, Toward (parse2 (n + 1) tgt (Ra ++ (b1 ++ ['~'])) s) (one (parse2 n) tgt .not Ra { s with bufpos := b }) :=
  parse2_not ha.rtok h1 s

end C54
end Crasm

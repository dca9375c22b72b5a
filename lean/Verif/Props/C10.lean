import Verif.Spec.Quote
import Verif.Props.C09

/-! # C10: character constants -/

namespace Spec

/-- The big-endian base-256 number of some character codes. -/
def base256 (cs : List Nat) : Nat := cs.foldl (fun v c => v * 256 + c) 0

end Spec

namespace Crasm

/-! ## The conversion -/

def bigFrom (v : Nat) (cs : List Nat) : Nat := cs.foldl (fun v c => v * 256 + c) v

theorem bigFrom_le (v : Nat) (cs : List Nat) : v ≤ bigFrom v cs := by
  induction cs generalizing v with
  | nil => exact Nat.le_refl _
  | cons c cs ih =>
    have := ih (v * 256 + c)
    change v ≤ bigFrom (v * 256 + c) cs
    omega

theorem asciiStep_spec {v r : Nat} (hr : r < 256) (hv : v < 2 ^ 64) :
    asciiStep v r = if v * 256 + r < 2 ^ 64 then .ok (v * 256 + r) else .error overflowMsg := by
  unfold asciiStep
  by_cases h : v * 256 + r < 2 ^ 64
  · rw [if_pos h]
    simp only [Nat.mod_eq_of_lt h]
    rw [if_neg (by omega)]
  · rw [if_neg h]
    have : (v * 256 + r) % 2 ^ 64 < 2 ^ 64 := Nat.mod_lt _ (by decide)
    simp only
    rw [if_pos (by omega)]

theorem escape_iff (c : Char) (n : Nat) : escape c = some n ↔ (c, n) ∈ Spec.escapes := by
  unfold escape Spec.escapes
  constructor
  · intro h
    split at h
    · rename_i hc; cases h; subst hc; simp
    split at h
    · rename_i hc; cases h; subst hc; simp
    split at h
    · rename_i hc; cases h; subst hc; simp
    split at h
    · rename_i hc; cases h; subst hc; simp
    split at h
    · rename_i hc; cases h; rcases hc with rfl | rfl | rfl <;> decide
    · cases h
  · intro h
    simp only [List.mem_cons, Prod.mk.injEq, List.not_mem_nil, or_false] at h
    rcases h with ⟨rfl, rfl⟩|⟨rfl, rfl⟩|⟨rfl, rfl⟩|⟨rfl, rfl⟩|⟨rfl, rfl⟩|⟨rfl, rfl⟩|⟨rfl, rfl⟩ <;> rfl

theorem escapes_lt {c : Char} {n : Nat} (h : (c, n) ∈ Spec.escapes) : n < 256 := by
  have : ∀ p ∈ Spec.escapes, p.2 < 256 := by decide
  exact this _ h

/-- What the loop accepts is what the specification spells. -/
theorem asciiLoop_spell {d : Char} {t : Str} {cs : List Nat} (hd : d = '\'' ∨ d = '"') (h : Spec.Escaped d t cs)
    (hp : ∀ c ∈ t, isprint c = true) : ∀ v, v < 2 ^ 64 →
      asciiLoop d false v (t ++ [d]) = if bigFrom v cs < 2 ^ 64 then .ok (bigFrom v cs) else .error overflowMsg := by
  induction h with
  | nil =>
    intro v hv
    simp [asciiLoop, bigFrom, hv]
  | @plain c t cs h1 h2 _ ih =>
    intro v hv
    have hc := hp c (by simp)
    have hc' := hc
    simp only [isprint, Bool.and_eq_true, decide_eq_true_eq] at hc'
    simp only [List.cons_append, asciiLoop, if_neg h1, hc, if_neg h2, Bool.not_true, Bool.false_eq_true, if_false]
    rw [asciiStep_spec (by omega) hv]
    have e : bigFrom v (c.toNat :: cs) = bigFrom (v * 256 + c.toNat) cs := rfl
    rw [e]
    by_cases hl : v * 256 + c.toNat < 2 ^ 64
    · rw [if_pos hl]
      exact ih (fun x hx => hp x (by simp [hx])) _ hl
    · rw [if_neg hl, if_neg]
      have := bigFrom_le (v * 256 + c.toNat) cs
      omega
  | @esc c n t cs h1 _ ih =>
    intro v hv
    have hq : '\\' ≠ d := by rcases hd with rfl | rfl <;> decide
    simp only [List.cons_append, asciiLoop, if_neg hq, show isprint '\\' = true from by decide, if_true,
      Bool.not_true, Bool.false_eq_true, if_false]
    rw [(escape_iff c n).2 h1]
    simp only
    rw [asciiStep_spec (escapes_lt h1) hv]
    have e : bigFrom v (n :: cs) = bigFrom (v * 256 + n) cs := rfl
    rw [e]
    by_cases hl : v * 256 + n < 2 ^ 64
    · rw [if_pos hl]
      exact ih (fun x hx => hp x (by simp [hx])) _ hl
    · rw [if_neg hl, if_neg]
      have := bigFrom_le (v * 256 + n) cs
      omega

/-- The loop accepts nothing else. -/
theorem asciiLoop_ok {d : Char} (hd : d = '\'' ∨ d = '"') : ∀ (m : Nat) (u : Str) (v n : Nat), u.length ≤ m → v < 2 ^ 64 →
    asciiLoop d false v u = .ok n →
    ∃ t cs, u = t ++ [d] ∧ Spec.Escaped d t cs ∧ (∀ c ∈ t, isprint c = true) := by
  intro m
  induction m with
  | zero =>
    intro u v n hl _ h
    cases u with
    | nil => simp [asciiLoop] at h
    | cons c u => simp at hl
  | succ m ih =>
    intro u v n hl hv h
    cases u with
    | nil => simp [asciiLoop] at h
    | cons c u =>
      simp only [asciiLoop] at h
      by_cases hc : c = d
      · rw [if_pos hc] at h
        by_cases hu : u = []
        · exact ⟨[], [], by simp [hc, hu], .nil, by simp⟩
        · rw [if_neg hu] at h; cases h
      · rw [if_neg hc] at h
        cases hp : isprint c with
        | false => rw [hp] at h; cases h
        | true =>
          rw [hp] at h
          simp only [Bool.not_true, Bool.false_eq_true, if_false] at h
          by_cases hb : c = '\\'
          · rw [if_pos hb] at h
            subst hb
            cases u with
            | nil => simp [asciiLoop] at h
            | cons e u =>
              simp only [asciiLoop] at h
              cases he : escape e with
              | none => rw [he] at h; cases h
              | some r =>
                rw [he] at h
                simp only at h
                have hm := (escape_iff e r).1 he
                rw [asciiStep_spec (escapes_lt hm) hv] at h
                by_cases hlt : v * 256 + r < 2 ^ 64
                · rw [if_pos hlt] at h
                  obtain ⟨t, cs, rfl, h2, h3⟩ := ih u _ n (by simp at hl; omega) hlt h
                  refine ⟨'\\' :: e :: t, r :: cs, rfl, .esc hm h2, ?_⟩
                  intro x hx
                  rcases List.mem_cons.1 hx with rfl | hx
                  · decide
                  · rcases List.mem_cons.1 hx with rfl | hx
                    · have : ∀ p ∈ Spec.escapes, isprint p.1 = true := by decide
                      exact this _ hm
                    · exact h3 x hx
                · rw [if_neg hlt] at h; cases h
          · rw [if_neg hb] at h
            have hp' := hp
            simp only [isprint, Bool.and_eq_true, decide_eq_true_eq] at hp'
            rw [asciiStep_spec (by omega) hv] at h
            by_cases hlt : v * 256 + c.toNat < 2 ^ 64
            · rw [if_pos hlt] at h
              obtain ⟨t, cs, rfl, h2, h3⟩ := ih u _ n (by simp at hl; omega) hlt h
              refine ⟨c :: t, c.toNat :: cs, rfl, .plain hc hb h2, ?_⟩
              intro x hx
              rcases List.mem_cons.1 hx with rfl | hx
              · exact hp
              · exact h3 x hx
            · rw [if_neg hlt] at h; cases h

/-! ## Reversing quoted texts

A quoted text is a sequence of groups: some backslashes and the character after them. Reversal reverses the
sequence and keeps the groups. -/

def render (gs : List (Nat × Char)) : Str := gs.flatMap fun g => List.replicate g.1 '\\' ++ [g.2]

theorem render_append (a b : List (Nat × Char)) : render (a ++ b) = render a ++ render b := by
  simp [render]
theorem render_cons (g : Nat × Char) (gs : List (Nat × Char)) :
    render (g :: gs) = List.replicate g.1 '\\' ++ g.2 :: render gs := by simp [render]

/-- The groups inside a text delimited by `d`. -/
def Inner (d : Char) (gs : List (Nat × Char)) : Prop := ∀ g ∈ gs, g.2 ≠ '\\' ∧ (g.2 = d → g.1 % 2 = 1)

theorem quoted_groups {d : Char} {t : Str} (hd : d ≠ '\\') (h : Spec.Quoted d t) :
    ∃ gs k, t ++ [d] = render (gs ++ [(k, d)]) ∧ Inner d gs := by
  induction h with
  | nil => exact ⟨[], 0, rfl, by intro g hg; cases hg⟩
  | plain c t h1 h2 _ ih =>
    obtain ⟨gs, k, e, hi⟩ := ih
    refine ⟨(0, c) :: gs, k, ?_, ?_⟩
    · rw [List.cons_append, e, List.cons_append, render_cons]; rfl
    · intro g hg
      rcases List.mem_cons.1 hg with rfl | hg
      · exact ⟨h2, fun h => absurd h h1⟩
      · exact hi g hg
  | escaped c t _ ih =>
    obtain ⟨gs, k, e, hi⟩ := ih
    by_cases hc : c = '\\'
    · subst hc
      cases gs with
      | nil =>
        refine ⟨[], k + 2, ?_, by intro g hg; cases hg⟩
        rw [List.cons_append, List.cons_append, e]
        simp [render, List.replicate_succ]
      | cons g gs =>
        refine ⟨(g.1 + 2, g.2) :: gs, k, ?_, ?_⟩
        · rw [List.cons_append, List.cons_append, e, List.cons_append, render_cons, List.cons_append, render_cons]
          simp [List.replicate_succ]
        · intro g' hg
          rcases List.mem_cons.1 hg with rfl | hg
          · refine ⟨(hi g (by simp)).1, fun h => ?_⟩
            have := (hi g (by simp)).2 h
            simp only
            omega
          · exact hi g' (by simp [hg])
    · refine ⟨(1, c) :: gs, k, ?_, ?_⟩
      · rw [List.cons_append, List.cons_append, e, List.cons_append, render_cons]; rfl
      · intro g hg
        rcases List.mem_cons.1 hg with rfl | hg
        · exact ⟨hc, fun _ => rfl⟩
        · exact hi g hg

theorem groups_quoted {d : Char} {gs : List (Nat × Char)} (h : Inner d gs) : Spec.Quoted d (render gs) := by
  have one : ∀ (n : Nat) (p : Char) (t : Str), p ≠ '\\' → (p = d → n % 2 = 1) → Spec.Quoted d t →
      Spec.Quoted d (List.replicate n '\\' ++ p :: t) := by
    intro n
    induction n using Nat.strongRecOn with
    | ind n ih =>
      intro p t h1 h2 ht
      match n with
      | 0 => exact .plain p t (fun h => by have := h2 h; omega) h1 ht
      | 1 => exact .escaped p t ht
      | n + 2 => exact .escaped '\\' _ (ih n (by omega) p t h1 (fun h => by have := h2 h; omega) ht)
  induction gs with
  | nil => exact .nil
  | cons g gs ih =>
    rw [render_cons]
    exact one _ _ _ (h g (by simp)).1 (h g (by simp)).2 (ih fun g' hg => h g' (by simp [hg]))

/-- The state of the reversal inside quotes. -/
def rqOf (d : Char) : RQuote := if d = '\'' then .single else .double

theorem fix_bs {d : Char} (p : Char) (acc rest : Str) (n : Nat) :
    fixEscapes (rqOf d) (p :: acc) (List.replicate n '\\' ++ rest) =
      fixEscapes (rqOf d) (p :: (List.replicate n '\\' ++ acc)) rest := by
  induction n generalizing acc with
  | zero => rfl
  | succ n ih =>
    rw [List.replicate_succ, List.cons_append, fixEscapes.eq_def]
    simp only [show ¬ '\\' = '\'' from by decide, show ¬ '\\' = '"' from by decide, if_false, true_and]
    rw [if_pos (by unfold rqOf; split <;> simp), ih]
    congr 2
    rw [List.append_cons, ← List.replicate_succ', List.replicate_succ]

theorem fix_char {d p : Char} (hd : d = '\'' ∨ d = '"') (hp : p ≠ '\\') (acc rest : Str)
    (h : p = d → rest.head? = some '\\') :
    fixEscapes (rqOf d) acc (p :: rest) = fixEscapes (rqOf d) (p :: acc) rest := by
  rw [fixEscapes.eq_def]
  by_cases h1 : p = '\''
  · simp only [if_pos h1]
    rcases hd with rfl | rfl
    · simp only [rqOf, if_true, h h1]
    · simp [rqOf]
  · simp only [if_neg h1]
    by_cases h2 : p = '"'
    · simp only [if_pos h2]
      rcases hd with rfl | rfl
      · simp only [rqOf, if_true]
      · simp [rqOf, h h2]
    · simp only [if_neg h2, hp, false_and, if_false]

theorem fix_groups {d : Char} (hd : d = '\'' ∨ d = '"') {gs : List (Nat × Char)} (h : Inner d gs) (rest : Str) :
    ∀ acc, fixEscapes (rqOf d) acc ((render gs).reverse ++ rest) =
      fixEscapes (rqOf d) ((render gs.reverse).reverse ++ acc) rest := by
  induction gs generalizing rest with
  | nil => intro acc; rfl
  | cons g gs ih =>
    intro acc
    rw [render_cons, List.reverse_append, List.reverse_cons, List.append_assoc, List.append_assoc, List.reverse_replicate,
      ih (fun g' hg => h g' (by simp [hg])), List.singleton_append]
    rw [fix_char hd (h g (by simp)).1 _ _ (fun e => ?_), fix_bs]
    · rw [List.reverse_cons, render_append]
      simp [render]
    · have := (h g (by simp)).2 e
      match hg : g.1 with
      | 0 => omega
      | n + 1 => rw [List.replicate_succ]; rfl

theorem creverse_groups {d : Char} (hd : d = '\'' ∨ d = '"') {gs : List (Nat × Char)} (h : Inner d gs) (a b : Nat) :
    creverse (render ((a, d) :: gs ++ [(b, d)])) = render ((b, d) :: gs.reverse ++ [(a, d)]) := by
  have hb : d ≠ '\\' := by rcases hd with rfl | rfl <;> decide
  unfold creverse
  have e : (render ((a, d) :: gs ++ [(b, d)])).reverse =
      d :: (List.replicate b '\\' ++ ((render gs).reverse ++ d :: List.replicate a '\\')) := by
    rw [List.cons_append, render_cons, render_append]
    simp [render, List.reverse_append]
  rw [e, fixEscapes.eq_def]
  have h0 : (if d = '\'' then fixEscapes .single [d] (List.replicate b '\\' ++ ((render gs).reverse ++ d :: List.replicate a '\\'))
      else fixEscapes .double [d] (List.replicate b '\\' ++ ((render gs).reverse ++ d :: List.replicate a '\\'))) =
      render ((b, d) :: gs.reverse ++ [(a, d)]) := by
    have h1 : fixEscapes (rqOf d) [d] (List.replicate b '\\' ++ ((render gs).reverse ++ d :: List.replicate a '\\')) =
      render ((b, d) :: gs.reverse ++ [(a, d)]) := by
      rw [fix_bs, fix_groups hd h]
      have fin : ∀ acc, fixEscapes (rqOf d) acc (d :: List.replicate a '\\') = acc.reverse ++ (List.replicate a '\\' ++ [d]) := by
        intro acc
        cases a with
        | zero =>
          rw [fixEscapes.eq_def]
          rcases hd with rfl | rfl
          · simp [rqOf, fixEscapes]
          · simp [rqOf, fixEscapes]
        | succ a =>
          rw [fix_char hd hb _ _ (fun _ => by rw [List.replicate_succ]; rfl)]
          have := fix_bs (d := d) d acc [] (a + 1)
          rw [List.append_nil] at this
          rw [this]
          rw [fixEscapes.eq_def]
          simp
      rw [fin]
      rw [List.cons_append, render_cons, render_append]
      simp [render]
    rcases hd with rfl | rfl
    · rw [if_pos rfl]; exact h1
    · rw [if_neg (by decide)]; exact h1
  rcases hd with rfl | rfl
  · simp only [if_true] at h0 ⊢; exact h0
  · simp only [show ¬ '"' = '\'' from by decide, if_false, if_true] at h0 ⊢; exact h0

/-! ## The parser on quoted texts -/

theorem bal_noTop {k : Nat} {d : Char} {t : Str} (hd : d = '\'' ∨ d = '"') (h : Spec.Quoted d t) :
    ∀ c ∈ opChars, c ≠ '\\' → NoTop c Quote.zero (List.replicate k '\\' ++ d :: (t ++ [d])) := by
  have hb : Spec.Bal (fun c => c = '\\') (List.replicate k '\\' ++ d :: (t ++ [d])) := by
    induction k with
    | zero => exact .quoted _ d t [] hd h (.nil _)
    | succ k ih => rw [List.replicate_succ]; exact .plain _ _ _ (by decide) (by decide) (by decide) (by decide) (by decide) ih
  intro c hc hne
  refine Bal.noTop hb c fun x hx => ?_
  have : x = c := litMatch_eq (by clear hx hne; revert c; decide) (by rintro rfl; revert hc; decide) hx
  subst this
  refine ⟨by simpa using hne, ?_, ?_, ?_, ?_⟩ <;> rintro rfl <;> revert hc <;> decide

/-- A backslash in front makes the row of register lists match with an empty operand, so it is passed over. -/
theorem rows_rlist {rec : Bool → Str → M Result} {tgt : Bool} {k : Nat} {d : Char} {t : Str} {rows : List Ent}
    (hd : d = '\'' ∨ d = '"') (h : Spec.Quoted d t) (s : St) :
    ∃ b, Toward (parseRows rec tgt (List.replicate k '\\' ++ d :: (t ++ [d])) (.dya [(c!"?_\\_?", .rlist)] :: rows) s)
      (parseRows rec tgt (List.replicate k '\\' ++ d :: (t ++ [d])) rows { s with bufpos := b }) := by
  cases k with
  | zero =>
    refine ⟨s.bufpos, rows_dya (fun p hp => ?_) s⟩
    rw [List.mem_singleton] at hp
    subst hp
    have hb : Spec.Bal (fun _ => false) (d :: (t ++ [d])) := .quoted _ d t [] hd h (.nil _)
    refine (filter_sep_none (c := '\\') (by decide) (by decide) (Bal.noTop hb _ fun x hx => ?_)).1
    have : x = '\\' := litMatch_eq (by decide) (by decide) hx
    subst this
    decide
  | succ k =>
    rw [List.replicate_succ, List.cons_append]
    obtain ⟨w, k', hf, -⟩ := filter_sep (c := '\\') (x := '\\') (a := []) (bl := [])
      (r := List.replicate k '\\' ++ d :: (t ++ [d])) (by decide) (by decide)
      (by decide) (by intro p x r e; simp at e) rfl .nil .nil (by decide)
    simp only [List.nil_append] at hf
    refine ⟨s.bufpos + w, ?_⟩
    rw [parseRows]
    refine Toward.bind (a := some ([], skipBlanks (List.replicate k '\\' ++ d :: (t ++ [d])), .rlist)) (s' := { s with bufpos := s.bufpos + w }) ?_ ?_
    · unfold firstMatch
      refine Toward.bind (toward_filter2 hf s) ?_
      unfold firstMatch
      exact .refl _
    · exact .refl _

theorem parse_quoted {d : Char} {t : Str} (hd : d = '\'' ∨ d = '"') (h : Spec.Quoted d t) (s : St) :
    ∃ b, Toward (parse (some (d :: (t ++ [d]))) s) (cstE true (asciiLoop d false 0 (t ++ [d])) { s with bufpos := b }) := by
  have hb : d ≠ '\\' := by rcases hd with rfl | rfl <;> decide
  obtain ⟨gs, k, e, hi⟩ := quoted_groups hb h
  have e1 : d :: (t ++ [d]) = render ((0, d) :: gs ++ [(k, d)]) := by
    rw [e, List.cons_append, render_cons]; rfl
  have hr := creverse_groups hd hi 0 k
  have hi' : Inner d gs.reverse := fun g hg => hi g (List.mem_reverse.1 hg)
  have hr2 := creverse_groups hd hi' k 0
  rw [List.reverse_reverse, ← e1] at hr2
  rw [← e1] at hr
  have hq := groups_quoted hi'
  have e2 : render ((k, d) :: gs.reverse ++ [(0, d)]) = List.replicate k '\\' ++ d :: (render gs.reverse ++ [d]) := by
    rw [List.cons_append, render_cons, render_append]; rfl
  rw [e2] at hr hr2
  have h0 : (filter (d :: (t ++ [d])) c!"(?)").ok = false := by
    refine filter_first (by decide) (by decide) fun x r he => lit_ne (by decide) (by decide) ?_
    injection he with he
    subst he
    rcases hd with rfl | rfl <;> decide
  have rows : ∀ rec : Bool → Str → M Result, ∃ b, Toward (parseRows rec true (creverse (d :: (t ++ [d]))) revTable s)
      (parseLeaf true (d :: (t ++ [d])) { s with bufpos := b }) := by
    intro rec
    rw [hr]
    obtain ⟨b, hb⟩ := rows_rlist (rec := rec) (tgt := true) (k := k) (rows := revTable.tail) hd hq s
    refine ⟨b, Toward.trans hb ?_⟩
    have nt := bal_noTop (k := k) hd hq
    refine (rows_dya (fun p hp => ?_) _).trans ?_
    · simp only [List.mem_cons, List.not_mem_nil, or_false] at hp
      rcases hp with rfl | rfl
      · exact filter_wild (c := '+') rfl (by decide) (nt _ (by decide) (by decide))
      · exact filter_wild (c := '-') rfl (by decide) (nt _ (by decide) (by decide))
    refine (rows_dya (fun p hp => ?_) _).trans ?_
    · simp only [List.mem_cons, List.not_mem_nil, or_false] at hp
      rcases hp with rfl | rfl
      · exact filter_wild (c := '*') rfl (by decide) (nt _ (by decide) (by decide))
      · exact filter_wild (c := '/') rfl (by decide) (nt _ (by decide) (by decide))
    refine (rows_dya (fun p hp => ?_) _).trans ?_
    · simp only [List.mem_cons, List.not_mem_nil, or_false] at hp
      rcases hp with rfl | rfl | rfl
      · exact filter_wild (c := '|') rfl (by decide) (nt _ (by decide) (by decide))
      · exact filter_wild (c := '&') rfl (by decide) (nt _ (by decide) (by decide))
      · exact filter_wild (c := '^') rfl (by decide) (nt _ (by decide) (by decide))
    refine (rows_dya (fun p hp => ?_) _).trans ?_
    · simp only [List.mem_cons, List.not_mem_nil, or_false] at hp
      rcases hp with rfl | rfl
      · exact filter_wild (c := '<') rfl (by decide) (nt _ (by decide) (by decide))
      · exact filter_wild (c := '>') rfl (by decide) (nt _ (by decide) (by decide))
    refine (rows_mon (filter_wild (c := '-') rfl (by decide) (nt _ (by decide) (by decide))) _).trans ?_
    refine (rows_mon (filter_wild (c := '~') rfl (by decide) (nt _ (by decide) (by decide))) _).trans ?_
    refine (rows_leaf ?_ _).trans ?_
    · intro c r he
      have : c = '\\' ∨ c = d := by
        cases k with
        | zero => injection he with he; exact .inr he.symm
        | succ k => injection he with he; exact .inl he.symm
      rcases this with rfl | rfl
      · decide
      · rcases hd with rfl | rfl <;> decide
    · rw [hr2]; exact .refl _
  have leaf : ∀ s, Toward (parseLeaf true (d :: (t ++ [d])) s) (cstE true (asciiLoop d false 0 (t ++ [d])) s) := by
    intro s
    have hl : checklabel (d :: (t ++ [d])) = false := by
      unfold checklabel
      split
      · rfl
      · rw [if_neg (by rintro e; injection e with e; subst e; revert hd; decide)]
        rcases hd with rfl | rfl <;> rfl
    unfold parseLeaf
    rw [if_neg (by rw [hl]; simp)]
    have hf : ∀ p ∈ ['$', '%', '0'], ∀ pat, (filter (d :: (t ++ [d])) (p :: pat)).ok = false := by
      intro p hp pat
      refine filter_first ?_ ?_ fun x r he => ?_
      · rintro rfl; revert hp; decide
      · rintro rfl; revert hp; decide
      · injection he with he
        subst he
        rcases hd with rfl | rfl <;> (revert hp; revert p; decide)
    have hs : ∀ p ∈ ['H', 'B', 'Q'], (filter (d :: (t ++ [d])) ['?', p]).ok = false := by
      intro p hp
      refine suf_miss ?_ ?_ fun a x he => ?_
      · rintro rfl; revert hp; decide
      · rintro rfl; revert hp; decide
      · have := last_eq (ds := d :: t) he
        subst this
        rcases hd with rfl | rfl <;> (revert hp; revert p; decide)
    refine (const_skip (hf _ (by decide) _) s).trans ?_
    refine (const_skip (hs _ (by decide)) s).trans ?_
    refine (const_skip (hf _ (by decide) _) s).trans ?_
    refine (const_skip (hf _ (by decide) _) s).trans ?_
    refine (const_skip (hs _ (by decide)) s).trans ?_
    refine (const_skip (hf _ (by decide) _) s).trans ?_
    refine (const_skip (hs _ (by decide)) s).trans ?_
    rw [parseConst]
    have h1 : isdigit d = false := by rcases hd with rfl | rfl <;> decide
    simp only [h1, Bool.false_eq_true, if_false, if_pos hd]
    exact .refl _
  obtain ⟨b, hb⟩ := rows (parse2 ((d :: (t ++ [d])).length))
  refine ⟨b, ?_⟩
  unfold parse
  refine Toward.bind (a := false) (s' := s) ?_ ?_
  · rw [filter0_run]
    split
    · exact .inr ⟨s, rfl⟩
    · rw [h0]; exact .refl _
  · exact Toward.bind (a := ()) (s' := s) (.refl _) (Toward.trans hb (leaf _))

/-! ## The property -/

theorem escaped_quoted {d : Char} {t : Str} {cs : List Nat} (h : Spec.Escaped d t cs) : Spec.Quoted d t := by
  induction h with
  | nil => exact .nil
  | plain h1 h2 _ ih => exact .plain _ _ h1 h2 ih
  | esc _ _ ih => exact .escaped _ _ ih

/-- **C10** (value). A quoted text of printable characters and known escapes is the big-endian number of the
    characters it spells, if that is below 2^64 (unless the pattern matcher has used up its work buffer). -/
theorem C10_value {d : Char} {t : Str} {cs : List Nat} (hd : d = '\'' ∨ d = '"') (h : Spec.Escaped d t cs)
    (hp : ∀ c ∈ t, isprint c = true) (hlt : Spec.base256 cs < 2 ^ 64) (s : St) :
    (∃ r s', parse (some (d :: (t ++ [d]))) s = .ok r s' ∧ r.type = .absolute ∧ r.value.toNat = Spec.base256 cs) ∨
    (∃ u, parse (some (d :: (t ++ [d]))) s = .stop (.ub .filterBuffer) u) := by
  obtain ⟨b, hb⟩ := parse_quoted hd (escaped_quoted h) s
  rw [asciiLoop_spell hd h hp 0 (by decide), show bigFrom 0 cs = Spec.base256 cs from rfl, if_pos hlt] at hb
  rcases hb with hb | hb
  · obtain ⟨r, e, h4, h5, -⟩ := cst_run true (Spec.base256 cs) { s with bufpos := b }
    refine .inl ⟨r, _, hb.trans e, h4, ?_⟩
    rw [h5, BitVec.toNat_ofNat]
    omega
  · exact .inr hb

/-- **C10** (overflow). When the number does not fit 64 bits, the error is `overflow`. -/
theorem C10_overflow {d : Char} {t : Str} {cs : List Nat} (hd : d = '\'' ∨ d = '"') (h : Spec.Escaped d t cs)
    (hp : ∀ c ∈ t, isprint c = true) (hge : 2 ^ 64 ≤ Spec.base256 cs) (s : St) :
    (∃ k, parse (some (d :: (t ++ [d]))) s = error c!"overflow" { s with bufpos := k }) ∨
    (∃ u, parse (some (d :: (t ++ [d]))) s = .stop (.ub .filterBuffer) u) := by
  obtain ⟨b, hb⟩ := parse_quoted hd (escaped_quoted h) s
  rw [asciiLoop_spell hd h hp 0 (by decide), show bigFrom 0 cs = Spec.base256 cs from rfl, if_neg (by omega)] at hb
  rcases hb with hb | hb
  · exact .inl ⟨b, hb⟩
  · exact .inr hb

/-- **C10** (rejection). A quoted text with a character that is not printable or an unknown escape is refused. -/
theorem C10_rejected {d : Char} {t : Str} (hd : d = '\'' ∨ d = '"') (hq : Spec.Quoted d t)
    (hno : (∃ c ∈ t, isprint c = false) ∨ ¬ ∃ cs, Spec.Escaped d t cs) (s : St) :
    (∃ m k, parse (some (d :: (t ++ [d]))) s = error m { s with bufpos := k }) ∨
    (∃ u, parse (some (d :: (t ++ [d]))) s = .stop (.ub .filterBuffer) u) := by
  obtain ⟨b, hb⟩ := parse_quoted hd hq s
  cases ha : asciiLoop d false 0 (t ++ [d]) with
  | error m =>
    rw [ha] at hb
    rcases hb with hb | hb
    · exact .inl ⟨m, b, hb⟩
    · exact .inr hb
  | ok n =>
    obtain ⟨t', cs, e, h1, h2⟩ := asciiLoop_ok hd _ _ 0 n (Nat.le_refl _) (by decide) ha
    obtain rfl := (List.append_inj' e rfl).1
    rcases hno with ⟨c, hc, hp⟩ | hno
    · rw [h2 c hc] at hp; cases hp
    · exact absurd ⟨cs, h1⟩ hno

/-! Cases that meet the hypotheses. -/

/-- The constant `'a\n"'`. -/
example : Spec.Escaped '\'' c!"a\\n\"" [97, 10, 34] ∧ Spec.base256 [97, 10, 34] = 0x610a22 :=
  ⟨.plain (by decide) (by decide) (.esc (by decide) (.plain (by decide) (by decide) .nil)), by decide⟩
example : (parse (some c!"'a\\n\"'") (initSt { fs := fun _ => none } [])).value = some 0x610a22 := by decide +kernel
/-- Operators, quotes and backslashes inside the quotes. -/
example : (parse (some c!"'+\\'*\\\\'") (initSt { fs := fun _ => none } [])).value = some 0x2b272a5c := by decide +kernel
example : (parse (some c!"\"123456789\"") (initSt { fs := fun _ => none } [])).refused = true := by decide +kernel
/-- `'\q'` has an unknown escape. -/
example : Spec.Quoted '\'' c!"\\q" ∧ ¬ ∃ cs, Spec.Escaped '\'' c!"\\q" cs := by
  refine ⟨.escaped _ _ .nil, ?_⟩
  rintro ⟨cs, h⟩
  cases h with
  | plain h1 h2 => exact h2 rfl
  | esc h => revert h; simp [Spec.escapes]

end Crasm

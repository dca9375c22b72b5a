import Verif.Proof.TextP

/-! The names of an expression are in the symbol table once it has been evaluated. -/

namespace Crasm

/-- The name is in the symbol table. -/
def Has (s : St) (k : Str) : Prop := (s.tree.find k).isSome

theorem Has.alike {s s' : St} {k : Str} (h : Has s k) (ha : Alike s.tree s'.tree) : Has s' k := by
  obtain ⟨l, hl⟩ := Option.isSome_iff_exists.1 h
  obtain ⟨l', h1, -⟩ := ha.some hl
  unfold Has
  rw [h1]
  rfl

theorem label_enter {t : Str} (h : Leaf t) {n : Nat} {tgt : Bool} {s s' : St} {r : Result}
    (e : parse2 (n + 1) tgt t.reverse s = .ok r s') : Has s' (canon s.segment t) := by
  obtain ⟨b, this⟩ := leaf_start (n := n) (tgt := tgt) h s
  rcases this with this | ⟨_, this⟩
  rotate_left
  · rw [this] at e; cases e
  rw [this] at e
  unfold parseLeaf at e
  rw [if_pos h.check] at e
  unfold cstlabel at e
  obtain ⟨l, s1, h1, h2⟩ := bind_ok e
  have h3 : Has s1 (canon s.segment t) := by
    unfold findlabel searchlabel at h1
    rw [getS_bind_run] at h1
    dsimp only at h1
    cases hs : s.tree.find (canon s.segment t) with
    | none =>
      rw [hs] at h1
      cases h1
      unfold Has
      exact Option.isSome_iff_exists.2 ⟨_, Tree.find_put_self _ _ _⟩
    | some q =>
      rw [hs] at h1
      cases h1
      exact Option.isSome_iff_exists.2 ⟨_, Tree.find_put_self _ _ _⟩
  have w : Walk NStep (do
      let r ← setRes tgt { flags := l.flags, type := l.type, modifier := l.modifier, ptr := l.ptr, value := l.value }
      if (l.flags.undef && !l.flags.forward) = true then error c!"Undefined label" else pure r : M Result) := by walk
  exact h3.alike (nwalk_gen w h2).tree

theorem one_enter {n : Nat} {tgt : Bool} {op : Op1} {R : Str} {s s' : St} {r : Result} (e : one (parse2 n) tgt op R s = .ok r s') :
    ∃ r' s1, parse2 n tgt R s = .ok r' s1 ∧ Alike s1.tree s'.tree := by
  unfold one at e
  obtain ⟨p, s1, h1, h2⟩ := bind_ok e
  exact ⟨p, s1, h1, (nwalk_gen W.walk h2).tree⟩

theorem text_enter {k : Spec.Level} {e : Spec.Expr} {t : Str} (h : Spec.Text k e t) :
    ∀ n tgt s r s', t.length < n → parse2 n tgt t.reverse s = .ok r s' → ∀ x ∈ e.names, Has s' (canon s.segment x) := by
  have succ : ∀ {m n : Nat}, m < n → ∃ n', n = n' + 1 := fun {m n} h => ⟨n - 1, by omega⟩
  have tow : ∀ {m m' : Res Result} {r s'}, Toward m m' → m = .ok r s' → m' = .ok r s' := by
    intro m m' r s' h e
    rcases h with rfl | ⟨t, h⟩
    · exact e
    · rw [h] at e; cases e
  induction h with
  | num hw hne hn hlt => intro n tgt s r s' _ _ x hx; cases hx
  | @label k t h =>
    intro n tgt s r s' hl he x hx
    obtain ⟨n, rfl⟩ := succ hl
    rw [List.mem_singleton.1 hx]
    exact label_enter (.inl h) he
  | @here k _ =>
    intro n tgt s r s' hl he x hx
    obtain ⟨n, rfl⟩ := succ hl
    rw [List.mem_singleton.1 hx]
    exact label_enter (.inr rfl) he
  | @bin k op a b ta tb b1 b2 _ _ ha hb h1 h2 iha ihb =>
    intro n tgt s r s' hl he x hx
    obtain ⟨n, rfl⟩ := succ hl
    have la : 0 < ta.length := List.length_pos_iff.2 (by simpa using (text_shape ha).1.ne)
    have lb : 0 < tb.length := List.length_pos_iff.2 (by simpa using (text_shape hb).1.ne)
    simp only [List.length_append] at hl
    obtain ⟨w, hw⟩ := text_split (n := n) (tgt := tgt) (op := op) ha hb h1 h2 s
    have e : (ta ++ (b1 ++ (op.sym ++ (b2 ++ tb)))).reverse =
        tb.reverse ++ (b2.reverse ++ (op.sym.reverse ++ (b1.reverse ++ ta.reverse))) := by simp
    rw [e] at he
    have he := tow hw he
    unfold both at he
    obtain ⟨p, s1, h3, he⟩ := bind_ok he
    obtain ⟨a', s2, h4, he⟩ := bind_ok he
    rcases List.mem_append.1 (show x ∈ a.names ++ b.names from hx) with hx | hx
    · exact ((iha n tgt _ p s1 (by omega) h3 x hx).alike (nwalk_gen (walk_parse2 n false _) h4).tree).alike (nwalk_gen (show Walk NStep (finishOp tgt _) from W.walk) he).tree
    · have g := nwalk_gen (walk_parse2 n tgt _) h3
      have := ihb n false s1 a' s2 (by omega) h4 x hx
      rw [g.segment] at this
      exact this.alike (nwalk_gen (show Walk NStep (finishOp tgt _) from W.walk) he).tree
  | @neg k a ta b1 _ _ ha h1 ih =>
    intro n tgt s r s' hl he x hx
    obtain ⟨n, rfl⟩ := succ hl
    simp only [List.length_append, List.length_cons] at hl
    obtain ⟨w, hw⟩ := text_minus (n := n) (tgt := tgt) ha h1 s
    have e : ('-' :: (b1 ++ ta)).reverse = ta.reverse ++ (b1.reverse ++ ['-']) := by simp
    rw [e] at he
    obtain ⟨_, _, he, hg⟩ := one_enter (tow hw he)
    exact (ih n tgt _ _ _ (by omega) he x hx).alike hg
  | @not k a ta b1 _ ha h1 ih =>
    intro n tgt s r s' hl he x hx
    obtain ⟨n, rfl⟩ := succ hl
    simp only [List.length_append, List.length_cons] at hl
    obtain ⟨w, hw⟩ := text_not (n := n) (tgt := tgt) ha h1 s
    have e : ('~' :: (b1 ++ ta)).reverse = ta.reverse ++ (b1.reverse ++ ['~']) := by simp
    rw [e] at he
    obtain ⟨_, _, he, hg⟩ := one_enter (tow hw he)
    exact (ih n tgt _ _ _ (by omega) he x hx).alike hg
  | @lo k k' a t b0 b1 b2 l o hl ho ha h0 h1 h2 ih =>
    intro n tgt s r s' hln he x hx
    obtain ⟨n, rfl⟩ := succ hln
    simp only [List.length_append, List.length_cons, List.length_nil] at hln
    obtain ⟨w, hw⟩ := parse2_lo (n := n) (tgt := tgt) hl ho (text_shape ha).1 (blank_of h0) (blank_of h2) (blank_of h1) s
    have e : (l :: o :: (b0 ++ '(' :: (b1 ++ (t ++ (b2 ++ [')']))))).reverse =
        ')' :: (b2.reverse ++ (t.reverse ++ (b1.reverse ++ '(' :: (b0.reverse ++ [o, l])))) := by simp
    rw [e] at he
    obtain ⟨_, _, he, hg⟩ := one_enter (tow hw he)
    exact (ih n tgt _ _ _ (by omega) he x hx).alike hg
  | @hi k k' a t b0 b1 b2 l o hl ho ha h0 h1 h2 ih =>
    intro n tgt s r s' hln he x hx
    obtain ⟨n, rfl⟩ := succ hln
    simp only [List.length_append, List.length_cons, List.length_nil] at hln
    obtain ⟨w, hw⟩ := parse2_hi (n := n) (tgt := tgt) hl ho (text_shape ha).1 (blank_of h0) (blank_of h2) (blank_of h1) s
    have e : (l :: o :: (b0 ++ '(' :: (b1 ++ (t ++ (b2 ++ [')']))))).reverse =
        ')' :: (b2.reverse ++ (t.reverse ++ (b1.reverse ++ '(' :: (b0.reverse ++ [o, l])))) := by simp
    rw [e] at he
    obtain ⟨_, _, he, hg⟩ := one_enter (tow hw he)
    exact (ih n tgt _ _ _ (by omega) he x hx).alike hg
  | @paren k k' a t b1 b2 ha h1 h2 ih =>
    intro n tgt s r s' hln he x hx
    obtain ⟨n, rfl⟩ := succ hln
    simp only [List.length_append, List.length_cons, List.length_nil] at hln
    obtain ⟨w, hw⟩ := parse2_paren (n := n) (tgt := tgt) (text_shape ha).1 (blank_of h2) (blank_of h1) s
    have e : ('(' :: (b1 ++ (t ++ (b2 ++ [')'])))).reverse = ')' :: (b2.reverse ++ (t.reverse ++ (b1.reverse ++ ['(']))) := by simp
    rw [e] at he
    exact ih n tgt _ _ _ (by omega) (tow hw he) x hx

/-- The names in an expression that has a value are known afterwards. -/
theorem parse_enter {k : Spec.Level} {e : Spec.Expr} {t : Str} (h : Spec.Text k e t) {s s' : St} {r : Result} (hr : parse (some t) s = .ok r s') :
    ∀ x ∈ e.names, Has s' (canon s.segment x) := by
  have hs := (text_shape h).1
  obtain ⟨l, k, hl⟩ := parse_start (t := t) (by simpa using hs.ne) (fun c hc => hs.quotes c (List.mem_reverse.2 hc)) s
  rcases hl with hl | ⟨_, hl⟩
  · rw [hl] at hr
    exact text_enter h _ true { s with lst := l, bufpos := k } r s' (by omega) hr
  · rw [hl] at hr; cases hr

end Crasm

import Verif.Proof.ProgHalf
import Verif.Proof.ProgRun

/-! Programs: one line in either pass. -/

namespace Crasm.C42
open Spec.Program (Isa key Free Body Line State Lines Proper All2 labels hasOrg)

section
variable {isa : Isa}

/-! ### About the definitions -/

theorem marks_mono (m : Str → Bool) (a : Lines isa) : ∀ {k}, m k = true → Spec.Program.marks m a k = true := by
  induction a generalizing m with
  | nil => exact fun h => h
  | cons x a ih =>
    intro k h
    obtain ⟨l, body⟩ := x
    cases l <;> cases body <;> first | exact ih _ h | exact ih _ (by simp [h])

/-- Only equates become marked. -/
theorem marks_off (m : Str → Bool) (a : Lines isa) : ∀ {k}, k ∉ Spec.Program.equates a → Spec.Program.marks m a k = m k := by
  induction a generalizing m with
  | nil => exact fun _ => rfl
  | cons x a ih =>
    intro k h
    obtain ⟨l, body⟩ := x
    cases l with
    | none => cases body <;> exact ih _ h
    | some l =>
      cases body with
      | equ e =>
        have h : k ∉ key l :: Spec.Program.equates a := h
        rw [List.mem_cons, not_or] at h
        refine (ih _ h.2).trans ?_
        simp [h.1]
      | _ => exact ih _ h

theorem marks_plain (m : Str → Bool) {x : Option Str × Body isa.Ins} (h : ∀ e, x.2 ≠ .equ e) : Spec.Program.marks m [x] = m := by
  obtain ⟨l, body⟩ := x
  cases l <;> cases body <;> first | rfl | exact absurd rfl (h _)

theorem equates_plain {x : Option Str × Body isa.Ins} (h : ∀ e, x.2 ≠ .equ e) : Spec.Program.equates [x] = [] := by
  obtain ⟨l, body⟩ := x
  cases l <;> cases body <;> first | rfl | exact absurd rfl (h _)

theorem labels_cons (x : Option Str × Body isa.Ins) (b : Lines isa) : labels (x :: b) = labels [x] ++ labels b := labels_append [x] b
theorem hasOrg_cons (x : Option Str × Body isa.Ins) (b : Lines isa) : hasOrg (x :: b) = (hasOrg [x] || hasOrg b) := hasOrg_append [x] b

theorem label_own {y : Str} {body : Body isa.Ins} (h : ∀ e, body ≠ .equ e) : labels [(some y, body)] = [key y] := by
  cases body <;> first | rfl | exact absurd rfl (h _)

/-- A label used above its definition. -/
theorem late_of (a : Lines isa) {x : Option Str × Body isa.Ins} {b : Lines isa} (hn : (labels (a ++ x :: b)).Nodup) {n : Str} (hu : n ∈ x.2.uses)
    (hb : key n ∈ labels b) : Spec.Program.late (a ++ x :: b) (key n) = true := by
  induction a with
  | nil =>
    rw [List.nil_append, labels_cons] at hn
    have : key n ∉ labels [x] := fun h => (List.nodup_append.1 hn).2.2 _ h _ hb rfl
    show Spec.Program.late (x :: b) (key n) = true
    unfold Spec.Program.late
    have hu : key n ∈ x.2.uses.map key := List.mem_map_of_mem hu
    simp [this, hu, hb]
  | cons z a ih =>
    rw [List.cons_append, labels_cons] at hn
    have hin : key n ∈ labels (a ++ x :: b) := by rw [labels_append, labels_cons]; simp [hb]
    have : key n ∉ labels [z] := fun h => (List.nodup_append.1 hn).2.2 _ h _ hin rfl
    rw [List.cons_append]
    unfold Spec.Program.late
    simp [this, ih (List.nodup_append.1 hn).2.1]

variable {voc : List Entry} {cf : Option Int} {p a b : Lines isa} {x : Option Str × Body isa.Ins} {m : Str → Bool} {ah : List Str} {s s' : St}

/-- Between two lines: `a` are the lines done, `b` the lines to come. -/
structure Half (isa : Isa) (voc : List Entry) (p a b : Lines isa) (s : St) : Prop where
  mid : Mid isa voc p (Spec.Program.marks (Spec.Program.late p) a) (labels b) s
  done : ∀ k, k ∈ labels a ∨ k ∈ Spec.Program.equates a → ∃ l, s.tree.find k = some l ∧ l.flags.undef = false
  org : hasOrg a = true → Placed s

theorem Half.seen (h : Half isa voc p a b s) : ∀ k, k ∈ labels a ∨ k ∈ Spec.Program.equates a → (s.tree.find k).isSome := by
  intro k hk
  obtain ⟨l, h1, -⟩ := h.done k hk
  rw [h1]; rfl

/-- Where a line is. -/
structure Site (isa : Isa) (p a : Lines isa) (x : Option Str × Body isa.Ins) (b : Lines isa) : Prop where
  eq : p = a ++ x :: b
  proper : Proper p
  free : ∀ k, k ∈ labels p ∨ k ∈ Spec.Program.equates p → ∃ y, Free isa y ∧ key y = k

theorem Site.equates (S : Site isa p a x b) {k : Str} (h : k ∈ Spec.Program.equates a) : k ∈ Spec.Program.equates p := by
  rw [S.eq, equates_append]
  exact List.mem_append_left _ h

theorem Site.names (M : Machine isa voc cf) (S : Site isa p a x b) {n : Str} (hn : n ∈ x.2.uses) : canon 0 n = key n ∧ ¬ Worded isa (key n) := by
  rcases S.proper.closed a x b S.eq n hn with hk | ⟨hk, -⟩
  · obtain ⟨y, h1, h2⟩ := S.free (key n) (hk.imp_right S.equates)
    exact ⟨(free_key h1 h2.symm).1, fun hx => (free_key h1 h2.symm).2 (.inr hx)⟩
  · cases key_star hk
    exact ⟨canon_star, star_word M⟩

theorem Site.nodup (S : Site isa p a x b) : ∀ k ∈ labels [x], k ∉ labels b := by
  have := S.proper.once
  rw [S.eq, labels_append, labels_cons] at this
  intro k h1 h2
  exact (List.nodup_append.1 (List.nodup_append.1 this).2.1).2.2 _ h1 _ h2 rfl

theorem Site.star (S : Site isa p a x b) : starKey ∉ labels b := by
  intro h
  obtain ⟨y, h1, h2⟩ := S.free starKey (.inl (by rw [S.eq, labels_append, labels_cons]; simp [h]))
  have := (free_key (n := y) h1 rfl).2
  rw [h2] at this
  exact this (.inl rfl)

theorem Site.own (S : Site isa p a x b) : ∀ k ∈ labels [x], k ∈ labels p := by
  intro k h
  rw [S.eq, labels_append, labels_cons]
  simp [h]

/-- After the label of a line. -/
structure After (isa : Isa) (voc : List Entry) (p a : Lines isa) (x : Option Str × Body isa.Ins) (b : Lines isa) (s s' : St) : Prop where
  mid : Mid isa voc p (Spec.Program.marks (Spec.Program.late p) a) (labels b) s'
  kin : Kin (labels [x]) s s'
  own : ∀ k ∈ labels [x], ∃ l, s'.tree.find k = some l ∧ l.flags.undef = false
  other : ∀ k, k ∉ labels [x] → s'.tree.find k = s.tree.find k
  defd : ∀ k ∈ labels [x], s'.tree.find k = some (defdLabel (s.tree.find k) { noredef := true } .absolute (starLabel s).value)
  lohi : s'.flags.lohi = s.flags.lohi
  fresh : s'.advance = 0
  here : Placed s → s'.code.pc = (starLabel s).value ∧ s'.flags.orgGv = true
  log : s'.log = s.log

theorem Mid.less (h : Mid isa voc p m ah s) {ah' : List Str} (hs : ah' ⊆ ah) : Mid isa voc p m ah' s :=
  ⟨h.base, h.forw, fun k hk => h.ahead k (hs hk), h.equs, h.loc, h.mild, h.alive, h.only⟩

theorem Half.split (h : Half isa voc p a b s) {s1 : St} (hs : Split s s1) (hn : s1.notes = s.notes) :
    Mid isa voc p (Spec.Program.marks (Spec.Program.late p) a) (labels b) s1 ∧ ∀ own, Kin own s s1 := by
  obtain ⟨f1, f2, f3, f4, f5, f6, f7, f8⟩ := split_facts hs
  have : s1.stack = s.stack ∧ s1.flags.codeOn = s.flags.codeOn ∧ s1.flags.relatif = s.flags.relatif ∧ s1.passnumber = s.passnumber ∧ s1.cpuflag = s.cpuflag ∧
      s1.errnumber = s.errnumber := by
    obtain ⟨b, cl, nts, rfl, -, -⟩ := hs
    exact ⟨rfl, rfl, rfl, rfl, rfl, rfl⟩
  obtain ⟨g1, g2, g3, g4, g5, g6⟩ := this
  exact ⟨h.mid.same g1 f2 g2 g3 f1 hn g4, fun own => Kin.same f1 f4 f5 g4 g5 g6⟩

theorem label_half (M : Machine isa voc cf) (S : Site isa p a x b) (h : Half isa voc p a (x :: b) s) {s1 : St} (hs : Split s s1) (hn : s1.notes = s.notes)
    (hx : ∀ y ∈ x.1, Free isa y) (hb : ∀ e, x.2 ≠ .equ e) :
    ∃ s2, labelPart false x.1 s1 = .ok () s2 ∧ After isa voc p a x b s s2 := by
  obtain ⟨hm, hk⟩ := h.split hs hn
  obtain ⟨f1, -, f3, -, -, f6, f7, f8⟩ := split_facts hs
  have f9 : s1.flags.lohi = s.flags.lohi := by obtain ⟨b, cl, nts, rfl, -, -⟩ := hs; rfl
  have f10 : starLabel s1 = starLabel s := by unfold starLabel; rw [f1]
  have f11 : Placed s → s1.code.pc = (starLabel s).value ∧ s1.flags.orgGv = true := fun hp => ⟨f8 hp, by rw [f7]; unfold Placed at hp; rw [hp]; rfl⟩
  have hsub : labels b ⊆ labels (x :: b) := by
    rw [labels_cons]
    exact List.subset_append_right _ _
  obtain ⟨l, body⟩ := x
  cases l with
  | none =>
    have hl : labels [(none, body)] = [] := by cases body <;> rfl
    exact ⟨s1, rfl, hm.less hsub, hk _, (fun k hk => by rw [hl] at hk; cases hk), (fun k _ => by rw [f1]),
      (fun k hk => by rw [hl] at hk; cases hk), f9, f6, f11, f3⟩
  | some y =>
    have hl : labels [(some y, body)] = [key y] := label_own hb
    have hy := hx y rfl
    have hin : key y ∈ labels [(some y, body)] := by rw [hl]; simp
    have hpl : Placed s := h.org (S.proper.origin a _ b S.eq (.inr (by rw [hl]; simp)))
    have ho : s1.flags.orgGv = true := by
      rw [f7]
      unfold Placed at hpl
      rw [hpl]; rfl
    have hu : ∀ q, s1.tree.find (key y) = some q → q.flags.undef = true := by
      intro q hq
      exact hm.ahead _ (by rw [labels_cons]; exact List.mem_append_left _ hin) q hq
    obtain ⟨m2, k2⟩ := (hm.less hsub).label M hy (S.nodup _ hin) (S.own _ hin) (v := (starLabel s1).value)
    refine ⟨_, here_runs hm.base hy ho hu, m2, (hk _).trans (k2.mono (by rw [hl]; exact fun _ h => h)), fun k hk => ?_, fun k hk => ?_, fun k hk => ?_, f9, f6, f11, f3⟩
    · rw [hl, List.mem_singleton] at hk
      subst hk
      exact ⟨_, Tree.find_put_self _ _ _, rfl⟩
    · rw [hl, List.mem_singleton] at hk
      rw [← f1]
      exact Tree.find_put_ne _ _ hk
    · rw [hl, List.mem_singleton] at hk
      subst hk
      rw [← f1, ← f10]
      exact Tree.find_put_self _ _ _

/-- In a line, the names used can be evaluated. -/
theorem After.able (M : Machine isa voc cf) (S : Site isa p a x b) (h : Half isa voc p a (x :: b) s) (hA : After isa voc p a x b s s')
    (hmet : ∀ n ∈ x.2.uses, key n ∉ labels [x] → Met s (key n)) :
    Able (fun k => ¬ ∃ n ∈ x.2.uses, key n = k) s' ∧
    ∀ n ∈ x.2.uses, ¬ (¬ ∃ n' ∈ x.2.uses, key n' = canon 0 n) ∧
      ((s'.tree.find (canon 0 n)).isSome ∨ (Spec.Program.marks (Spec.Program.late p) a (canon 0 n) = true ∧ canon 0 n ∈ labels p)) := by
  have hb := hA.mid.base
  refine ⟨⟨hb.seg, ⟨?_, .inl hb.rel, fun k l hk hl hd => ?_⟩, fun k l hk hl => ?_⟩, fun n hn => ⟨?_, ?_⟩⟩
  · exact .inr hb.here
  · rw [Classical.not_not] at hk
    obtain ⟨n, hn, rfl⟩ := hk
    exact hb.numeric.abs _ l (S.names M hn).2 hl hd
  · rw [Classical.not_not] at hk
    obtain ⟨n, hn, rfl⟩ := hk
    by_cases ho : key n ∈ labels [x]
    · obtain ⟨l', h1, h2⟩ := hA.own _ ho
      rw [hl] at h1
      cases h1
      exact .inl h2
    · rw [hA.other _ ho] at hl
      exact hmet n hn ho l hl
  · rw [(S.names M hn).1]
    exact fun hc => hc ⟨n, hn, rfl⟩
  · rw [(S.names M hn).1]
    by_cases ho : key n ∈ labels [x]
    · obtain ⟨l', h1, -⟩ := hA.own _ ho
      rw [h1]
      exact .inl rfl
    · rcases S.proper.closed a x b S.eq n hn with (hp | he) | ⟨he, -⟩
      · rw [S.eq, labels_append, labels_cons] at hp
        rcases List.mem_append.1 hp with hp | hp
        · exact .inl (hA.kin.some _ (h.seen _ (.inl hp)))
        · rcases List.mem_append.1 hp with hp | hp
          · exact absurd hp ho
          · right
            refine ⟨marks_mono _ _ ?_, by rw [S.eq, labels_append, labels_cons]; simp [hp]⟩
            have := S.proper.once
            rw [S.eq] at this ⊢
            exact late_of a this hn hp
      · exact .inl (hA.kin.some _ (h.seen _ (.inr he)))
      · rw [he]
        exact .inl hb.here

/-- In pass 1 every name has got a value, or is marked. -/
theorem After.met (M : Machine isa voc cf) (h : Half isa voc p a (x :: b) s) (S : Site isa p a x b) (hp : s.passnumber = 1) :
    ∀ n ∈ x.2.uses, key n ∉ labels [x] → Met s (key n) := by
  intro n hn _ l hl
  by_cases e : key n = starKey
  · rcases S.proper.closed a x b S.eq n hn with hk | ⟨-, ho⟩
    · obtain ⟨y, h1, h2⟩ := S.free (key n) (hk.imp_right S.equates)
      exact absurd (.inl e) (free_key h1 h2.symm).2
    · rw [e] at hl
      have := h.org ho
      unfold Placed starLabel at this
      rw [hl] at this
      exact .inl this
  · exact h.mid.alive hp _ l (unworded (S.names M hn).2 e) hl

/-- From one line to the next. -/
theorem half_next (S : Site isa p a x b) (h : Half isa voc p a (x :: b) s)
    (hm : Mid isa voc p (Spec.Program.marks (Spec.Program.late p) (a ++ [x])) (labels b) s')
    (hk : Kin (labels [x] ++ Spec.Program.equates [x]) s s')
    (hl : ∀ k, k ∈ labels [x] ∨ k ∈ Spec.Program.equates [x] → ∃ l, s'.tree.find k = some l ∧ l.flags.undef = false) (ho : hasOrg [x] = true → Placed s') :
    Half isa voc p (a ++ [x]) b s' := by
  refine ⟨hm, fun k hk' => ?_, fun hh => ?_⟩
  · by_cases hown : k ∈ labels [x] ++ Spec.Program.equates [x]
    · exact hl k (List.mem_append.1 hown)
    · have hka : k ∈ labels a ∨ k ∈ Spec.Program.equates a := by
        rw [labels_append, equates_append, List.mem_append, List.mem_append] at hk'
        rw [List.mem_append, not_or] at hown
        rcases hk' with (h1 | h1) | (h1 | h1)
        · exact .inl h1
        · exact absurd h1 hown.1
        · exact .inr h1
        · exact absurd h1 hown.2
      obtain ⟨l, h1, h2⟩ := h.done k hka
      have hst : k ≠ starKey := by
        rintro rfl
        obtain ⟨y, h1, h2⟩ := S.free starKey (hka.imp (fun h => by rw [S.eq, labels_append]; exact List.mem_append_left _ h) S.equates)
        have := (free_key (n := y) h1 rfl).2
        rw [h2] at this
        exact this (.inl rfl)
      obtain ⟨l', h3, -, h4, -⟩ := hk.find k l hst hown h1
      exact ⟨l', h3, h4.trans h2⟩
  · rw [hasOrg_append, Bool.or_eq_true] at hh
    exact hh.elim (fun hh => hk.placed (h.org hh)) ho

/-- What is to be shown of a line. -/
def Next (isa : Isa) (voc : List Entry) (p a : Lines isa) (x : Option Str × Body isa.Ins) (b : Lines isa) (s s' : St) : Prop :=
  Half isa voc p (a ++ [x]) b s' ∧ Kin (labels [x] ++ Spec.Program.equates [x]) s s'

theorem After.next (S : Site isa p a x b) (h : Half isa voc p a (x :: b) s) {s2 : St} (hA : After isa voc p a x b s s2) (hb : ∀ e, x.2 ≠ .equ e)
    (hm : Mid isa voc p (Spec.Program.marks (Spec.Program.late p) a) (labels b) s') (hk : Kin [] s2 s') (ho : hasOrg [x] = true → Placed s') :
    Next isa voc p a x b s s' := by
  have hk' := (hA.kin.trans (hk.mono (List.nil_subset _))).mono (List.subset_append_left _ (Spec.Program.equates [x]))
  refine ⟨half_next S h (by rw [marks_append, marks_plain _ hb]; exact hm) hk' (fun k hl => ?_) ho, hk'⟩
  rw [equates_plain hb] at hl
  rcases hl with hl | hl
  · obtain ⟨l, h1, h2⟩ := hA.own k hl
    obtain ⟨l', h3, -, h4, -⟩ := hk.find k l (by
      rintro rfl
      obtain ⟨y, h1, h2⟩ := S.free starKey (.inl (S.own _ hl))
      have := (free_key (n := y) h1 rfl).2
      rw [h2] at this
      exact this (.inl rfl)) (by simp) h1
    exact ⟨l', h3, h4.trans h2⟩
  · cases hl

/-! ### Data and instructions -/

/-- What comes before the statement. -/
theorem gen_front (M : Machine isa voc cf) (S : Site isa p a x b) (h : Half isa voc p a (x :: b) s) (hlen : s.curline.length ≤ 600)
    {n : Nat} {t mn : Str} {o : Option Str}
    (hb : x.2.generates = true) (hS : Spec.Stmt (fun w => key w ∈ isa.words) t x.1 mn o) (hA : Spec.Around t s.curline)
    (hx : ∀ y ∈ x.1, Free isa y) {e : Entry} (he : e ∈ pseudos ++ voc) (hn : e.name.map toupper = key mn) (hI : Instr e.label)
    {hd : Handler} (hp : e.label.ptr = .handler hd) :
    ∃ s2, After isa voc p a x b s s2 ∧
      asmline (n + 1) ⟨true, true⟩ s = (callHandler (asmline n) n hd e.label.modifier x.1 o >>= fun _ => afterwards) s2 := by
  have hne : ∀ e, x.2 ≠ .equ e := by intro e h; rw [h] at hb; cases hb
  obtain ⟨l, hl, hw, hsr⟩ := word_entry M h.mid.base he hI.1 hn
  have hk := stmt_known h.mid.base hS (by unfold C41.Known; rw [hl]; rfl) fun y hy => .inr (hx y hy)
  obtain ⟨s1, hs, hnt, h1⟩ := line_plain (n := n) (st := ⟨true, true⟩) hk hA hlen (.inl hsr)
  rw [h1, hl]
  obtain ⟨w1, w2, w3, w4, w5, w6, w7, w8, -⟩ := hw
  obtain ⟨i1, i2, i3, i4, i5⟩ := hI
  rw [fields_eq (w1.trans i1) (w8.trans i5) (w7.trans i4) (w3.trans hp) (w5.trans i2) (by rw [w6, i3]; simp), w6, i3, w2]
  obtain ⟨s2, h2, hAf⟩ := label_half M S h hs hnt hx hne
  rw [run_ok h2]
  exact ⟨s2, hAf, rfl⟩

/-- What the address of the next line depends on is not marked. -/
theorem After.steady (M : Machine isa voc cf) (S : Site isa p a x b) {s2 : St} (hA : After isa voc p a x b s s2) :
    Steady (fun k => (s2.tree.find k).isSome ∨ (Spec.Program.marks (Spec.Program.late p) a k = true ∧ k ∈ labels p)) s2 x.2.fixed := by
  intro n hn s' st l hl
  have hu : n ∈ x.2.uses := by
    obtain ⟨y, body⟩ := x
    cases body with
    | org e => exact hn
    | ins i => exact M.fixed hn
    | _ => cases hn
  obtain ⟨g1, g2⟩ := S.names M hu
  rw [g1] at hl
  have m2 := (Mid.tstar M st hA.mid S.star fun k hk => hk).1
  cases hf : l.flags.forward with
  | false => rfl
  | true =>
    have := m2.marked g2 hl hf
    rw [S.proper.settled a _ b S.eq n hn] at this
    cases this

theorem gen_half (M : Machine isa voc cf) (S : Site isa p a x b) (h : Half isa voc p a (x :: b) s) (hlen : s.curline.length ≤ 600)
    (hmet : ∀ n ∈ x.2.uses, key n ∉ labels [x] → Met s (key n)) {n : Nat} {t mn : Str} {o : Option Str}
    (hb : x.2.generates = true) (hS : Spec.Stmt (fun w => key w ∈ isa.words) t x.1 mn o) (hA : Spec.Around t s.curline)
    (hx : ∀ y ∈ x.1, Free isa y) {e : Entry} (he : e ∈ pseudos ++ voc) (hn : e.name.map toupper = key mn) (hI : Instr e.label)
    {hd : Handler} (hp : e.label.ptr = .handler hd)
    (hrun : ∀ {N keys s2}, Able keys s2 → Vocab voc s2 → s2.advance = 0 → (∀ n ∈ x.2.uses, ¬ keys (canon 0 n) ∧ N (canon 0 n)) → Steady N s2 x.2.fixed →
      Goes N s2 (callHandler (asmline n) n hd e.label.modifier x.1 o s2)) :
    Fares (Next isa voc p a x b s) (asmline (n + 1) ⟨true, true⟩ s) := by
  have hne : ∀ e, x.2 ≠ .equ e := by intro e h; rw [h] at hb; cases hb
  have hno : hasOrg [x] = true → False := by
    intro h
    obtain ⟨l, body⟩ := x
    cases body with
    | org e => cases hb
    | _ => cases l <;> cases h
  obtain ⟨s2, hAf, h2⟩ := gen_front M S h hlen (n := n) hb hS hA hx he hn hI hp
  rw [h2]
  obtain ⟨ha, hN⟩ := hAf.able M S h hmet
  refine (handler_fares M hAf.mid S.star (hrun ha (fun e he => hAf.mid.base.vocab e (List.mem_append_right _ he)) hAf.fresh hN (hAf.steady M S))).mono fun s' hs => ?_
  exact hAf.next S h hne hs.1 hs.2 fun h => (hno h).elim

theorem spend_goes {N : Str → Prop} {w : Nat} : Goes N s (spend w s) := by
  unfold spend
  by_cases h : bufSize ≤ s.bufpos + w
  · rw [if_pos h]; trivial
  · rw [if_neg h]
    exact .one (.scratch s s.lst _ s.calcR s.flags.listOn)
theorem room_goes {N : Str → Prop} {w : Nat} : Goes N s (room w s) := by
  unfold room
  by_cases h : bufSize ≤ s.bufpos + w
  · rw [if_pos h]; trivial
  · rw [if_neg h]
    exact .refl _

theorem each_goes {N keys : Str → Prop} {md : Int} {os : List Str} {es : List Spec.Expr} (h2 : All2 Spec.Program.Number os es) :
    ∀ {ws : List Nat} {s : St}, Able keys s → (∀ n ∈ es.flatMap Spec.Expr.names, ¬ keys (canon 0 n) ∧ N (canon 0 n)) →
      Goes N s (eachOperand (fun o => stocke (some o) md) (os.zip ws) s) := by
  induction h2 with
  | nil => intro ws s _ _; exact .refl _
  | @cons o e os es hoe _ ih =>
    intro ws s ha hk
    obtain ⟨-, k, ht⟩ := hoe
    have hst : ∀ {s : St}, Able keys s → Goes N s (stocke (some o) md s) := fun ha =>
      stocke_goes (parse_sure ht ha fun n hn => hk n (by simp [hn])).goes
    cases ws with
    | nil => exact .refl _
    | cons w ws =>
      rw [List.zip_cons_cons]
      cases hz : os.zip ws with
      | nil =>
        show Goes N s ((room w >>= fun _ => stocke (some o) md) s)
        exact room_goes.bind fun _ s' st _ => hst (ha.tstar st)
      | cons y ys =>
        show Goes N s ((spend w >>= fun _ => stocke (some o) md >>= fun _ => eachOperand (fun o => stocke (some o) md) (y :: ys)) s)
        refine spend_goes.bind fun _ s' st _ => (hst (ha.tstar st)).bind fun _ s'' st' _ => ?_
        rw [← hz]
        exact ih ((ha.tstar st : Able keys s').tstar st') fun n hn => hk n (by
          rw [List.flatMap_cons, List.mem_append]
          exact .inr hn)

theorem data_half (M : Machine isa voc cf) {l : Option Str} {size : Nat} {swap : Bool} {es : List Spec.Expr} (S : Site isa p a (l, .data size swap es) b)
    (h : Half isa voc p a ((l, .data size swap es) :: b) s) (hlen : s.curline.length ≤ 600)
    (hmet : ∀ n ∈ es.flatMap Spec.Expr.names, key n ∉ labels [(l, (.data size swap es : Body isa.Ins))] → Met s (key n)) {n : Nat} {t mn o : Str} {os : List Str}
    (hS : Spec.Stmt (fun w => key w ∈ isa.words) t l mn (some o)) (hA : Spec.Around t s.curline) (hw : (key mn, size, swap) ∈ Spec.Program.directives)
    (hx : ∀ y ∈ l, Free isa y) (hj : Spec.Joined os o) (h2 : All2 Spec.Program.Number os es) :
    Fares (Next isa voc p a (l, .data size swap es) b s) (asmline (n + 1) ⟨true, true⟩ s) := by
  obtain ⟨e, he, hn0, hn, hI, ⟨d1, d2, d3⟩, hd, hd1, hd2⟩ := data_words _ hw
  have hops : ∀ y ∈ os, Spec.Operand y := by
    clear hj hmet h S
    induction h2 with
    | nil => intro y hy; cases hy
    | cons h _ ih =>
      intro y hy
      rcases List.mem_cons.1 hy with rfl | hy
      · exact h.1
      · exact ih y hy
  have hptr : e.label.ptr = .handler (.pseudo .dc) := by
    have : ∀ e ∈ pseudos, ∀ d ∈ dataDirectives, e.name = d.1 → e.label.ptr = .handler (.pseudo .dc) := by decide +kernel
    exact this e he _ hd (hn0.trans hd1.symm)
  refine gen_half M S h hlen hmet rfl hS hA hx (List.mem_append_left _ he) hn hI hptr fun {N keys s2} ha _ _ hN _ => ?_
  obtain ⟨ws, -, -, hx⟩ := C13_data e.label.modifier hops hj
  show Goes N s2 ((xDc e.label.modifier (some o) >>= fun _ => pure RC.cont) s2)
  rw [hx]
  exact (each_goes h2 ha hN).bind fun _ s' _ _ => .refl _

theorem ins_half (M : Machine isa voc cf) {l : Option Str} {i : isa.Ins} (S : Site isa p a (l, .ins i) b)
    (h : Half isa voc p a ((l, .ins i) :: b) s) (hlen : s.curline.length ≤ 600)
    (hmet : ∀ n ∈ isa.uses i, key n ∉ labels [(l, (.ins i : Body isa.Ins))] → Met s (key n)) {n : Nat} {t mn : Str} {o : Option Str}
    (hS : Spec.Stmt (fun w => key w ∈ isa.words) t l mn o) (hA : Spec.Around t s.curline) (hw : isa.writes i (key mn) o)
    (hx : ∀ y ∈ l, Free isa y) : Fares (Next isa voc p a (l, .ins i) b s) (asmline (n + 1) ⟨true, true⟩ s) := by
  obtain ⟨e, he, hn, hI, hd, hp, -, hr⟩ := M.ins hw
  exact gen_half M S h hlen hmet rfl hS hA hx he hn hI hp fun ha hv hz hN hf => hr ha hv hz hN hf

/-! ### Equates and origins -/

/-- What an equate does. -/
def Sets (N : Str → Prop) (names : List Str) (x o : Str) (s : St) : Res Unit → Prop
  | .ok _ s' => ∃ r s1 s2, (parse (some o) s = .ok r s1 ∧ s2.tree = s1.tree ∧ s2.flags.lohi = s1.flags.lohi ∧ s2.advance = s1.advance ∧ s2.notes = s.notes ∧ s2.log = s1.log) ∧
      Star (TStep N) (s, .live) (s2, .live) ∧ r.type = .absolute ∧
      (r.flags.forward = true → ∃ n ∈ names, ∃ l, s2.tree.find (canon 0 n) = some l ∧ l.flags.forward = true) ∧
      s' = { s2 with
        tree := s2.tree.put (canon s.segment x) (equLabel (s2.tree.find (canon s.segment x)) r)
        notes := if x = starKey then (s.passnumber, .choice r.flags.forward (.origin r.value)) :: s.notes else s.notes }
  | .err _ => False
  | .stop _ _ => True

theorem equ_sets {N : Str → Prop} {names : List Str} {x o : Str} (hp : Sure N names s (parse (some o) s))
    (hd : ∀ s2, Star (TStep N) (s, .live) (s2, .live) → defOk (s2.tree.find (canon s.segment x)) false) :
    Sets N names x o s (xEqu (some x) (some o) s) := by
  unfold xEqu
  rw [bind_run]
  cases e : parse (some o) s with
  | err s' => rw [e] at hp; exact hp.elim
  | stop w s' => trivial
  | ok r s1 =>
    rw [e] at hp
    obtain ⟨t1, hty, hfw⟩ := hp
    show Sets N names x o s ((modS _ >>= _) s1)
    rw [modS_bind_run]
    have t2 : Star (TStep N) (s, .live) ({ s1 with calcR := { r with flags := { r.flags with undef := false, used := false, noredef := false } } }, .live) :=
      t1.trans (.one (.scratch s1 s1.lst s1.bufpos _ s1.flags.listOn))
    have e2 : ∀ s2 : St, s2 = { s1 with calcR := { r with flags := { r.flags with undef := false, used := false, noredef := false } } } →
        s2.tree = s1.tree ∧ s2.flags.lohi = s1.flags.lohi ∧ s2.advance = s1.advance ∧ s2.notes = s.notes ∧ s2.log = s1.log := by
      rintro _ rfl; exact ⟨rfl, rfl, rfl, nwalk_notes (m := parse (some o)) (s' := s1) W.walk e, rfl⟩
    replace e2 := e2 _ rfl
    generalize ({ s1 with calcR := { r with flags := { r.flags with undef := false, used := false, noredef := false } } } : St) = s2 at t2 e2
    have hq : Quiet (whenM (r.type = .absolute ∨ r.type = .relative) (echoAddr r.value)) := by quiet
    have q := hq.run s2
    have w := (hq.tame (N := N)) s2
    rw [bind_run]
    cases e3 : whenM (r.type = .absolute ∨ r.type = .relative) (echoAddr r.value) s2 with
    | err s' => rw [e3] at q; exact q.elim
    | stop w s' => trivial
    | ok u s3 =>
      rw [e3] at q w
      obtain ⟨l3, b3, f3, rfl⟩ := q
      have t3 := t2.trans w
      have e4 : ∀ s3 : St, s3 = { s2 with lst := l3, bufpos := b3, flags := { s2.flags with listOn := f3 } } →
          s3.tree = s1.tree ∧ s3.flags.lohi = s1.flags.lohi ∧ s3.advance = s1.advance ∧ s3.notes = s.notes ∧ s3.log = s1.log := by rintro _ rfl; exact e2
      replace e4 := e4 _ rfl
      generalize ({ s2 with lst := l3, bufpos := b3, flags := { s2.flags with listOn := f3 } } : St) = s3 at t3 e4
      have hgen : ∀ {a b : Cfg}, Star (TStep N) a b → b.1.segment = a.1.segment ∧ b.1.passnumber = a.1.passnumber := by
        intro a b h
        induction h with
        | refl => exact ⟨rfl, rfl⟩
        | tail _ r ih => cases r <;> exact ih
      obtain ⟨hseg, hpass⟩ := hgen t3
      have hseg : s3.segment = s.segment := hseg
      have hpass : s3.passnumber = s.passnumber := hpass
      have hnot : s3.notes = s.notes := e4.2.2.2.1
      show Sets N names x o s ((whenM (some x = some starKey) (note (.choice r.flags.forward (.origin r.value))) >>= _) s3)
      have hw : whenM (some x = some starKey) (note (.choice r.flags.forward (.origin r.value))) s3 =
          .ok () { s3 with notes := if x = starKey then (s.passnumber, .choice r.flags.forward (.origin r.value)) :: s.notes else s.notes } := by
        unfold whenM
        by_cases hx : x = starKey
        · rw [if_pos (by rw [hx]), if_pos hx, ← hpass, ← hnot]
          rfl
        · rw [if_neg (by simpa using hx), if_neg hx, ← hnot]
          rfl
      rw [run_ok hw]
      generalize hns : (if x = starKey then (s.passnumber, Note.choice r.flags.forward (.origin r.value)) :: s.notes else s.notes) = ns
      have hd3 := deflabel_ok (s := { s3 with notes := ns }) (name := x) (fl := { r.flags with undef := false, used := false, noredef := false }) (ty := r.type) (v := r.value)
        (by rw [show ({ s3 with notes := ns } : St).segment = s.segment from hseg]; exact hd s3 t3)
      show Sets N names x o s ((deflabel x _ _ _ >>= _) { s3 with notes := ns })
      rw [run_ok hd3, getS_bind_run]
      have hf : ∀ y, (({ s3 with notes := ns } : St).putL (canon s3.segment x) y).tree.find (canon s3.segment x) = some y := fun y => Tree.find_put_self _ _ _
      show Sets N names x o s ((match (({ s3 with notes := ns } : St).putL (canon s3.segment x) _).tree.find (canon s3.segment x) with
        | some l => putLabel (canon s3.segment x) { l with modifier := r.modifier, ptr := r.ptr }
        | none => pure ()) _)
      rw [hf]
      refine ⟨r, s1, s3, ⟨e, e4⟩, t3, hty, fun h => ?_, ?_⟩
      · obtain ⟨n, hn, l, h1, h2⟩ := hfw h
        exact ⟨n, hn, l, by rw [e4.1]; exact h1, h2⟩
      · rw [← hseg]
        simp only [St.putL, Tree.put_put]
        rw [← hns]
        rfl

theorem equ_start (M : Machine isa voc cf) (h : Half isa voc p a b s) (hlen : s.curline.length ≤ 600)
    {n : Nat} {t mn y o : Str} (hS : Spec.Stmt (fun w => key w ∈ isa.words) t (some y) mn (some o)) (hA : Spec.Around t s.curline) (hm : key mn = c!"EQU")
    (hy : y = ['*'] ∨ Free isa y) :
    ∃ s1, Split s s1 ∧ s1.notes = s.notes ∧ asmline (n + 1) ⟨true, true⟩ s = (xEqu (some y) (some o) >>= fun _ => afterwards) s1 := by
  obtain ⟨e, he, e1, e2, e3, e4, e5, e6, e7⟩ := equ_word
  obtain ⟨l, hl, hw, hsr⟩ := word_entry M h.mid.base (List.mem_append_left _ he) e2 (e1.trans hm.symm)
  have hk := stmt_known h.mid.base hS (by unfold C41.Known; rw [hl]; rfl) fun z hz => by cases hz; exact hy
  obtain ⟨s1, hs, hnt, h1⟩ := line_plain (n := n) (st := ⟨true, true⟩) hk hA hlen (.inl hsr)
  refine ⟨s1, hs, hnt, ?_⟩
  rw [h1, hl]
  obtain ⟨w1, w2, w3, w4, w5, w6, w7, w8, -⟩ := hw
  rw [fields_eq (w1.trans e2) (w8.trans e6) (w7.trans e5) (w3.trans e3) (w5.trans e7) (fun _ => rfl), w6, e4]
  show ((xEqu (some y) (some o) >>= fun _ => pure RC.cont) >>= fun _ => afterwards) s1 = _
  rw [bind_assoc]
  rfl

/-- The state before the definition, in an equate or an origin. -/
theorem equ_before (h : Half isa voc p a (x :: b) s) (hl : labels [x] = []) {s1 : St} (hs : Split s s1) (hn : s1.notes = s.notes) :
    After isa voc p a x b s s1 := by
  obtain ⟨hm, hk⟩ := h.split hs hn
  have f1 := (split_facts hs).1
  obtain ⟨f1, -, f3, -, -, f6, f7, f8⟩ := split_facts hs
  refine ⟨hm.less (by rw [labels_cons]; exact List.subset_append_right _ _), hk _, (fun k hk => by rw [hl] at hk; cases hk), (fun k _ => by rw [f1]),
    (fun k hk => by rw [hl] at hk; cases hk), by obtain ⟨b, cl, nts, rfl, -, -⟩ := hs; rfl, f6,
    fun hp => ⟨f8 hp, by rw [f7]; unfold Placed at hp; rw [hp]; rfl⟩, f3⟩

theorem equ_half (M : Machine isa voc cf) {l : Str} {e : Spec.Expr} (S : Site isa p a (some l, .equ e) b)
    (h : Half isa voc p a ((some l, .equ e) :: b) s) (hlen : s.curline.length ≤ 600)
    (hmet : ∀ n ∈ e.names, key n ∉ labels [(some l, (.equ e : Body isa.Ins))] → Met s (key n)) {n : Nat} {t mn o : Str} {k : Spec.Level}
    (hS : Spec.Stmt (fun w => key w ∈ isa.words) t (some l) mn (some o)) (hA : Spec.Around t s.curline) (hm : key mn = c!"EQU")
    (hx : Free isa l) (ht : Spec.Text k e o) : Fares (Next isa voc p a (some l, .equ e) b s) (asmline (n + 1) ⟨true, true⟩ s) := by
  obtain ⟨s1, hs, hnt, h1⟩ := equ_start M h hlen (n := n) hS hA hm (.inr hx)
  rw [h1]
  have hAf := equ_before h rfl hs hnt
  obtain ⟨ha, hN⟩ := hAf.able M S h hmet
  obtain ⟨hc, hr⟩ := free_key (n := l) hx rfl
  have hqp : key l ∈ Spec.Program.equates p := by
    rw [S.eq, equates_append]
    exact List.mem_append_right _ List.mem_cons_self
  have hlp : key l ∉ labels p := S.proper.apart _ hqp
  have hlb : key l ∉ labels b := fun hb => hlp (by rw [S.eq, labels_append, labels_cons]; simp [hb])
  have hcl : canon s1.segment l = key l := by rw [hAf.mid.base.seg, hc]
  have hkid : ∀ {s2 : St}, Star (TStep fun k => (s1.tree.find k).isSome ∨ (Spec.Program.marks (Spec.Program.late p) a k = true ∧ k ∈ labels p)) (s1, .live) (s2, .live) →
      Mid isa voc p (Spec.Program.marks (Spec.Program.late p) a) (labels b) s2 ∧ Kin [] s1 s2 := fun {s2} st =>
    Mid.tstar M st hAf.mid S.star fun k hk => hk
  have key1 := equ_sets (x := l) (parse_sure (N := fun k => (s1.tree.find k).isSome ∨ (Spec.Program.marks (Spec.Program.late p) a k = true ∧ k ∈ labels p)) ht ha hN) fun s2 st q hq => .inr ⟨(hkid st).1.equs _ q (by rw [hcl]; exact hr) (by rw [hcl]; exact hlp) hq, rfl⟩
  rw [bind_run]
  cases ee : xEqu (some l) (some o) s1 with
  | err s' => rw [ee] at key1; exact key1.elim
  | stop w s' => trivial
  | ok u s3 =>
    rw [ee] at key1
    obtain ⟨r, -, s2, ⟨-, -, -, -, hn2, -⟩, st, hty, hfw, rfl⟩ := key1
    obtain ⟨m2, k2⟩ := hkid st
    have hne : l ≠ starKey := by
      rintro rfl
      exact hr (.inl (by decide))
    have hmk : ∀ k, Spec.Program.marks (Spec.Program.late p) (a ++ [(some l, .equ e)]) k =
        (Spec.Program.marks (Spec.Program.late p) a k || (decide (k = key l) && e.names.any fun n => Spec.Program.marks (Spec.Program.late p) a (key n))) := by
      intro k
      rw [marks_append]
      rfl
    obtain ⟨m3, k3⟩ := m2.equate M hx hlb hlp hqp hty (m' := Spec.Program.marks (Spec.Program.late p) (a ++ [(some l, .equ e)]))
      (fun k hk => by rw [hmk, hk]; rfl) fun hf => by
        obtain ⟨n, hn, q, h3, h4⟩ := hfw hf
        obtain ⟨g1, g2⟩ := S.names M (n := n) hn
        rw [g1] at h3
        rw [hmk, List.any_eq_true.2 ⟨n, hn, m2.marked (k := key n) g2 h3 h4⟩]
        simp
    rw [if_neg hne, hcl]
    show Fares _ (afterwards _)
    rw [← hn2]
    refine (afterwards_fares M m3 S.star).mono fun s' hs' => ?_
    have hown : Kin (labels [(some l, (.equ e : Body isa.Ins))] ++ Spec.Program.equates [(some l, (.equ e : Body isa.Ins))]) s s' :=
      ((hAf.kin.mono (List.subset_append_left _ _)).trans (k2.mono (List.nil_subset _))).trans
        ((k3.mono (fun _ h => h)).trans (hs'.2.mono (List.nil_subset _)))
    refine ⟨half_next S h hs'.1 hown (fun k hk => ?_) (fun h => by cases h), hown⟩
    rcases hk with hk | hk
    · cases hk
    · rw [show Spec.Program.equates [(some l, (.equ e : Body isa.Ins))] = [key l] from rfl, List.mem_singleton] at hk
      subst hk
      obtain ⟨l', h3, -, h4, -⟩ := hs'.2.find (key l) _ (fun h => hr (.inl h)) (by simp) (show (s2.tree.put (key l) _).find (key l) = _ from Tree.find_put_self _ _ _)
      exact ⟨l', h3, h4⟩

theorem org_half (M : Machine isa voc cf) {e : Spec.Expr} (S : Site isa p a (none, .org e) b)
    (h : Half isa voc p a ((none, .org e) :: b) s) (hlen : s.curline.length ≤ 600)
    (hmet : ∀ n ∈ e.names, key n ∉ labels [(none, (.org e : Body isa.Ins))] → Met s (key n)) {n : Nat} {t mn o : Str} {k : Spec.Level}
    (hS : Spec.Stmt (fun w => key w ∈ isa.words) t (some ['*']) mn (some o)) (hA : Spec.Around t s.curline) (hm : key mn = c!"EQU")
    (ht : Spec.Text k e o) : Fares (Next isa voc p a (none, .org e) b s) (asmline (n + 1) ⟨true, true⟩ s) := by
  obtain ⟨s1, hs, hnt, h1⟩ := equ_start M h hlen (n := n) hS hA hm (.inl rfl)
  rw [h1]
  have hAf := equ_before h rfl hs hnt
  obtain ⟨ha, hN⟩ := hAf.able M S h hmet
  have hcl : canon s1.segment ['*'] = starKey := by rw [hAf.mid.base.seg, canon_star]
  have hkid : ∀ {s2 : St}, Star (TStep fun k => (s1.tree.find k).isSome ∨ (Spec.Program.marks (Spec.Program.late p) a k = true ∧ k ∈ labels p)) (s1, .live) (s2, .live) →
      Mid isa voc p (Spec.Program.marks (Spec.Program.late p) a) (labels b) s2 ∧ Kin [] s1 s2 := fun {s2} st =>
    Mid.tstar M st hAf.mid S.star fun k hk => hk
  have key1 := equ_sets (x := ['*']) (parse_sure (N := fun k => (s1.tree.find k).isSome ∨ (Spec.Program.marks (Spec.Program.late p) a k = true ∧ k ∈ labels p)) ht ha hN) fun s2 st q hq => .inr ⟨((hkid st).1.loc q (by rw [← hcl]; exact hq)).1, rfl⟩
  rw [bind_run]
  cases ee : xEqu (some ['*']) (some o) s1 with
  | err s' => rw [ee] at key1; exact key1.elim
  | stop w s' => trivial
  | ok u s3 =>
    rw [ee] at key1
    obtain ⟨r, -, s2, ⟨-, -, -, -, hn2, -⟩, st, hty, hfw, rfl⟩ := key1
    obtain ⟨m2, k2⟩ := hkid st
    have hnf : r.flags.forward = false := by
      cases hf : r.flags.forward with
      | false => rfl
      | true =>
        obtain ⟨n, hn, q, h3, h4⟩ := hfw hf
        obtain ⟨g1, g2⟩ := S.names M (n := n) hn
        rw [g1] at h3
        have := m2.marked g2 h3 h4
        rw [S.proper.settled a _ b S.eq n hn] at this
        cases this
    obtain ⟨q, hq, -⟩ := m2.base.star
    have m3 := m2.star (l := equLabel (s2.tree.find starKey) r) (m2.base.put_star M hty) S.star
      (by
        rw [hq]
        show (q.flags.noredef || false) = false ∧ (q.flags.forward || r.flags.forward) = false
        rw [Bool.or_false, hnf, Bool.or_false]
        exact m2.loc q hq)
    have k3 : Kin [] s2 { s2 with tree := s2.tree.put starKey (equLabel (s2.tree.find starKey) r) } := Kin.star fun _ => rfl
    have m4 : Mid isa voc p (Spec.Program.marks (Spec.Program.late p) a) (labels b) { s2 with
        tree := s2.tree.put starKey (equLabel (s2.tree.find starKey) r)
        notes := (s1.passnumber, .choice r.flags.forward (.origin r.value)) :: s1.notes } := by
      refine ⟨m3.base.same rfl rfl rfl rfl rfl, m3.forw, m3.ahead, m3.equs, m3.loc, fun z hz => ?_, m3.alive, m3.only⟩
      rcases List.mem_cons.1 hz with rfl | hz
      · refine ⟨by simp, fun c hc => ?_⟩
        dsimp only at hc
        rw [hnf] at hc
        cases hc
      · exact hAf.mid.mild z hz
    have k4 : Kin [] s2 { s2 with
        tree := s2.tree.put starKey (equLabel (s2.tree.find starKey) r)
        notes := (s1.passnumber, .choice r.flags.forward (.origin r.value)) :: s1.notes } := k3.trans (Kin.same rfl rfl rfl rfl rfl rfl)
    have hpl : Placed { s2 with
        tree := s2.tree.put starKey (equLabel (s2.tree.find starKey) r)
        notes := (s1.passnumber, .choice r.flags.forward (.origin r.value)) :: s1.notes } := by
      unfold Placed starLabel
      dsimp only
      rw [Tree.find_put_self]
      rfl
    rw [if_pos (by decide), hcl]
    refine (afterwards_fares M m4 S.star).mono fun s' hs' => ?_
    exact hAf.next S h (fun e => by simp) hs'.1 (k2.trans (k4.trans hs'.2)) fun _ => hs'.2.placed hpl

/-! ### Lines without a statement -/

/-- A label alone. -/
theorem lone_front (M : Machine isa voc cf) {l : Str} (S : Site isa p a (some l, .nothing) b)
    (h : Half isa voc p a ((some l, .nothing) :: b) s) (hlen : s.curline.length ≤ 600) {n : Nat}
    (hA : Spec.Around l s.curline) (hc : ∃ c r, s.curline = c :: r ∧ ¬ Spec.IsBlank c)
    (hx : Free isa l) : ∃ s2, After isa voc p a (some l, .nothing) b s s2 ∧
      asmline (n + 1) ⟨true, true⟩ s = (outputline >>= fun _ => pure RC.cont) s2 := by
  have hw : Spec.Word l := by
    obtain ⟨-, c, r, rfl, -⟩ := isName_len hx.name
    refine ⟨by simp, fun d hd => ?_⟩
    have hd' : d.isAlphanum ∨ d = '_' ∨ d = '.' := by
      rcases List.mem_cons.1 hd with rfl | hd
      · exact hx.name.1.imp_left fun h => by simp [Char.isAlphanum, h]
      · exact hx.name.2.1 d hd
    intro hm
    revert hd'
    simp only [List.mem_cons, List.not_mem_nil, or_false] at hm
    rcases hm with rfl | rfl | rfl | rfl | rfl | rfl | rfl | rfl <;> decide
  have hk := not_known h.mid.base (.inr hx)
  have he : entryOf s l = none := by
    unfold C41.Known at hk
    cases he : entryOf s l with
    | none => rfl
    | some e => rw [he] at hk; exact absurd rfl hk
  obtain ⟨s1, hs, hnt, h1⟩ := line_plain (n := n) (st := ⟨true, true⟩) (.one hw) hA hlen (.inr he)
  have hf : startsFlush s.curline = true := by
    obtain ⟨c, r, e, hb⟩ := hc
    rw [e]
    have : isblank c = false := by
      cases hx : isblank c with
      | false => rfl
      | true => exact absurd (isblank_iff.1 hx) hb
    simp [startsFlush, this]
  have h2 : asmline (n + 1) ⟨true, true⟩ s = (labelPart false (some l) >>= fun _ => outputline >>= fun _ => pure RC.cont) s1 := by
    rw [h1]
    unfold doFields
    rw [he, hf]
    rfl
  rw [h2]
  obtain ⟨s2, h3, hAf⟩ := label_half M S h hs hnt (fun y hy => by cases hy; exact hx) (fun e => by simp)
  rw [run_ok h3]
  exact ⟨s2, hAf, rfl⟩

theorem lone_half (M : Machine isa voc cf) {l : Str} (S : Site isa p a (some l, .nothing) b)
    (h : Half isa voc p a ((some l, .nothing) :: b) s) (hlen : s.curline.length ≤ 600) {n : Nat}
    (hA : Spec.Around l s.curline) (hc : ∃ c r, s.curline = c :: r ∧ ¬ Spec.IsBlank c)
    (hx : Free isa l) : Fares (Next isa voc p a (some l, .nothing) b s) (asmline (n + 1) ⟨true, true⟩ s) := by
  obtain ⟨s2, hAf, h2⟩ := lone_front M S h hlen (n := n) hA hc hx
  rw [h2]
  exact (outputline_fares hAf.mid).mono fun s' hs' => hAf.next S h (fun e => by simp) hs'.1 hs'.2 fun h => by cases h

/-- Nothing at all. -/
theorem blank_front (h : Half isa voc p a ((none, .nothing) :: b) s) (hlen : s.curline.length ≤ 600) {n : Nat}
    (hA : Spec.Around [] s.curline) : ∃ s2, After isa voc p a (none, .nothing) b s s2 ∧
      asmline (n + 1) ⟨true, true⟩ s = (outputline >>= fun _ => pure RC.cont) s2 := by
  obtain ⟨b', cl, h1, hb, hc⟩ := stripLine_around (s := startedSt s) InLine.nil hA
    (by show 0 + (2 + s.curline.length) < 4000; omega)
  have hs : Split s { startedSt s with bufpos := b', curline := cl } := by
    refine ⟨b', cl, s.notes, rfl, ?_, hc⟩
    change b' ≤ 0 + (2 + s.curline.length) at hb
    omega
  have e : asmline (n + 1) ⟨true, true⟩ s = (outputline >>= fun _ => pure RC.cont) { startedSt s with bufpos := b', curline := cl } := by
    show asmlineF (asmline n) n ⟨true, true⟩ s = _
    unfold asmlineF
    rw [run_ok (startLine_eq s), getS_bind_run, run_ok h1, if_pos rfl]
    rfl
  exact ⟨_, equ_before h rfl hs rfl, e⟩

theorem blank_half (S : Site isa p a (none, .nothing) b) (h : Half isa voc p a ((none, .nothing) :: b) s) (hlen : s.curline.length ≤ 600) {n : Nat}
    (hA : Spec.Around [] s.curline) : Fares (Next isa voc p a (none, .nothing) b s) (asmline (n + 1) ⟨true, true⟩ s) := by
  obtain ⟨s2, hAf, h2⟩ := blank_front h hlen (n := n) hA
  rw [h2]
  exact (outputline_fares hAf.mid).mono fun s' hs' => hAf.next S h (fun e => by simp) hs'.1 hs'.2 fun h => by cases h

/-- **One line, in either pass.** -/
theorem line_half (M : Machine isa voc cf) (S : Site isa p a x b) (h : Half isa voc p a (x :: b) s) (hlen : s.curline.length ≤ 600)
    (hmet : ∀ n ∈ x.2.uses, key n ∉ labels [x] → Met s (key n)) (hl : Line isa s.curline x.1 x.2) {n : Nat} :
    Fares (Next isa voc p a x b s) (asmline (n + 1) ⟨true, true⟩ s) := by
  obtain ⟨l, body⟩ := x
  dsimp only at hl
  generalize hc : s.curline = line at hl
  cases hl with
  | blank hA => exact blank_half S h hlen (hc ▸ hA)
  | label hA hf hx => exact lone_half M S h hlen (hc ▸ hA) (hc ▸ hf) hx
  | org hA hS hm ht => exact org_half M S h hlen hmet hS (hc ▸ hA) hm ht
  | equ hA hS hm hx ht => exact equ_half M S h hlen hmet hS (hc ▸ hA) hm hx ht
  | data hA hS hd hx hj h2 => exact data_half M S h hlen hmet hS (hc ▸ hA) hd hx hj h2
  | ins hA hS hw hx => exact ins_half M S h hlen hmet hS (hc ▸ hA) hw hx
end

end Crasm.C42

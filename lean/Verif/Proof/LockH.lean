import Verif.Proof.LockE

/-! Two passes side by side: instructions and data. -/

namespace Crasm

variable {X : Ctx} {s1 s2 : St}

/-! ### Rules -/

/-- Related states after `m` and `m'`. -/
class L2 (m : M α) (m' : M β) : Prop where
  run : ∀ (X : Ctx) (s1 s2 : St), P X s1 s2 → LsAt X s1 s2 m m' (Ends2 X) No

instance (m : M α) (m' : M β) [Quiet m] [Quiet m'] : L2 m m' := ⟨fun _ _ _ h => LsAt.list h⟩

theorem LsAt.after {m : M α} {m' : M β} [hm : L2 m m'] {f : α → M γ} {g : β → M δ} {Q : γ → δ → St → St → Prop}
    {E : δ → St → St → Prop} (h : P X s1 s2) (hf : ∀ a, Walk K (f a)) (hg : ∀ b, Walk K (g b))
    (hk : ∀ a b t1 t2, P X t1 t2 → LsAt X t1 t2 (f a) (g b) Q E) : LsAt X s1 s2 (m >>= f) (m' >>= g) Q E :=
  (hm.run X s1 s2 h).bindNo hf hg hk

theorem L2.bind {m : M α} {m' : M β} {f : α → M γ} {g : β → M δ} (hm : L2 m m') (hf : ∀ a, Walk K (f a))
    (hg : ∀ b, Walk K (g b)) (hk : ∀ a b, L2 (f a) (g b)) : L2 (m >>= f) (m' >>= g) :=
  ⟨fun X _ _ h => LsAt.after h hf hg fun a b t1 t2 q => (hk a b).run X t1 t2 q⟩

theorem L2.whenM {c c' : Prop} [Decidable c] [Decidable c'] {m m' : M Unit} (hc : c ↔ c') (hm : L2 m m') :
    L2 (whenM c m) (whenM c' m') := by
  unfold Crasm.whenM
  by_cases h : c
  · rw [if_pos h, if_pos (hc.mp h)]; exact hm
  · rw [if_neg h, if_neg (fun x => h (hc.mpr x))]
    exact ⟨fun _ _ _ h => LsAt.pure h⟩

theorem LsAt.whens {c c' : Prop} [Decidable c] [Decidable c'] {m m' : M Unit} {Q : Unit → Unit → St → St → Prop}
    {E : Unit → St → St → Prop} (hc : c ↔ c') (hm : c → LsAt X s1 s2 m m' Q E) (hq : Q () () s1 s2) :
    LsAt X s1 s2 (whenM c m) (whenM c' m') Q E := by
  unfold Crasm.whenM
  by_cases h : c
  · rw [if_pos h, if_pos (hc.mp h)]; exact hm h
  · rw [if_neg h, if_neg (fun x => h (hc.mpr x))]
    exact LsAt.pure hq

theorem LsAt.whenN {c c' : Prop} [Decidable c] [Decidable c'] {m m' : M Unit} {Q : Unit → Unit → St → St → Prop}
    {E : Unit → St → St → Prop} (hc : c ↔ c') (hm : c → LsAt X s1 s2 m m' Q E) (hq : ¬ c → Q () () s1 s2) :
    LsAt X s1 s2 (whenM c m) (whenM c' m') Q E := by
  unfold Crasm.whenM
  by_cases h : c
  · rw [if_pos h, if_pos (hc.mp h)]; exact hm h
  · rw [if_neg h, if_neg (fun x => h (hc.mpr x))]
    exact LsAt.pure (hq h)

/-! ### Late errors -/

/-- Pass 1 has called error(), stepping over what the line has generated; pass 2 has yet to do so. -/
def Late (X : Ctx) : Unit → St → St → Prop := fun _ t1 t2 => ∀ u2, bumpStar t2 = .ok () u2 → P X t1 u2

theorem star_some {l1 l2 : Label} (h : StarRel (some l1) (some l2)) {v1 v2 : Word} {a : Word}
    (h1 : addS l1.value a = some v1) (h2 : addS l2.value a = some v2) :
    StarRel (some { l1 with value := v1 }) (some { l2 with value := v2 }) := by
  obtain ⟨_, _, e1, e2, n1, n2, h3⟩ := h
  cases e1; cases e2
  refine ⟨_, _, rfl, rfl, n1, n2, ?_⟩
  rcases h3 with h3 | ⟨h3, h4⟩
  · exact .inl h3
  · have e : v2 = v1 := by rw [h4, h2] at h1; exact Option.some.inj h1
    subst e
    exact .inr ⟨⟨{ h3.core with val := fun _ => rfl }, h3.defd, h3.noredef⟩, rfl⟩

theorem PW.star (h : PW X s1 s2) : StarRel (s1.tree.find starKey) (s2.tree.find starKey) := by
  have := h.tree starKey
  unfold NodeRel at this
  rw [if_pos rfl] at this
  exact this

theorem nodeRel_star {l1 l2 : Label} (h : StarRel (some l1) (some l2)) : NodeRel X starKey (some l1) (some l2) := by
  unfold NodeRel; rw [if_pos rfl]; exact h

theorem bumpStar_ok {s u : St} (h : bumpStar s = .ok () u) : ∃ v, addS (starLabel s).value (BitVec.ofInt 64 s.advance) = some v ∧
    u = s.putL starKey { starLabel s with value := v } := by
  unfold bumpStar at h
  rw [getS_bind_run] at h
  revert h
  cases e : addS (starLabel s).value (BitVec.ofInt 64 s.advance) with
  | none => intro h; cases h
  | some v => intro h; cases h; exact ⟨v, rfl, rfl⟩

theorem P.bumped (h : P X s1 s2) {v1 v2 : Word} (h1 : addS (starLabel s1).value (BitVec.ofInt 64 s1.advance) = some v1)
    (h2 : addS (starLabel s2).value (BitVec.ofInt 64 s2.advance) = some v2) :
    P X (s1.putL starKey { starLabel s1 with value := v1 }) (s2.putL starKey { starLabel s2 with value := v2 }) := by
  obtain ⟨l1, l2, e1, e2, n1, n2, h3⟩ := h.toPW.star
  have q1 : starLabel s1 = l1 := by unfold starLabel; rw [e1]; rfl
  have q2 : starLabel s2 = l2 := by unfold starLabel; rw [e2]; rfl
  rw [q1] at h1 ⊢
  rw [q2, h.advance] at h2
  rw [q2]
  refine h.put (nodeRel_star (star_some ?_ h1 h2)) fun ho _ => h.star ho l1 e1
  exact ⟨l1, l2, rfl, rfl, n1, n2, h3⟩

theorem ls_bumpStar {E : Unit → St → St → Prop} (h : P X s1 s2) : LsAt X s1 s2 bumpStar bumpStar (Ends2 X) E := by
  intro f1 f2
  cases e2 : bumpStar s2 with
  | err t => cases bumpStar s1 <;> trivial
  | stop w t => cases bumpStar s1 <;> trivial
  | ok a t2 =>
    cases e1 : bumpStar s1 with
    | ok b t1 =>
      obtain ⟨v1, h1, rfl⟩ := bumpStar_ok e1
      obtain ⟨v2, h2, rfl⟩ := bumpStar_ok e2
      exact h.bumped h1 h2
    | err t =>
      exfalso
      unfold bumpStar at e1
      rw [getS_bind_run] at e1
      revert e1
      cases addS (starLabel s1).value (BitVec.ofInt 64 s1.advance) <;> intro h <;> cases h
    | stop w t => trivial

theorem addS_zero (a : Word) : addS a (BitVec.ofInt 64 0) = some a := by
  unfold addS
  have : a.saddOverflow (BitVec.ofInt 64 0) = false := by
    unfold BitVec.saddOverflow
    have h1 := BitVec.toInt_lt (x := a)
    have h2 := BitVec.le_toInt (x := a)
    simp
    omega
  rw [this]
  simp

theorem late_error {msg : Str} {t1 : St} (h : P X s1 s2) (he : (error msg : M α) s1 = .err t1) : Late X () t1 s2 := by
  intro u2 hb
  obtain ⟨v2, h2, rfl⟩ := bumpStar_ok hb
  rcases error_run (α := α) msg s1 with ⟨w, s', e, -⟩ | ⟨s', s'', e, hq, hh⟩
  · rw [e] at he; cases he
  · rw [e] at he; cases he
    obtain ⟨_, _, _, rfl⟩ := hq
    rcases hh with ⟨h0, rfl⟩ | ⟨t, h0, ⟨v1, h1, rfl⟩, rfl⟩
    · obtain ⟨l1, l2, e1, e2, n1, n2, h3⟩ := h.toPW.star
      have q1 : starLabel s1 = l1 := by unfold starLabel; rw [e1]; rfl
      have key := h.bumped (v1 := l1.value) (v2 := v2) (by rw [h0, q1]; exact addS_zero _) h2
      have tr : ∀ k, NodeRel X k (s1.tree.find k) ((s2.tree.put starKey { starLabel s2 with value := v2 }).find k) := by
        intro k
        have := key.tree k
        by_cases hk : k = starKey
        · subst hk
          have this : NodeRel X starKey ((s1.tree.put starKey { starLabel s1 with value := l1.value }).find starKey) _ := this
          rw [Tree.find_put_self, q1] at this
          rw [e1]
          exact this
        · have this : NodeRel X k ((s1.tree.put starKey { starLabel s1 with value := l1.value }).find k) _ := this
          rw [Tree.find_put_ne _ _ hk] at this
          exact this
      exact { h with tree := tr }
    · exact { h.bumped h1 h2 with }

theorem Late.quiet {t1 t2 u2 : St} {a b : Unit} (h : Late X a t1 t2) (hq : SameBut t2 u2) : Late X b t1 u2 := by
  intro v2 hb
  obtain ⟨_, _, _, rfl⟩ := hq
  obtain ⟨v, h2, rfl⟩ := bumpStar_ok hb
  have e : bumpStar t2 = .ok () (t2.putL starKey { starLabel t2 with value := v }) := by
    unfold bumpStar
    rw [getS_bind_run]
    have h2 : addS (starLabel t2).value (BitVec.ofInt 64 t2.advance) = some v := h2
    simp only [h2]
    rfl
  exact { h _ e with }

theorem when_ok {c : Prop} [Decidable c] {msg : Str} {s t : St} {u : Unit} (h : whenM c (error msg) s = .ok u t) : t = s := by
  unfold Crasm.whenM at h
  split at h
  · exact absurd h error_not_ok
  · cases h; rfl

/-- Pass 1 calls error(), pass 2 goes on. -/
theorem LsAt.late {msg : Str} {m : M Unit} [q : Quiet m] {Q : Unit → Unit → St → St → Prop} (h : P X s1 s2) :
    LsAt X s1 s2 (Crasm.error msg : M Unit) m Q (Late X) := by
  intro _ _
  have hq := q.run s2
  cases e1 : (Crasm.error msg : M Unit) s1 with
  | ok a t => exact absurd e1 error_not_ok
  | stop w t => cases m s2 <;> trivial
  | err t1 =>
    revert hq
    cases m s2 with
    | ok b t2 => exact fun hq => (late_error h e1).quiet (b := b) hq
    | err t2 => exact fun _ => trivial
    | stop w t2 => exact fun _ => trivial

/-- An error after all bytes of the line. -/
theorem LsAt.lastly {c c' : Prop} [Decidable c] [Decidable c'] {msg msg' : Str} (h : P X s1 s2) :
    LsAt X s1 s2 (whenM c (Crasm.error msg)) (whenM c' (Crasm.error msg')) (Ends2 X) (Late X) := by
  unfold Crasm.whenM
  by_cases h2 : c'
  · rw [if_pos h2]; exact LsAt.error
  · rw [if_neg h2]
    by_cases h1 : c
    · rw [if_pos h1]; exact @LsAt.late _ _ _ _ _ (Quiet.pure ()) _ h
    · rw [if_neg h1]; exact LsAt.pure h

/-- ... followed by another one. -/
theorem LsAt.lastly2 {m m' : M Unit} {k k' : Unit → M Unit} (hm : LsAt X s1 s2 m m' (Ends2 X) (Late X))
    (hk : ∀ t1 t2, P X t1 t2 → LsAt X t1 t2 (k ()) (k' ()) (Ends2 X) (Late X))
    (hw : Walk K (k ())) (hw' : Walk K (k' ())) (hq : ∀ t u c, k' () t = .ok c u → SameBut t u) :
    LsAt X s1 s2 (m >>= k) (m' >>= k') (Ends2 X) (Late X) :=
  hm.bind (fun _ => hw) (fun _ => hw') (fun _ _ t1 t2 q => hk t1 t2 q) fun _ t1 t2 c u2 hl e => hl.quiet (hq t2 u2 c e)

theorem when_same {c : Prop} [Decidable c] {msg : Str} (t u : St) (a : Unit) (h : whenM c (Crasm.error msg) t = .ok a u) :
    SameBut t u := by rw [when_ok h]; exact .rfl' _

/-! ### Choices -/

theorem choicesOf_cons (p : Nat) (f : Bool) (c : Choice) (ns : List (Nat × Note)) :
    choicesOf p ((p, .choice f c) :: ns) = choicesOf p ns ++ [(f, c)] := by
  simp [choicesOf]

def noteSt (s : St) (n : Note) : St := { s with notes := (s.passnumber, n) :: s.notes }

theorem choice_agree (h : PW X s1 s2) {f1 f2 : Bool} {c1 c2 : Choice}
    (k1 : K (noteSt s1 (.choice f1 c1), .live) (X.E1, .live)) (k2 : K (noteSt s2 (.choice f2 c2), .live) (X.E2, .live)) :
    c1 = c2 ∨ (f1 = false ∧ f2 = false) := by
  obtain ⟨n1, e1, -⟩ := k1.notes
  obtain ⟨n2, e2, -⟩ := k2.notes
  have e1 : X.E1.notes = n1 ++ (s1.passnumber, .choice f1 c1) :: s1.notes := e1
  have e2 : X.E2.notes = n2 ++ (s2.passnumber, .choice f2 c2) :: s2.notes := e2
  refine X.comp (choicesOf 1 s1.notes).length (f1, c1) (f2, c2) ?_ ?_
  · rw [e1, h.p1, choicesOf_append, choicesOf_cons]
    simp
  · rw [e2, h.p2, choicesOf_append, choicesOf_cons, ← h.counts]
    simp

theorem PW.noted (h : PW X s1 s2) (f1 f2 : Bool) (c1 c2 : Choice) :
    PW X (noteSt s1 (.choice f1 c1)) (noteSt s2 (.choice f2 c2)) :=
  { h with
    counts := by
      show (choicesOf 2 ((s2.passnumber, _) :: s2.notes)).length = (choicesOf 1 ((s1.passnumber, _) :: s1.notes)).length
      rw [h.p1, h.p2, choicesOf_cons, choicesOf_cons]
      simp [h.counts]
    labels := by
      show labelsOf 2 ((s2.passnumber, _) :: s2.notes) = labelsOf 1 ((s1.passnumber, _) :: s1.notes)
      simp [labelsOf, h.labels] }

theorem P.noted (h : P X s1 s2) (f1 f2 : Bool) (c1 c2 : Choice) : P X (noteSt s1 (.choice f1 c1)) (noteSt s2 (.choice f2 c2)) :=
  { h with toPW := h.toPW.noted f1 f2 c1 c2 }

theorem LsAt.choice {f1 f2 : Bool} {c1 c2 : Choice} {E : Unit → St → St → Prop} (h : P X s1 s2) :
    LsAt X s1 s2 (note (.choice f1 c1)) (note (.choice f2 c2))
      (fun _ _ t1 t2 => (c1 = c2 ∨ (f1 = false ∧ f2 = false)) ∧ P X t1 t2) E := fun k1 k2 =>
  ⟨choice_agree h.toPW k1 k2, h.noted f1 f2 c1 c2⟩

/-! ### Bytes -/

theorem emitted_pc1 (s : St) (x : Byte) : (Code.emitted s x).pc = s.code.pc + 1 := by
  have hpc : (Code.opened s).pc = s.code.pc := by unfold Code.opened; split <;> rfl
  have hpush : ∀ hex (c : Code), (c.push hex x).pc = c.pc := by
    intro hex c; unfold Code.push; split
    · simp only [Code.flush, Code.write]; split
      · split <;> rfl
      · rfl
    · rfl
  unfold Code.emitted
  dsimp only
  split
  · show ((Code.opened s).push s.flags.codeHex x).pc + 1 = _
    rw [hpush, hpc]
  · rw [hpc]

theorem insert8_not_err {x : Byte} {s t : St} (ho : s.flags.orgGv = true) : insert8 x s ≠ .err t := by
  intro h
  by_cases hc : s.flags.nocode = false → s.code.file = none → s.env.canCreate = true
  · rcases insert8_run x s ho hc with ⟨w, s1, c, h1, -⟩ | ⟨s1, h1, -⟩ <;> (rw [h1] at h; cases h)
  · have h1 : s.flags.nocode = false := by
      cases e : s.flags.nocode
      · rfl
      · exact absurd (fun h => by rw [e] at h; cases h) hc
    have h2 : s.code.file = none := by
      cases e : s.code.file
      · rfl
      · exact absurd (fun _ h => by rw [e] at h; cases h) hc
    have h3 : s.env.canCreate = false := by
      cases e : s.env.canCreate
      · rfl
      · exact absurd (fun _ _ => e) hc
    have ho' : openScode s = .stop (.fatal c!"can't open scode file") s := by
      unfold openScode
      rw [getS_bind_run, h1, h2, h3]
      rfl
    unfold insert8 at h
    rw [getS_bind_run, ho] at h
    simp only [Bool.not_true, Bool.false_eq_true, if_false] at h
    rw [bind_run, ho'] at h
    cases h

instance ls_insert8 (x y : Byte) : L2 (insert8 x) (insert8 y) := ⟨fun X s1 s2 h => by
  intro _ _
  cases e2 : insert8 y s2 with
  | err t => cases insert8 x s1 <;> trivial
  | stop w t => cases insert8 x s1 <;> trivial
  | ok b t2 =>
    obtain ⟨o2, q2⟩ := insert8_ok e2
    have o1 : s1.flags.orgGv = true := by rw [← h.org]; exact o2
    cases e1 : insert8 x s1 with
    | ok a t1 =>
      obtain ⟨-, q1⟩ := insert8_ok e1
      refine P.same (s1 := emitSt s1 x) (s2 := emitSt s2 y) ?_ q1 q2
      exact { h with
        advance := by show s2.advance + 1 = s1.advance + 1; rw [h.advance]
        pc := fun _ => by show (Code.emitted s2 y).pc = (Code.emitted s1 x).pc; rw [emitted_pc1, emitted_pc1, h.pc o1] }
    | err t => exact absurd e1 (insert8_not_err o1)
    | stop w t => trivial⟩

theorem l2_two {m1 m2 m1' m2' : M Unit} (h1 : L2 m1 m1') (h2 : L2 m2 m2') (w : Walk K m2) (w' : Walk K m2') :
    L2 (m1 >>= fun _ => m2) (m1' >>= fun _ => m2') := h1.bind (fun _ => w) (fun _ => w') fun _ _ => h2

instance ls_insert16 (x y : BitVec 16) : L2 (insert16 x) (insert16 y) := ⟨fun X s1 s2 h => by
  unfold insert16
  refine LsAt.getS ?_
  split
  · split
    · exact (l2_two (ls_insert8 _ _) (ls_insert8 _ _) W.walk W.walk).run X s1 s2 h
    · exact (l2_two (ls_insert8 _ _) (ls_insert8 _ _) W.walk W.walk).run X s1 s2 h
  · split
    · exact (l2_two (ls_insert8 _ _) (ls_insert8 _ _) W.walk W.walk).run X s1 s2 h
    · exact (l2_two (ls_insert8 _ _) (ls_insert8 _ _) W.walk W.walk).run X s1 s2 h⟩

instance ls_insert32 (x y : BitVec 32) : L2 (insert32 x) (insert32 y) := ⟨fun X s1 s2 h => by
  unfold insert32
  refine LsAt.getS ?_
  split
  · split
    · exact (l2_two (ls_insert16 _ _) (ls_insert16 _ _) W.walk W.walk).run X s1 s2 h
    · exact (l2_two (ls_insert16 _ _) (ls_insert16 _ _) W.walk W.walk).run X s1 s2 h
  · split
    · exact (l2_two (ls_insert16 _ _) (ls_insert16 _ _) W.walk W.walk).run X s1 s2 h
    · exact (l2_two (ls_insert16 _ _) (ls_insert16 _ _) W.walk W.walk).run X s1 s2 h⟩

/-- A handler: related states, errors of pass 1 alone after all bytes. -/
class Lt (m : M Unit) (m' : M Unit) : Prop where
  run : ∀ (X : Ctx) (s1 s2 : St), P X s1 s2 → LsAt X s1 s2 m m' (Ends2 X) (Late X)

theorem L2.lt {m m' : M Unit} (h : L2 m m') : Lt m m' := ⟨fun X s1 s2 p => (h.run X s1 s2 p).no⟩

theorem l2_when_same {c : Prop} [Decidable c] (msg : Str) (m : M Unit) : L2 (whenM c m) (whenM c (Crasm.error msg)) := ⟨fun X s1 s2 h => by
  unfold Crasm.whenM
  split
  · exact LsAt.error
  · exact LsAt.pure h⟩

instance lt_relBranch (code : BitVec 32) (o : Option Str) : Lt (relBranch code o) (relBranch code o) := ⟨fun X s1 s2 h => by
  unfold relBranch
  refine (ls_parseAbs o h).bindNo (by intro; kwalk) (by intro; kwalk) fun r1 r2 t1 t2 q => ?_
  refine LsAt.getS ?_
  refine LsAt.after q.2.2 (by intro; kwalk) (by intro; kwalk) fun _ _ u1 u2 q => ?_
  refine LsAt.after q (by intro; kwalk) (by intro; kwalk) fun _ _ u1 u2 q => ?_
  exact LsAt.lastly q⟩

/-! ### 6800 -/

namespace C6800

instance lt_single (code : BitVec 32) (o : Option Str) : Lt (single code o) (single code o) := ⟨fun X s1 s2 h => by
  unfold single
  refine LsAt.after h (by intro; kwalk) (by intro; kwalk) fun _ _ t1 t2 q => ?_
  exact LsAt.lastly q⟩

/-- The same addressing mode. -/
def ModeRel (X : Ctx) (a b : BitVec 32 × BitVec 32) (t1 t2 : St) : Prop := b.1 = a.1 ∧ P X t1 t2

theorem ls_modeValue (add : BitVec 32) (a : Str) (h : P X s1 s2) :
    LsAt X s1 s2 (modeValue add a) (modeValue add a) (ModeRel X) No := by
  unfold modeValue
  refine (ls_parseAbs _ h).bindNo (by intro; kwalk) (by intro; kwalk) fun r1 r2 t1 t2 q => ?_
  obtain ⟨-, hc, q⟩ := q
  have hf := hc.forward
  cases e : r1.flags.forward with
  | true =>
    rw [e] at hf
    rw [hf, if_neg (by simp), if_neg (by simp)]
    exact LsAt.pure ⟨rfl, q⟩
  | false =>
    have hv := hc.val (.inl e)
    rw [e] at hf
    rw [hf, hv]
    split
    · exact LsAt.pure ⟨rfl, q⟩
    · exact LsAt.pure ⟨rfl, q⟩

theorem ls_findmode (o : Option Str) (ms : List (Str × BitVec 32)) :
    ∀ {s1 s2}, P X s1 s2 → LsAt X s1 s2 (findmode o ms) (findmode o ms) (ModeRel X) No := by
  induction ms with
  | nil => intro s1 s2 h; exact LsAt.error
  | cons m ms ih =>
    intro s1 s2 h
    obtain ⟨pat, add⟩ := m
    unfold findmode
    cases o with
    | none => exact ih h
    | some o =>
      dsimp only
      refine LsAt.eq h (by intro; kwalk) (by intro; kwalk) fun r t1 t2 q => ?_
      split
      · exact ls_modeValue _ _ q
      · exact ls_modeValue _ _ q
      · exact ih q

theorem lt_codemode (code add v1 v2 : BitVec 32) : Lt (codemode code add v1) (codemode code add v2) := ⟨fun X s1 s2 h => by
  unfold codemode
  refine LsAt.after h (by intro; kwalk) (by intro; kwalk) fun _ _ t1 t2 q => ?_
  split
  · exact ((ls_insert16 _ _).run X t1 t2 q).no
  · split
    · exact ((ls_insert16 _ _).run X t1 t2 q).no
    · refine LsAt.after q (by intro; kwalk) (by intro; kwalk) fun _ _ t1 t2 q => ?_
      by_cases h2 : v2 &&& 0xff00 ≠ 0
      · rw [if_pos h2]
        by_cases ha : add = 0x20
        · rw [if_pos ha]; exact LsAt.error
        · rw [if_neg ha]
          haveI : Quiet (Pure.pure () : M Unit) := Quiet.pure ()
          split <;> exact LsAt.quiet fun _ _ _ _ _ _ q1 q2 => q.same q1 q2
      · rw [if_neg h2]
        haveI : Quiet (Pure.pure () : M Unit) := Quiet.pure ()
        split
        · split
          · exact LsAt.late q
          · exact LsAt.quiet fun _ _ _ _ _ _ q1 q2 => q.same q1 q2
        · exact LsAt.pure q⟩

theorem lt_standard (code : BitVec 32) (o : Option Str) : Lt (standard code o) (standard code o) := ⟨fun X s1 s2 h => by
  unfold standard
  refine (ls_findmode o _ h).bindNo (by intro; kwalk) (by intro; kwalk) fun a b t1 t2 q => ?_
  obtain ⟨a1, a2⟩ := a
  obtain ⟨b1, b2⟩ := b
  obtain ⟨e, q⟩ := q
  have e : b1 = a1 := e
  subst e
  exact (lt_codemode code b1 a2 b2).run X t1 t2 q⟩

theorem lt_standard2 (code : BitVec 32) (o : Option Str) : Lt (standard2 code o) (standard2 code o) := ⟨fun X s1 s2 h => by
  unfold standard2
  refine (ls_findmode o _ h).bindNo (by intro; kwalk) (by intro; kwalk) fun a b t1 t2 q => ?_
  obtain ⟨a1, a2⟩ := a
  obtain ⟨b1, b2⟩ := b
  obtain ⟨e, q⟩ := q
  have e : b1 = a1 := e
  subst e
  exact LsAt.lastly2 ((lt_codemode code b1 a2 b2).run X t1 t2 q) (fun u1 u2 q => LsAt.lastly q) (by kwalk) (by kwalk) when_same⟩

theorem lt_standard3 (code : BitVec 32) (o : Option Str) : Lt (standard3 code o) (standard3 code o) := ⟨fun X s1 s2 h => by
  unfold standard3
  refine (ls_findmode o _ h).bindNo (by intro; kwalk) (by intro; kwalk) fun a b t1 t2 q => ?_
  obtain ⟨a1, a2⟩ := a
  obtain ⟨b1, b2⟩ := b
  obtain ⟨e, q⟩ := q
  have e : b1 = a1 := e
  subst e
  exact LsAt.lastly2 ((lt_codemode code _ a2 b2).run X t1 t2 q) (fun u1 u2 q => LsAt.lastly q) (by kwalk) (by kwalk) when_same⟩

theorem lt_call (hd : H6800) (m : Int) (o : Option Str) : Lt (call hd m o) (call hd m o) := by
  unfold call
  cases hd
  · exact lt_relBranch _ o
  · exact lt_single _ o
  · exact lt_standard _ o
  · exact lt_standard2 _ o
  · exact lt_standard3 _ o

end C6800

/-! ### 6502 -/

namespace C6502

instance lt_single (code : BitVec 32) (o : Option Str) : Lt (single code o) (single code o) := ⟨fun X s1 s2 h => by
  unfold single
  refine LsAt.after h (by intro; kwalk) (by intro; kwalk) fun _ _ t1 t2 q => ?_
  exact LsAt.lastly q⟩

instance ls_searchMode (o : Str) (ms : List (Str × Nat)) : Ls (searchMode o ms) := by
  induction ms with
  | nil => exact Ls.pure _
  | cons m ms ih => obtain ⟨pat, num⟩ := m; unfold searchMode; ls

/-- The same addressing mode. -/
def ModeRel (X : Ctx) (a b : Nat × α) (t1 t2 : St) : Prop := b.1 = a.1 ∧ P X t1 t2

theorem ls_operand (mode : Nat) (t : Str) (h : P X s1 s2) : LsAt X s1 s2 (operand mode t) (operand mode t) (ModeRel X) No := by
  unfold operand
  refine (ls_parse _ h).bindNo (by intro; kwalk) (by intro; kwalk) fun r1 r2 t1 t2 q => ?_
  obtain ⟨hc, q⟩ := q
  have eacc : (mode = 10 ∧ r2.type = .regs ∧ r2.modifier = 0) ↔ (mode = 10 ∧ r1.type = .regs ∧ r1.modifier = 0) := by
    rw [hc.type]
    constructor
    · rintro ⟨a, b, c⟩
      refine ⟨a, b, ?_⟩
      rw [← hc.md (.inr (by rw [b]; simp)) (by rw [b]; simp) (by rw [b]; simp)]; exact c
    · rintro ⟨a, b, c⟩
      refine ⟨a, b, ?_⟩
      rw [hc.md (.inr (by rw [b]; simp)) (by rw [b]; simp) (by rw [b]; simp)]; exact c
  have hd : decide (mode = 10 ∧ r2.type = .regs ∧ r2.modifier = 0) = decide (mode = 10 ∧ r1.type = .regs ∧ r1.modifier = 0) :=
    decide_eq_decide.mpr eacc
  dsimp only
  rw [hd]
  generalize decide (mode = 10 ∧ r1.type = .regs ∧ r1.modifier = 0) = acc
  refine LsAt.bindNo (Q0 := fun _ _ u1 u2 => P X u1 u2) (LsAt.whens Iff.rfl (fun _ => ?_) q) (by intro; kwalk) (by intro; kwalk) fun _ _ u1 u2 q => ?_
  · exact (ls_checktype .absolute hc q).mono (fun _ _ _ _ h => h.2) fun _ _ _ h => h
  · rw [hc.forward]
    generalize (if acc = true then 15 else mode) = md
    cases hf : r1.flags.forward with
    | true =>
      rw [Bool.or_true, Bool.or_true, if_pos rfl, if_pos rfl]
      by_cases hm : md ≠ 12
      · rw [if_pos hm, if_pos hm]; exact LsAt.pure ⟨rfl, q⟩
      · rw [if_neg hm, if_neg hm]
        refine LsAt.bindNo (Q0 := fun _ _ u1 u2 => P X u1 u2) ?_ (by intro; kwalk) (by intro; kwalk) fun _ _ v1 v2 q => LsAt.pure ⟨rfl, q⟩
        haveI : ∀ (c : Prop) [Decidable c] (m : M Unit) [Quiet m], Quiet (whenM c m) := fun c _ m _ => Quiet.whenM inferInstance
        exact LsAt.list q
    | false =>
      rw [hc.val (.inl hf)]
      generalize ((decide (BitVec.setWidth 32 r1.value &&& 65280 ≠ 0)) : Bool) = bg
      split
      · split
        · exact LsAt.pure ⟨rfl, q⟩
        · refine LsAt.bindNo (Q0 := fun _ _ u1 u2 => P X u1 u2) ?_ (by intro; kwalk) (by intro; kwalk) fun _ _ v1 v2 q => LsAt.pure ⟨rfl, q⟩
          haveI : ∀ (c : Prop) [Decidable c] (m : M Unit) [Quiet m], Quiet (whenM c m) := fun c _ m _ => Quiet.whenM inferInstance
          exact LsAt.list q
      · exact LsAt.pure ⟨rfl, q⟩

instance ls_opcodeFor (code : BitVec 32) (mode : Nat) : Ls (opcodeFor code mode) := by unfold opcodeFor; ls

theorem lt_standard (code : BitVec 32) (o : Option Str) : Lt (standard code o) (standard code o) := ⟨fun X s1 s2 h => by
  unfold standard
  refine LsAt.getS ?_
  refine LsAt.eq (hm := by cases o <;> (dsimp only; ls)) h (by intro; kwalk) (by intro; kwalk) fun a t1 t2 q => ?_
  obtain ⟨mode, tp⟩ := a
  dsimp only
  split
  · exact LsAt.error
  · refine LsAt.bindNo (Q0 := ModeRel X) ?_ (by intro; kwalk) (by intro; kwalk) fun a b t1 t2 q => ?_
    · split
      · exact ls_operand mode tp q
      · exact LsAt.pure ⟨rfl, q⟩
    · obtain ⟨a1, a2⟩ := a
      obtain ⟨b1, b2⟩ := b
      obtain ⟨e, q⟩ := q
      have e : b1 = a1 := e
      subst e
      dsimp only
      refine LsAt.eq q (by intro; kwalk) (by intro; kwalk) fun a t1 t2 q => ?_
      obtain ⟨mode, off⟩ := a
      dsimp only
      refine LsAt.after q (by intro; kwalk) (by intro; kwalk) fun _ _ t1 t2 q => ?_
      refine LsAt.bindNo (Q0 := fun _ _ u1 u2 => P X u1 u2) (LsAt.whens Iff.rfl (fun _ => ?_) q) (by intro; kwalk) (by intro; kwalk)
        fun _ _ t1 t2 q => ?_
      · split
        · exact (ls_insert16 _ _).run X _ _ q
        · exact (ls_insert8 _ _).run X _ _ q
      · exact LsAt.lastly2 (LsAt.lastly q) (fun u1 u2 q => LsAt.lastly q) (by kwalk) (by kwalk) when_same⟩

theorem lt_call (hd : H6502) (m : Int) (o : Option Str) : Lt (call hd m o) (call hd m o) := by
  unfold call
  cases hd
  · exact lt_relBranch _ o
  · exact lt_single _ o
  · exact lt_standard _ o

end C6502

end Crasm

import Verif.Proof.Run

/-!
Two runs side by side: pass 1 and pass 2 of the same program. This file has what stays true of a run from some
point on to its end (`K`), and the judgement (`LsAt`) that two runs which both come to a known end lead to
related states.
-/

namespace Crasm

/-! ### What lasts until the end of the pass -/

/-- A symbol and what may become of it later in the pass. -/
structure LabLE (l f : Label) : Prop where
  origin : f.origin = l.origin
  noredef : l.flags.noredef = true → f.flags.noredef = true
  forward : l.flags.noredef = true → l.flags.forward = true → f.flags.forward = true
  defd : l.flags.undef = false → f.flags.undef = false ∧ f.flags.noredef = l.flags.noredef
  fixed : l.flags.undef = false → l.flags.noredef = true →
    f.type = l.type ∧ f.flags.forward = l.flags.forward ∧
    (l.type ≠ .macro → f = { l with flags := { l.flags with used := f.flags.used } })

theorem LabLE.refl (l : Label) : LabLE l l := ⟨rfl, id, fun _ => id, fun h => ⟨h, rfl⟩, fun _ _ => ⟨rfl, rfl, fun _ => rfl⟩⟩

theorem LabLE.trans {a b c : Label} (h : LabLE a b) (h' : LabLE b c) : LabLE a c := by
  refine ⟨h'.origin.trans h.origin, fun x => h'.noredef (h.noredef x), fun x y => h'.forward (h.noredef x) (h.forward x y),
    fun x => ?_, fun x y => ?_⟩
  · obtain ⟨p, q⟩ := h.defd x
    obtain ⟨p', q'⟩ := h'.defd p
    exact ⟨p', q'.trans q⟩
  · obtain ⟨p, q⟩ := h.defd x
    obtain ⟨a1, a2, a3⟩ := h.fixed x y
    obtain ⟨b1, b2, b3⟩ := h'.fixed p (q.trans y)
    refine ⟨b1.trans a1, b2.trans a2, fun ht => ?_⟩
    have e1 := a3 ht
    have e2 := b3 (by rw [a1]; exact ht)
    rw [e1] at e2
    exact e2

/-- The names of the pseudo-instructions. -/
def pseudoKeys : List Str := pseudos.map (·.name)

theorem canon_pseudo (seg : Nat) {e : Entry} (he : e ∈ pseudos) : canon seg e.name = e.name := by
  unfold pseudos at he
  simp only [List.mem_cons, List.mem_nil_iff, or_false] at he
  rcases he with h | h | h | h | h | h | h | h | h | h | h | h | h | h | h | h | h | h | h | h | h | h | h | h | h | h | h <;>
    (subst h; exact rfl)

/-- Symbols other than `*` keep what `LabLE` says; no pseudo-instruction is made up. -/
structure TreeLE (t t' : Tree) : Prop where
  old : ∀ k l, k ≠ starKey → t.find k = some l → ∃ f, t'.find k = some f ∧ LabLE l f
  new : ∀ k f, k ≠ starKey → t.find k = none → t'.find k = some f → f.origin = some .pseudos → k ∈ pseudoKeys

theorem TreeLE.refl (t : Tree) : TreeLE t t :=
  ⟨fun _ l _ h => ⟨l, h, .refl l⟩, fun _ _ _ h h' => by rw [h] at h'; cases h'⟩

theorem TreeLE.trans {a b c : Tree} (h : TreeLE a b) (h' : TreeLE b c) : TreeLE a c := by
  refine ⟨fun k l hk hl => ?_, fun k f hk hn hf ho => ?_⟩
  · obtain ⟨f, h1, h2⟩ := h.old k l hk hl
    obtain ⟨g, h3, h4⟩ := h'.old k f hk h1
    exact ⟨g, h3, h2.trans h4⟩
  · cases hb : b.find k with
    | none => exact h'.new k f hk hb hf ho
    | some g =>
      obtain ⟨g', h3, h4⟩ := h'.old k g hk hb
      rw [hf] at h3; cases h3
      exact h.new k g hk hn hb (h4.origin ▸ ho)

theorem TreeLE.put {t : Tree} {k : Str} {x : Label} (ho : ∀ l, k ≠ starKey → t.find k = some l → LabLE l x)
    (hn : k ≠ starKey → t.find k = none → x.origin = some .pseudos → k ∈ pseudoKeys) : TreeLE t (t.put k x) := by
  refine ⟨fun k' l hk hl => ?_, fun k' f hk hnn hf h => ?_⟩
  · by_cases e : k' = k
    · subst e
      exact ⟨x, Tree.find_put_self _ _ _, ho l hk hl⟩
    · exact ⟨l, by rw [Tree.find_put_ne _ _ e]; exact hl, .refl l⟩
  · by_cases e : k' = k
    · subst e
      rw [Tree.find_put_self] at hf; cases hf
      exact hn hk hnn h
    · rw [Tree.find_put_ne _ _ e, hnn] at hf; cases hf

theorem labLE_defd {q : Label} {fl : LFlags} {ty : LType} {v : Word} {m : Int} {p : Ptr} (hu : fl.undef = false)
    (hd : q.flags.undef = true ∨ (q.flags.noredef = false ∧ fl.noredef = false)) :
    LabLE q { defdLabel (some q) fl ty v with modifier := m, ptr := p } := by
  refine ⟨rfl, fun h => ?_, fun h h' => ?_, fun h => ?_, fun h h' => ?_⟩
  · show (q.flags.noredef || fl.noredef) = true
    rw [h]; rfl
  · show (q.flags.forward || fl.forward) = true
    rw [h']; rfl
  · rcases hd with hd | ⟨h1, h2⟩
    · rw [h] at hd; cases hd
    · refine ⟨?_, ?_⟩
      · show (false || fl.undef) = false
        rw [hu]; rfl
      · show (q.flags.noredef || fl.noredef) = q.flags.noredef
        rw [h2]; cases q.flags.noredef <;> rfl
  · rcases hd with hd | ⟨h1, h2⟩
    · rw [h] at hd; cases hd
    · rw [h'] at h1; cases h1

theorem treeLE_def {t : Tree} {k : Str} {fl : LFlags} {ty : LType} {v : Word} {m : Int} {p : Ptr}
    (hu : fl.undef = false) (hd : defOk (t.find k) fl.noredef) :
    TreeLE t (t.put k { defdLabel (t.find k) fl ty v with modifier := m, ptr := p }) := by
  refine TreeLE.put (fun l _ hl => ?_) fun _ hn h => ?_
  · rw [hl]; exact labLE_defd hu (hd l hl)
  · rw [hn] at h; cases h

theorem treeLE_bumped {s : St} {t : Tree} (h : bumped s t) : TreeLE s.tree t := by
  obtain ⟨v, _, rfl⟩ := h
  exact TreeLE.put (fun l hk _ => absurd rfl hk) fun hk => absurd rfl hk

/-- What lasts: the history only grows, by entries of this pass; symbols keep what `TreeLE` says; error() leaves
    a trace. -/
structure K (a b : Cfg) : Prop where
  pass : b.1.passnumber = a.1.passnumber
  log : a.1.log <:+ b.1.log
  notes : ∃ ns, b.1.notes = ns ++ a.1.notes ∧ ∀ n ∈ ns, n.1 = a.1.passnumber
  tree : TreeLE a.1.tree b.1.tree
  dead : a.2 = .dead → b.2 = .dead
  err : a.2 = .live → b.2 = .pend → ∃ sh, .error a.1.passnumber sh ∈ b.1.log

theorem K.refl (a : Cfg) : K a a :=
  ⟨rfl, List.suffix_refl _, ⟨[], rfl, by simp⟩, .refl _, id, fun h h' => by rw [h] at h'; cases h'⟩

theorem K.trans {a b c : Cfg} (h : K a b) (h' : K b c) : K a c := by
  refine ⟨h'.pass.trans h.pass, h.log.trans h'.log, ?_, h.tree.trans h'.tree, fun x => h'.dead (h.dead x), fun x y => ?_⟩
  · obtain ⟨ns, e, p⟩ := h.notes
    obtain ⟨ns', e', p'⟩ := h'.notes
    refine ⟨ns' ++ ns, by rw [e', e, List.append_assoc], fun n hn => ?_⟩
    rcases List.mem_append.mp hn with hn | hn
    · exact (p' n hn).trans h.pass
    · exact p n hn
  · cases hb : b.2 with
    | live =>
      obtain ⟨sh, hh⟩ := h'.err hb y
      exact ⟨sh, h.pass ▸ hh⟩
    | pend =>
      obtain ⟨sh, hh⟩ := h.err x hb
      exact ⟨sh, h'.log.subset hh⟩
    | dead => rw [h'.dead hb] at y; cases y

theorem K.frame {s t : St} (hp : t.passnumber = s.passnumber) (hl : t.log = s.log) (hn : t.notes = s.notes)
    (ht : t.tree = s.tree) : K (s, .live) (t, .live) :=
  ⟨hp, hl ▸ List.suffix_refl _, ⟨[], hn, by simp⟩, by simp only [ht]; exact .refl _, fun h => (by cases h), fun _ h => (by cases h)⟩

theorem K.framed {s t : St} {m : Mode} (hp : t.passnumber = s.passnumber) (hl : t.log = s.log) (hn : t.notes = s.notes)
    (ht : t.tree = s.tree) (hm : m ≠ .pend) : K (s, .live) (t, m) :=
  ⟨hp, hl ▸ List.suffix_refl _, ⟨[], hn, by simp⟩, by simp only [ht]; exact .refl _, fun h => (by cases h), fun _ h => absurd h hm⟩

theorem K.logged {s t : St} {e : Event} (hp : t.passnumber = s.passnumber) (hl : t.log = e :: s.log) (hn : t.notes = s.notes)
    (ht : t.tree = s.tree) : K (s, .live) (t, .live) :=
  ⟨hp, hl ▸ List.suffix_cons _ _, ⟨[], hn, by simp⟩, by simp only [ht]; exact .refl _, fun h => (by cases h), fun _ h => (by cases h)⟩

theorem K.treed {s t : St} (hp : t.passnumber = s.passnumber) (hl : t.log = s.log) (hn : t.notes = s.notes)
    (ht : TreeLE s.tree t.tree) : K (s, .live) (t, .live) :=
  ⟨hp, hl ▸ List.suffix_refl _, ⟨[], hn, by simp⟩, ht, fun h => (by cases h), fun _ h => (by cases h)⟩

theorem labLE_used (l : Label) : LabLE l { l with flags := { l.flags with used := true } } :=
  ⟨rfl, id, fun _ => id, fun h => ⟨h, rfl⟩, fun _ _ => ⟨rfl, rfl, fun _ => rfl⟩⟩

theorem treeLE_use (s : St) (k : Str) : TreeLE s.tree (s.tree.put k (usedLabel s (s.tree.find k))) := by
  refine TreeLE.put (fun l _ hl => ?_) fun _ hn h => ?_
  · rw [hl]; exact labLE_used l
  · rw [hn] at h; cases h

theorem K.n {a b : Cfg} (h : NStep a b) : K a b := by
  cases h with
  | scratch => exact K.frame rfl rfl rfl rfl
  | use s k => exact K.treed rfl rfl rfl (treeLE_use s k)
  | error0 s h => exact ⟨rfl, List.suffix_cons _ _, ⟨[], rfl, by simp⟩, .refl _, fun h => (by cases h), fun _ _ => ⟨_, List.mem_cons_self ..⟩⟩
  | error1 s t h hb =>
    exact ⟨rfl, List.suffix_cons _ _, ⟨[], rfl, by simp⟩, treeLE_bumped hb, fun h => (by cases h), fun _ _ => ⟨_, List.mem_cons_self ..⟩⟩
  | odd s => exact ⟨rfl, List.suffix_refl _, ⟨[_], rfl, by simp⟩, .refl _, fun h => (by cases h), fun h => (by cases h)⟩
  | die => exact K.framed rfl rfl rfl rfl (by simp)

theorem K.h {a b : Cfg} (h : HStep a b) : K a b := by
  cases h with
  | n h => exact K.n h
  | emit s x => exact K.logged rfl rfl rfl rfl
  | note s n hn => exact ⟨rfl, List.suffix_refl _, ⟨[_], rfl, by simp⟩, .refl _, fun h => (by cases h), fun _ h => (by cases h)⟩
  | lohi => exact K.frame rfl rfl rfl rfl

theorem K.p {a b : Cfg} (h : PStep a b) : K a b := by
  cases h with
  | h h => exact K.h h
  | flags => exact K.frame rfl rfl rfl rfl
  | sect => exact K.frame rfl rfl rfl rfl
  | bindNew s t e he hn =>
    refine K.treed rfl rfl rfl (TreeLE.put (fun l _ hl => by rw [hn] at hl; cases hl) fun _ _ ho => ?_)
    cases ho
    rw [canon_pseudo _ he]
    exact List.mem_map_of_mem he
  | bindOld s t e he l hl ho hu =>
    refine K.treed rfl rfl rfl (TreeLE.put (fun q _ hq => ?_) fun _ hn => by rw [hl] at hn; cases hn)
    rw [hl] at hq; cases hq
    exact ⟨rfl, id, fun _ => id, fun h => (by rw [hu] at h; cases h), fun h => (by rw [hu] at h; cases h)⟩
  | misc => exact K.frame rfl rfl rfl rfl
  | push => exact K.logged rfl rfl rfl rfl

theorem K.s {a b : Cfg} (h : Step a b) : K a b := by
  cases h with
  | p h => exact K.p h
  | here s name hne horg hd =>
    exact ⟨rfl, List.suffix_refl _, ⟨[_], rfl, by simp⟩, treeLE_def rfl hd, fun h => (by cases h), fun _ h => (by cases h)⟩
  | equ s name fl ty m p v hf hd =>
    exact K.treed rfl rfl rfl (treeLE_def hf.2 (by rw [hf.1]; exact hd))
  | macroName s name hd => exact K.treed rfl rfl rfl (treeLE_def rfl hd)
  | macroText s k l hl ht ls =>
    refine K.treed rfl rfl rfl (TreeLE.put (fun q _ hq => ?_) fun _ hn => by rw [hl] at hn; cases hn)
    rw [hl] at hq; cases hq
    exact ⟨rfl, id, fun _ => id, fun h => ⟨h, rfl⟩, fun _ _ => ⟨rfl, rfl, fun h => absurd ht h⟩⟩
  | markUsed s k l hl =>
    refine K.treed rfl rfl rfl (TreeLE.put (fun q _ hq => ?_) fun _ hn => by rw [hl] at hn; cases hn)
    rw [hl] at hq; cases hq
    exact labLE_used l
  | bump s t hb => exact K.treed rfl rfl rfl (treeLE_bumped hb)
  | start0 => exact K.frame rfl rfl rfl rfl
  | start1 => exact K.frame rfl rfl rfl rfl
  | enter => exact K.frame rfl rfl rfl rfl
  | leave => exact K.frame rfl rfl rfl rfl
  | readMain => exact K.logged rfl rfl rfl rfl
  | readFile => exact K.logged rfl rfl rfl rfl
  | readMacro => exact K.logged rfl rfl rfl rfl
  | call => exact K.logged rfl rfl rfl rfl
  | drop => exact K.frame rfl rfl rfl rfl
  | caught => exact ⟨rfl, List.suffix_refl _, ⟨[], rfl, by simp⟩, .refl _, fun h => (by cases h), fun h => (by cases h)⟩

theorem K.star {a b : Cfg} (h : Star K a b) : K a b := by
  induction h with
  | refl => exact .refl _
  | tail _ r ih => exact ih.trans r

instance (m : M α) [h : W Step m] : W K m := ⟨h.walk.mono fun _ _ => K.s⟩
theorem Walk.k {m : M α} (h : Walk Step m) : Walk K m := h.mono fun _ _ => K.s
theorem walkK_modS {f : St → St} (hp : ∀ s, (f s).passnumber = s.passnumber) (hl : ∀ s, (f s).log = s.log)
    (hn : ∀ s, (f s).notes = s.notes) (ht : ∀ s, (f s).tree = s.tree) : Walk K (modS f) :=
  fun s => .one (K.frame (hp s) (hl s) (hn s) (ht s))

instance (m : M α) [h : W AStep m] : W K m := ⟨h.walk.mono fun _ _ h => K.s h.1⟩

/-- `walk` for `K`. -/
macro "kwalk" : tactic => `(tactic| repeat' (first
  | exact W.walk
  | exact Walk.pure _
  | exact Walk.getS
  | exact walkK_modS (fun _ => rfl) (fun _ => rfl) (fun _ => rfl) (fun _ => rfl)
  | with_reducible refine Walk.bind ?_ (fun _ => ?_)
  | with_reducible refine Walk.whenM ?_
  | dsimp only
  | split))

/-! ### The judgement -/

/-- The choices made in pass `p`, in order. -/
def choicesOf (p : Nat) : List (Nat × Note) → List (Bool × Choice)
  | [] => []
  | (q, .choice f c) :: ns => if q = p then choicesOf p ns ++ [(f, c)] else choicesOf p ns
  | _ :: ns => choicesOf p ns

/-- The address labels defined in pass `p`, in order, with their values. -/
def labelsOf (p : Nat) : List (Nat × Note) → List (Str × Word)
  | [] => []
  | (q, .label k v) :: ns => if q = p then labelsOf p ns ++ [(k, v)] else labelsOf p ns
  | _ :: ns => labelsOf p ns

theorem choicesOf_append (p : Nat) (ns ms : List (Nat × Note)) : choicesOf p (ns ++ ms) = choicesOf p ms ++ choicesOf p ns := by
  induction ns with
  | nil => simp [choicesOf]
  | cons n ns ih =>
    obtain ⟨q, n⟩ := n
    cases n with
    | choice f c =>
      simp only [List.cons_append, choicesOf]
      split <;> simp [ih]
    | odd => exact ih
    | label => exact ih

/-- How a pass comes to its end from here. -/
def FinAt (E : St) : Res α → Prop
  | .ok _ t => K (t, .live) (E, .live)
  | .err t => K (t, .pend) (E, .live)
  | .stop _ _ => False

/-- Two choices that must be the same, unless neither depends on a forward reference. -/
def Compat (c1 c2 : Bool × Choice) : Prop := c1.2 = c2.2 ∨ (c1.1 = false ∧ c2.1 = false)

/-- The ends of two passes of one program. -/
structure Ctx where
  E1 : St
  E2 : St
  fwd : ∀ k l, k ≠ starKey → E1.tree.find k = some l → l.flags.noredef = true → l.flags.forward = true → l.type = .absolute
  noerr : ∀ sh, Event.error 2 sh ∉ E2.log
  odd1 : (1, Note.odd) ∉ E1.notes
  odd2 : (2, Note.odd) ∉ E2.notes
  comp : ∀ (i : Nat) c1 c2, (choicesOf 1 E1.notes)[i]? = some c1 → (choicesOf 2 E2.notes)[i]? = some c2 → Compat c1 c2

/-- Outcomes of the two passes: both return, or pass 1 alone calls error(). -/
def LsPost (Q : α → β → St → St → Prop) (E : β → St → St → Prop) : Res α → Res β → Prop
  | .ok a t1, .ok b t2 => Q a b t1 t2
  | .err t1, .ok b t2 => E b t1 t2
  | _, _ => True

/-- If both passes get to their ends from here, the outcomes are related. -/
def LsAt (X : Ctx) (s1 s2 : St) (m : M α) (m' : M β) (Q : α → β → St → St → Prop) (E : β → St → St → Prop) : Prop :=
  FinAt X.E1 (m s1) → FinAt X.E2 (m' s2) → LsPost Q E (m s1) (m' s2)

/-- Pass 1 does not call error() alone. -/
def No {β : Type} : β → St → St → Prop := fun _ _ _ => False

variable {X : Ctx} {s1 s2 : St}

theorem finAt_left {E : St} {s : St} {m : M α} {f : α → M β} (hf : ∀ a, Walk K (f a)) (h : FinAt E ((m >>= f) s)) : FinAt E (m s) := by
  rw [bind_run] at h
  revert h
  cases e : m s with
  | ok a t =>
    intro h
    have hw := hf a t
    simp only at h
    revert h hw
    cases f a t with
    | ok b u => intro h hw; exact (K.star hw).trans h
    | err u => intro h hw; exact (K.star hw).trans h
    | stop w u => intro h _; exact h.elim
  | err t => exact id
  | stop w t => exact id

theorem LsAt.bind {m : M α} {m' : M β} {f : α → M γ} {g : β → M δ} {Q0 : α → β → St → St → Prop}
    {E0 : β → St → St → Prop} {Q : γ → δ → St → St → Prop} {E : δ → St → St → Prop}
    (h : LsAt X s1 s2 m m' Q0 E0) (hf : ∀ a, Walk K (f a)) (hg : ∀ b, Walk K (g b))
    (hk : ∀ a b t1 t2, Q0 a b t1 t2 → LsAt X t1 t2 (f a) (g b) Q E)
    (he : ∀ b t1 t2 c u2, E0 b t1 t2 → g b t2 = .ok c u2 → E c t1 u2) : LsAt X s1 s2 (m >>= f) (m' >>= g) Q E := by
  intro h1 h2
  have p := h (finAt_left hf h1) (finAt_left hg h2)
  revert h1 h2 p
  rw [bind_run, bind_run]
  cases m s1 with
  | ok a t1 =>
    cases m' s2 with
    | ok b t2 => intro h1 h2 p; exact hk a b t1 t2 p h1 h2
    | err t2 => intro h1 _ _; simp only; cases f a t1 <;> trivial
    | stop w t2 => intro _ h2 _; exact h2.elim
  | err t1 =>
    cases m' s2 with
    | ok b t2 =>
      intro _ _ p
      simp only
      cases e : g b t2 with
      | ok c u2 => exact he b t1 t2 c u2 p e
      | err _ => trivial
      | stop _ _ => trivial
    | err t2 => intro _ _ _; trivial
    | stop w t2 => intro _ h2 _; exact h2.elim
  | stop w t1 => intro h1; exact h1.elim

theorem LsAt.bindNo {m : M α} {m' : M β} {f : α → M γ} {g : β → M δ} {Q0 : α → β → St → St → Prop}
    {Q : γ → δ → St → St → Prop} {E : δ → St → St → Prop}
    (h : LsAt X s1 s2 m m' Q0 No) (hf : ∀ a, Walk K (f a)) (hg : ∀ b, Walk K (g b))
    (hk : ∀ a b t1 t2, Q0 a b t1 t2 → LsAt X t1 t2 (f a) (g b) Q E) : LsAt X s1 s2 (m >>= f) (m' >>= g) Q E :=
  h.bind hf hg hk fun _ _ _ _ _ h => h.elim

theorem LsAt.mono {m : M α} {m' : M β} {Q Q' : α → β → St → St → Prop} {E E' : β → St → St → Prop}
    (h : LsAt X s1 s2 m m' Q E) (hQ : ∀ a b t1 t2, Q a b t1 t2 → Q' a b t1 t2) (hE : ∀ b t1 t2, E b t1 t2 → E' b t1 t2) :
    LsAt X s1 s2 m m' Q' E' := by
  intro h1 h2
  have p := h h1 h2
  revert p
  cases m s1 <;> cases m' s2
  · exact hQ _ _ _ _
  all_goals first | exact hE _ _ _ | exact fun _ => trivial

theorem LsAt.no {m : M α} {m' : M β} {Q : α → β → St → St → Prop} {E : β → St → St → Prop}
    (h : LsAt X s1 s2 m m' Q No) : LsAt X s1 s2 m m' Q E := h.mono (fun _ _ _ _ => id) fun _ _ _ h => h.elim

theorem LsAt.pure {a : α} {b : β} {Q : α → β → St → St → Prop} {E : β → St → St → Prop} (h : Q a b s1 s2) :
    LsAt X s1 s2 (Pure.pure a) (Pure.pure b) Q E := fun _ _ => h

theorem LsAt.getS {f g : St → M α} {Q : α → α → St → St → Prop} {E : α → St → St → Prop}
    (h : LsAt X s1 s2 (f s1) (g s2) Q E) : LsAt X s1 s2 (getS >>= f) (getS >>= g) Q E := h

theorem LsAt.modS {f g : St → St} {k : Unit → M α} {k' : Unit → M β} {Q : α → β → St → St → Prop} {E : β → St → St → Prop}
    (h : LsAt X (f s1) (g s2) (k ()) (k' ()) Q E) : LsAt X s1 s2 (modS f >>= k) (modS g >>= k') Q E := h

/-- Pass 2 calls error(). -/
theorem LsAt.error {m : M α} {msg : Str} {Q : α → β → St → St → Prop} {E : β → St → St → Prop} :
    LsAt X s1 s2 m (error msg) Q E := by
  intro _ _
  cases e : (Crasm.error msg : M β) s2 with
  | ok a t => exact absurd e error_not_ok
  | err t => cases m s1 <;> trivial
  | stop w t => cases m s1 <;> trivial

theorem LsAt.refuse {m : M α} {msg : Str} {Q : α → β → St → St → Prop} {E : β → St → St → Prop} :
    LsAt X s1 s2 m (refuse msg) Q E := by
  intro _ _
  cases e : (Crasm.refuse msg : M β) s2 with
  | ok a t => exact absurd e refuse_not_ok
  | err t => cases m s1 <;> trivial
  | stop w t => cases m s1 <;> trivial

theorem LsAt.stop2 {m : M α} {w : Stop} {Q : α → β → St → St → Prop} {E : β → St → St → Prop} :
    LsAt X s1 s2 m (stopWith w) Q E := fun _ h => h.elim
theorem LsAt.stop1 {m : M β} {w : Stop} {Q : α → β → St → St → Prop} {E : β → St → St → Prop} :
    LsAt X s1 s2 (stopWith w) m Q E := fun h => h.elim
theorem LsAt.ub2 {m : M α} {w : UB} {Q : α → β → St → St → Prop} {E : β → St → St → Prop} :
    LsAt X s1 s2 m (ubM w) Q E := fun _ h => h.elim
theorem LsAt.ub1 {m : M β} {w : UB} {Q : α → β → St → St → Prop} {E : β → St → St → Prop} :
    LsAt X s1 s2 (ubM w) m Q E := fun h => h.elim

/-- Pass 1 does not refuse an operator or a bit number. -/
theorem LsAt.refuse1 {m : M β} {msg : Str} {Q : α → β → St → St → Prop} {E : β → St → St → Prop} (hp : s1.passnumber = 1) :
    LsAt X s1 s2 (Crasm.refuse msg) m Q E := by
  intro h1 _
  exfalso
  have hw := (inferInstance : W K (Crasm.error msg : M α)).walk s1
  unfold Crasm.refuse catchErr at h1
  revert h1 hw
  cases e : (Crasm.error msg : M α) s1 with
  | ok a t => exact absurd e error_not_ok
  | stop w t => intro h; exact h.elim
  | err t =>
    intro h1 hw
    have hpt : t.passnumber = 1 := (K.star hw).pass.trans hp
    have h3 : K ({ t with notes := (t.passnumber, .odd) :: t.notes }, .pend) (X.E1, .live) := h1
    obtain ⟨ns, e, -⟩ := h3.notes
    apply X.odd1
    rw [e, hpt]
    simp

/-- setjmp: if pass 1 alone calls error(), the second return from setjmp matches the return in pass 2. -/
theorem LsAt.catch {m m' : M α} {h h' : M α} {Q0 Q : α → α → St → St → Prop} {E0 E : α → St → St → Prop}
    (hp : s2.passnumber = 2) (hm' : Walk K m')
    (hm : LsAt X s1 s2 m m' Q0 E0) (hq : ∀ a b t1 t2, Q0 a b t1 t2 → Q a b t1 t2)
    (hfin : ∀ t2, FinAt X.E2 (h' t2) → K (t2, .pend) (X.E2, .live))
    (hfin1 : ∀ t1, FinAt X.E1 (h t1) → K (t1, .pend) (X.E1, .live))
    (he : ∀ b t1 t2, E0 b t1 t2 → ∃ a u1, h t1 = .ok a u1 ∧ Q a b u1 t2) :
    LsAt X s1 s2 (catchErr m h) (catchErr m' h') Q E := by
  intro h1 h2
  have hw := hm' s2
  have f1 : FinAt X.E1 (m s1) := by
    revert h1
    unfold catchErr
    cases m s1 with
    | ok a t => exact id
    | stop w t => exact id
    | err t => exact hfin1 t
  have f2 : FinAt X.E2 (m' s2) := by
    revert h2
    unfold catchErr
    cases m' s2 with
    | ok a t => exact id
    | stop w t => exact id
    | err t => exact hfin t
  have p := hm f1 f2
  revert p f2 hw
  unfold catchErr
  cases m' s2 with
  | ok b t2 =>
    intro _ _
    cases m s1 with
    | ok a t1 => exact hq a b t1 t2
    | err t1 =>
      intro p
      obtain ⟨a, u1, e, q⟩ := he b t1 t2 p
      simp only [e]
      exact q
    | stop w t1 => intro _; trivial
  | err t2 =>
    intro hw f2 _
    obtain ⟨sh, hs⟩ := (K.star hw).err rfl rfl
    simp only [hp] at hs
    exact (X.noerr sh (f2.log.subset hs)).elim
  | stop w t2 => intro _ f2; exact f2.elim

end Crasm

import Verif.Proof.LockZ
import Verif.Proof.Digits

/-! Two passes side by side: definitions of symbols and pseudo-instructions. -/

namespace Crasm

variable {X : Ctx} {s1 s2 : St}

/-! ### Definitions -/

theorem deflabel_ok {name : Str} {fl : LFlags} {ty : LType} {v : Word} {s : St}
    (h : defOk (s.tree.find (canon s.segment name)) fl.noredef) : deflabel name fl ty v s = .ok (canon s.segment name)
        (s.putL (canon s.segment name) (defdLabel (s.tree.find (canon s.segment name)) fl ty v)) := by
  unfold deflabel
  rw [getS_bind_run]
  cases hf : s.tree.find (canon s.segment name) with
  | none => rfl
  | some q =>
    have hh := h q hf
    have hc : ¬ ((!q.flags.undef && (q.flags.noredef || fl.noredef)) = true) := by
      rcases hh with hh | ⟨h1, h2⟩
      · rw [hh]; simp
      · rw [h1, h2]; simp
    simp only [hf]
    rw [if_neg hc]
    rfl

theorem walkK_deflabel {name : Str} {fl : LFlags} {ty : LType} {v : Word} (hu : fl.undef = false) : Walk K (deflabel name fl ty v) := by
  intro s
  rcases deflabel_run name fl ty v s with ⟨msg, e⟩ | ⟨hd, e⟩
  · rw [e]; exact (inferInstance : W K (error msg : M Str)).walk s
  · rw [e]; exact .one (K.treed rfl rfl rfl (treeLE_def hu hd))

theorem defOk_iff {k : Str} {o1 o2 : Option Label} (h : NodeRel X k o1 o2) (b : Bool) : defOk o1 b ↔ defOk o2 b := by
  have same : ∀ {l1 l2 : Label}, LabRel l1 l2 → (defOk (some l1) b ↔ defOk (some l2) b) := by
    intro l1 l2 h
    have e : l2.flags.undef = l1.flags.undef := h.core.undef
    constructor
    · intro hd q hq; cases hq
      rw [e, h.noredef]; exact hd l1 rfl
    · intro hd q hq; cases hq
      rw [← e, ← h.noredef]; exact hd l2 rfl
  unfold NodeRel at h
  split at h
  · obtain ⟨l1, l2, rfl, rfl, -, -, h3⟩ := h
    rcases h3 with ⟨u1, u2, -, -⟩ | ⟨h3, -⟩
    · exact ⟨fun _ q hq => by cases hq; exact .inl u2, fun _ q hq => by cases hq; exact .inl u1⟩
    · exact same h3
  · rcases h with hu | ⟨l1, l2, rfl, rfl, h3⟩
    · refine ⟨fun _ q hq => ?_, fun _ q hq => .inl (hu.fst q hq).1⟩
      cases hF : X.E1.tree.find k with
      | none => rw [hu.non hF] at hq; cases hq
      | some f =>
        obtain ⟨ho, l2, e2, hc⟩ := hu.snd f hF
        rw [e2] at hq; cases hq
        exact .inl (hc.spec ho).1
    · exact same h3

/-- The definition of a symbol leaves related labels. -/
theorem def_rel {k : Str} {o1 o2 : Option Label} (h : NodeRel X k o1 o2) {fl1 fl2 : LFlags} {ty1 ty2 : LType} {v1 v2 : Word}
    {m1 m2 : Int} {p1 p2 : Ptr}
    (hc : Core { flags := fl1, type := ty1, value := v1, modifier := m1, ptr := p1 }
      { flags := fl2, type := ty2, value := v2, modifier := m2, ptr := p2 })
    (u1 : fl1.undef = false) (hr : fl2.noredef = fl1.noredef) (hd : defOk o1 fl1.noredef)
    (hs : k = starKey → v1 = v2 ∧ fl1.noredef = false)
    (hF : k ≠ starKey → ∃ f, X.E1.tree.find k = some f ∧ LabLE { defdLabel o1 fl1 ty1 v1 with modifier := m1, ptr := p1 } f) :
    NodeRel X k (some { defdLabel o1 fl1 ty1 v1 with modifier := m1, ptr := p1 })
      (some { defdLabel o2 fl2 ty2 v2 with modifier := m2, ptr := p2 }) := by
  have hfw : fl2.forward = fl1.forward := hc.forward
  have hun : fl2.undef = fl1.undef := hc.undef
  have key : ((defdLabel o2 fl2 ty2 v2).flags.forward = (defdLabel o1 fl1 ty1 v1).flags.forward) →
      ((defdLabel o2 fl2 ty2 v2).flags.noredef = (defdLabel o1 fl1 ty1 v1).flags.noredef) →
      LabRel { defdLabel o1 fl1 ty1 v1 with modifier := m1, ptr := p1 }
        { defdLabel o2 fl2 ty2 v2 with modifier := m2, ptr := p2 } := by
    intro e1 e2
    have low : ∀ (o : Option Label) (fl : LFlags) (ty : LType) (v : Word), (defdLabel o fl ty v).flags.forward = false → fl.forward = false := by
      intro o fl ty v h
      exact (Bool.or_eq_false_iff.mp h).2
    refine ⟨⟨?_, e1, hc.type, hc.rel, ?_, ?_, ?_⟩, ?_, e2⟩
    · show (false || fl2.undef) = (false || fl1.undef); rw [hun]
    · intro ht
      obtain ⟨a, b, c, d, e, f, g⟩ := hc.voc ht
      refine ⟨?_, ?_, ?_, ?_, e, ?_, g⟩
      · show (false || fl2.nolabel) = (false || fl1.nolabel)
        rw [show fl2.nolabel = fl1.nolabel from a]
      · show (false || fl2.deflabel) = (false || fl1.deflabel)
        rw [show fl2.deflabel = fl1.deflabel from b]
      · show (false || fl2.defmacro) = (false || fl1.defmacro)
        rw [show fl2.defmacro = fl1.defmacro from c]
      · show (false || fl2.defcond) = (false || fl1.defcond)
        rw [show fl2.defcond = fl1.defcond from d]
      · show ((false || fl1.defcond) = true ∨ (false || fl1.defmacro) = true) ↔ _
        rw [Bool.false_or, Bool.false_or]; exact f
    · intro hh
      exact hc.val (hh.imp (low o1 fl1 ty1 v1) id)
    · intro hh ht hm
      exact hc.md (hh.imp (low o1 fl1 ty1 v1) id) ht hm
    · show (false || fl1.undef) = false; rw [u1]; rfl
  have twin : ∀ {l1 l2 : Label}, l2.flags.forward = l1.flags.forward → l2.flags.noredef = l1.flags.noredef →
      ((defdLabel (some l2) fl2 ty2 v2).flags.forward = (defdLabel (some l1) fl1 ty1 v1).flags.forward) ∧
      ((defdLabel (some l2) fl2 ty2 v2).flags.noredef = (defdLabel (some l1) fl1 ty1 v1).flags.noredef) := by
    intro l1 l2 a b
    refine ⟨?_, ?_⟩
    · show (l2.flags.forward || fl2.forward) = (l1.flags.forward || fl1.forward); rw [a, hfw]
    · show (l2.flags.noredef || fl2.noredef) = (l1.flags.noredef || fl1.noredef); rw [b, hr]
  unfold NodeRel at h ⊢
  split
  · rename_i hk
    rw [if_pos hk] at h
    obtain ⟨hv, hn⟩ := hs hk
    subst hv
    obtain ⟨l1, l2, rfl, rfl, n1, n2, h3⟩ := h
    refine ⟨_, _, rfl, rfl, ?_, ?_, .inr ⟨?_, rfl⟩⟩
    · show (l1.flags.noredef || fl1.noredef) = false; rw [n1, hn]; rfl
    · show (l2.flags.noredef || fl2.noredef) = false; rw [n2, hr, hn]; rfl
    · have hf : l2.flags.forward = l1.flags.forward := by
        rcases h3 with ⟨-, -, a, b⟩ | ⟨h3, -⟩
        · rw [a, b]
        · exact h3.core.forward
      obtain ⟨a, b⟩ := twin hf (n2.trans n1.symm)
      exact key a b
  · rename_i hk
    rw [if_neg hk] at h
    refine .inr ⟨_, _, rfl, rfl, ?_⟩
    obtain ⟨f, hf, le⟩ := hF hk
    rcases h with hu | ⟨l1, l2, rfl, rfl, h3⟩
    · obtain ⟨ho, l2, rfl, hcar⟩ := hu.snd f hf
      obtain ⟨c1, c2, c3, c4, c5⟩ := hcar.spec ho
      obtain ⟨fu, fn⟩ := le.defd (by show (false || fl1.undef) = false; rw [u1]; rfl)
      cases o1 with
      | none =>
        have fn : f.flags.noredef = (false || fl1.noredef) := fn
        rw [Bool.false_or] at fn
        refine key ?_ ?_
        · show (l2.flags.forward || fl2.forward) = (false || fl1.forward)
          rw [c2, fu, hfw]
          cases hnr : fl1.noredef with
          | false => rw [fn, hnr]; simp
          | true =>
            have hff : f.flags.forward = (false || fl1.forward) :=
              (le.fixed (by show (false || fl1.undef) = false; rw [u1]; rfl) (by show (false || fl1.noredef) = true; rw [hnr]; rfl)).2.1
            rw [fn, hnr, hff]; simp
        · show (l2.flags.noredef || fl2.noredef) = (false || fl1.noredef)
          rw [c3, fn, hr]; simp
      | some l1 =>
        obtain ⟨a1, a2, a3, a4, a5⟩ := hu.fst l1 rfl
        have fn : f.flags.noredef = (l1.flags.noredef || fl1.noredef) := fn
        have hff : f.flags.forward = (l1.flags.forward || fl1.forward) :=
          (le.fixed (by show (false || fl1.undef) = false; rw [u1]; rfl)
            (by show (l1.flags.noredef || fl1.noredef) = true; rw [a3]; rfl)).2.1
        refine key ?_ ?_
        · show (l2.flags.forward || fl2.forward) = (l1.flags.forward || fl1.forward)
          rw [c2, fu, fn, hff, a2, a3]; rfl
        · show (l2.flags.noredef || fl2.noredef) = (l1.flags.noredef || fl1.noredef)
          rw [c3, fn, a3]; rfl
    · obtain ⟨a, b⟩ := twin h3.core.forward h3.noredef
      exact key a b

theorem nodeRel_at (h : P X s1 s2) (n : Str) : NodeRel X (canon s1.segment n) (s1.tree.find (canon s1.segment n))
    (s2.tree.find (canon s2.segment n)) := by rw [h.segment]; exact h.tree _

theorem finE {t : St} (h : K (t, .live) (X.E1, .live)) {k : Str} (hk : k ≠ starKey) {l : Label} (hl : t.tree.find k = some l) :
    ∃ f, X.E1.tree.find k = some f ∧ LabLE l f := h.tree.old k l hk hl

theorem ls_deflabel {name : Str} {fl : LFlags} {ty : LType} {v1 v2 : Word} (h : P X s1 s2)
    (hc : ∀ m1 m2, Core { flags := fl, type := ty, value := v1, modifier := m1, ptr := .null }
      { flags := fl, type := ty, value := v2, modifier := m2, ptr := .null })
    (u1 : fl.undef = false) (hs : canon s1.segment name = starKey → v1 = v2 ∧ fl.noredef = false) :
    LsAt X s1 s2 (deflabel name fl ty v1) (deflabel name fl ty v2) (Eqq X) No := by
  intro f1 _
  have hn := nodeRel_at h name
  rcases deflabel_run name fl ty v2 s2 with ⟨msg, e⟩ | ⟨hd2, e2⟩
  · rw [e]
    cases e' : (error msg : M Str) s2 with
    | ok a t => exact absurd e' error_not_ok
    | err t => cases deflabel name fl ty v1 s1 <;> trivial
    | stop w t => cases deflabel name fl ty v1 s1 <;> trivial
  · have hd1 := (defOk_iff hn fl.noredef).mpr hd2
    have e1 := deflabel_ok (ty := ty) (v := v1) hd1
    rw [e1] at f1 ⊢
    rw [e2]
    refine ⟨by rw [h.segment], ?_⟩
    rw [h.segment] at hn ⊢
    refine h.put ?_ fun _ _ => ?_
    · exact def_rel hn (hc _ _) u1 rfl hd1 hs fun hk => finE f1 hk (Tree.find_put_self _ _ _)
    · show (false || fl.undef) = false; rw [u1]; rfl

theorem walkK_note (n : Note) : Walk K (note n) := fun s =>
  .one ⟨rfl, List.suffix_refl _, ⟨[_], rfl, by simp⟩, .refl _, fun h => (by cases h), fun _ h => (by cases h)⟩
instance (n : Note) : W K (note n) := ⟨walkK_note n⟩

theorem LsAt.label {k : Str} {v : Word} {E : Unit → St → St → Prop} (h : P X s1 s2) :
    LsAt X s1 s2 (note (.label k v)) (note (.label k v)) (Ends2 X) E := fun _ _ =>
  { h with
    counts := by
      show (choicesOf 2 ((s2.passnumber, _) :: s2.notes)).length = (choicesOf 1 ((s1.passnumber, _) :: s1.notes)).length
      simp [choicesOf, h.counts]
    labels := by
      show labelsOf 2 ((s2.passnumber, _) :: s2.notes) = labelsOf 1 ((s1.passnumber, _) :: s1.notes)
      simp [labelsOf, h.p1, h.p2, h.labels] }

theorem quiet_when {c : Prop} [Decidable c] {m : M Unit} [Quiet m] : Quiet (whenM c m) := Quiet.whenM inferInstance

theorem core_here (fl : LFlags) (v : Word) (m1 m2 : Int) : Core { flags := fl, type := .absolute, value := v, modifier := m1, ptr := .null }
    { flags := fl, type := .absolute, value := v, modifier := m2, ptr := .null } :=
  core_abs rfl rfl rfl rfl

instance l2_herelabel (n : Str) : L2 (herelabel n) (herelabel n) := ⟨fun X s1 s2 h => by
  unfold herelabel
  split
  · exact LsAt.error
  · rename_i hne
    refine LsAt.getS ?_
    dsimp only
    rw [h.org]
    cases ho : s1.flags.orgGv with
    | false => exact LsAt.error
    | true =>
      rw [if_pos rfl, if_pos rfl]
      have hv : (starLabel s2).value = (starLabel s1).value := by
        obtain ⟨l1, l2, e1, e2, n1, n2, h3⟩ := h.toPW.star
        have u := h.star ho l1 e1
        unfold starLabel
        rw [e1, e2]
        rcases h3 with ⟨a, -⟩ | ⟨-, h3⟩
        · rw [u] at a; cases a
        · exact h3.symm
      have ht : addrType s2.flags = addrType s1.flags := by unfold addrType; rw [h.rel1, h.rel2]
      have ha : addrType s1.flags = .absolute := by unfold addrType; rw [h.rel1]; rfl
      rw [hv, ht, ha]
      refine (ls_deflabel h (fun m1 m2 => core_here _ _ m1 m2) rfl fun hk => ?_).bindNo (by intro; kwalk) (by intro; kwalk)
        fun a b t1 t2 q => ?_
      · exact absurd (canon_star hk) hne
      · obtain ⟨rfl, q⟩ := q
        refine (LsAt.label q).bindNo (by intro; kwalk) (by intro; kwalk) fun _ _ u1 u2 q => ?_
        haveI : ∀ (c : Prop) [Decidable c] (m : M Unit) [Quiet m], Quiet (whenM c m) := fun c _ m _ => quiet_when
        exact LsAt.list q⟩

/-- The end of EQU: deflabel() and the rest of the label (pseudos.c:53-58). -/
def equDef (label : Str) (fl : LFlags) (ty : LType) (v : Word) (m : Int) (p : Ptr) : M Unit := do
  let key ← deflabel label fl ty v
  let s ← getS
  match s.tree.find key with
  | some l => putLabel key { l with modifier := m, ptr := p }
  | none => pure ()

theorem equDef_ok {label : Str} {fl : LFlags} {ty : LType} {v : Word} {m : Int} {p : Ptr} {s : St}
    (hd : defOk (s.tree.find (canon s.segment label)) fl.noredef) : equDef label fl ty v m p s = .ok ()
      (s.putL (canon s.segment label) { defdLabel (s.tree.find (canon s.segment label)) fl ty v with modifier := m, ptr := p }) := by
  unfold equDef
  rw [bind_run, deflabel_ok hd]
  simp only [getS_bind_run]
  show (match (s.tree.put _ _).find (canon s.segment label) with
    | some l => putLabel (canon s.segment label) { l with modifier := m, ptr := p }
    | none => pure ()) _ = _
  rw [Tree.find_put_self]
  show Res.ok () ((s.putL _ _).putL _ _) = _
  rw [St.putL_putL]

theorem equDef_run (label : Str) (fl : LFlags) (ty : LType) (v : Word) (m : Int) (p : Ptr) (s : St) :
    (∃ t, equDef label fl ty v m p s = .err t ∧ ∃ msg, (error msg : M Str) s = .err t) ∨
    (∃ w t, equDef label fl ty v m p s = .stop w t ∧ ∃ msg, (error msg : M Str) s = .stop w t) ∨
    defOk (s.tree.find (canon s.segment label)) fl.noredef := by
  rcases deflabel_run label fl ty v s with ⟨msg, e⟩ | ⟨hd, -⟩
  · unfold equDef
    rw [bind_run, e]
    cases e' : (error msg : M Str) s with
    | ok a t => exact absurd e' error_not_ok
    | err t => exact .inl ⟨t, rfl, msg, e'⟩
    | stop w t => exact .inr (.inl ⟨w, t, rfl, msg, e'⟩)
  · exact .inr (.inr hd)

theorem walkK_equDef {label : Str} {fl : LFlags} {ty : LType} {v : Word} {m : Int} {p : Ptr} (hu : fl.undef = false) :
    Walk K (equDef label fl ty v m p) := by
  intro s
  rcases equDef_run label fl ty v m p s with ⟨t, e, msg, e'⟩ | ⟨w, t, e, msg, e'⟩ | hd
  · have := (inferInstance : W K (error msg : M Str)).walk s
    rw [e'] at this; rw [e]; exact this
  · have := (inferInstance : W K (error msg : M Str)).walk s
    rw [e'] at this; rw [e]; exact this
  · rw [equDef_ok hd]
    exact .one (K.treed rfl rfl rfl (treeLE_def hu hd))

theorem ls_equDef {label : Str} {fl1 fl2 : LFlags} {ty1 ty2 : LType} {v1 v2 : Word} {m1 m2 : Int} {p1 p2 : Ptr} (h : P X s1 s2)
    (hc : Core { flags := fl1, type := ty1, value := v1, modifier := m1, ptr := p1 }
      { flags := fl2, type := ty2, value := v2, modifier := m2, ptr := p2 })
    (u1 : fl1.undef = false) (n1 : fl1.noredef = false) (n2 : fl2.noredef = false)
    (hs : canon s1.segment label = starKey → v1 = v2) :
    LsAt X s1 s2 (equDef label fl1 ty1 v1 m1 p1) (equDef label fl2 ty2 v2 m2 p2) (Ends2 X) No := by
  intro f1 _
  have hn := nodeRel_at h label
  rcases equDef_run label fl2 ty2 v2 m2 p2 s2 with ⟨t, e, -⟩ | ⟨w, t, e, -⟩ | hd2
  · rw [e]; cases equDef label fl1 ty1 v1 m1 p1 s1 <;> trivial
  · rw [e]; cases equDef label fl1 ty1 v1 m1 p1 s1 <;> trivial
  · have hd1 : defOk (s1.tree.find (canon s1.segment label)) fl1.noredef := by
      rw [n1]; rw [n2] at hd2; exact (defOk_iff hn false).mpr hd2
    rw [equDef_ok hd1] at f1 ⊢
    rw [equDef_ok hd2]
    rw [h.segment] at hn ⊢
    refine h.put ?_ fun _ _ => ?_
    · exact def_rel hn hc u1 (n2.trans n1.symm) hd1 (fun hk => ⟨hs hk, n1⟩) fun hk => finE f1 hk (Tree.find_put_self _ _ _)
    · show (false || fl1.undef) = false; rw [u1]; rfl

theorem xEqu_eq (label oper : Option Str) : xEqu label oper = (do
    let r ← parse oper
    let fl := { r.flags with undef := false, used := false, noredef := false }
    modS fun s => { s with calcR := { r with flags := fl } }
    whenM (r.type = .absolute ∨ r.type = .relative) (echoAddr r.value)
    whenM (label = some starKey) (note (.choice r.flags.forward (.origin r.value)))
    match label with
    | none => ubM .nullLabel
    | some label => equDef label fl r.type r.value r.modifier r.ptr) := rfl

theorem core_unset {r1 r2 : Result} (h : Core r1 r2) : Core
    { flags := { r1.flags with undef := false, used := false, noredef := false }, type := r1.type, value := r1.value,
      modifier := r1.modifier, ptr := r1.ptr }
    { flags := { r2.flags with undef := false, used := false, noredef := false }, type := r2.type, value := r2.value,
      modifier := r2.modifier, ptr := r2.ptr } :=
  ⟨rfl, h.forward, h.type, h.rel, h.voc, h.val, h.md⟩

theorem l2_xEqu (label oper : Option Str) : L2 (xEqu label oper) (xEqu label oper) := ⟨fun X s1 s2 h => by
  rw [xEqu_eq]
  have hw : ∀ (r : Result), Walk K (do
    let fl := { r.flags with undef := false, used := false, noredef := false }
    modS fun s => { s with calcR := { r with flags := fl } }
    whenM (r.type = .absolute ∨ r.type = .relative) (echoAddr r.value)
    whenM (label = some starKey) (note (.choice r.flags.forward (.origin r.value)))
    match label with
    | none => ubM .nullLabel
    | some label => equDef label fl r.type r.value r.modifier r.ptr) := by
    intro r
    kwalk
    exact walkK_equDef rfl
  refine (ls_parse oper h).bindNo hw hw fun r1 r2 t1 t2 q => ?_
  obtain ⟨hc, q⟩ := q
  dsimp only
  refine LsAt.modS ?_
  have q' : P X { t1 with calcR := { r1 with flags := { r1.flags with undef := false, used := false, noredef := false } } }
    { t2 with calcR := { r2 with flags := { r2.flags with undef := false, used := false, noredef := false } } } := { q with }
  haveI : ∀ (c : Prop) [Decidable c] (m : M Unit) [Quiet m], Quiet (whenM c m) := fun c _ m _ => quiet_when
  refine LsAt.after q' (by intro; kwalk; exact walkK_equDef rfl) (by intro; kwalk; exact walkK_equDef rfl) fun _ _ t1 t2 q => ?_
  refine LsAt.bindNo (Q0 := fun _ _ t1 t2 => (label = some starKey → r1.value = r2.value) ∧ P X t1 t2) ?_
    (by intro; kwalk; exact walkK_equDef rfl) (by intro; kwalk; exact walkK_equDef rfl) fun _ _ t1 t2 q => ?_
  · refine LsAt.whenN Iff.rfl (fun hl => ?_) fun hn => ⟨fun hl => absurd hl hn, q⟩
    · refine (LsAt.choice q).mono (fun _ _ u1 u2 hh => ⟨fun _ => ?_, hh.2⟩) fun _ _ _ h => h
      rcases hh.1 with hh | hh
      · exact Choice.origin.inj hh
      · exact (hc.val (.inl hh.1)).symm
  · cases label with
    | none => exact LsAt.ub2
    | some l =>
      exact ls_equDef q.2 (core_unset hc) rfl rfl rfl fun hk => q.1 (by rw [canon_star hk])⟩

end Crasm

import Verif.Proof.Frame

/-! Lines, conditionals, macros and passes. -/

namespace Crasm

/-! ### Definitions -/

theorem deflabel_run (name : Str) (fl : LFlags) (ty : LType) (v : Word) (s : St) :
    (∃ msg, deflabel name fl ty v s = (error msg : M Str) s) ∨
    (defOk (s.tree.find (canon s.segment name)) fl.noredef ∧
      deflabel name fl ty v s = .ok (canon s.segment name)
        (s.putL (canon s.segment name) (defdLabel (s.tree.find (canon s.segment name)) fl ty v))) := by
  unfold deflabel
  simp only [getS_bind_run]
  cases hf : s.tree.find (canon s.segment name) with
  | none => right; exact ⟨fun q hq => (by cases hq), rfl⟩
  | some q =>
    simp only
    split
    · left
      split <;> exact ⟨_, rfl⟩
    · rename_i hn
      right
      refine ⟨?_, rfl⟩
      intro q' hq
      cases hq
      revert hn
      cases q.flags.undef <;> cases q.flags.noredef <;> cases fl.noredef <;> simp

instance (v : Word) : W NStep (echoAddr v) := ⟨by unfold echoAddr; walk⟩
instance (v : Word) : Quiet (echoAddr v) := by unfold echoAddr; quiet

/-- The run of `m` from `s` is explained by steps from `R`. -/
def At (R : Cfg → Cfg → Prop) (s : St) (m : M α) : Prop := Out R s (m s)

section
variable {R : Cfg → Cfg → Prop} {s : St}
theorem At.w {m : M α} [h : W R m] : At R s m := h.walk s
theorem At.walk {m : M α} (h : Walk R m) : At R s m := h s
theorem At.getS {f : St → M β} (h : At R s (f s)) : At R s (getS >>= f) := h
theorem At.modS {g : St → St} {f : Unit → M β} (h : Star R (s, .live) (g s, .live))
    (h' : At R (g s) (f ())) : At R s (modS g >>= f) := by
  unfold At at *
  rw [modS_bind_run]
  unfold Out at *
  split <;> rename_i heq <;> rw [heq] at h' <;> exact h.trans h'
theorem At.bind {m : M α} {f : α → M β} (hm : At R s m)
    (hf : ∀ a s', Star R (s, .live) (s', .live) → m s = .ok a s' → At R s' (f a)) : At R s (m >>= f) :=
  Out.bind hm hf
theorem At.of_eq {m m' : M α} (h : m s = m' s) (h' : At R s m') : At R s m := by
  unfold At; rw [h]; exact h'
theorem At.ok {m : M α} {a : α} {s' : St} (h : m s = .ok a s') (h' : Star R (s, .live) (s', .live)) :
    At R s m := by unfold At; rw [h]; exact h'
end

/-- Steps that keep `advance` as long as the program runs normally. -/
def AStep (a b : Cfg) : Prop := Step a b ∧ (b.2 = .live → a.2 = .live ∧ b.1.advance = a.1.advance)

instance (m : M α) [h : W NStep m] : W AStep m := ⟨h.walk.mono fun a b h => ⟨.h (.n h), by
  cases h <;> simp⟩⟩

instance (b : Bool) (c : Choice) : W HStep (note (.choice b c)) := ⟨fun s => .one (.note s _ (by simp))⟩
instance : W HStep (note .odd) := ⟨fun s => .one (.note s _ (by simp))⟩
instance (b : Bool) (c : Choice) : W AStep (note (.choice b c)) :=
  ⟨fun s => .one ⟨.p (.h (.note s _ (by simp))), fun _ => ⟨rfl, rfl⟩⟩⟩
instance : W AStep (note .odd) := ⟨fun s => .one ⟨.p (.h (.note s _ (by simp))), fun _ => ⟨rfl, rfl⟩⟩⟩

theorem astar_step {a b : Cfg} (h : Star AStep a b) : Star Step a b := h.mono fun _ _ h => h.1
theorem astar_advance {a b : Cfg} (h : Star AStep a b) (hb : b.2 = .live) : b.1.advance = a.1.advance := by
  induction h with
  | refl => rfl
  | tail _ r ih => rw [(r.2 hb).2, ih (r.2 hb).1]

theorem walk_a {m : M α} (h : Walk AStep m) : Walk Step m := h.mono fun _ _ h => h.1

/-- `At.bind` that remembers that `advance` is 0. -/
theorem At.bindA {s : St} {m : M α} {f : α → M β} (h0 : s.advance = 0) (hm : Walk AStep m)
    (hf : ∀ a s', s'.advance = 0 → m s = .ok a s' → At Step s' (f a)) : At Step s (m >>= f) := by
  have h1 := hm s
  refine At.bind (walk_a hm s) fun a s' _ hr => hf a s' ?_ hr
  rw [hr] at h1
  exact (astar_advance h1 rfl).trans h0

theorem walk_herelabel (l : Str) : Walk AStep (herelabel l) := by
  intro s
  show At AStep s _
  unfold herelabel
  split
  · exact At.w
  · rename_i hne
    refine At.getS ?_
    dsimp only
    split
    · rename_i horg
      rcases deflabel_run l { noredef := true } (addrType s.flags) (starLabel s).value s with
        ⟨msg, h⟩ | ⟨hd, h⟩
      · refine At.of_eq (m' := (error msg : M Str) >>= _) ?_
          (At.bind (f := fun _ => (pure () : M Unit)) At.w fun _ _ _ _ => At.walk (Walk.pure _))
        rw [bind_run, bind_run, h]
        cases hr : (error msg : M Str) s with
        | ok a s' => exact absurd hr error_not_ok
        | err => rfl
        | stop => rfl
      · refine At.of_eq (m' := (do
            modS fun s1 => { s1.putL (canon s.segment l) (defdLabel (s.tree.find (canon s.segment l))
                { noredef := true } (addrType s.flags) (starLabel s).value) with
              notes := (s.passnumber, .label (canon s.segment l) (starLabel s).value) :: s1.notes }
            whenM (!s.flags.codeOn) (echoAddr (starLabel s).value) : M Unit)) ?_ ?_
        · rw [bind_run, h]; rfl
        · exact At.modS (.one ⟨.here s l hne horg hd, fun _ => ⟨rfl, rfl⟩⟩) (At.walk (by walk))
    · exact At.w
instance (l : Str) : W AStep (herelabel l) := ⟨walk_herelabel l⟩

theorem St.putL_putL (s : St) (k : Str) (x y : Label) : (s.putL k y).putL k x = s.putL k x := by
  simp [St.putL, Tree.put_put]

theorem Star.nS {a b : Cfg} (h : Star NStep a b) : Star Step a b := h.mono fun _ _ h => .h (.n h)

theorem walk_nstar {m : M α} (h : Walk NStep m) {s s' : St} {a : α} (hr : m s = .ok a s') :
    Star NStep (s, .live) (s', .live) := by
  have := h s
  rw [hr] at this
  exact this

instance (l o : Option Str) : W Step (xEqu l o) := ⟨by
  intro s
  show At Step s _
  unfold xEqu
  refine At.bind At.w fun r s1 _ hr => ?_
  have hprov := prov_parse o _ _ _ hr
  dsimp only
  have hstar : Star NStep (s1, .live)
      ({ s1 with calcR := { r with flags := { r.flags with undef := false, used := false, noredef := false } } },
        .live) :=
    .one (.scratch s1 s1.lst s1.bufpos _ s1.flags.listOn)
  refine At.modS hstar.nS ?_
  have hw : Walk NStep (whenM (r.type = .absolute ∨ r.type = .relative) (echoAddr r.value)) := by walk
  refine At.bind (At.walk (hw.mono fun _ _ h => .h (.n h))) fun u s2 _ h2 => ?_
  have hg2 : GoodTree s2.tree → SpecialOk r.flags r.type r.ptr r.modifier := fun g =>
    hprov ((nstar_good hstar).1 ((nstar_good (walk_nstar hw h2)).1 g))
  have hw3 : Walk AStep (whenM (l = some starKey) (note (.choice r.flags.forward (.origin r.value)))) := by walk
  refine At.bind (At.walk (walk_a hw3)) fun u3 s3 _ h3 => ?_
  replace hg2 : GoodTree s3.tree → SpecialOk r.flags r.type r.ptr r.modifier := by
    have : s3.tree = s2.tree := by
      revert h3
      unfold whenM
      split <;> intro h3 <;> cases h3 <;> rfl
    rw [this]
    exact hg2
  clear h3 h2
  generalize s3 = s2 at *
  split
  · exact At.w
  · rename_i label
    rcases deflabel_run label { r.flags with undef := false, used := false, noredef := false }
      r.type r.value s2 with ⟨msg, h⟩ | ⟨hd, h⟩
    · refine At.bind (At.of_eq h At.w) fun a s' _ hr => ?_
      rw [h] at hr
      exact absurd hr error_not_ok
    · have := Step.equ s2 label { r.flags with undef := false, used := false, noredef := false }
        r.type r.modifier r.ptr r.value ⟨rfl, rfl⟩ hd hg2
      have e := bind_run (deflabel label { r.flags with undef := false, used := false, noredef := false }
        r.type r.value) (fun key => do
          let s ← getS
          match s.tree.find key with
          | some l => putLabel key { l with modifier := r.modifier, ptr := r.ptr }
          | none => pure ()) s2
      rw [h] at e
      simp only [getS_bind_run, St.putL, Tree.find_put_self, putLabel, modS_run, Tree.put_put] at e
      exact At.ok e (.one this)⟩

/-! ### Vocabulary -/

theorem walk_bindOne (t : TableId) (e : Entry) (he : e ∈ tableOf t) : Walk PStep (bindOne t e) := by
  intro s
  show At PStep s _
  unfold bindOne
  refine At.getS ?_
  dsimp only
  split
  · rename_i q hq
    split
    · rename_i h
      exact .one (.bindOld s t e he q hq h.1 h.2)
    · exact At.w
  · rename_i hn
    exact .one (.bindNew s t e he hn)

theorem walk_bindAll (t : TableId) (is : List Nat) : Walk PStep (bindAll t (tableOf t) is) := by
  induction is with
  | nil => unfold bindAll; walk
  | cons i is ih =>
    unfold bindAll
    refine Walk.bind ?_ fun _ => ih
    split
    · rename_i e he
      exact walk_bindOne t e (List.mem_of_getElem? he)
    · exact Walk.pure _
theorem walk_init (t : TableId) : Walk PStep (initLabelList t (tableOf t)) := walk_bindAll t _
instance : W PStep (initLabelList .pseudos pseudos) := ⟨walk_init .pseudos⟩
instance : W PStep (initLabelList .m6800 C6800.m6800) := ⟨walk_init .m6800⟩
instance : W PStep (initLabelList .m6801 C6800.m6801) := ⟨walk_init .m6801⟩
instance : W PStep (initLabelList .m6502 C6502.m6502) := ⟨walk_init .m6502⟩
instance : W PStep (initLabelList .m65c02 C6502.m65c02) := ⟨walk_init .m65c02⟩
instance : W PStep (initLabelList .mz80 Z80.mz80) := ⟨walk_init .mz80⟩

theorem walk_flags (g : Flags → Flags) (hg : ∀ f, (g f).orgGv = f.orgGv ∧ (g f).codeOn = f.codeOn ∧
    (g f).nolist = f.nolist ∧ (g f).nowarning = f.nowarning ∧ (g f).noerror = f.noerror ∧
    (g f).nocode = f.nocode ∧ (f.relatif = false → (g f).relatif = false) ∧ (g f).cpuGv = f.cpuGv ∧ (g f).addr24 = f.addr24) : Walk PStep (modFlags g) :=
  Walk.modS fun s => .one (.flags s (g s.flags) s.cpuflag
    ⟨(hg s.flags).1, (hg s.flags).2.1, (hg s.flags).2.2.1, (hg s.flags).2.2.2.1, (hg s.flags).2.2.2.2.1, (hg s.flags).2.2.2.2.2.1,
      (hg s.flags).2.2.2.2.2.2.1, fun _ => (hg s.flags).2.2.2.2.2.2.2.1, (hg s.flags).2.2.2.2.2.2.2.2⟩)

instance (c : Int) : W PStep (C6800.init c) := ⟨by
  unfold C6800.init; refine Walk.bind (walk_flags _ (by simp)) fun _ => ?_; walk⟩
instance (c : Int) : W PStep (C6502.init c) := ⟨by
  unfold C6502.init
  refine Walk.bind (Walk.modS fun s => .one (.flags s _ c (by simp))) fun _ => ?_
  walk⟩
instance : W PStep Z80.init := ⟨by
  unfold Z80.init; refine Walk.bind (walk_flags _ (by simp)) fun _ => ?_; walk⟩

/-! ### Pseudo-instructions -/

theorem insert8_ok {x : Byte} {s s' : St} (h : insert8 x s = .ok () s') :
    s.flags.orgGv = true ∧ SameBut (emitSt s x) s' := by
  by_cases ho : s.flags.orgGv = true
  · refine ⟨ho, ?_⟩
    by_cases hc : s.flags.nocode = false → s.code.file = none → s.env.canCreate = true
    · rcases insert8_run x s ho hc with ⟨w, s1, c, h1, -⟩ | ⟨s1, h1, hq⟩
      · rw [h1] at h; cases h
      · rw [h1] at h; cases h; exact hq
    · obtain ⟨h1, h2, h3⟩ : s.flags.nocode = false ∧ s.code.file = none ∧ s.env.canCreate = false := by
        simpa using hc
      simp [insert8, openScode, ho, h1, h2, h3, bind_run] at h
  · simp [insert8, ho] at h
    exact absurd h error_not_ok

theorem fillBytes_advance {b : Byte} {n : Nat} {s s' : St} (h : fillBytes b n s = .ok () s') :
    s'.advance = s.advance + n := by
  induction n generalizing s with
  | zero => unfold fillBytes at h; cases h; simp
  | succ n ih =>
    unfold fillBytes at h
    obtain ⟨u, s1, h1, h2⟩ := bind_ok h
    obtain ⟨-, l, bp, f, rfl⟩ := insert8_ok h1
    rw [ih h2]
    simp [emitSt]
    omega

/-- `At.bind` after a function that generates nothing. -/
theorem At.bindN {s : St} {m : M α} {f : α → M β} (hm : Walk NStep m)
    (hf : ∀ a s', s'.advance = s.advance → m s = .ok a s' → At PStep s' (f a)) : At PStep s (m >>= f) := by
  refine At.bind (At.walk (hm.mono fun _ _ h => .h (.n h))) fun a s' _ hr => hf a s' ?_ hr
  obtain ⟨_, _, _, _, _, rfl⟩ := nframe (walk_nstar hm hr)
  rfl

theorem At.p {s : St} {m : M α} (h : At PStep s m) : At Step s m := by
  unfold At Out at *
  split <;> rename_i heq <;> rw [heq] at h <;> exact h.mono fun _ _ h => .p h

theorem at_xDs (o : Option Str) (s : St) (h0 : s.advance = 0) : At PStep s (xDs o) := by
  unfold xDs
  refine At.bindN (by walk) fun p s1 h1 _ => ?_
  obtain ⟨o', init⟩ := p
  dsimp only
  refine At.bindN (by walk) fun r s2 h2 _ => ?_
  split
  · exact At.walk (by walk)
  · rename_i hi
    refine At.bind At.w fun u s3 _ h3 => ?_
    cases h3
    refine At.bind At.w fun u s3 _ h3 => ?_
    have := fillBytes_advance h3
    have e : s3.advance = toInt32 r.value := by rw [this, show St.advance _ = s2.advance from rfl, h2, h1, h0]; omega
    rw [← e]
    exact .refl _

instance (t : Str) : W PStep (settitle t) := ⟨by unfold settitle; walk; exact Walk.modS fun s => .one (.h (.n (.scratch s _ s.bufpos s.calcR s.flags.listOn)))⟩
instance (o : Option Str) : W PStep (xNam o) := ⟨by unfold xNam; walk⟩
instance (b : Bool) (o : Option Str) : W PStep (xCode b o) := ⟨by
  unfold xCode; split
  · walk
  · exact Walk.modS fun s => .one (.sect s b)⟩
theorem walk_onOff (o : Option Str) (set : Bool → Flags → Flags) (h : ∀ b, Walk PStep (modFlags (set b))) :
    Walk PStep (onOff o set) := by
  unfold onOff; walk <;> exact h _
instance (o : Option Str) : W PStep (xList o) := ⟨by
  refine walk_onOff o _ fun b => walk_flags _ fun f => ?_
  split <;> simp⟩
instance (o : Option Str) : W PStep (xMlist o) := ⟨walk_onOff o _ fun b => walk_flags _ (by simp)⟩
instance (o : Option Str) : W PStep (xClist o) := ⟨walk_onOff o _ fun b => walk_flags _ (by simp)⟩
instance (o : Option Str) : W PStep (xIlist o) := ⟨walk_onOff o _ fun b => walk_flags _ (by simp)⟩
instance (a b : Int) : W PStep (setpage a b) := ⟨by
  unfold setpage; walk
  exact Walk.modS fun s => .one (.h (.n (.scratch s _ s.bufpos s.calcR s.flags.listOn)))⟩
instance (o : Option Str) : W PStep (xPage o) := ⟨by unfold xPage; walk⟩
theorem walk_eols (n : Nat) : Walk NStep (eols n) := by
  induction n with
  | zero => exact Walk.pure _
  | succ n ih => unfold eols; walk; exact ih
instance (n : Nat) : W NStep (eols n) := ⟨walk_eols n⟩
instance (o : Option Str) : W PStep (xSkip o) := ⟨by unfold xSkip; walk⟩
instance (o : Option Str) : W PStep (xOutput o) := ⟨by
  unfold xOutput
  refine Walk.bind (walk_flags _ (by simp)) fun _ => ?_
  walk <;> exact walk_flags _ (by simp)⟩
theorem walk_findCpu (o : Str) (cs : List (Str × Cpu)) : Walk NStep (findCpu o cs) := by
  induction cs with
  | nil => exact Walk.pure _
  | cons c cs ih => obtain ⟨p, b⟩ := c; unfold findCpu; walk; exact ih
instance (o : Str) (cs : List (Str × Cpu)) : W NStep (findCpu o cs) := ⟨walk_findCpu o cs⟩
instance (c : Cpu) : W PStep c.init := ⟨by cases c <;> (unfold Cpu.init; walk)⟩
instance (o : Option Str) : W PStep (xCpu o) := ⟨by
  unfold xCpu
  split
  · walk
  · rename_i o
    intro s
    refine At.getS ?_
    split
    · exact At.w
    · refine At.bind (At.walk ((walk_findCpu o _).mono fun _ _ h => .h (.n h))) fun r s' _ hr => ?_
      have hp : s'.passnumber = s.passnumber := by
        obtain ⟨_, _, _, _, _, rfl⟩ := nframe (walk_nstar (walk_findCpu o _) hr)
        rfl
      cases r with
      | none => exact At.w
      | some c =>
        refine At.bind ?_ fun _ _ _ _ => At.w
        unfold whenM
        by_cases h2 : s.passnumber = 2
        · rw [if_pos h2]
          exact Star.one (.flags s' _ s'.cpuflag ⟨rfl, rfl, rfl, rfl, rfl, rfl, id, fun h => absurd (hp.trans h2) h, rfl⟩)
        · rw [if_neg h2]
          exact Star.refl _⟩
instance (o : Option Str) : W PStep (xFail o) := ⟨by unfold xFail; walk⟩

/-! ### Source lines -/

theorem takeLine_run (raw : Str) (s : St) :
    (∃ w s' k, takeLine raw s = .stop w s' ∧ SameBut { s with curline := k } s') ∨
    (∃ s', takeLine raw s = .ok () s' ∧
      SameBut { s with curline := (lineText raw).filter keepChar, linenumber := s.linenumber + 1,
                       log := .line s.passnumber s.stack.length ((lineText raw).filter keepChar) :: s.log } s') := by
  unfold takeLine
  simp only [modS_bind_run]
  generalize hk : (lineText raw).filter keepChar = k
  have q := (by quiet : Quiet (whenM (k.length ≠ (lineText raw).length)
    (warning c!"Unprintable characters removed"))).run { s with curline := k }
  rw [bind_run]
  revert q
  cases whenM (k.length ≠ (lineText raw).length) (warning c!"Unprintable characters removed")
      { s with curline := k } with
  | err s' => intro q; exact q.elim
  | stop w s' => intro q; exact .inl ⟨w, s', k, rfl, q⟩
  | ok a s' =>
    intro q
    obtain ⟨l, b, f, rfl⟩ := q
    exact .inr ⟨_, rfl, ⟨l, b, f, rfl⟩⟩

theorem popEnds_star (st : List Src) (s : St) (h : s.stack = st) :
    Star Step (s, .live) (popEnds st s, .live) := by
  induction st generalizing s with
  | nil => unfold popEnds; exact .refl _
  | cons src rest ih =>
    obtain ⟨ol, op, on, kind⟩ := src
    cases kind with
    | «macro» a b c => unfold popEnds; exact .refl _
    | file t e =>
      cases e with
      | false => unfold popEnds; exact .refl _
      | true =>
        unfold popEnds
        refine Star.trans ?_ (ih _ rfl)
        have h1 := Step.drop s 1
        rw [h] at h1
        refine (Star.one h1).trans ?_
        refine (Star.one (Step.misc _ s.curline op on)).trans ?_
        exact .one (.h (.n (.scratch _ s.lst s.bufpos s.calcR ol)))

theorem Star.misc {s : St} {k : Str} : Star Step (s, .live) ({ s with curline := k }, .live) :=
  .one (.misc s k s.lineprefix s.linenumber)

instance : W Step linegets := ⟨by
  intro s
  show At Step s _
  unfold linegets
  refine At.modS (popEnds_star s.stack s rfl) ?_
  generalize popEnds s.stack s = s
  refine At.getS ?_
  cases hs : s.stack with
  | nil =>
    dsimp only
    rcases takeLine_run (fgets (lineMax - 1) s.main).1 s with ⟨w, s', k, h, hq⟩ | ⟨s', h, hq⟩
    · unfold At; rw [bind_run, h]; exact Star.misc.trans hq.dead.nS
    · unfold At; rw [bind_run, h]
      obtain ⟨ll, b, f, rfl⟩ := hq
      have := Step.readMain s hs
      simp only [delivered, hs] at this
      simp only [hs, List.length_nil]
      exact (Star.one this).trans (.one (.h (.n (.scratch _ ll b s.calcR f))))
  | cons src rest =>
    dsimp only
    cases hk : src.kind with
    | file t e0 =>
      dsimp only
      rcases takeLine_run (fgets (lineMax - 1) t).1 s with ⟨w, s', k, h, hq⟩ | ⟨s', h, hq⟩
      · unfold At; rw [bind_run, h]; exact Star.misc.trans hq.dead.nS
      · unfold At; rw [bind_run, h]
        obtain ⟨ll, b, f, rfl⟩ := hq
        have := Step.readFile s src rest t e0 hk hs
        simp only [delivered] at this
        simp only [hs, List.length_cons]
        exact (Star.one this).trans (.one (.h (.n (.scratch _ ll b s.calcR f))))
    | «macro» args all lines =>
      dsimp only
      cases lines with
      | nil => exact At.w
      | cons l ls =>
        dsimp only
        have := Step.readMacro s src rest args all l ls hk hs
        unfold At
        simp only [modS_bind_run]
        have w := (by walk : Walk Step (whenM ((expandLine args all false [] l).2 = true)
          (warning c!"Too long line"))) { s with
            curline := (expandLine args all false [] l).1.reverse,
            log := .line s.passnumber (rest.length + 1) (expandLine args all false [] l).1.reverse :: s.log,
            stack := { src with kind := .macro args all ls } :: rest }
        unfold Out at *
        split <;> rename_i heq <;> rw [heq] at w <;> exact (Star.one this).trans w⟩

end Crasm

import Verif.Proof.Gen
import Verif.Proof.Digits
import Verif.Proof.CodeInv

/-! What a line generates, whether it is accepted or rejected. -/

namespace Crasm

/-- Instructions and data directives. -/
def Handler.generates : Handler → Bool
  | .pseudo p => p = .asc || p = .align || p = .dc || p = .ds
  | _ => true

/-- Steps of a line with an instruction or a data directive. -/
inductive GStep : Cfg → Cfg → Prop
  | h {a b : Cfg} (h : HStep a b) : GStep a b
  | line (s : St) (curline : Str) : GStep (s, .live) ({ s with curline }, .live)
  | here (s : St) (name : Str) (hne : name ≠ starKey) (horg : s.flags.orgGv = true) (l : Label) :
      GStep (s, .live) (s.putL (canon s.segment name) l, .live)
  | note (s : St) (n : Note) : GStep (s, .live) ({ s with notes := (s.passnumber, n) :: s.notes }, .live)

/-- The code side but for the location counter; at most the (empty) code file has been opened. -/
def SameCode (c c' : Code) : Prop :=
  c'.raw = c.raw ∧ c'.rawstart = c.rawstart ∧ c'.codelen = c.codelen ∧
  ((c'.file = c.file ∧ c'.rawextended = c.rawextended) ∨
    (c.file = none ∧ c'.file = some [] ∧ c'.rawextended = 0))

theorem SameCode.refl (c : Code) : SameCode c c := ⟨rfl, rfl, rfl, .inl ⟨rfl, rfl⟩⟩
theorem SameCode.trans {a b c : Code} (h : SameCode a b) (h' : SameCode b c) : SameCode a c := by
  obtain ⟨h1, h2, h3, h4⟩ := h
  obtain ⟨g1, g2, g3, g4⟩ := h'
  refine ⟨g1.trans h1, g2.trans h2, g3.trans h3, ?_⟩
  rcases h4 with ⟨h4, h5⟩ | ⟨h4, h5, h6⟩
  · rcases g4 with ⟨g4, g5⟩ | ⟨g4, g5, g6⟩
    · exact .inl ⟨g4.trans h4, g5.trans h5⟩
    · exact .inr ⟨h4 ▸ g4, g5, g6⟩
  · rcases g4 with ⟨g4, g5⟩ | ⟨g4, g5, g6⟩
    · exact .inr ⟨h4, g4.trans h5, g5.trans h6⟩
    · rw [h5] at g4; cases g4

/-- From `s`, exactly the bytes `bs` have been generated, from the location counter on; in mode `pend`, error() has
    been called after that. -/
structure Made (bs : List Byte) (s : St) (c : Cfg) : Prop where
  log : c.1.log = (if c.2 = .pend then [.error s.passnumber (!s.flags.noerror)] else []) ++
    ((byteEvents s.passnumber s.flags.codeOn s.code.pc bs).reverse ++ s.log)
  pc : c.1.code.pc = s.code.pc + BitVec.ofNat 64 bs.length
  pass : c.1.passnumber = s.passnumber
  flags : c.1.flags.codeOn = s.flags.codeOn ∧ c.1.flags.orgGv = s.flags.orgGv ∧ c.1.flags.nocode = s.flags.nocode ∧
    c.1.flags.noerror = s.flags.noerror
  live : c.2 = .live → c.1.advance = s.advance + bs.length ∧ (starLabel c.1).value = (starLabel s).value
  pend : c.2 = .pend →
    (starLabel c.1).value = (starLabel s).value + BitVec.ofInt 64 (s.advance + bs.length)
  dummy : s.flags.codeOn = false → SameCode s.code c.1.code
  noorg : s.flags.orgGv = false → bs = [] ∧ c.1.code = s.code

theorem Made.refl (s : St) : Made [] s (s, .live) :=
  ⟨by simp [byteEvents], by simp, rfl, ⟨rfl, rfl, rfl, rfl⟩, by simp, by simp, fun _ => .refl _, fun _ => ⟨rfl, rfl⟩⟩

/-- A step that generates nothing. -/
theorem Made.keep {bs : List Byte} {s s1 s2 : St} (h : Made bs s (s1, .live)) (hl : s2.log = s1.log)
    (hp : s2.passnumber = s1.passnumber)
    (hf : s2.flags.codeOn = s1.flags.codeOn ∧ s2.flags.orgGv = s1.flags.orgGv ∧ s2.flags.nocode = s1.flags.nocode ∧
      s2.flags.noerror = s1.flags.noerror)
    (ha : s2.advance = s1.advance) (hs : (starLabel s2).value = (starLabel s1).value) (hc : s2.code = s1.code) :
    Made bs s (s2, .live) := by
  obtain ⟨h1, h2, h3, h4, h5, h6, h7, h8⟩ := h
  have h5 := h5 rfl
  refine ⟨by simpa [hl] using h1, by simpa [hc] using h2, by simpa [hp] using h3, ?_, ?_, by simp, ?_, ?_⟩
  · exact ⟨hf.1.trans h4.1, hf.2.1.trans h4.2.1, hf.2.2.1.trans h4.2.2.1, hf.2.2.2.trans h4.2.2.2⟩
  · exact fun _ => ⟨ha.trans h5.1, hs.trans h5.2⟩
  · intro h; show SameCode s.code s2.code; rw [hc]; exact h7 h
  · intro h; show _ ∧ s2.code = s.code; rw [hc]; exact h8 h

theorem starLabel_put (s : St) (t : Tree) (l : Label) (h : t = s.tree.put starKey l) :
    starLabel { s with tree := t } = l := by
  simp [starLabel, h, Tree.find_put_self]

theorem Made.error {bs : List Byte} {s s1 : St} (h : Made bs s (s1, .live)) (t : Tree)
    (ht : (t.find starKey).getD {} = { starLabel s1 with value := (starLabel s1).value + BitVec.ofInt 64 s1.advance } ∨
      (t = s1.tree ∧ s1.advance = 0)) :
    Made bs s ({ s1 with tree := t, log := .error s1.passnumber (!s1.flags.noerror) :: s1.log }, .pend) := by
  obtain ⟨h1, h2, h3, h4, h5, h6, h7, h8⟩ := h
  have h5 := h5 rfl
  refine ⟨?_, h2, h3, h4, by simp, fun _ => ?_, h7, h8⟩
  · simp only [reduceCtorEq, if_false, List.nil_append] at h1
    simp only [if_true, h1]
    simp only at h3 h4
    rw [h3, h4.2.2.2]
    rfl
  · show ((t.find starKey).getD {}).value = _
    simp only at h5
    rcases ht with ht | ⟨ht, h0⟩
    · rw [ht, ← h5.1]
      show (starLabel s1).value + _ = _
      rw [h5.2]
    · rw [ht, ← h5.1, h0]
      show (starLabel s1).value = _
      rw [h5.2]
      simp

theorem emitted_same (s : St) (x : Byte) (h : s.flags.codeOn = false) : SameCode s.code (Code.emitted s x) := by
  have e : Code.emitted s x = { Code.opened s with pc := (Code.opened s).pc + 1 } := by simp [Code.emitted, h]
  rw [e]
  by_cases hc : (!s.flags.nocode && s.code.file.isNone) = true
  · have e2 : Code.opened s = { s.code with file := some [], rawextended := 0 } := by
      unfold Code.opened; rw [if_pos hc]
    rw [e2]
    simp at hc
    exact ⟨rfl, rfl, rfl, .inr ⟨hc.2, rfl, rfl⟩⟩
  · have e2 : Code.opened s = s.code := by unfold Code.opened; rw [if_neg hc]
    rw [e2]
    exact ⟨rfl, rfl, rfl, .inl ⟨rfl, rfl⟩⟩

theorem made_gstep {bs : List Byte} {s : St} {a b : Cfg} (ha : Made bs s a) (h : GStep a b) (hb : b.2 ≠ .dead) :
    ∃ bs', Made bs' s b := by
  cases h with
  | line s1 c => exact ⟨bs, ha.keep rfl rfl ⟨rfl, rfl, rfl, rfl⟩ rfl rfl rfl⟩
  | note s1 c => exact ⟨bs, ha.keep rfl rfl ⟨rfl, rfl, rfl, rfl⟩ rfl rfl rfl⟩
  | here s1 name hne horg l =>
    refine ⟨bs, ha.keep rfl rfl ⟨rfl, rfl, rfl, rfl⟩ rfl ?_ rfl⟩
    unfold starLabel St.putL
    rw [Tree.find_put_ne _ _ (fun e => hne (canon_star e.symm))]
  | h h =>
    cases h with
    | note s1 => exact ⟨bs, ha.keep rfl rfl ⟨rfl, rfl, rfl, rfl⟩ rfl rfl rfl⟩
    | lohi s1 => exact ⟨bs, ha.keep rfl rfl ⟨rfl, rfl, rfl, rfl⟩ rfl rfl rfl⟩
    | emit s1 x ho hc =>
      obtain ⟨h1, h2, h3, h4, h5, h6, h7, h8⟩ := ha
      have h5 := h5 rfl
      simp only [reduceCtorEq, if_false, List.nil_append] at h1 h2 h3 h4 h5 h7 h8
      refine ⟨bs ++ [x], ?_, ?_, h3, h4, fun _ => ⟨?_, h5.2⟩, by simp, ?_, ?_⟩
      · simp only [reduceCtorEq, if_false, List.nil_append]
        rw [byteEvents_append, List.reverse_append]
        simp [emitSt, byteEvents, h1, h2, h3, h4.1]
      · simp only [emitSt, emitted_pc, h2, List.length_append, BitVec.ofNat_add, ← BitVec.add_assoc]
        rfl
      · simp [emitSt, h5.1]; omega
      · intro hon
        exact (h7 hon).trans (emitted_same s1 x (h4.1.trans hon))
      · intro hg
        rw [h4.2.1, hg] at ho; cases ho
    | n h =>
      cases h with
      | scratch => exact ⟨bs, ha.keep rfl rfl ⟨rfl, rfl, rfl, rfl⟩ rfl rfl rfl⟩
      | use s1 k =>
        refine ⟨bs, ha.keep rfl rfl ⟨rfl, rfl, rfl, rfl⟩ rfl ?_ rfl⟩
        unfold starLabel
        by_cases e : starKey = k
        · subst e
          simp only [Tree.find_put_self]
          cases s1.tree.find starKey <;> simp [usedLabel]
        · rw [Tree.find_put_ne _ _ e]
      | error0 s1 h0 => exact ⟨bs, ha.error s1.tree (.inr ⟨rfl, h0⟩)⟩
      | error1 s1 t h0 hbp =>
        refine ⟨bs, ha.error t (.inl ?_)⟩
        obtain ⟨v, hv, rfl⟩ := hbp
        rw [Tree.find_put_self]
        unfold addS at hv
        split at hv
        · cases hv
        · cases hv; rfl
      | odd s1 => exact ⟨bs, ⟨ha.log, ha.pc, ha.pass, ha.flags, by simp, ha.pend, ha.dummy, ha.noorg⟩⟩
      | die => exact absurd rfl hb

theorem gstep_src {a b : Cfg} (h : GStep a b) : a.2 ≠ .dead := by
  cases h with
  | h h => exact pstep_src (.h h)
  | _ => simp

theorem gstar_made {s : St} {c : Cfg} (h : Star GStep (s, .live) c) (hc : c.2 ≠ .dead) : ∃ bs, Made bs s c := by
  generalize ha : ((s, .live) : Cfg) = a at h
  induction h with
  | refl => subst ha; exact ⟨[], .refl s⟩
  | tail _ r ih =>
    obtain ⟨bs, hm⟩ := ih (gstep_src r)
    exact made_gstep hm r hc

/-! Instructions and data directives walk in such steps. -/

theorem walk_nh {m : M α} (h : Walk NStep m) : Walk HStep m := h.mono fun _ _ h => .n h
theorem walk_ng {m : M α} (h : Walk NStep m) : Walk GStep m := h.mono fun _ _ h => .h (.n h)
theorem At.g {s : St} {m : M α} (h : At HStep s m) : At GStep s m := by
  unfold At Out at *
  split <;> rename_i heq <;> rw [heq] at h <;> exact h.mono fun _ _ h => .h h

theorem nwalk_advance {m : M α} (h : Walk NStep m) {s s' : St} {a : α} (hr : m s = .ok a s') :
    s'.advance = s.advance := by
  obtain ⟨_, _, _, _, _, rfl⟩ := nframe (walk_nstar h hr)
  rfl

theorem at_xDsH (o : Option Str) (s : St) (h0 : s.advance = 0) : At HStep s (xDs o) := by
  unfold xDs
  have bindN : ∀ {α β : Type} {s : St} {m : M α} {f : α → M β}, Walk NStep m →
      (∀ a s', s'.advance = s.advance → At HStep s' (f a)) → At HStep s (m >>= f) := by
    intro α β s m f hm hf
    exact At.bind (At.walk (walk_nh hm)) fun a s' _ hr => hf a s' (nwalk_advance hm hr)
  refine bindN (by walk) fun p s1 h1 => ?_
  obtain ⟨o', init⟩ := p
  dsimp only
  refine bindN (by walk) fun r s2 h2 => ?_
  split
  · exact At.walk (by walk)
  · rename_i hi
    refine At.bind At.w fun u s3 _ h3 => ?_
    cases h3
    refine At.bind At.w fun u s3 _ h3 => ?_
    have := fillBytes_advance h3
    have e : s3.advance = toInt32 r.value := by rw [this, show St.advance _ = s2.advance from rfl, h2, h1, h0]; omega
    rw [← e]
    exact .refl _

theorem at_generates {self : Status → M RC} {fuel : Nat} {h : Handler} (hg : h.generates = true) (arg : Int)
    (l o : Option Str) (s : St) (h0 : s.advance = 0) : At HStep s (callHandler self fuel h arg l o) := by
  unfold callHandler
  cases h with
  | h6800 h => exact At.walk (by walk)
  | h6502 h => exact At.walk (by walk)
  | hz80 h => exact At.walk (by walk)
  | pseudo p =>
    cases p with
    | ds => exact At.bind (at_xDsH o s h0) fun _ _ _ _ => At.walk (Walk.pure _)
    | asc => exact At.walk (by walk)
    | align => exact At.walk (by walk)
    | dc => exact At.walk (by walk)
    | _ => cases hg

theorem walk_hereG (l : Str) : Walk GStep (herelabel l) := by
  intro s
  show At GStep s _
  have key : At GStep s (herelabel l) := by
    unfold herelabel
    by_cases hne : l = starKey
    · rw [if_pos hne]; exact At.walk (walk_ng W.walk)
    · rw [if_neg hne]
      refine At.getS ?_
      dsimp only
      by_cases horg : s.flags.orgGv = true
      · rw [if_pos horg]
        refine At.bind ?_ fun a s' _ _ => At.walk
          (Walk.bind (fun s => .one (.note s _)) fun _ => walk_ng (by walk))
        rcases deflabel_run l { noredef := true } (addrType s.flags) (starLabel s).value s with
          ⟨msg, h⟩ | ⟨hd, h⟩
        · exact At.of_eq h (At.walk (walk_ng W.walk))
        · exact At.ok h (.one (.here s l hne horg _))
      · rw [if_neg horg]; exact At.walk (walk_ng W.walk)
  exact key

theorem walk_stripG : Walk GStep stripLine := by
  unfold stripLine
  refine Walk.bind Walk.getS fun s => Walk.bind (walk_ng W.walk) fun r => ?_
  split
  · exact Walk.pure _
  · exact Walk.bind (Walk.modS fun s => .one (.line s _)) fun _ => Walk.pure _

theorem herelabel_advance {l : Str} {s s' : St} {u : Unit} (h : herelabel l s = .ok u s') :
    s'.advance = s.advance := by
  have := walk_herelabel l s
  rw [h] at this
  exact astar_advance this rfl

/-- The statement on a line: an instruction or a data directive, under whatever label. -/
def Plain (lab : Label) : Prop :=
  lab.type = .mnemo ∧ lab.flags.defcond = false ∧ lab.flags.defmacro = false ∧
  ∃ h, lab.ptr = .handler h ∧ h.generates = true

/-- How a line that starts in `s` ends: the bytes generated, at consecutive addresses from the location counter
    on, and the new value of the location counter. -/
structure LineMade (s s' : St) (rejected : Bool) (bs : List Byte) : Prop where
  log : s'.log = (if rejected then [.error s.passnumber (!s.flags.noerror)] else []) ++
    ((byteEvents s.passnumber s.flags.codeOn s.code.pc bs).reverse ++ s.log)
  star : (starLabel s').value = (starLabel s).value + BitVec.ofNat 64 bs.length
  pc : s'.code.pc = s.code.pc + BitVec.ofNat 64 bs.length
  codeOn : s'.flags.codeOn = s.flags.codeOn
  dummy : s.flags.codeOn = false → SameCode s.code s'.code
  noorg : s.flags.orgGv = false → bs = [] ∧ s'.code = s.code

def LineFrom (s : St) : Res α → Prop
  | .ok _ s' => ∃ bs, LineMade s s' false bs
  | .err s' => ∃ bs, LineMade s s' true bs
  | .stop _ _ => True

theorem Made.rejected {s s' : St} {bs : List Byte} (h0 : s.advance = 0) (h : Made bs s (s', .pend)) :
    LineMade s s' true bs := by
  refine ⟨by simpa using h.log, ?_, h.pc, h.flags.1, h.dummy, h.noorg⟩
  have := h.pend rfl
  rw [h0, Int.zero_add, BitVec.ofInt_natCast] at this
  exact this

theorem LineFrom.bind {s s1 : St} {m : M α} {f : α → M β} (h0 : s.advance = 0) (hst : Star GStep (s, .live) (s1, .live))
    (hm : At GStep s1 m)
    (hf : ∀ a s2, Star GStep (s, .live) (s2, .live) → m s1 = .ok a s2 → LineFrom s (f a s2)) :
    LineFrom s ((m >>= f) s1) := by
  rw [bind_run]
  unfold At Out at hm
  cases h : m s1 with
  | ok a s2 =>
    rw [h] at hm
    exact hf a s2 (hst.trans hm) h
  | err s2 =>
    rw [h] at hm
    obtain ⟨bs, hb⟩ := gstar_made (hst.trans hm) (by simp)
    exact ⟨bs, hb.rejected h0⟩
  | stop w s2 => trivial

/-- A line that has generated nothing so far and does not go on. -/
theorem LineFrom.done {s s1 : St} {m : M α} (h0 : s.advance = 0) (hst : Star GStep (s, .live) (s1, .live))
    (h1 : s1.advance = 0) (hm : Walk NStep m) : LineFrom s (m s1) := by
  have hw := walk_ng hm s1
  cases h : m s1 with
  | ok a s2 =>
    rw [h] at hw
    obtain ⟨bs, hb⟩ := gstar_made (hst.trans hw) (by simp)
    obtain ⟨ha, hs⟩ := hb.live rfl
    have ha2 := nwalk_advance hm h
    have : bs = [] := by
      simp only at ha
      rw [ha2, h1, h0] at ha
      cases bs with
      | nil => rfl
      | cons => simp at ha; omega
    subst this
    exact ⟨[], by simpa using hb.log, by simpa using hs, hb.pc, hb.flags.1, hb.dummy, hb.noorg⟩
  | err s2 =>
    rw [h] at hw
    obtain ⟨bs, hb⟩ := gstar_made (hst.trans hw) (by simp)
    exact ⟨bs, hb.rejected h0⟩
  | stop w s2 => trivial

/-- The end of a line with an instruction. -/
theorem LineFrom.bump {s s1 : St} {rc : RC} {b : Bool} (h0 : s.advance = 0) (hst : Star GStep (s, .live) (s1, .live)) :
    LineFrom s ((do bumpStar; whenM b outputline; pure rc : M RC) s1) := by
  obtain ⟨bs, hb⟩ := gstar_made hst (by simp)
  obtain ⟨ha, hs⟩ := hb.live rfl
  rw [bind_run]
  unfold bumpStar
  rw [getS_bind_run]
  cases hv : addS (starLabel s1).value (BitVec.ofInt 64 s1.advance) with
  | none => trivial
  | some v =>
    have hv2 : v = (starLabel s1).value + BitVec.ofInt 64 s1.advance := by
      unfold addS at hv
      split at hv
      · cases hv
      · cases hv; rfl
    have hw0 : Walk NStep (whenM b outputline) := by walk
    have hq0 : Quiet (whenM b outputline) := by quiet
    simp only [modS_run]
    obtain ⟨s2, hs2⟩ : ∃ s2 : St, { s1 with tree := s1.tree.put starKey { starLabel s1 with value := v } } = s2 := ⟨_, rfl⟩
    have hs2' : (starLabel s2).value = v := by rw [← hs2]; simp [starLabel]
    have hm : Made [] s2 (s2, .live) := .refl _
    simp only [hs2]
    rw [bind_run]
    cases ho : whenM b outputline s2 with
    | ok u s3 =>
      have hw := walk_ng hw0 s2
      rw [ho] at hw
      obtain ⟨l, b', c, f, t, hfr⟩ := nframe (walk_nstar hw0 ho)
      obtain ⟨cs, hc⟩ := gstar_made hw (by simp)
      obtain ⟨ha3, hs3⟩ := hc.live rfl
      have : cs = [] := by
        have := nwalk_advance hw0 ho
        simp only at ha3
        rw [this] at ha3
        cases cs with
        | nil => rfl
        | cons => simp at ha3; omega
      subst this
      have e1 := hc.log
      have e2 := hb.log
      simp only [reduceCtorEq, if_false, List.nil_append, byteEvents, List.reverse_nil] at e1 e2
      subst hs2
      refine ⟨bs, ?_, ?_, ?_, ?_, ?_, ?_⟩
      · simpa [e1] using e2
      · simp only at hs3 ha hs
        rw [hs3, hs2', hv2, hs, ha, h0, Int.zero_add, BitVec.ofInt_natCast]
      · have := hb.pc
        rw [hfr]
        exact this
      · rw [hfr]; exact hb.flags.1
      · rw [hfr]; exact hb.dummy
      · rw [hfr]; exact hb.noorg
    | err s3 => exact absurd ho (Quiet.noErr hq0 _ _)
    | stop w s3 => trivial

end Crasm

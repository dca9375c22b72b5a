import Verif.Proof.Made
import Verif.Proof.RelL

/-! # C05: the location counter advances by exactly the bytes generated -/

namespace Crasm

/-- The statement on the current line, as crasm.c:376-483 takes it apart: `none` if the line is blank. -/
def statement : M (Option Fields) := do
  startLine
  let t ← stripLine
  if t = [] then pure none
  else do
    let f ← splitLine t
    pure (some f)

theorem line_fields {self : Status → M RC} {fuel : Nat} {st : Status} {flush : Bool} {f : Fields} {s s1 : St}
    (h0 : s.advance = 0) (h1 : s1.advance = 0) (hst : Star GStep (s, .live) (s1, .live))
    (hp : ∀ key lab, f.entry = some (key, lab) → Plain lab) :
    LineFrom s (doFields self fuel st flush f s1) := by
  unfold doFields
  cases he : f.entry with
  | none =>
    dsimp only
    by_cases hc : (flush && f.label.isNone && f.oper.isNone) = true
    · rw [if_pos hc]
      refine LineFrom.bind h0 hst ?_ fun u s2 hs2 hr => ?_
      · cases st.act with
        | true => exact At.walk (walk_hereG _)
        | false => exact At.walk (walk_ng (by walk))
      · refine LineFrom.done h0 hs2 ?_ (by walk)
        revert hr
        cases st.act with
        | true => intro hr; exact (herelabel_advance hr).trans h1
        | false => intro hr; cases hr; exact h1
    · rw [if_neg hc]
      exact LineFrom.done h0 hst h1 W.walk
  | some e =>
    obtain ⟨key, lab⟩ := e
    obtain ⟨p1, p2, p3, h, p4, p5⟩ := hp key lab he
    dsimp only
    by_cases hc : (lab.flags.nolabel && f.label.isSome) = true
    · rw [if_pos hc]
      exact LineFrom.done h0 hst h1 W.walk
    · rw [if_neg hc]
      have rest : ∀ lbl s2, Star GStep (s, .live) (s2, .live) → s2.advance = 0 →
          LineFrom s (execLine self fuel st lbl f.oper key lab s2) := by
        intro lbl s2 hs2 h2
        unfold execLine
        rw [if_neg (by simp [p2, p3]), if_neg (by simp [p1]), if_pos p1]
        refine LineFrom.bind h0 hs2 ?_ fun u s3 hs3 hr => LineFrom.bump h0 hs3
        cases st.act with
        | false => exact At.walk (Walk.pure _)
        | true =>
          show At GStep s2 (match lab.ptr with | .handler h => _ | _ => _)
          rw [p4]
          exact At.bind (At.g (at_generates p5 _ _ _ _ h2)) fun _ _ _ _ => At.walk (Walk.pure _)
      cases f.label with
      | none =>
        dsimp only
        refine LineFrom.bind h0 hst (At.walk (walk_ng (by walk))) fun u s2 hs2 hr => rest _ s2 hs2 ?_
        exact (nwalk_advance (by walk) hr).trans h1
      | some l =>
        dsimp only
        refine LineFrom.bind h0 hst ?_ fun u s2 hs2 hr => rest _ s2 hs2 ?_
        · cases !lab.flags.deflabel && st.act with
          | true => exact At.walk (walk_hereG _)
          | false => exact At.walk (Walk.pure _)
        · revert hr
          cases !lab.flags.deflabel && st.act with
          | true => intro hr; exact (herelabel_advance hr).trans h1
          | false => intro hr; cases hr; exact h1

/-- A line with an instruction or a data directive, from its start on. -/
theorem line_made {n : Nat} {st : Status} {s : St}
    (hp : ∀ f s1, statement s = .ok (some f) s1 → ∀ key lab, f.entry = some (key, lab) → Plain lab) :
    LineFrom (startedSt s) (asmline n st s) := by
  cases n with
  | zero => trivial
  | succ n =>
    have h0 : (startedSt s).advance = 0 := rfl
    show LineFrom (startedSt s) (asmlineF (asmline n) n st s)
    unfold asmlineF
    rw [run_ok (startLine_eq s), getS_bind_run]
    refine LineFrom.bind h0 (.refl _) (At.walk walk_stripG) fun t s2 hs2 hr => ?_
    have h2 : s2.advance = 0 := by
      have := walk_stripLine (startedSt s)
      rw [hr] at this
      exact (astar_advance this rfl).trans h0
    by_cases ht : t = []
    · rw [if_pos ht]
      exact LineFrom.done h0 hs2 h2 (by walk)
    · rw [if_neg ht]
      refine LineFrom.bind h0 hs2 (At.walk (W.walk.mono fun _ _ h => .h h)) fun f s3 hs3 hr3 => ?_
      have h3 : s3.advance = 0 := by
        have := (W.walk : Walk AStep (splitLine t)) s2
        rw [hr3] at this
        exact (astar_advance this rfl).trans h2
      refine line_fields h0 h3 hs3 (hp f s3 ?_)
      unfold statement
      rw [run_ok (startLine_eq s), run_ok hr, if_neg ht, run_ok hr3]
      rfl

/-- **C05.**  A line holding an instruction or a data directive (or no statement at all), with or without label,
    assembled or skipped, once an origin has been given.  If the line is accepted, it has generated some bytes `bs`
    at consecutive addresses starting with the value of the location counter, and the location counter has advanced
    by their number.  The same holds if the line is rejected, after the one call of error(). -/
theorem C05_line (n : Nat) (st : Status) (s : St)
    (hp : ∀ f s1, statement s = .ok (some f) s1 → ∀ key lab, f.entry = some (key, lab) → Plain lab)
    (ho : (starLabel s).flags.undef = false) :
    (∀ rc s', asmline n st s = .ok rc s' → ∃ bs : List Byte,
      s'.log = (byteEvents s.passnumber s.flags.codeOn (starLabel s).value bs).reverse ++ s.log ∧
      (starLabel s').value = (starLabel s).value + BitVec.ofNat 64 bs.length) ∧
    (∀ s', asmline n st s = .err s' → ∃ bs : List Byte,
      s'.log = .error s.passnumber (!s.flags.noerror) ::
        (byteEvents s.passnumber s.flags.codeOn (starLabel s).value bs).reverse ++ s.log ∧
      (starLabel s').value = (starLabel s).value + BitVec.ofNat 64 bs.length) := by
  have h := line_made (n := n) (st := st) hp
  have hpc : (startedSt s).code.pc = (starLabel s).value := by
    unfold startedSt
    simp only [ho, Bool.false_eq_true, if_false]
    split
    · rename_i e; exact e.symm
    · rfl
  constructor
  · intro rc s' hr
    rw [hr] at h
    obtain ⟨bs, hb⟩ := h
    refine ⟨bs, ?_, hb.star⟩
    have := hb.log
    rw [hpc] at this
    exact this
  · intro s' hr
    rw [hr] at h
    obtain ⟨bs, hb⟩ := h
    refine ⟨bs, ?_, hb.star⟩
    have := hb.log
    rw [hpc] at this
    exact this

/-- Every instruction of every processor is covered, and the data directives are. -/
theorem C05_covers (e : Entry) (h : e ∈ C6800.m6800 ++ C6800.m6801 ++ C6502.m6502 ++ C6502.m65c02 ++ Z80.mz80 ++
    pseudos.filter fun e => e.name ∈ [c!"DB", c!"DW", c!"DDB", c!"DL", c!"DS", c!"ASC", c!"ALIGN"]) :
    Plain e.label ∨ e.label.type = .regs := by
  have : ∀ e ∈ C6800.m6800 ++ C6800.m6801 ++ C6502.m6502 ++ C6502.m65c02 ++ Z80.mz80 ++
      pseudos.filter fun e => e.name ∈ [c!"DB", c!"DW", c!"DDB", c!"DL", c!"DS", c!"ASC", c!"ALIGN"],
      (e.label.type = .mnemo ∧ e.label.flags.defcond = false ∧ e.label.flags.defmacro = false ∧
        (match e.label.ptr with | .handler h => h.generates | _ => false) = true) ∨ e.label.type = .regs := by
    decide +kernel
  rcases this e h with ⟨h1, h2, h3, h4⟩ | h5
  · refine .inl ⟨h1, h2, h3, ?_⟩
    cases hp : e.label.ptr with
    | handler g => rw [hp] at h4; exact ⟨g, rfl, h4⟩
    | null => rw [hp] at h4; cases h4
    | lines ls => rw [hp] at h4; cases h4
  · exact .inr h5

/-- Non-vacuity: a labelled instruction and a branch that is out of reach (rejected after two bytes). -/
def afterLines (src : Str) (k : Nat) : St :=
  match initLabelList .pseudos pseudos (initSt { fs := fun _ => none } src) with
  | .ok _ s => (go k (passStart 1 s))
  | _ => initSt { fs := fun _ => none } src
where
  /-- `k` rounds of the loop of a pass, then the next line read -/
  go : Nat → St → St
  | 0, s => (linegets s).state
  | k + 1, s => go k (catchErr (passBody 60) bumpErr s).state
def lineReport (src : Str) (k : Nat) : Option (Bool × Nat × Nat × List (Nat × Nat)) :=
  let s := afterLines src k
  match statement s with
  | .ok (some f) _ =>
    match f.entry with
    | some (_, lab) =>
      let plain := lab.type = .mnemo && !lab.flags.defcond && !lab.flags.defmacro &&
        (match lab.ptr with | .handler h => h.generates | _ => false)
      let r := asmline 60 ⟨true, true⟩ s
      some (plain, (starLabel s).value.toNat, (starLabel r.state).value.toNat,
        ((bytesOf r.state.log).take ((bytesOf r.state.log).length - (bytesOf s.log).length)).map
          fun e => (e.2.1.toNat, e.2.2.1.toNat))
    | none => none
  | _ => none
example : lineReport c!" cpu 6502
 *= $100
foo lda $1234,x
" 2 =
    some (true, 0x100, 0x103, [(0x102, 0x12), (0x101, 0x34), (0x100, 0xBD)]) := by
  decide +kernel
example : lineReport c!" cpu 6502
 *= $100
 bne $400
" 2 =
    some (true, 0x100, 0x102, [(0x101, 0xFE), (0x100, 0xD0)]) := by decide +kernel

end Crasm

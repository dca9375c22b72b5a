import Verif.Props.C04
import Verif.Props.C05

/-! # C36: DUMMY sections generate no code but advance addresses -/

namespace Crasm

theorem code_entry {e : Entry} (he : e ∈ pseudos) :
    (e.name = c!"CODE" → e.label.type = .mnemo ∧ e.label.ptr = .handler (.pseudo .code)) ∧
    (e.name = c!"DUMMY" → e.label.type = .mnemo ∧ e.label.ptr = .handler (.pseudo .dummy)) := by
  revert e; decide +kernel

/-- `DUMMY` puts DUMMY in force, `CODE` ends it; nothing else of the code side changes. -/
theorem C36_sections {e : Entry} (he : e ∈ pseudos) (hn : e.name = c!"CODE" ∨ e.name = c!"DUMMY") :
    e.label.type = .mnemo ∧ ∃ h, e.label.ptr = .handler h ∧
      ∀ self fuel label s, ∃ rc s', callHandler self fuel h e.label.modifier label none s = .ok rc s' ∧
        s'.flags.codeOn = decide (e.name = c!"CODE") ∧ s'.code = s.code ∧ s'.log = s.log ∧ s'.tree = s.tree := by
  rcases hn with hn | hn
  · obtain ⟨h1, h2⟩ := (code_entry he).1 hn
    exact ⟨h1, _, h2, fun self fuel label s => ⟨_, _, rfl, by rw [hn]; rfl, rfl, rfl, rfl⟩⟩
  · obtain ⟨h1, h2⟩ := (code_entry he).2 hn
    exact ⟨h1, _, h2, fun self fuel label s => ⟨_, _, rfl, by rw [hn]; rfl, rfl, rfl, rfl⟩⟩

/-- At the start of each pass CODE is in force. -/
theorem C36_initially (p : Nat) (s : St) : (passStart p s).flags.codeOn = true := rfl

/-- **C36**, one line: while DUMMY is in force, a line with an instruction or a data directive (or none), accepted
    or rejected, generates bytes at consecutive addresses and advances the location counter by their number; but
    the block of code being filled, its address and the code length stay as they were at the start of the line
    (`s1`), and so does the code file, except that it may be created, empty (`SameCode`); and DUMMY stays in force. -/
theorem C36_line (n : Nat) (st : Status) (s s1 : St)
    (hp : ∀ f s1, statement s = .ok (some f) s1 → ∀ key lab, f.entry = some (key, lab) → Plain lab)
    (ho : (starLabel s).flags.undef = false) (hd : s.flags.codeOn = false) (h1 : startLine s = .ok () s1) :
    (∀ rc s', asmline n st s = .ok rc s' → ∃ bs : List Byte,
      s'.log = (byteEvents s.passnumber false (starLabel s).value bs).reverse ++ s.log ∧
      (starLabel s').value = (starLabel s).value + BitVec.ofNat 64 bs.length ∧
      SameCode s1.code s'.code ∧ s'.flags.codeOn = false) ∧
    (∀ s', asmline n st s = .err s' → ∃ bs : List Byte,
      s'.log = .error s.passnumber (!s.flags.noerror) ::
        (byteEvents s.passnumber false (starLabel s).value bs).reverse ++ s.log ∧
      (starLabel s').value = (starLabel s).value + BitVec.ofNat 64 bs.length ∧
      SameCode s1.code s'.code ∧ s'.flags.codeOn = false) := by
  have h := line_made (n := n) (st := st) hp
  rw [startLine_eq] at h1
  cases h1
  have hpc : (startedSt s).code.pc = (starLabel s).value := by
    unfold startedSt
    simp only [ho, Bool.false_eq_true, if_false]
    split
    · rename_i e; exact e.symm
    · rfl
  constructor
  · intro rc s' hr
    rw [hr] at h
    obtain ⟨bs, hb⟩ := h
    refine ⟨bs, ?_, hb.star, hb.dummy hd, hb.codeOn.trans hd⟩
    have := hb.log
    rw [hpc] at this
    rw [← hd]
    exact this
  · intro s' hr
    rw [hr] at h
    obtain ⟨bs, hb⟩ := h
    refine ⟨bs, ?_, hb.star, hb.dummy hd, hb.codeOn.trans hd⟩
    have := hb.log
    rw [hpc] at this
    rw [← hd]
    exact this

/-- **C36**, whole runs: at the end of every run the code length is the number of bytes that both passes together
    generated with CODE in force (modulo 2^64), and the code file holds, in order, exactly those of pass 2. -/
theorem C36_run (fuel : Nat) (o : Opts) (env : Env) (src : Str) (s : St)
    (h : assemble fuel o (initSt env src) = .ok () s) :
    s.code.codelen = BitVec.ofNat 64 ((bytesOf s.log).filter fun e => e.2.2.2).length ∧
    ∀ f, s.code.file = some f → ∃ recs, Spec.readFile f = some recs ∧
      (Spec.storesOf (Spec.dataOf recs)).map Prod.snd =
        ((bytesOf s.log).reverse.filter fun e => e.1 == 2 && e.2.2.2).map fun e => e.2.2.1.toNat := by
  constructor
  · obtain ⟨sC, hr, rfl⟩ := assemble_ok h
    have hi := (codeInv_reach hr (by simp)).count
    have e : codeCount sC.log = ((bytesOf sC.log).filter fun e => e.2.2.2).length := by
      unfold codeCount bytesOf
      generalize sC.log = l
      induction l with
      | nil => rfl
      | cons e l ih =>
        cases e with
        | byte q a v on => cases on <;> simp [List.filter_cons, List.filterMap_cons] at ih ⊢ <;> omega
        | _ => simpa [List.filter_cons, List.filterMap_cons] using ih
    rw [e] at hi
    rw [← show (afterPasses sC).log = sC.log by unfold afterPasses; split <;> rfl] at hi
    rw [← hi]
    unfold afterPasses
    split
    · simp [Code.close, Code.write, Code.flush]
      split <;> rfl
    · rfl
  · intro f hf
    obtain ⟨recs, h1, h2⟩ := C04_values_partial fuel o env src s h f hf
    refine ⟨recs, h1, h2.trans ?_⟩
    unfold codeOf bytesOf
    rw [← List.filterMap_reverse]
    generalize s.log.reverse = l
    induction l with
    | nil => rfl
    | cons e l ih =>
      cases e with
      | byte q a v on =>
        by_cases hq : q = 2
        · subst hq
          cases on <;> simp [List.filter_cons, List.filterMap_cons] at ih ⊢ <;> exact ih
        · simp [List.filter_cons, List.filterMap_cons, hq] at ih ⊢; exact ih
      | _ => simpa [List.filter_cons, List.filterMap_cons] using ih

/-- Non-vacuity: in DUMMY, addresses advance ($8010, $8011, $8013 …), but only the bytes outside are in the file. -/
example : (match assemble 60 { scode := some c!"o", list := false } (initSt { fs := fun _ => none }
      c!" cpu 6502\n *= $8000\n db 1\n dummy\n *= $8010\n lda #1\n jmp $1234\nfoo\n code\n *= $9000\n dw foo\n") with
    | .ok _ s => (s.code.codelen.toNat, (s.code.file.getD []), (bytesOf s.log).length,
        ((s.tree.find c!"FOO").map fun (l : Label) => l.value.toNat))
    | _ => (0, [], 0, none)) =
    (6, c!"S1048000017A\nS10590001580D5\nS9030000FC\n", 16, some 0x8015) := by decide +kernel

end Crasm

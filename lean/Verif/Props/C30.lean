import Verif.Proof.Source
import Verif.Proof.Nest

/-!
  **C30** Source lines are delivered unchanged.
-/

open Spec (Frame Seen Reads Tame)

namespace Spec

/-- The main file, still with the lines `ls` to come, is at the bottom. -/
def Last (st : List Frame) (ls : List (List Char)) : Prop := ∃ a, st = a ++ [.file ls]

theorem Last.cons {f : Frame} {st : List Frame} {ls} (h : Last st ls) : Last (f :: st) ls := by
  obtain ⟨a, rfl⟩ := h
  exact ⟨f :: a, rfl⟩
theorem Last.tail {f : Frame} {st : List Frame} {ls} (h : Last (f :: st) ls) (hs : st ≠ []) : Last st ls := by
  obtain ⟨a, e⟩ := h
  cases a with
  | nil => injection e with _ e; exact absurd e hs
  | cons g a => injection e with _ e; exact ⟨a, e⟩
theorem Last.unique {st : List Frame} {ls ls'} (h : Last st ls) (h' : Last st ls') : ls = ls' := by
  obtain ⟨a, rfl⟩ := h
  obtain ⟨b, e⟩ := h'
  have := congrArg List.getLast? e
  simpa using this
theorem Last.below {top st : List Frame} {args w mls ls} (h : Last (top ++ .macro args w mls :: st) ls) : Last st ls := by
  have hs : st ≠ [] := by
    rintro rfl
    obtain ⟨b, e⟩ := h
    have := congrArg List.getLast? e
    simp at this
  induction top with
  | nil => exact h.tail hs
  | cons f top ih => exact ih (h.tail (by simp))

/-- In any sequence of reading, the lines of the main file come in order, each once. -/
theorem Reads.main {st st' : List Frame} {es : List Seen} (h : Reads st es st') : ∀ {ls}, Last st ls →
    ∃ ls' k, Last st' ls' ∧ linesAt 0 es ++ ls' = ls ++ List.replicate k [] ∧ (k ≠ 0 → ls' = []) := by
  induction h with
  | done => intro ls hl; exact ⟨ls, 0, hl, by simp [linesAt], by simp⟩
  | opened _ ih => intro ls hl; exact ih hl.cons
  | @line l ls0 st es st' _ ih =>
    intro ls hl
    by_cases hs : st = []
    · subst hs
      have e : ls = l :: ls0 := hl.unique ⟨[], rfl⟩
      subst e
      obtain ⟨ls', k, h1, h2, h3⟩ := ih ⟨[], rfl⟩
      exact ⟨ls', k, h1, by simpa [linesAt] using h2, h3⟩
    · obtain ⟨ls', k, h1, h2, h3⟩ := ih (hl.tail hs).cons
      have : st.length ≠ 0 := by simpa using hs
      exact ⟨ls', k, h1, by simpa [linesAt, this] using h2, h3⟩
  | @macroLine args w l ls0 st t es st' _ _ ih =>
    intro ls hl
    have hs : st ≠ [] := by
      rintro rfl
      obtain ⟨a, e⟩ := hl
      have := congrArg List.getLast? e
      simp at this
    obtain ⟨ls', k, h1, h2, h3⟩ := ih (hl.tail hs).cons
    have : st.length ≠ 0 := by simpa using hs
    exact ⟨ls', k, h1, by simpa [linesAt, this] using h2, h3⟩
  | leave hs _ ih => intro ls hl; exact ih (hl.tail hs)
  | finish _ ih => intro ls hl; exact ih hl.below
  | eof _ ih =>
    intro ls hl
    have e : ls = [] := hl.unique ⟨[], rfl⟩
    subst e
    obtain ⟨ls', k, h1, h2, h3⟩ := ih ⟨[], rfl⟩
    have h4 : ls' = [] := by
      by_cases hk : k = 0
      · subst hk; simp at h2; exact h2.2
      · exact h3 hk
    refine ⟨ls', k + 1, h1, ?_, fun _ => h4⟩
    rw [List.replicate_succ]
    simpa [linesAt] using h2

end Spec

namespace Crasm

theorem passLoop_eof (fuel n : Nat) : ∀ b s s', passLoop fuel n b s = .ok () s' → s'.mainEof = true := by
  induction n with
  | zero => intro b s s' h; cases h
  | succ n ih =>
    intro b s s' h
    unfold passLoop at h
    rw [getS_bind_run] at h
    split at h
    · rename_i hc
      cases h
      simp only [Bool.and_eq_true] at hc
      exact hc.2
    · obtain ⟨a, s1, h1, h2⟩ := bind_ok h
      exact ih _ _ _ h2

theorem pass_rd {fuel n : Nat} {s s' : St} (h : pass fuel n s = .ok () s') : Rd (passStart n s) s' ∧ s'.mainEof = true := by
  unfold pass at h
  rw [bind_run, passInit_run] at h
  refine ⟨?_, passLoop_eof _ _ _ _ _ h⟩
  have := (big_passLoop (R := Rd) fuel fuel true).run (passStart n s)
  rw [show passLoop fuel fuel true (passStart n s) = .ok () s' from h] at this
  exact this

/-- Files, sources and history are the same. -/
def Idle (s s' : St) : Prop := s'.stack = s.stack ∧ s'.log = s.log ∧ s'.env = s.env ∧ s'.source = s.source

instance : Pre Idle where
  refl _ := ⟨rfl, rfl, rfl, rfl⟩
  trans h h' := ⟨h'.1.trans h.1, h'.2.1.trans h.2.1, h'.2.2.1.trans h.2.2.1, h'.2.2.2.trans h.2.2.2⟩

theorem bindAll_idle (t : TableId) (es : List Entry) (is : List Nat) : B Idle (bindAll t es is) := by
  induction is with
  | nil => exact B.pure _
  | cons i is ih =>
    unfold bindAll
    refine B.bind ?_ fun _ => ih
    split
    · unfold bindOne
      refine B.bind B.getS fun s => ?_
      dsimp only
      split
      · split
        · exact B.modS fun s => ⟨rfl, rfl, rfl, rfl⟩
        · constructor
          intro s
          have q := (inferInstance : Quiet (warning c!"user's symbol overrides new keyword")).run s
          cases h : warning c!"user's symbol overrides new keyword" s with
          | ok a s' => rw [h] at q; obtain ⟨_, _, _, rfl⟩ := q; exact ⟨rfl, rfl, rfl, rfl⟩
          | err s' => rw [h] at q; exact q.elim
          | stop w s' => trivial
      · exact B.modS fun s => ⟨rfl, rfl, rfl, rfl⟩
    · exact B.pure _

theorem init_idle (t : TableId) (es : List Entry) : B Idle (initLabelList t es) := by
  unfold initLabelList
  exact bindAll_idle _ _ _

theorem ends_ok {R : St → St → Prop} {m : M α} (h : B R m) {a : α} {s s' : St} (e : m s = .ok a s') : R s s' := by
  have := h.run s
  rw [e] at this
  exact this

theorem history_append {p : Nat} (es : List Event) (log : List Event) : history p (es.reverse ++ log) = history p log ++ history p es.reverse := by
  simp [history]
theorem history_same {p : Nat} {es : List Event} (h : ∀ e ∈ es, e.pass = p) : history p es.reverse = es.filterMap seen := by
  unfold history
  rw [List.reverse_reverse, List.filter_eq_self.2 (by simpa using h)]
theorem history_other {p q : Nat} (hpq : q ≠ p) {es : List Event} (h : ∀ e ∈ es, e.pass = q) : history p es.reverse = [] := by
  unfold history
  rw [List.reverse_reverse, List.filter_eq_nil_iff.2 ?_]
  · rfl
  · intro e he
    simp [h e he, hpq]

/-- **C29, C30**: the complete run.  In both passes the source is read as it should be (`Spec.Reads`), starting from its
    first line, and completely.  Texts that were still open at the end of pass 1 are open at the start of pass 2. -/
theorem run_reads {fuel : Nat} {o : Opts} {env : Env} {src : Str} {s : St} (h : assemble fuel o (initSt env src) = .ok () s)
    (ht : Tame src) (hf : ∀ name t, env.fs name = some t → Tame t) :
    ∃ open1 open2, Reads [.file (Spec.lines src)] (history 1 s.log) (open1 ++ [.file []]) ∧
      Reads (open1 ++ [.file (Spec.lines src)]) (history 2 s.log) (open2 ++ [.file []]) := by
  unfold assemble at h
  obtain ⟨_, sA, hA, h⟩ := bind_ok h
  obtain ⟨_, sB, hB, h⟩ := bind_ok h
  obtain ⟨_, sB', hB', h⟩ := bind_ok h
  cases hB'
  obtain ⟨_, sB', hB', h⟩ := bind_ok h
  cases hB'
  obtain ⟨_, sC, hC, h⟩ := bind_ok h
  have iA : Idle (initSt env src) sA := by
    exact ends_ok (init_idle .pseudos pseudos) hA
  obtain ⟨i1, i2, i3, i4⟩ := iA
  obtain ⟨rB, eB⟩ := pass_rd hB
  change pass fuel 2 (betweenPasses o sB) = _ at hC
  obtain ⟨rC, eC⟩ := pass_rd hC
  have gA : AllTame (passStart 1 sA) := by
    refine ⟨?_, ?_, ?_, by simp [passStart]⟩
    · show ∀ name t, sA.env.fs name = some t → Tame t
      rw [i3]; exact hf
    · show ∀ x ∈ sA.stack, _
      rw [i1]; intro x hx; cases hx
    · show Tame sA.source
      rw [i4]; exact ht
  obtain ⟨gB, es, l1, p1, r1⟩ := rB.reads gA
  have hsB : sB.source = src := rB.source.trans i4
  have gB' : AllTame (passStart 2 (betweenPasses o sB)) := by
    refine ⟨gB.fs, gB.stack, ?_, by simp [passStart]⟩
    show Tame sB.source
    rw [hsB]; exact ht
  obtain ⟨gC, fs, l2, p2, r2⟩ := rC.reads gB'
  replace l1 : sB.log = es.reverse := by
    rw [l1, show (passStart 1 sA).log = [] from i2]; simp
  replace l2 : sC.log = fs.reverse ++ es.reverse := by
    rw [l2, show (passStart 2 (betweenPasses o sB)).log = sB.log from rfl, l1]
  have hl : s.log = sC.log := by
    simp only [modS_bind_run, modFlags, modS_run] at h
    cases h
    show (if _ then _ else _ : St).log = _
    split <;> rfl
  replace p1 : ∀ e ∈ es, e.pass = 1 := p1
  replace p2 : ∀ e ∈ fs, e.pass = 2 := p2
  have q1 : history 1 s.log = es.filterMap seen := by
    rw [hl, l2, history_append, history_same p1, history_other (by decide) p2, List.append_nil]
  have q2 : history 2 s.log = fs.filterMap seen := by
    rw [hl, l2, history_append, history_same p2, history_other (by decide) p1, List.nil_append]
  refine ⟨sB.stack.map (frame ·.kind), sC.stack.map (frame ·.kind), ?_, ?_⟩
  · have e : frames (passStart 1 sA) = [.file (Spec.lines src)] := by
      show sA.stack.map _ ++ [Frame.file (Spec.lines sA.source)] = _
      rw [i1, i4]; rfl
    have e' : frames sB = sB.stack.map (frame ·.kind) ++ [.file []] := by simp [frames, eB, left]
    rw [q1, ← e, ← e']
    exact r1
  · have e : frames (passStart 2 (betweenPasses o sB)) = sB.stack.map (frame ·.kind) ++ [.file (Spec.lines src)] := by
      show sB.stack.map _ ++ [Frame.file (Spec.lines sB.source)] = _
      rw [hsB]
    have e' : frames sC = sC.stack.map (frame ·.kind) ++ [.file []] := by simp [frames, eC, left]
    rw [q2, ← e, ← e']
    exact r2

/-- **C30**. In a complete run the lines processed from the main file are, in each pass, exactly the lines of the source
    text, in order.  Nothing follows but empty lines (an empty line is read again past the end after an error). -/
theorem C30_lines {fuel : Nat} {o : Opts} {env : Env} {src : Str} {s : St} (h : assemble fuel o (initSt env src) = .ok () s)
    (ht : Tame src) (hf : ∀ name t, env.fs name = some t → Tame t) {p : Nat} (hp : p = 1 ∨ p = 2) :
    ∃ k, Spec.linesAt 0 (history p s.log) = Spec.lines src ++ List.replicate k [] := by
  obtain ⟨o1, o2, r1, r2⟩ := run_reads h ht hf
  have key : ∀ {a b} {es : List Seen}, Reads (a ++ [.file (Spec.lines src)]) es (b ++ [.file []]) →
      ∃ k, Spec.linesAt 0 es = Spec.lines src ++ List.replicate k [] := by
    intro a b es r
    obtain ⟨ls', k, h1, h2, -⟩ := r.main ⟨a, rfl⟩
    rw [h1.unique ⟨b, rfl⟩, List.append_nil] at h2
    exact ⟨k, h2⟩
  rcases hp with rfl | rfl
  · exact key (a := []) r1
  · exact key r2

/-- The lines of the history are the lines that are assembled: what linegets records is what it leaves in `curline` for
    asmline. -/
theorem C30_assembled {s s' : St} {u : Unit} (h : linegets s = .ok u s') :
    ∃ p d, s'.log = .line p d s'.curline :: s.log := linegets_log h

/-! ## Non-vacuity -/

instance (c : Char) : Decidable (Spec.Plain c) := by unfold Spec.Plain; infer_instance
instance (t : Str) : Decidable (Tame t) := by unfold Tame; infer_instance

/-- The lines from the main file in pass `p` of a run with the given files. -/
def mainLines (fs : Str → Option Str) (src : Str) (p : Nat) : Option (List Str) :=
  match assemble 60 { scode := some c!"o", list := false } (initSt { fs := fs } src) with
  | .ok _ s => some (Spec.linesAt 0 (history p s.log))
  | _ => none

def twoLines : Str := c!" cpu 6502\n *= 0\n\n db 1"
example : Tame twoLines := by decide +kernel
example : mainLines (fun _ => none) twoLines 2 = some [c!" cpu 6502", c!" *= 0", [], c!" db 1"] := by decide +kernel

/-- After an error on the last line one more, empty line is read. -/
example : mainLines (fun _ => none) c!" cpu 6502\n foo" 2 = some [c!" cpu 6502", c!" foo", []] := by decide +kernel

/-- Lines of more than 248 characters are broken up. -/
theorem C30_long : mainLines (fun _ => none) (';' :: List.replicate 249 'x') 2 =
    some [';' :: List.replicate 248 'x', c!"x", []] := by decide +kernel

end Crasm

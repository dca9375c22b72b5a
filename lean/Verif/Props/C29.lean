import Verif.Props.C30

/-!
  **C29** Include files are assembled in place.
-/

open Spec (Frame Seen Reads Tame)

namespace Spec

theorem Reads.split {st st' : List Frame} {pre post : List Seen} {f : Frame} (h : Reads st (pre ++ .opened f :: post) st') :
    ∃ st1, Reads st pre st1 ∧ Reads (f :: st1) post st' := by
  generalize he : pre ++ .opened f :: post = es at h
  induction h generalizing pre with
  | done => simp at he
  | @opened g st es st' h ih =>
    cases pre with
    | nil => cases he; exact ⟨st, .done _, h⟩
    | cons x pre =>
      injection he with e1 e2
      subst e1
      obtain ⟨st1, r1, r2⟩ := ih e2
      exact ⟨st1, .opened r1, r2⟩
  | line _ ih =>
    cases pre with
    | nil => cases he
    | cons x pre =>
      injection he with e1 e2
      subst e1
      obtain ⟨st1, r1, r2⟩ := ih e2
      exact ⟨st1, .line r1, r2⟩
  | macroLine ht _ ih =>
    cases pre with
    | nil => cases he
    | cons x pre =>
      injection he with e1 e2
      subst e1
      obtain ⟨st1, r1, r2⟩ := ih e2
      exact ⟨st1, .macroLine ht r1, r2⟩
  | leave hs _ ih =>
    obtain ⟨st1, r1, r2⟩ := ih he
    exact ⟨st1, .leave hs r1, r2⟩
  | finish _ ih =>
    obtain ⟨st1, r1, r2⟩ := ih he
    exact ⟨st1, .finish r1, r2⟩
  | eof _ ih =>
    cases pre with
    | nil => cases he
    | cons x pre =>
      injection he with e1 e2
      subst e1
      obtain ⟨st1, r1, r2⟩ := ih e2
      exact ⟨st1, .eof r1, r2⟩

/-- The main file stays at the bottom. -/
theorem Reads.last {st st' : List Frame} {es : List Seen} (h : Reads st es st') {ls} (hl : Last st ls) : ∃ ls', Last st' ls' := by
  obtain ⟨ls', _, h, -⟩ := h.main hl
  exact ⟨ls', h⟩

/-- What happens from the moment a file with the lines `ls` is opened, the texts `st` being open before, until the texts
    `st'` are open. -/
inductive Included (ls : List (List Char)) (st : List Frame) (es : List Seen) (st' : List Frame) : Prop
  /-- All its lines are delivered, with those of texts opened in between; then the text before continues. -/
  | whole (a b : List Seen) : es = a ++ b → Above st.length a → linesAt st.length a = ls → Reads st b st' → Included ls st es st'
  /-- It is still being read. -/
  | within (top : List Frame) (rest : List (List Char)) : Above st.length es → linesAt st.length es ++ rest = ls →
      st' = top ++ .file rest :: st → Included ls st es st'
  /-- It was opened in the expansion of a macro, and the expansion ends before all lines are delivered. -/
  | cut (a b : List Seen) (rest : List (List Char)) (top : List Frame) (args : List (List Char)) (w : List Char)
      (mls : List (List Char)) (st1 : List Frame) : es = a ++ b → Above st.length a → linesAt st.length a ++ rest = ls →
      st = top ++ .macro args w mls :: st1 → Reads st1 b st' → Included ls st es st'

theorem Included.more {ls ls' : List (List Char)} {st : List Frame} {es : List Seen} {st' : List Frame} (h : Included ls st es st') (x : Seen)
    (hx : Above st.length [x]) (hl : linesAt st.length [x] ++ ls = ls') : Included ls' st (x :: es) st' := by
  have ha : ∀ {a : List Seen}, Above st.length a → Above st.length (x :: a) := by
    intro a h d t hm
    cases hm with
    | head => exact hx d t (by simp)
    | tail _ hm => exact h d t hm
  have hc : ∀ a : List Seen, linesAt st.length (x :: a) = linesAt st.length [x] ++ linesAt st.length a := by
    intro a
    unfold linesAt
    rw [← List.filterMap_append]; rfl
  cases h with
  | whole a b e h1 h2 h3 => exact .whole (x :: a) b (by rw [e]; rfl) (ha h1) (by rw [hc, h2, hl]) h3
  | within top rest h1 h2 h3 => exact .within top rest (ha h1) (by rw [hc, List.append_assoc, h2, hl]) h3
  | cut a b rest top args w mls st1 e h1 h2 h3 h4 =>
    exact .cut (x :: a) b rest top args w mls st1 (by rw [e]; rfl) (ha h1) (by rw [hc, List.append_assoc, h2, hl]) h3 h4

theorem Reads.included {st0 st' : List Frame} {es : List Seen} (h : Reads st0 es st') : ∀ {top st ls}, st0 = top ++ .file ls :: st →
    st ≠ [] → Included ls st es st' := by
  induction h with
  | done => intro top st ls e _; exact .within top ls (by intro d t h; cases h) (by simp [linesAt]) e
  | @opened f st0 es st' _ ih =>
    intro top st ls e hs
    refine (ih (top := f :: top) (by rw [e]; rfl) hs).more _ ?_ (by simp [linesAt])
    intro d t h; cases h with | tail _ h => cases h
  | @line l ls0 st0 es st' _ ih =>
    intro top st ls e hs
    cases top with
    | nil =>
      injection e with e1 e2
      injection e1 with e1
      subst e1 e2
      refine (ih (top := []) rfl hs).more _ ?_ (by simp [linesAt])
      intro d t h
      cases h with
      | head => exact Nat.le_refl _
      | tail _ h => cases h
    | cons f top =>
      injection e with e1 e2
      have hl : st.length < st0.length := by rw [e2]; simp; omega
      refine (ih (top := .file ls0 :: top) (by rw [e2]; rfl) hs).more _ ?_ (by simp [linesAt, Nat.ne_of_gt hl])
      intro d t h
      cases h with
      | head => exact Nat.le_of_lt hl
      | tail _ h => cases h
  | @macroLine args w l ls0 st0 t es st' _ _ ih =>
    intro top st ls e hs
    cases top with
    | nil => cases e
    | cons f top =>
      injection e with e1 e2
      have hl : st.length < st0.length := by rw [e2]; simp; omega
      refine (ih (top := .macro args w ls0 :: top) (by rw [e2]; rfl) hs).more _ ?_ (by simp [linesAt, Nat.ne_of_gt hl])
      intro d t h
      cases h with
      | head => exact Nat.le_of_lt hl
      | tail _ h => cases h
  | @leave st0 es st' hne h ih =>
    intro top st ls e hs
    cases top with
    | nil =>
      injection e with e1 e2
      injection e1 with e1
      subst e1 e2
      exact .whole [] es rfl (by intro d t h; cases h) rfl h
    | cons f top =>
      injection e with e1 e2
      exact ih e2 hs
  | @finish top0 args w mls st0 es st' h ih =>
    intro top st ls e hs
    rcases List.append_eq_append_iff.1 e with ⟨a, e1, e2⟩ | ⟨a, e1, e2⟩
    · cases a with
      | nil => cases e2
      | cons x a =>
        injection e2 with e2 e3
        exact ih e3 hs
    · cases a with
      | nil => cases e2
      | cons x a =>
        injection e2 with e2 e3
        exact .cut [] es ls a args w mls st0 rfl (by intro d t h; cases h) rfl e3 h
  | eof _ ih =>
    intro top st ls e hs
    cases top with
    | nil => injection e with _ e2; exact absurd e2.symm hs
    | cons f top =>
      injection e with _ e2
      cases top <;> cases e2

end Spec

namespace Crasm

theorem include_entry {e : Entry} (he : e ∈ pseudos) (hn : e.name = c!"INCLUDE") : e.label.type = .mnemo ∧ e.label.ptr = .handler (.pseudo .include) := by
  revert e; decide +kernel

/-- **C29** (directive). When INCLUDE returns, the named file exists and is open in front of everything that was open, all
    of it still to be read. -/
theorem C29_opens {e : Entry} (he : e ∈ pseudos) (hn : e.name = c!"INCLUDE") :
    e.label.type = .mnemo ∧ ∃ h, e.label.ptr = .handler h ∧ ∀ {self fuel label name s r s'},
      callHandler self fuel h e.label.modifier label (some name) s = .ok r s' →
      ∃ text, s.env.fs name = some text ∧ frames s' = .file (Spec.lines text) :: frames s ∧
        s'.log = .opened s.passnumber (s.stack.length + 1) (.file text false) :: s.log := by
  refine ⟨(include_entry he hn).1, _, (include_entry he hn).2, ?_⟩
  intro self fuel label name s r s' h
  simp only [callHandler, xInclude] at h
  obtain ⟨_, s1, h, h'⟩ := bind_ok h
  cases h'
  rw [getS_bind_run] at h
  cases ht : s.env.fs name with
  | none => rw [ht] at h; exact absurd h error_not_ok
  | some text =>
    rw [ht] at h
    obtain ⟨_, s2, h2, h⟩ := bind_ok h
    obtain ⟨rfl, -⟩ := checkDepth_ok h2
    obtain ⟨_, s3, h3, h⟩ := bind_ok h
    have q := (by quiet : Quiet (whenM (s2.flags.listOn = true) outputline)).run s2
    rw [h3] at q
    obtain ⟨_, _, _, rfl⟩ := q
    cases h
    exact ⟨text, rfl, rfl, rfl⟩

/-- **C29**. In a complete run: whenever an include file is opened, all its lines are delivered in order (with those of the
    texts opened in between), and then the text around it continues; except that the end of the expansion of a macro
    leaves the files included within it, and that nothing is delivered any more when the main file is exhausted
    (`C29_last`). -/
theorem C29_partial {fuel : Nat} {o : Opts} {env : Env} {src : Str} {s : St} (h : assemble fuel o (initSt env src) = .ok () s)
    (ht : Tame src) (hf : ∀ name t, env.fs name = some t → Tame t) {p : Nat} (hp : p = 1 ∨ p = 2)
    {pre post : List Seen} {ls : List Str} (he : history p s.log = pre ++ .opened (.file ls) :: post) :
    ∃ start st fin, Spec.Last start (Spec.lines src) ∧ (p = 1 → start = [.file (Spec.lines src)]) ∧ Spec.Last fin [] ∧
      Reads start pre st ∧ Spec.Included ls st post fin ∧
      (∀ top rest, fin = top ++ .file rest :: st → Spec.Last st []) := by
  obtain ⟨o1, o2, r1, r2⟩ := run_reads h ht hf
  have key : ∀ {a b} {es : List Seen}, Reads (a ++ [.file (Spec.lines src)]) es (b ++ [.file []]) → es = pre ++ .opened (.file ls) :: post →
      ∃ st, Reads (a ++ [.file (Spec.lines src)]) pre st ∧ Spec.Included ls st post (b ++ [.file []]) ∧
        (∀ top rest, b ++ [.file []] = top ++ .file rest :: st → Spec.Last st []) := by
    intro a b es r e
    subst e
    obtain ⟨st, h1, h2⟩ := r.split
    obtain ⟨ls', hl⟩ := h1.last ⟨a, rfl⟩
    have hs : st ≠ [] := by
      rintro rfl
      obtain ⟨x, hx⟩ := hl
      simp at hx
    refine ⟨st, h1, h2.included (top := []) rfl hs, fun top rest e => ?_⟩
    have h3 : Spec.Last (top ++ .file rest :: st) ls' := by
      obtain ⟨x, rfl⟩ := hl
      exact ⟨top ++ .file rest :: x, by simp⟩
    rw [← e] at h3
    rw [← h3.unique ⟨b, rfl⟩]
    exact hl
  rcases hp with rfl | rfl
  · obtain ⟨st, h1, h2, h3⟩ := key (a := []) r1 he
    exact ⟨_, st, _, ⟨[], rfl⟩, fun _ => rfl, ⟨o1, rfl⟩, h1, h2, h3⟩
  · obtain ⟨st, h1, h2, h3⟩ := key r2 he
    exact ⟨_, st, _, ⟨o1, rfl⟩, by simp, ⟨o2, rfl⟩, h1, h2, h3⟩

/-! ## Non-vacuity -/

/-- The lines delivered in pass `p`, with their depths. -/
def deliveredLines (fs : Str → Option Str) (src : Str) (p : Nat) : Option (List (Nat × Str)) :=
  match assemble 60 { scode := some c!"o", list := false } (initSt { fs := fs } src) with
  | .ok _ s => some ((history p s.log).filterMap fun | .line d t => some (d, t) | .opened _ => none)
  | _ => none

def someFiles (name : Str) : Option Str :=
  if name = c!"f" then some c!" db 2\n include g\n db 4" else if name = c!"g" then some c!" db 3\n" else none

example : deliveredLines someFiles c!" cpu 6502\n *= 0\n include f\n db 5\n" 2 =
    some [(0, c!" cpu 6502"), (0, c!" *= 0"), (0, c!" include f"), (1, c!" db 2"), (1, c!" include g"), (2, c!" db 3"), (2, []),
      (1, c!" db 4"), (0, c!" db 5"), (0, [])] := by decide +kernel

/-- INCLUDE on a last line without a newline: the file is not assembled in pass 1, and is the first thing in pass 2. -/
theorem C29_last : deliveredLines someFiles c!" cpu 6502\n *= 0\n include g" 1 =
      some [(0, c!" cpu 6502"), (0, c!" *= 0"), (0, c!" include g")] ∧
    deliveredLines someFiles c!" cpu 6502\n *= 0\n include g" 2 =
      some [(1, c!" db 3"), (1, []), (0, c!" cpu 6502"), (0, c!" *= 0"), (0, c!" include g")] := by decide +kernel

end Crasm

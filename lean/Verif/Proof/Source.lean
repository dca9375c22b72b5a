import Verif.Spec.Source
import Verif.Proof.Big
import Verif.Props.C28
import Verif.Props.C19
import Verif.Proof.RelL

/-! Which lines are delivered to the assembler. -/

open Spec (Frame Seen Reads Tame)

theorem Spec.Reads.trans {a b c : List Frame} {es fs : List Seen} (h : Reads a es b) (h' : Reads b fs c) : Reads a (es ++ fs) c := by
  induction h with
  | done => exact h'
  | opened _ ih => exact .opened (ih h')
  | line _ ih => exact .line (ih h')
  | macroLine ht _ ih => exact .macroLine ht (ih h')
  | leave hs _ ih => exact .leave hs (ih h')
  | finish _ ih => exact .finish (ih h')
  | eof _ ih => exact .eof (ih h')

namespace Crasm

/-! ## One text -/

theorem keep_plain {c : Char} (h : Spec.Plain c) : keepChar c = true := by
  unfold keepChar isprint isascii
  rcases h with h | ⟨h1, h2⟩ | h
  · simp [h]
  · simp [h1, h2]
  · simp; right; omega

/-- Reading a line. -/
theorem fgets_line (t : Str) : ∀ n l ls, Spec.lines t = l :: ls → l.length < n →
    (∃ t', Spec.lines t' = ls ∧ fgets n t = (l ++ ['\n'], t', false)) ∨ (ls = [] ∧ fgets n t = (l, [], true)) := by
  induction t with
  | nil =>
    intro n l ls h hn
    cases h
    obtain ⟨n, rfl⟩ : ∃ m, n = m + 1 := ⟨n - 1, by omega⟩
    exact .inr ⟨rfl, rfl⟩
  | cons c t ih =>
    intro n l ls h hn
    obtain ⟨n, rfl⟩ : ∃ m, n = m + 1 := ⟨n - 1, by omega⟩
    rw [Spec.lines] at h
    by_cases hc : c = '\n'
    · rw [if_pos hc] at h
      cases h
      exact .inl ⟨t, rfl, by rw [fgets, if_pos hc, hc]; rfl⟩
    · rw [if_neg hc] at h
      cases e : Spec.lines t with
      | nil =>
        exfalso
        cases t with
        | nil => cases e
        | cons d t =>
          rw [Spec.lines] at e
          split at e
          · cases e
          · split at e <;> cases e
      | cons l0 ls0 =>
        rw [e] at h
        cases h
        rw [List.length_cons] at hn
        rcases ih n l0 ls e (by omega) with ⟨t', h1, h2⟩ | ⟨h1, h2⟩
        · exact .inl ⟨t', h1, by rw [fgets, if_neg hc, h2]; rfl⟩
        · exact .inr ⟨h1, by rw [fgets, if_neg hc, h2]⟩

theorem lineText_plain {l r : Str} (h : ∀ c ∈ l, Spec.Plain c) (hr : r = [] ∨ r = ['\n']) : (lineText (l ++ r)).filter keepChar = l := by
  induction l with
  | nil => rcases hr with rfl | rfl <;> rfl
  | cons c l ih =>
    have hc := h c (by simp)
    have h1 : c ≠ '\n' := by rintro rfl; revert hc; unfold Spec.Plain; decide
    have h2 : c ≠ Char.ofNat 0 := by rintro rfl; revert hc; unfold Spec.Plain; decide
    have := ih fun d hd => h d (by simp [hd])
    unfold lineText at this ⊢
    rw [List.cons_append, List.takeWhile_cons, if_pos (by simp [h1, h2]), List.filter_cons, if_pos (keep_plain hc), this]

theorem lines_ne (t : Str) : Spec.lines t ≠ [] := by
  cases t with
  | nil => simp [Spec.lines]
  | cons c t => rw [Spec.lines]; split; simp; split <;> simp

/-- What is left of a file. -/
def left (t : Str) (e : Bool) : List Str := if e then [] else Spec.lines t

/-- Reading from a tame file gives its next line, or an empty line at the end. -/
theorem fgets_left {t : Str} {e : Bool} (ht : Tame t) (he : e = true → t = []) :
    ∃ raw t' e', fgets (lineMax - 1) t = (raw, t', e') ∧ Tame t' ∧ (e' = true → t' = []) ∧
      ((e = true ∧ (lineText raw).filter keepChar = [] ∧ e' = true) ∨
       (e = false ∧ left t e = (lineText raw).filter keepChar :: left t' e')) := by
  cases e with
  | true =>
    obtain rfl := he rfl
    exact ⟨[], [], true, rfl, ht, fun _ => rfl, .inl ⟨rfl, rfl, rfl⟩⟩
  | false =>
    cases hl : Spec.lines t with
    | nil => exact absurd hl (lines_ne t)
    | cons l ls =>
      obtain ⟨h1, h2⟩ := ht l (by simp [hl])
      rcases fgets_line t 249 l ls hl (by omega) with ⟨t', h3, h4⟩ | ⟨h3, h4⟩
      · refine ⟨_, _, _, h4, ?_, by simp, .inr ⟨rfl, ?_⟩⟩
        · intro x hx
          exact ht x (by rw [hl]; exact .tail _ (h3 ▸ hx))
        · rw [lineText_plain h2 (.inr rfl)]
          simp [left, hl, h3]
      · refine ⟨_, _, _, h4, ?_, by simp, .inr ⟨rfl, ?_⟩⟩
        · intro x hx
          cases hx with
          | head => exact ⟨by simp, by simp⟩
          | tail _ h => cases h
        · have := lineText_plain h2 (.inl rfl)
          rw [List.append_nil] at this
          rw [this]
          simp [left, hl, h3]

/-! ## All texts -/

def frame : SrcKind → Frame
  | .file t e => .file (left t e)
  | .macro args whole ls => .macro args whole ls

/-- The texts that are open. -/
def frames (s : St) : List Frame := s.stack.map (frame ·.kind) ++ [.file (left s.main s.mainEof)]

def seen : Event → Option Seen
  | .line _ d t => some (.line d t)
  | .opened _ _ k => some (.opened (frame k))
  | _ => none

def Event.pass : Event → Nat
  | .line p _ _ => p
  | .opened p _ _ => p
  | .byte p _ _ _ => p
  | .error p _ => p

/-- What happened to the source in pass `p`. -/
def history (p : Nat) (log : List Event) : List Seen := (log.reverse.filter (·.pass = p)).filterMap seen

def TameK : SrcKind → Prop
  | .file t e => Tame t ∧ (e = true → t = [])
  | .macro args _ _ => args.length ≤ 9

/-- All texts are tame. -/
structure AllTame (s : St) : Prop where
  fs : ∀ name t, s.env.fs name = some t → Tame t
  stack : ∀ src ∈ s.stack, TameK src.kind
  main : Tame s.main
  eof : s.mainEof = true → s.main = []

def Src.isMacro (s : Src) : Prop := ∃ a w ls, s.kind = .macro a w ls

/-- Macro expansions stay open, with everything below them as it was. -/
def Under (a b : List Src) : Prop := ∀ top src bot, a = top ++ src :: bot → src.isMacro →
  ∃ top' src', b = top' ++ src' :: bot ∧ src'.isMacro

theorem Under.refl (a : List Src) : Under a a := fun top src bot h hm => ⟨top, src, h, hm⟩
theorem Under.trans {a b c : List Src} (h : Under a b) (h' : Under b c) : Under a c := by
  intro top src bot e hm
  obtain ⟨top', src', e', hm'⟩ := h top src bot e hm
  exact h' top' src' bot e' hm'
theorem Under.cons (a : List Src) (src : Src) : Under a (src :: a) := by
  intro top s bot e hm
  exact ⟨src :: top, s, by rw [e]; rfl, hm⟩

theorem under_top {src src' : Src} {rest : List Src} (h : ¬ src.isMacro) : Under (src :: rest) (src' :: rest) := by
  intro top x bot e hm
  cases top with
  | nil =>
    injection e with e1 e2
    exact absurd (e1 ▸ hm) h
  | cons y top =>
    injection e with e1 e2
    exact ⟨src' :: top, x, by rw [e2]; rfl, hm⟩

structure Rd (s s' : St) : Prop where
  under : Under s.stack s'.stack
  env : s'.env = s.env
  source : s'.source = s.source
  pass : s'.passnumber = s.passnumber
  reads : AllTame s → AllTame s' ∧ ∃ es : List Event, s'.log = es.reverse ++ s.log ∧ (∀ e ∈ es, e.pass = s.passnumber) ∧
    Reads (frames s) (es.filterMap seen) (frames s')

instance : Pre Rd where
  refl s := ⟨.refl _, rfl, rfl, rfl, fun g => ⟨g, [], rfl, by simp, .done _⟩⟩
  trans := by
    intro a b c h h'
    refine ⟨h.under.trans h'.under, h'.env.trans h.env, h'.source.trans h.source, h'.pass.trans h.pass, fun g => ?_⟩
    obtain ⟨g1, es, e1, p1, r1⟩ := h.reads g
    obtain ⟨g2, fs, e2, p2, r2⟩ := h'.reads g1
    refine ⟨g2, es ++ fs, ?_, ?_, ?_⟩
    · rw [e2, e1]; simp
    · intro e he
      rcases List.mem_append.1 he with he | he
      · exact p1 e he
      · exact (p2 e he).trans h.pass
    · rw [List.filterMap_append]; exact r1.trans r2

/-- Nothing happens to the sources. -/
theorem rd_idle {s s' : St} (h1 : s'.stack = s.stack) (h2 : s'.main = s.main) (h3 : s'.mainEof = s.mainEof) (h4 : s'.env = s.env)
    (h5 : s'.source = s.source) (h6 : s'.passnumber = s.passnumber)
    (h7 : s'.log = s.log ∨ ∃ e, s'.log = e :: s.log ∧ e.pass = s.passnumber ∧ seen e = none) : Rd s s' := by
  refine ⟨h1 ▸ .refl _, h4, h5, h6, fun g => ⟨⟨?_, ?_, ?_, ?_⟩, ?_⟩⟩
  · rw [h4]; exact g.fs
  · rw [h1]; exact g.stack
  · rw [h2]; exact g.main
  · rw [h2, h3]; exact g.eof
  · have hf : frames s' = frames s := by unfold frames; rw [h1, h2, h3]
    rw [hf]
    rcases h7 with h | ⟨e, h, hp, hn⟩
    · exact ⟨[], by simpa using h, by simp, .done _⟩
    · refine ⟨[e], by simpa using h, by simpa using hp, ?_⟩
      rw [List.filterMap_cons, hn]
      exact .done _

instance : PreP Rd where
  step := by
    intro a b h
    cases h with
    | h h =>
      cases h with
      | n h =>
        cases h with
        | error0 => exact rd_idle rfl rfl rfl rfl rfl rfl (.inr ⟨_, rfl, rfl, rfl⟩)
        | error1 => exact rd_idle rfl rfl rfl rfl rfl rfl (.inr ⟨_, rfl, rfl, rfl⟩)
        | _ => exact rd_idle rfl rfl rfl rfl rfl rfl (.inl rfl)
      | emit s x ho hc => exact rd_idle rfl rfl rfl rfl rfl rfl (.inr ⟨_, rfl, rfl, rfl⟩)
      | lohi s b => exact rd_idle rfl rfl rfl rfl rfl rfl (.inl rfl)
      | note s n => exact rd_idle rfl rfl rfl rfl rfl rfl (.inl rfl)
    | push s src hd hk =>
      obtain ⟨name, text, h1, h2⟩ := hk
      refine ⟨.cons _ _, rfl, rfl, rfl, fun g => ⟨⟨g.fs, ?_, g.main, g.eof⟩, [_], rfl, by simp [Event.pass], ?_⟩⟩
      · intro x hx
        cases hx with
        | head => rw [h2]; exact ⟨g.fs _ _ h1, by simp⟩
        | tail _ hx => exact g.stack x hx
      · exact .opened (.done _)
    | _ => exact rd_idle rfl rfl rfl rfl rfl rfl (.inl rfl)

instance : PreL Rd where
  tree _ _ := rd_idle rfl rfl rfl rfl rfl rfl (.inl rfl)
  errs _ _ := rd_idle rfl rfl rfl rfl rfl rfl (.inl rfl)
  notes _ _ := rd_idle rfl rfl rfl rfl rfl rfl (.inl rfl)
  advance _ _ := rd_idle rfl rfl rfl rfl rfl rfl (.inl rfl)
  start := ⟨fun s => by rw [startLine_eq]; exact rd_idle rfl rfl rfl rfl rfl rfl (.inl rfl)⟩

theorem popEnds_rd (st : List Src) : ∀ s, s.stack = st → Rd s (popEnds st s) := by
  induction st with
  | nil => intro s _; exact Pre.refl s
  | cons src rest ih =>
    obtain ⟨ol, op, on, kind⟩ := src
    intro s hs
    cases kind with
    | «macro» a b c => exact Pre.refl s
    | file t e =>
      cases e with
      | false => exact Pre.refl s
      | true =>
        unfold popEnds
        refine Pre.trans ?_ (ih _ rfl)
        refine ⟨?_, rfl, rfl, rfl, fun g => ⟨⟨g.fs, ?_, g.main, g.eof⟩, [], rfl, by simp, ?_⟩⟩
        · intro top src bot e hm
          rw [hs] at e
          cases top with
          | nil =>
            injection e with e1 e2
            obtain ⟨_, _, _, h⟩ := hm
            rw [← e1] at h
            cases h
          | cons x top =>
            injection e with e1 e2
            exact ⟨top, src, e2, hm⟩
        · intro x hx
          exact g.stack x (by rw [hs]; exact .tail _ hx)
        · simp only [frames, hs, List.map_cons, List.cons_append, frame, left]
          exact .leave (by simp) (.done _)

theorem popEnds_top (st : List Src) : ∀ s, s.stack = st → ∀ src rest, (popEnds st s).stack = src :: rest → ∀ t, src.kind ≠ .file t true := by
  induction st with
  | nil => intro s hs src rest h; unfold popEnds at h; rw [hs] at h; cases h
  | cons src rest ih =>
    obtain ⟨ol, op, on, kind⟩ := src
    intro s hs src' rest' h t
    cases kind with
    | «macro» a b c => unfold popEnds at h; rw [hs] at h; cases h; simp
    | file t' e =>
      cases e with
      | false => unfold popEnds at h; rw [hs] at h; cases h; simp
      | true => unfold popEnds at h; exact ih _ rfl _ _ h t

theorem linegetsRest_rd (s : St) (ht : ∀ src rest, s.stack = src :: rest → ∀ t, src.kind ≠ .file t true) : Ends Rd s (linegetsRest s) := by
  unfold linegetsRest
  rw [getS_bind_run]
  cases hs : s.stack with
  | nil =>
    simp only
    generalize hf : fgets (lineMax - 1) s.main = q
    obtain ⟨raw, t', e'⟩ := q
    dsimp only
    rcases takeLine_run raw s with ⟨w, s1, k, h, -⟩ | ⟨s1, h, hq⟩
    · rw [bind_run, h]; trivial
    · rw [bind_run, h]
      obtain ⟨l, b, f, rfl⟩ := hq
      refine ⟨hs ▸ .refl _, rfl, rfl, rfl, fun g => ?_⟩
      obtain ⟨raw', t1, e1, hf', g1, g2, g3⟩ := fgets_left g.main g.eof
      rw [hf] at hf'
      cases hf'
      have hm : (s.mainEof || e') = e' := by
        rcases g3 with ⟨_, _, rfl⟩ | ⟨h, _⟩
        · simp
        · simp [h]
      refine ⟨⟨g.fs, by simp [hs], g1, by simpa only [hm] using g2⟩, [_], rfl, by simp [Event.pass], ?_⟩
      simp only [List.filterMap_cons, List.filterMap_nil, seen, frames, hs, List.map_nil, List.nil_append, List.length_nil, hm]
      rcases g3 with ⟨h1, h2, h3⟩ | ⟨h1, h2⟩
      · rw [h2, h1, h3]
        exact .eof (.done _)
      · rw [h2]
        exact .line (st := []) (.done _)
  | cons src rest =>
    simp only
    cases hk : src.kind with
    | file t e =>
      simp only
      generalize hf : fgets (lineMax - 1) t = q
      obtain ⟨raw, t', e'⟩ := q
      dsimp only
      rcases takeLine_run raw s with ⟨w, s1, k, h, -⟩ | ⟨s1, h, hq⟩
      · rw [bind_run, h]; trivial
      · rw [bind_run, h]
        obtain ⟨l, b, f, rfl⟩ := hq
        refine ⟨?_, rfl, rfl, rfl, fun g => ?_⟩
        · rw [hs]
          exact under_top (by rintro ⟨_, _, _, h⟩; rw [hk] at h; cases h)
        have hg := g.stack src (by simp [hs])
        rw [hk] at hg
        obtain ⟨raw', t1, e1, hf', g1, g2, g3⟩ := fgets_left hg.1 hg.2
        rw [hf] at hf'
        cases hf'
        refine ⟨⟨g.fs, ?_, g.main, g.eof⟩, [_], rfl, by simp [Event.pass], ?_⟩
        · intro x hx
          cases hx with
          | head => exact ⟨g1, g2⟩
          | tail _ hx => exact g.stack x (by rw [hs]; exact .tail _ hx)
        · obtain rfl : e = false := by
            cases e with
            | false => rfl
            | true => exact absurd hk (ht _ _ hs _)
          rcases g3 with ⟨h, -⟩ | ⟨-, g3⟩
          · cases h
          simp only [List.filterMap_cons, List.filterMap_nil, seen, frames, hs, List.map_cons, hk, frame, List.cons_append, List.length_cons]
          have hl : rest.length + 1 = (rest.map (frame ·.kind) ++ [Frame.file (left s.main s.mainEof)]).length := by simp
          rw [hl, g3]
          exact .line (.done _)
    | «macro» args all lines =>
      cases lines with
      | nil => trivial
      | cons l ls =>
        simp only [modS_bind_run]
        have q := (by quiet : Quiet (whenM ((expandLine args all false [] l).2 = true)
          (warning c!"Too long line"))).run { s with
            curline := (expandLine args all false [] l).1.reverse,
            log := .line s.passnumber (rest.length + 1) (expandLine args all false [] l).1.reverse :: s.log,
            stack := { src with kind := .macro args all ls } :: rest }
        revert q
        cases whenM ((expandLine args all false [] l).2 = true) (warning c!"Too long line") { s with
            curline := (expandLine args all false [] l).1.reverse,
            log := .line s.passnumber (rest.length + 1) (expandLine args all false [] l).1.reverse :: s.log,
            stack := { src with kind := .macro args all ls } :: rest } with
        | stop w s1 => intro _; trivial
        | err s1 => intro h; exact h.elim
        | ok u s1 =>
          rintro ⟨_, _, _, rfl⟩
          refine ⟨?_, rfl, rfl, rfl, fun g => ⟨⟨g.fs, ?_, g.main, g.eof⟩, [_], rfl, by simp [Event.pass], ?_⟩⟩
          · rw [hs]
            intro top x bot e hm
            cases top with
            | nil =>
              injection e with e1 e2
              exact ⟨[], _, by rw [e2]; rfl, _, _, _, rfl⟩
            | cons y top =>
              injection e with e1 e2
              exact ⟨_ :: top, x, by rw [e2]; rfl, hm⟩
          · intro x hx
            have := g.stack src (by simp [hs])
            rw [hk] at this
            cases hx with
            | head => exact this
            | tail _ hx => exact g.stack x (by rw [hs]; exact .tail _ hx)
          · have := g.stack src (by simp [hs])
            rw [hk] at this
            simp only [List.filterMap_cons, List.filterMap_nil, seen, frames, hs, List.map_cons, hk, frame, List.cons_append]
            have hl : rest.length + 1 = (rest.map (frame ·.kind) ++ [Frame.file (left s.main s.mainEof)]).length := by simp
            rw [hl]
            refine .macroLine ?_ (.done _)
            by_cases h : (Spec.expand args all l).length ≤ 240
            · rw [C28_text this h]; simp
            · exact .inr (by omega)

instance : PreR Rd where
  read := ⟨fun s => by
    rw [linegets_eq]
    exact Ends.after (popEnds_rd s.stack s rfl) (linegetsRest_rd _ (popEnds_top s.stack s rfl))⟩

/-! ## Macro calls -/

theorem macroArgs_len (n : Nat) : ∀ acc o s r s', acc.length ≤ 9 → macroArgs n acc o s = .ok r s' → r.length ≤ 9 := by
  induction n with
  | zero => intro acc o s r s' _ h; cases h
  | succ n ih =>
    intro acc o s r s' ha h
    unfold macroArgs at h
    by_cases h1 : o = []
    · rw [if_pos h1] at h; cases h; simpa using ha
    rw [if_neg h1] at h
    by_cases h2 : 8 < acc.length
    · rw [if_pos h2] at h; exact absurd h error_not_ok
    rw [if_neg h2] at h
    obtain ⟨q, s1, h3, h⟩ := bind_ok h
    cases q with
    | none => cases h; simp only [List.length_reverse, List.length_cons]; omega
    | some p => exact ih _ _ _ _ _ (by simp only [List.length_cons]; omega) h

theorem ends_idle {m : M α} (hw : Walk NStep m) (s : St) : Ends Rd s (m s) := by
  exact (B.ofWalk (R := Rd) (hw.mono fun _ _ h => .h (.n h))).run s

theorem rd_bind {m : M α} {f : α → M β} {s : St} (h : ∀ s, Ends Rd s (m s)) (h' : ∀ x s', m s = .ok x s' → Ends Rd s' (f x s')) :
    Ends Rd s ((m >>= f) s) := by
  have h := h s
  rw [bind_run]
  cases e : m s with
  | ok x s' => rw [e] at h; exact Ends.after h (h' x s' e)
  | err s' => rw [e] at h; exact h
  | stop w s' => trivial

theorem call_rd {self : Status → M RC} (hs : ∀ st, B Rd (self st)) (f : Nat) (k : Str) (lab : Label) (st : Status) (o : Option Str) :
    B Rd (macrocall self f k lab st o) := by
  constructor
  intro s
  unfold macrocall
  refine rd_bind B.run fun _ s1 _ => ?_
  refine rd_bind (ends_idle (by walk)) fun _ s2 h2 => ?_
  obtain ⟨rfl, -⟩ := checkDepth_ok h2
  rw [getS_bind_run]
  dsimp only
  rw [bind_run]
  cases ha : macroArgs ((orEmpty o).length + 1) [] (orEmpty o) s2 with
  | stop w s3 => trivial
  | err s3 => have := ends_idle (W.walk (R := NStep) (m := macroArgs ((orEmpty o).length + 1) [] (orEmpty o))) s2; rw [ha] at this; exact this
  | ok args s3 =>
    have hn := macroArgs_len _ _ _ _ _ _ (by simp) ha
    have h3 := ends_idle (W.walk (R := NStep) (m := macroArgs ((orEmpty o).length + 1) [] (orEmpty o))) s2
    rw [ha] at h3
    have e3 : s3.stack = s2.stack := by
      obtain ⟨_, _, _, _, _, rfl⟩ := nframe (walk_nstar W.walk ha); rfl
    cases lab.ptr with
    | lines ls =>
      refine Ends.after h3 ?_
      dsimp only
      rw [bind_run]
      have q := (by quiet : Quiet (whenM ((s2.flags.macrolistOn && st.lst) = true) outputline)).run s3
      revert q
      cases whenM ((s2.flags.macrolistOn && st.lst) = true) outputline s3 with
      | stop w s4 => intro _; trivial
      | err s4 => intro q; exact q.elim
      | ok u s4 =>
        intro q
        have h4 : Rd s3 s4 := by obtain ⟨_, _, _, rfl⟩ := q; exact rd_idle rfl rfl rfl rfl rfl rfl (.inl rfl)
        have e4 : s4.stack = s2.stack := by obtain ⟨_, _, _, rfl⟩ := q; exact e3
        refine Ends.after h4 ?_
        dsimp only
        rw [modS_bind_run]
        generalize hs5 : { s4 with
            stack := { oldlist := s2.flags.listOn, oldprefix := s2.lineprefix, oldlinnum := s2.linenumber,
                       kind := .macro args ((orEmpty o).take 59) ls } :: s4.stack,
            lineprefix := some 'M', macrolevel := s4.macrolevel + 1,
            thiscall := s4.thiscall + 1, segment := s4.thiscall + 1,
            log := .opened s4.passnumber (s4.stack.length + 1) (.macro args ((orEmpty o).take 59) ls) :: s4.log } = s5
        have h5 : Rd s4 s5 := by
          subst hs5
          refine ⟨.cons _ _, rfl, rfl, rfl, fun g => ⟨⟨g.fs, ?_, g.main, g.eof⟩, [_], rfl, by simp [Event.pass], ?_⟩⟩
          · intro x hx
            cases hx with
            | head => exact hn
            | tail _ hx => exact g.stack x hx
          · exact .opened (.done _)
        rw [bind_run]
        have h6 := (big_macroRun hs (st.and ⟨s2.flags.macrolistOn, true⟩) f).run s5
        revert h6
        cases e6 : macroRun self (st.and ⟨s2.flags.macrolistOn, true⟩) f s5 with
        | stop w s6 => intro _; trivial
        | err s6 => exact absurd e6 (macroRun_no_err _ _ _ _)
        | ok r s6 =>
          intro h6
          replace h6 : Rd s5 s6 := h6
          dsimp only
          rw [modS_bind_run]
          have h7 := Pre.trans h5 h6
          obtain ⟨top, src, e7, a', w', ls', hm⟩ := h6.under [] ⟨s2.flags.listOn, s2.lineprefix, s2.linenumber,
            .macro args ((orEmpty o).take 59) ls⟩ s4.stack (by subst hs5; rfl) ⟨_, _, _, rfl⟩
          have e8 : s6.stack.drop (s6.stack.length - s2.stack.length) = s4.stack := by
            rw [e7, e4]
            have : (top ++ src :: s2.stack).length - s2.stack.length = (top ++ [src]).length := by simp; omega
            rw [this, show top ++ src :: s2.stack = (top ++ [src]) ++ s2.stack by simp, List.drop_left]
          have h8 : Rd s4 { s6 with
              macrolevel := s6.macrolevel - 1, linenumber := s2.linenumber, lineprefix := s2.lineprefix,
              flags := { s6.flags with listOn := s2.flags.listOn },
              stack := s6.stack.drop (s6.stack.length - s2.stack.length), segment := s2.segment } := by
            rw [e8]
            refine ⟨.refl _, h7.env, h7.source, h7.pass, fun g => ?_⟩
            obtain ⟨g1, es, l1, p1, r1⟩ := h7.reads g
            refine ⟨⟨g1.fs, g.stack, g1.main, g1.eof⟩, es, l1, p1, ?_⟩
            have := r1.trans (fs := []) (c := frames { s6 with stack := s4.stack }) ?_
            · rw [List.append_nil] at this; exact this
            · simp only [frames, e7, List.map_append, List.map_cons, hm, frame, List.append_assoc, List.cons_append]
              exact .finish (.done _)
          refine Ends.after h8 ?_
          split
          · exact ends_idle W.walk _
          · rw [getS_bind_run]
            split
            · exact (by
                haveI : ∀ k, B Rd (modS fun s => { s with curline := k }) := big_curline
                big : B Rd (do modS fun s => { s with curline := s2.curline }; whenM (st.lst = true) outputline)).run _
            · exact Pre.refl _
    | _ => trivial

instance : PreM Rd where
  call hs f k lab st o := call_rd hs f k lab st o

end Crasm

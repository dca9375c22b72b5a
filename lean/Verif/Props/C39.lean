import Verif.Model.Main
import Verif.Spec.Command
/-
  C39: the command line.
-/

namespace Crasm
open Spec.Cmd (Item item letters)

/-- The options an item list asks for, on top of `o`. -/
def withItems (o : Opts) (is : List Item) : Opts :=
  { list := o.list && !is.contains .nolist, warn := o.warn && !is.contains .quiet,
    xref := o.xref || is.contains .xref, scode := o.scode <|> Spec.Cmd.output is,
    input := o.input <|> (Spec.Cmd.inputs is).head? }

theorem withItems_nil (o : Opts) : withItems o [] = o := by
  cases o; simp [withItems, Spec.Cmd.output, Spec.Cmd.inputs]

theorem withItems_cons (o : Opts) (i : Item) (is : List Item) : withItems o (i :: is) = withItems (withItems o [i]) is := by
  obtain ⟨l, w, x, sc, inp⟩ := o
  cases i <;> simp [withItems, Spec.Cmd.output, Spec.Cmd.inputs] <;>
    first | done | (cases sc <;> rfl) | (cases inp <;> rfl)

theorem withItems_append (o : Opts) (is js : List Item) : withItems o (is ++ js) = withItems (withItems o is) js := by
  induction is generalizing o with
  | nil => simp [withItems_nil]
  | cons i is ih => rw [List.cons_append, withItems_cons, ih, ← withItems_cons]

theorem item_o : item 'o' = none := by decide

theorem letters_scode {ls : Str} (o : Opts) : (withItems o (ls.filterMap item)).scode = o.scode ∧
    (withItems o (ls.filterMap item)).input = o.input := by
  induction ls generalizing o with
  | nil => simp [withItems_nil]
  | cons c ls ih =>
    rw [List.filterMap_cons]
    cases h : item c with
    | none => exact ih o
    | some i =>
      dsimp only
      rw [withItems_cons]
      have h2 := ih (withItems o [i])
      have h3 : i = .quiet ∨ i = .nolist ∨ i = .xref := by
        unfold item at h
        repeat' split at h
        all_goals simp_all
      refine ⟨h2.1.trans ?_, h2.2.trans ?_⟩ <;>
        rcases h3 with rfl | rfl | rfl <;> simp [withItems, Spec.Cmd.output, Spec.Cmd.inputs]

theorem opt_s (o : Opts) (rest : List Str) (ls : Str) :
    optLetters o rest ('s' :: ls) = optLetters { o with warn := false } rest ls := rfl

theorem opt_l (o : Opts) (rest : List Str) (ls : Str) :
    optLetters o rest ('l' :: ls) = optLetters { o with list := false } rest ls := rfl

theorem opt_x (o : Opts) (rest : List Str) (ls : Str) :
    optLetters o rest ('x' :: ls) = optLetters { o with xref := true } rest ls := rfl

theorem opt_o (o : Opts) (rest : List Str) (ls : Str) (h : ls ≠ [] ∨ rest = [] ∨ o.scode.isSome = true) :
    optLetters o rest ('o' :: ls) = optLetters o rest ls := by
  obtain ⟨_, _, _, sc, _⟩ := o
  cases ls with
  | cons => rfl
  | nil =>
    cases rest with
    | nil => rfl
    | cons =>
      cases sc with
      | some => rfl
      | none => simp at h

theorem opt_bad (o : Opts) (rest : List Str) (c : Char) (ls : Str) (h : c ∉ letters) :
    optLetters o rest (c :: ls) = .error c!"Bad Option(s)" := by
  simp only [letters, List.mem_cons, List.not_mem_nil, or_false, not_or] at h
  unfold optLetters
  rw [if_neg h.1, if_neg h.2.1, if_neg h.2.2.1, if_neg h.2.2.2]

/-- Letters that take no output name. -/
theorem optLetters_plain {ls : Str} {o : Opts} {rest : List Str} (hl : ∀ c ∈ ls, c ∈ letters)
    (ho : ls.getLast? ≠ some 'o' ∨ o.scode.isSome = true ∨ rest = []) :
    optLetters o rest ls = .ok (withItems o (ls.filterMap item), rest) := by
  induction ls generalizing o with
  | nil => simp [optLetters, withItems_nil]
  | cons c ls ih =>
    have hc := hl c (by simp)
    have hl' := fun c h => hl c (List.mem_cons_of_mem _ h)
    have hrest : ∀ o' : Opts, o'.scode = o.scode → ls.getLast? ≠ some 'o' ∨ o'.scode.isSome = true ∨ rest = [] := by
      intro o' ho'
      rcases ho with h | h | h
      · cases ls with
        | nil => simp
        | cons d ls => left; simpa using h
      · right; left; rw [ho']; exact h
      · right; right; exact h
    simp only [letters, List.mem_cons, List.not_mem_nil, or_false] at hc
    rcases hc with rfl | rfl | rfl | rfl
    · rw [opt_s, ih (o := { o with warn := false }) hl' (hrest _ rfl)]
      rw [List.filterMap_cons, show item 's' = some .quiet from rfl]
      dsimp only
      rw [withItems_cons]; simp [withItems, Spec.Cmd.output, Spec.Cmd.inputs]
    · rw [opt_l, ih (o := { o with list := false }) hl' (hrest _ rfl)]
      rw [List.filterMap_cons, show item 'l' = some .nolist from rfl]
      dsimp only
      rw [withItems_cons]; simp [withItems, Spec.Cmd.output, Spec.Cmd.inputs]
    · rw [opt_x, ih (o := { o with xref := true }) hl' (hrest _ rfl)]
      rw [List.filterMap_cons, show item 'x' = some .xref from rfl]
      dsimp only
      rw [withItems_cons]; simp [withItems, Spec.Cmd.output, Spec.Cmd.inputs]
    · have e : ('o' :: ls).filterMap item = ls.filterMap item := by rw [List.filterMap_cons, item_o]
      rw [e, opt_o, ih hl' (hrest o rfl)]
      rcases ho with h | h | h
      · left; rintro rfl; simp at h
      · right; right; exact h
      · right; left; exact h

/-- Letters whose last takes the next word. -/
theorem optLetters_output {ls : Str} {o : Opts} {w : Str} {rest : List Str} (hl : ∀ c ∈ ls, c ∈ letters)
    (ho : o.scode = none) :
    optLetters o (w :: rest) (ls ++ ['o']) = .ok (withItems o (ls.filterMap item ++ [.out w]), rest) := by
  induction ls generalizing o with
  | nil => simp [optLetters, withItems, Spec.Cmd.output, Spec.Cmd.inputs, ho]
  | cons c ls ih =>
    have hc := hl c (by simp)
    have hl' := fun c h => hl c (List.mem_cons_of_mem _ h)
    simp only [letters, List.mem_cons, List.not_mem_nil, or_false] at hc
    rw [List.cons_append]
    rcases hc with rfl | rfl | rfl | rfl
    · rw [opt_s, ih (o := { o with warn := false }) hl' (by exact ho)]
      rw [List.filterMap_cons, show item 's' = some .quiet from rfl]
      dsimp only
      rw [List.cons_append, withItems_cons]; simp [withItems, Spec.Cmd.output, Spec.Cmd.inputs]
    · rw [opt_l, ih (o := { o with list := false }) hl' (by exact ho)]
      rw [List.filterMap_cons, show item 'l' = some .nolist from rfl]
      dsimp only
      rw [List.cons_append, withItems_cons]; simp [withItems, Spec.Cmd.output, Spec.Cmd.inputs]
    · rw [opt_x, ih (o := { o with xref := true }) hl' (by exact ho)]
      rw [List.filterMap_cons, show item 'x' = some .xref from rfl]
      dsimp only
      rw [List.cons_append, withItems_cons]; simp [withItems, Spec.Cmd.output, Spec.Cmd.inputs]
    · rw [List.filterMap_cons, item_o, opt_o _ _ _ (Or.inl (by simp))]
      exact ih hl' ho

/-- Any other letter. -/
theorem optLetters_bad {ls : Str} {o : Opts} {rest : List Str} (hl : ∃ c ∈ ls, c ∉ letters) :
    ∃ m, optLetters o rest ls = .error m := by
  induction ls generalizing o with
  | nil => simp at hl
  | cons c ls ih =>
    obtain ⟨d, hd, hb⟩ := hl
    by_cases hc : c ∈ letters
    · have hne : d ≠ c := fun e => hb (e ▸ hc)
      have hd' : d ∈ ls := by
        rcases List.mem_cons.1 hd with h | h
        · exact absurd h hne
        · exact h
      have h5 := fun o => ih (o := o) ⟨d, hd', hb⟩
      simp only [letters, List.mem_cons, List.not_mem_nil, or_false] at hc
      rcases hc with rfl | rfl | rfl | rfl
      · exact h5 _
      · exact h5 _
      · exact h5 _
      · rw [opt_o _ _ _ (Or.inl (by rintro rfl; simp at hd'))]
        exact h5 _
    · exact ⟨_, opt_bad o rest c ls hc⟩

theorem inputs_append (is js : List Item) : Spec.Cmd.inputs (is ++ js) = Spec.Cmd.inputs is ++ Spec.Cmd.inputs js := by
  induction is with
  | nil => rfl
  | cons i is ih => cases i <;> simp [Spec.Cmd.inputs, ih]

theorem inputs_letters (ls : Str) : Spec.Cmd.inputs (ls.filterMap item) = [] := by
  induction ls with
  | nil => rfl
  | cons c ls ih =>
    rw [List.filterMap_cons]
    cases h : item c with
    | none => exact ih
    | some i =>
      have h3 : i = .quiet ∨ i = .nolist ∨ i = .xref := by
        unfold item at h
        repeat' split at h
        all_goals simp_all
      rcases h3 with rfl | rfl | rfl <;> simpa [Spec.Cmd.inputs] using ih

theorem parseArgs_dash (n : Nat) (o : Opts) (ls : Str) (ws : List Str) : parseArgs (n + 1) o (('-' :: ls) :: ws) =
    match optLetters o ws ls with
    | .error e => .error e
    | .ok (o, ws) => parseArgs n o ws := rfl

theorem parseArgs_word (n : Nat) (o : Opts) (w : Str) (ws : List Str) (hw : w.head? ≠ some '-') :
    parseArgs (n + 1) o (w :: ws) =
      if o.input.isSome then .error c!"One input only" else parseArgs n { o with input := some w } ws := by
  cases w with
  | nil => rfl
  | cons c w =>
    have hc : c ≠ '-' := by simpa using hw
    rw [parseArgs]
    intro s h
    simp at h
    exact hc h.1

/-- What the argument loop computes. -/
theorem parseArgs_reads {b : Bool} {args : List Str} {is : List Item} (h : Spec.Cmd.Reads b args is) : ∀ {n : Nat} {o : Opts},
    args.length ≤ n → o.scode.isSome = b →
    (o.input.toList.length + (Spec.Cmd.inputs is).length ≤ 1 → parseArgs n o args = .ok (withItems o is)) ∧
    (1 < o.input.toList.length + (Spec.Cmd.inputs is).length → ∃ m, parseArgs n o args = .error m) := by
  induction h with
  | nil b =>
    intro n o _ _
    have e : parseArgs n o [] = .ok o := by cases n <;> rfl
    rw [withItems_nil]
    refine ⟨fun _ => e, fun h => ?_⟩
    cases hi : o.input <;> simp [hi, Spec.Cmd.inputs] at h
  | @input b w ws is hw h ih =>
    intro n o hn hb
    obtain ⟨n, rfl⟩ : ∃ m, n = m + 1 := ⟨n - 1, by simp at hn; omega⟩
    rw [parseArgs_word _ _ _ _ hw]
    cases hi : o.input with
    | some x =>
      refine ⟨fun h => ?_, fun _ => ⟨_, rfl⟩⟩
      simp [Spec.Cmd.inputs] at h
      omega
    | none =>
      have h1 := ih (n := n) (o := { o with input := some w }) (by simpa using hn) hb
      simp only [Option.isSome, Bool.false_eq_true, if_false]
      simp only [Spec.Cmd.inputs, Option.toList, List.length_cons, List.length_nil] at h1 ⊢
      refine ⟨fun h => ?_, fun h => h1.2 (by omega)⟩
      rw [h1.1 (by omega), withItems_cons]
      congr 2
      simp [withItems, Spec.Cmd.output, Spec.Cmd.inputs, hi]
  | @options b ls ws is hl ho h ih =>
    intro n o hn hb
    obtain ⟨n, rfl⟩ : ∃ m, n = m + 1 := ⟨n - 1, by simp at hn; omega⟩
    rw [parseArgs_dash, optLetters_plain hl (by rw [hb]; exact ho)]
    dsimp only
    have h1 := ih (n := n) (o := withItems o (ls.filterMap item)) (by simpa using hn) (by rw [(letters_scode o).1]; exact hb)
    rw [(letters_scode o).2] at h1
    rw [inputs_append, inputs_letters, withItems_append]
    exact h1
  | @output ls w ws is hl h ih =>
    intro n o hn hb
    obtain ⟨n, rfl⟩ : ∃ m, n = m + 1 := ⟨n - 1, by simp at hn; omega⟩
    rw [parseArgs_dash, optLetters_output hl (by cases hs : o.scode <;> simp [hs] at hb; rfl)]
    dsimp only
    have e : (withItems o (ls.filterMap item ++ [.out w])).input = o.input := by
      rw [withItems_append]
      simp only [withItems, Spec.Cmd.inputs, List.head?_nil]
      have := (letters_scode (ls := ls) o).2
      simp only [withItems] at this
      rw [this]; cases o.input <;> rfl
    have h1 := ih (n := n) (o := withItems o (ls.filterMap item ++ [.out w])) (by simp at hn; omega) (by
      rw [withItems_append]
      simp only [withItems, Spec.Cmd.output]
      cases (o.scode <|> Spec.Cmd.output (ls.filterMap item)) <;> rfl)
    rw [e] at h1
    rw [show ls.filterMap item ++ Item.out w :: is = ls.filterMap item ++ [.out w] ++ is by simp,
      withItems_append _ (_ ++ _), inputs_append, inputs_append, inputs_letters]
    exact h1

/-- A command line that cannot be read makes the argument loop fail. -/
theorem parseArgs_unread {args : List Str} : ∀ {n : Nat} {o : Opts} {b : Bool}, args.length ≤ n → o.scode.isSome = b →
    (¬ ∃ is, Spec.Cmd.Reads b args is) → ∃ m, parseArgs n o args = .error m := by
  intro n
  induction n generalizing args with
  | zero =>
    intro o b hn _ h
    cases args with
    | nil => exact absurd ⟨_, .nil b⟩ h
    | cons => simp at hn
  | succ n ih =>
    intro o b hn hb h
    cases args with
    | nil => exact absurd ⟨_, .nil b⟩ h
    | cons w ws =>
      have hn' : ws.length ≤ n := by simpa using hn
      by_cases hw : w.head? = some '-'
      · obtain ⟨ls, rfl⟩ : ∃ ls, w = '-' :: ls := by
          cases w with
          | nil => simp at hw
          | cons c ls => simp at hw; exact ⟨ls, by rw [hw]⟩
        rw [parseArgs_dash]
        by_cases hl : ∀ c ∈ ls, c ∈ letters
        · by_cases ho : ls.getLast? ≠ some 'o' ∨ b = true ∨ ws = []
          · rw [optLetters_plain hl (by rw [hb]; exact ho)]
            exact ih hn' (by rw [(letters_scode o).1]; exact hb) fun ⟨is, h1⟩ => h ⟨_, .options hl ho h1⟩
          · simp only [not_or, Classical.not_not] at ho
            obtain ⟨h1, h2, h3⟩ := ho
            obtain ⟨ls, rfl⟩ := List.getLast?_eq_some_iff.1 h1
            obtain ⟨x, ws, rfl⟩ : ∃ x y, ws = x :: y := by
              cases ws with
              | nil => exact absurd rfl h3
              | cons x y => exact ⟨x, y, rfl⟩
            have hl' : ∀ c ∈ ls, c ∈ letters := fun c hc => hl c (by simp [hc])
            have hb' : b = false := by cases b <;> first | rfl | exact absurd rfl h2
            subst hb'
            rw [optLetters_output hl' (by cases hs : o.scode <;> simp [hs] at hb; rfl)]
            refine ih (b := true) (by simp at hn'; omega) ?_ fun ⟨is, h1⟩ => h ⟨_, .output hl' h1⟩
            rw [withItems_append]
            simp only [withItems, Spec.Cmd.output]
            cases (o.scode <|> Spec.Cmd.output (ls.filterMap item)) <;> rfl
        · obtain ⟨m, hm⟩ := optLetters_bad (o := o) (rest := ws) (ls := ls) (by simpa using hl)
          rw [hm]; exact ⟨m, rfl⟩
      · rw [parseArgs_word _ _ _ _ hw]
        split
        · exact ⟨_, rfl⟩
        · exact ih (o := { o with input := some w }) hn' hb fun ⟨is, h1⟩ => h ⟨_, .input hw h1⟩

/-- **C39** (what is done): a command line that reads as options and exactly one input file assembles that file
    with those options. -/
theorem C39_accepts (fuel : Nat) (env : Env) {args : List Str} {is : List Item} {name : Str}
    (h : Spec.Cmd.Reads false args is) (hi : Spec.Cmd.inputs is = [name]) :
    mainC fuel env args = crasm fuel env
      { list := !is.contains .nolist, warn := !is.contains .quiet, xref := is.contains .xref,
        scode := Spec.Cmd.output is, input := some name } name := by
  have h1 := (parseArgs_reads h (n := args.length) (o := {}) (Nat.le_refl _) rfl).1 (by simp [hi])
  unfold mainC
  rw [h1]
  simp [withItems, hi]

/-- **C39** (what is refused): any other command line prints the usage, ends with status 10, and touches no file. -/
theorem C39_refuses_partial (fuel : Nat) (env : Env) {args : List Str}
    (h : ¬ ∃ is name, Spec.Cmd.Reads false args is ∧ Spec.Cmd.inputs is = [name]) :
    ∃ m, mainC fuel env args = .exit 10 (syntaxText m) .untouched := by
  unfold mainC
  by_cases hr : ∃ is, Spec.Cmd.Reads false args is
  · obtain ⟨is, hr⟩ := hr
    have h1 := parseArgs_reads hr (n := args.length) (o := {}) (Nat.le_refl _) rfl
    cases hi : Spec.Cmd.inputs is with
    | nil =>
      rw [h1.1 (by simp [hi])]
      refine ⟨c!"No input!", ?_⟩
      simp [withItems, hi]
    | cons w ws =>
      cases ws with
      | nil => exact absurd ⟨is, w, hr, hi⟩ h
      | cons x ws =>
        obtain ⟨m, hm⟩ := h1.2 (by simp [hi])
        rw [hm]; exact ⟨m, rfl⟩
  · obtain ⟨m, hm⟩ := parseArgs_unread (n := args.length) (o := {}) (Nat.le_refl _) rfl hr
    rw [hm]; exact ⟨m, rfl⟩

/-- The command lines of the usage text are read as documented. -/
theorem C39_documented {b : Bool} {args : List Str} {is : List Item} (h : Spec.Cmd.Documented b args is) :
    Spec.Cmd.Reads b args is := by
  have key : ∀ {ls : Str}, (∀ c ∈ ls, c = 's' ∨ c = 'l' ∨ c = 'x') → ∀ c ∈ ls, c ∈ letters := by
    intro ls h c hc
    rcases h c hc with rfl | rfl | rfl <;> decide
  induction h with
  | nil b => exact .nil b
  | input hw _ ih => exact .input hw ih
  | @options b ls ws is hl _ ih =>
    refine .options (key hl) (Or.inl fun e => ?_) ih
    have := hl 'o' (List.mem_of_getLast? e)
    simp at this
  | output hl _ ih => exact .output (key hl) ih

theorem undocumented {b : Bool} {args : List Str} {is : List Item} (h : Spec.Cmd.Documented b args is) :
    args ≠ [c!"-o"] := by
  cases h with
  | nil => simp
  | input hw _ => intro e; simp at e; exact hw (by rw [e.1]; rfl)
  | options hl _ => intro e; simp at e; have := hl 'o' (by rw [e.1]; simp); simp at this
  | output hl _ => intro e; simp at e

/-- C39 fails as stated: `crasm a -o` is not a documented command line, and is not refused: the option is passed
    over in silence. Likewise `crasm -ol a`, and `crasm -o b -o a`, where the second `-o` takes nothing. -/
theorem C39_false : (¬ ∃ is, Spec.Cmd.Documented false [c!"a", c!"-o"] is) ∧
    ∀ fuel env, mainC fuel env [c!"a", c!"-o"] = crasm fuel env { input := some c!"a" } c!"a" ∧
      mainC fuel env [c!"-ol", c!"a"] = crasm fuel env { list := false, input := some c!"a" } c!"a" ∧
      mainC fuel env [c!"-o", c!"b", c!"-o", c!"a"] =
        crasm fuel env { scode := some c!"b", input := some c!"a" } c!"a" := by
  refine ⟨?_, fun fuel env => ⟨by simp only [mainC]; rfl, by simp only [mainC]; rfl, by simp only [mainC]; rfl⟩⟩
  rintro ⟨is, h⟩
  generalize hg : [c!"a", c!"-o"] = args at h
  cases h with
  | nil => simp at hg
  | input _ h => simp at hg; exact undocumented h hg.2.symm
  | options => simp at hg
  | output => simp at hg

/-! ## Non-vacuity -/

theorem documentedLine : Spec.Cmd.Documented false [c!"-sx", c!"-lo", c!"out.code", c!"in.asm"]
    [.quiet, .xref, .nolist, .out c!"out.code", .input c!"in.asm"] :=
  .options (ls := c!"sx") (by decide) (.output (ls := c!"l") (by decide) (.input (by decide) (.nil _)))

example (fuel : Nat) (env : Env) : mainC fuel env [c!"-sx", c!"-lo", c!"out.code", c!"in.asm"] =
    crasm fuel env { list := false, warn := false, xref := true, scode := some c!"out.code", input := some c!"in.asm" }
      c!"in.asm" := by
  rw [C39_accepts fuel env (C39_documented documentedLine) (name := c!"in.asm") (by decide)]
  exact congrArg (fun o => crasm fuel env o c!"in.asm") (by decide)

def argError (args : List Str) : Option Str :=
  match parseArgs args.length {} args with
  | .error e => some e
  | .ok o => if o.input.isNone then some c!"No input!" else none

example : argError [c!"-z", c!"a"] = some c!"Bad Option(s)" ∧ argError [c!"b", c!"a"] = some c!"One input only" ∧
    argError [c!"-o", c!"a"] = some c!"No input!" ∧ argError [c!"-o", c!"a", c!"b"] = none := by decide

end Crasm

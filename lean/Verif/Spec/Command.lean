import Verif.Model.Text
/-
  What a crasm command line means, stated without reference to the model: `crasm [-slx] [-o SCODEFILE] INPUTFILE`
  (README, crasm.c:670-693).
-/

namespace Spec.Cmd
open Crasm (Str)

inductive Item where
  | input (w : Str)
  | quiet
  | nolist
  | xref
  | out (w : Str)
deriving DecidableEq, Repr

/-- The option letters that stand by themselves. -/
def item (c : Char) : Option Item :=
  if c = 's' then some .quiet else if c = 'l' then some .nolist else if c = 'x' then some .xref else none

/-- All option letters. -/
def letters : List Char := ['s', 'l', 'x', 'o']

/-- How the words of a command line are read; the flag says whether an output name was given before. `options`
    is where the program is lenient: a letter `o` that does not end its word, that comes second, or that has no
    word after it, is passed over. -/
inductive Reads : Bool → List Str → List Item → Prop
  | nil (b) : Reads b [] []
  | input {b w ws is} (hw : w.head? ≠ some '-') (h : Reads b ws is) : Reads b (w :: ws) (.input w :: is)
  | options {b ls ws is} (hl : ∀ c ∈ ls, c ∈ letters) (ho : ls.getLast? ≠ some 'o' ∨ b = true ∨ ws = [])
      (h : Reads b ws is) : Reads b (('-' :: ls) :: ws) (ls.filterMap item ++ is)
  | output {ls w ws is} (hl : ∀ c ∈ ls, c ∈ letters) (h : Reads true ws is) :
      Reads false (('-' :: (ls ++ ['o'])) :: w :: ws) (ls.filterMap item ++ .out w :: is)

/-- The command lines of the usage text: options in any order and number, except that `-o` is given at most once,
    as the last letter of its word, and with its name. -/
inductive Documented : Bool → List Str → List Item → Prop
  | nil (b) : Documented b [] []
  | input {b w ws is} (hw : w.head? ≠ some '-') (h : Documented b ws is) : Documented b (w :: ws) (.input w :: is)
  | options {b ls ws is} (hl : ∀ c ∈ ls, c = 's' ∨ c = 'l' ∨ c = 'x') (h : Documented b ws is) :
      Documented b (('-' :: ls) :: ws) (ls.filterMap item ++ is)
  | output {ls w ws is} (hl : ∀ c ∈ ls, c = 's' ∨ c = 'l' ∨ c = 'x') (h : Documented true ws is) :
      Documented false (('-' :: (ls ++ ['o'])) :: w :: ws) (ls.filterMap item ++ .out w :: is)

/-- The input files named. -/
def inputs : List Item → List Str
  | [] => []
  | .input w :: is => w :: inputs is
  | _ :: is => inputs is

/-- The output file named, if any. -/
def output : List Item → Option Str
  | [] => none
  | .out w :: _ => some w
  | _ :: is => output is

end Spec.Cmd

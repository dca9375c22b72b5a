import Verif.Spec.ProgList

/-! What is printed behind the listing of a program: a summary, and the list of its symbols. -/

namespace Spec.Program
open Spec.Listing (hex)

/-- The line of a symbol: a mark, its value, and its name in a field of 49 characters. -/
def symbol (mark : Char) (v : Nat) (name : Name) : List Char :=
  mark :: (hex 4 v ++ c!"   Abs " ++ name ++ List.replicate (49 - name.length) ' ')

/-- The value of a name at the end of a program, and whether it depends on something defined below its first use: that of a
    label is its address, that of an equate is the one given last. -/
def Valued {isa : Isa} (addr : Name → Int) (p : Lines isa) (σ : State) (k : Name) (v : Int) (fwd : Bool) : Prop :=
  (k ∈ labels p ∧ v = addr k ∧ fwd = late p k) ∨ (k ∈ equates p ∧ σ.env k = some (v, fwd))

/-- The list of the symbols of a program: one line for each label and each equate, and no others, in alphabetical order.  A
    symbol may be marked as unused, otherwise the mark tells whether it depends on something defined below its first use. -/
def Table {isa : Isa} (addr : Name → Int) (p : Lines isa) (σ : State) (rows : List (List Char)) : Prop :=
  ∃ names : List Name, names.Pairwise (· < ·) ∧ (∀ k, k ∈ names ↔ k ∈ labels p ∨ k ∈ equates p) ∧
    All2 (fun k r => ∃ mark v fwd, Valued addr p σ k v fwd ∧ (mark = '?' ∨ mark = if fwd then '^' else ' ') ∧ r = symbol mark (bits v) k) names rows

/-- A number in decimal. -/
def decimal (v : Int) : List Char := if v < 0 then '-' :: Nat.toDigits 10 v.natAbs else Nat.toDigits 10 v.natAbs

/-- A size, as a number of 64 bits: hexadecimal, with at least eight columns, and decimal. -/
def size (v : Int) : List Char :=
  List.replicate (8 - (Nat.toDigits 16 (bits v)).length) ' ' ++ Nat.toDigits 16 (bits v) ++ c!" (" ++ decimal (v.bmod (2 ^ 64)) ++ c!")"

/-- The summary of a run without errors: the last address and the code length. -/
def summary (a n : List Char) : List (List Char) :=
  [c!"ERRORS:       0", c!"WARNINGS:     0", [], c!"Successful assembly...", c!" Last address " ++ a, c!" Code length  " ++ n]

/-- The last address of a program: where there is an origin, and the last line is none, the one before that of the location counter
    at the end.  Otherwise it is left open. -/
def Final {isa : Isa} (p : Lines isa) (σ : State) (addr : List Char) : Prop :=
  hasOrg p = true → hasOrg p.getLast?.toList = false → ∃ v, σ.pc = some v ∧ addr = size (v - 1)

/-- A text printed consists of pages of 66 lines of 76 characters, on which there are the lines `out`, among them perhaps remarks,
    then the summary, then the list of symbols `table`, and nothing else, except for empty lines between these parts.  The
    summary gives `addr` as last address and twice the number `n` of bytes as code length. -/
def Report (text addr : List Char) (n : Nat) (out table : List (List Char)) : Prop :=
  ∃ closed last gap a b c, ∃ ts : List (Bool × List Char), Spec.Listing.Listing [(66, 76)] text closed last gap ∧
    (closed ++ last.toList).flatMap Spec.Listing.Page.body =
      ts.map Prod.snd ++ List.replicate a [] ++ summary addr (size (2 * n)) ++ List.replicate b [] ++ table ++ List.replicate c [] ∧
    (∀ t ∈ ts, t.1 = true → Spec.Listing.Remark t.2) ∧ (ts.filter fun t => !t.1).map Prod.snd = out

end Spec.Program

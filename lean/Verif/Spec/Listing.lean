import Verif.Spec.Number
import Verif.Model.Text

/-! The pages of a listing. -/

namespace Spec.Listing

abbrev Text := List Char

/-- A page: its number, the line at its top, the lines below, and the number of empty lines in front of it. -/
structure Page where
  number : Nat
  top : Text
  body : List Text
  gap : Nat := 0

/-- Lines as they are printed. -/
def print (ls : List Text) : Text := ls.flatMap fun l => l ++ ['\n']

/-- A page that has been begun: an empty line follows the line at its top. -/
def Page.begun (p : Page) : List Text := List.replicate p.gap [] ++ p.top :: [] :: p.body
/-- A complete page ends in two empty lines. -/
def Page.whole (p : Page) : List Text := p.begun ++ [[], []]

/-- The number of lines of a complete page. -/
def Page.lines (p : Page) : Nat := 2 + p.body.length + 2

/-- The line at the top of a page shows a title of at most 30 characters and the number of the page. -/
def Page.Titled (p : Page) : Prop :=
  ∃ title number : Text, ∃ m k w, title.length ≤ 30 ∧ m = 30 - title.length ∧ Spec.number 10 number = some p.number ∧ number ≠ [] ∧
    k = 3 - number.length ∧
    p.top = c!"Crasm 1.11:   " ++ List.replicate m ' ' ++ title ++ List.replicate w ' ' ++ c!"page" ++ List.replicate k ' ' ++ number

/-- The message of an error or a warning. -/
def Remark (t : Text) : Prop := ∃ a b, t = a ++ c!" ERROR: " ++ b ∨ t = a ++ c!" WARNING: " ++ b

/-- A listing, the lengths of pages and lines given in the course of it being `set` (page length 0: no page breaks). -/
structure Listing (set : List (Nat × Nat)) (text : Text) (closed : List Page) (last : Option Page) (gap : Nat) : Prop where
  /-- complete pages, perhaps one that is not, perhaps empty lines -/
  text : text = print (closed.flatMap Page.whole ++ (match last with | some p => p.begun | none => []) ++ List.replicate gap [])
  /-- the pages are numbered -/
  numbers : (closed ++ last.toList).map Page.number = List.range' 1 (closed ++ last.toList).length
  titles : ∀ p ∈ closed ++ last.toList, p.Titled
  /-- no line is longer than the lines may be, apart from messages -/
  width : ∀ p ∈ closed ++ last.toList, ∀ t ∈ p.body, Remark t ∨ ∃ x ∈ set, t.length ≤ x.2
  /-- a page is complete as soon as it has the length in force -/
  short : ∀ p ∈ closed, ∃ x ∈ set, x.1 ≠ 0 ∧ x.1 ≤ p.lines
  long : ∀ p ∈ closed, (∃ x ∈ set, x.1 = 0) ∨ ∃ x ∈ set, p.lines ≤ x.1
  going : ∀ p ∈ last, (∃ x ∈ set, x.1 = 0) ∨ ∃ x ∈ set, p.lines < x.1
  /-- there are empty lines between pages only without page breaks -/
  gaps : (∃ p ∈ closed ++ last.toList, p.gap ≠ 0) ∨ gap ≠ 0 → ∃ x ∈ set, x.1 = 0
  ends : last ≠ none → gap = 0

/-! ### Lines with code -/

/-- The last `d` hexadecimal digits of a number. -/
def hex : Nat → Nat → Text
  | 0, _ => []
  | d + 1, n => hex d (n / 16) ++ [(c!"0123456789ABCDEF").getD (n % 16) ' ']

/-- The number of digits of addresses, for processors with 24 and 16 address bits and others. -/
def width (a24 a16 : Bool) : Nat := if a24 then 6 else if a16 then 4 else 8

/-- Bytes behind their address, which has `d` digits. -/
def row (d a : Nat) (bs : List Nat) : Text := hex d a ++ [' '] ++ bs.flatMap (hex 2)

/-- As many bytes as there are room for in 19 columns. -/
def perRow (d : Nat) : Nat := 9 - d / 2

def rowsN (d : Nat) : Nat → Nat → List Nat → List Text
  | 0, _, _ => []
  | f + 1, a, bs => if bs = [] then [] else row d a (bs.take (perRow d)) :: rowsN d f (a + perRow d) (bs.drop (perRow d))

/-- The rows that show bytes from address `a` on. -/
def rows (d a : Nat) (bs : List Nat) : List Text := rowsN d bs.length a bs

/-- A text with its tabulators (every 8 columns) replaced by blanks, beginning at column `col`. -/
def expand : Nat → Text → Text
  | _, [] => []
  | col, c :: t =>
    if c = '\t' then List.replicate (8 - col % 8) ' ' ++ expand (col + (8 - col % 8)) t else c :: expand (col + 1) t

def fill (w : Nat) (t : Text) : Text := t ++ List.replicate (w - t.length) ' '

/-- As many bytes of a statement as are shown. -/
def most (d : Nat) : Nat := if d = 4 then 21 else if d = 6 then 23 else 24

/-- What stands for the bytes that are not shown: with addresses of four digits there is no room for it. -/
def dots (d : Nat) : Text := if d = 4 then [] else c!"..."

/-- The rows that show the bytes of a statement. -/
def bytes (d a : Nat) (bs : List Nat) : List Text :=
  if bs.length ≤ most d then rows d a bs
  else (rows d a (bs.take (most d))).dropLast ++ [(rows d a (bs.take (most d))).getLast?.getD [] ++ dots d]

/-- The field in front of the source: the number of the line; for lines of macros and skipped lines a letter, further
    to the left in deeper macros. -/
def tag : Option Char → Nat → Nat → Text
  | none, _, n => List.replicate (5 - (Nat.toDigits 10 n).length) ' ' ++ Nat.toDigits 10 n
  | some c, level, _ => List.replicate (min 4 (5 - level)) ' ' ++ [c] ++ List.replicate (4 - min 4 (5 - level)) ' '

/-- A line of the source with what stands in front of it; the source begins in column 28. -/
def sourceLine (margin tag text : Text) : Text :=
  fill 28 (fill 21 margin ++ tag) ++ expand ((fill 21 margin ++ tag).length - 28) text

/-- The lines that show a statement and the bytes it generates: the source is in the last row. -/
def statement (d a : Nat) (bs : List Nat) (tag text : Text) : List Text :=
  (bytes d a bs).dropLast ++ [sourceLine ((bytes d a bs).getLast?.getD []) tag text]

/-- An address in front of a line that generates nothing. -/
def echo (d v : Nat) : Text := c!"  " ++ hex d v ++ c!" "

end Spec.Listing

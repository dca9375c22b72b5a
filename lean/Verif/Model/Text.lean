/-
  Characters and C library helpers.

  A C `char` holding byte `b` is modelled by the Lean `Char` with code point `b` (0..255); a C string is
  the list of its characters before the terminating NUL, so reading `*s` at the end of a list stands for
  reading the NUL.  The `<ctype.h>` classifiers are those of the "C" locale (crasm never calls setlocale);
  for bytes >= 0x80 every classifier is false, which is what glibc returns there.
-/

namespace Crasm

/-- `c!"abc"` is the literal list `['a','b','c']` (no `String` is involved, so the kernel can compute
    with it). -/
syntax:max (name := cstr) "c!" str : term
macro_rules
  | `(c! $s:str) => do
    let cs := s.getString.toList.map (fun c => Lean.Syntax.mkCharLit c)
    `([$[$(cs.toArray)],*])

/-- A C string without its final zero: the `char*` of dcl.h:50-162. -/
abbrev Str := List Char

/-- C `toupper` ("C" locale). crasm.c:600, filter.c:102, label.c:106. -/
def toupper (c : Char) : Char :=
  if 97 ≤ c.toNat ∧ c.toNat ≤ 122 then Char.ofNat (c.toNat - 32) else c

/-- C `isdigit`. operator.c:55, parse.c:201. -/
def isdigit (c : Char) : Bool := 48 ≤ c.toNat && c.toNat ≤ 57
/-- C `isalpha`. label.c:60. -/
def isalpha (c : Char) : Bool :=
  (65 ≤ c.toNat && c.toNat ≤ 90) || (97 ≤ c.toNat && c.toNat ≤ 122)
/-- C `isalnum`. label.c:67. -/
def isalnum (c : Char) : Bool := isalpha c || isdigit c
/-- C `isxdigit`. operator.c:91. -/
def isxdigit (c : Char) : Bool :=
  isdigit c || (65 ≤ c.toNat && c.toNat ≤ 70) || (97 ≤ c.toNat && c.toNat ≤ 102)
/-- C `isprint`. macro.c:575, operator.c:192, output.c:209. -/
def isprint (c : Char) : Bool := 32 ≤ c.toNat && c.toNat ≤ 126
/-- C `isascii`. macro.c:576, output.c:209. -/
def isascii (c : Char) : Bool := c.toNat ≤ 127
/-- C `isspace`. output.c:172. -/
def isspace (c : Char) : Bool := c.toNat == 32 || (9 ≤ c.toNat && c.toNat ≤ 13)
/-- The test `c == ' ' || c == '\t'` used all over the sources. crasm.c:414-422. -/
def isblank (c : Char) : Bool := c.toNat == 32 || c.toNat == 9

/-- Three-way `strncmp` result on (unsigned) characters; names never exceed LABLEN so the length limit of
    label.c:119 is not a further cut. -/
def scmp : Str → Str → Ordering
  | [], [] => .eq
  | [], _ :: _ => .lt
  | _ :: _, [] => .gt
  | a :: as, b :: bs =>
    if a.toNat < b.toNat then .lt else if b.toNat < a.toNat then .gt else scmp as bs

/-- `hexa[n & 0xF]` of output.c:305. -/
def hexDigit (n : Nat) : Char :=
  match n % 16 with
  | 0 => '0' | 1 => '1' | 2 => '2' | 3 => '3' | 4 => '4' | 5 => '5' | 6 => '6' | 7 => '7'
  | 8 => '8' | 9 => '9' | 10 => 'A' | 11 => 'B' | 12 => 'C' | 13 => 'D' | 14 => 'E' | _ => 'F'

/-- Decimal digits of `n` (fuel-bounded; `digits` supplies enough). xref.c:140-155. -/
def digitsAux : Nat → Nat → Str → Str
  | 0, _, acc => acc
  | f + 1, n, acc =>
    let acc := Char.ofNat (48 + n % 10) :: acc
    if n / 10 = 0 then acc else digitsAux f (n / 10) acc

/-- `sprintf("%d")` of a non-negative number. crasm.c:606, label.c:94, xref.c:140. -/
def digits (n : Nat) : Str := digitsAux (n + 1) n []

/-- Lower-case hexadecimal digits of `n`. xref.c:152-155. -/
def hexLowerAux : Nat → Nat → Str → Str
  | 0, _, acc => acc
  | f + 1, n, acc =>
    let d := n % 16
    let c := if d < 10 then Char.ofNat (48 + d) else Char.ofNat (87 + d)
    if n / 16 = 0 then c :: acc else hexLowerAux f (n / 16) (c :: acc)

/-- `sprintf("%lx")`. xref.c:152-155. -/
def hexLower (n : Nat) : Str := hexLowerAux 17 n []

/-- `sprintf("%d")`/`"%ld"` of an `Int`. xref.c:97, 152-155. -/
def intDigits (n : Int) : Str :=
  match n with
  | .ofNat n => digits n
  | .negSucc n => '-' :: digits (n + 1)

/-- Right-justify in a field of width `w` (`%Nd`, `%Ns`). output.c:108-115, 292, xref.c:140-155. -/
def padLeft (w : Nat) (s : Str) : Str := List.replicate (w - s.length) ' ' ++ s

end Crasm

import Verif.Spec.Macro

/-!
  Source texts: in which order the lines of the main file, of include files and of macros are to be processed.
-/

namespace Spec

/-- The lines of a text.  If the text ends with a newline the last line is empty. -/
def lines : List Char → List (List Char)
  | [] => [[]]
  | c :: s =>
    if c = '\n' then [] :: lines s
    else
      match lines s with
      | [] => [[c]]
      | l :: ls => (c :: l) :: ls

/-- Characters that belong in a source: tabs, printable ASCII and everything beyond ASCII. -/
def Plain (c : Char) : Prop := c = '\t' ∨ (0x20 ≤ c.toNat ∧ c.toNat ≤ 0x7e) ∨ 0x80 ≤ c.toNat

/-- A text of lines of at most 248 characters, all plain. -/
def Tame (t : List Char) : Prop := ∀ l ∈ lines t, l.length ≤ 248 ∧ ∀ c ∈ l, Plain c

/-- A text being read: what is left of it.  In a macro the lines still contain parameters. -/
inductive Frame where
  | file (lines : List (List Char))
  | «macro» (args : List (List Char)) (whole : List Char) (lines : List (List Char))

/-- What happens while a source is processed: an include file or a macro is opened, or a line is delivered from a text
    that lies above `depth` others, the main file having depth 0. -/
inductive Seen where
  | opened (f : Frame)
  | line (depth : Nat) (text : List Char)

/-- `Reads st es st'`: with the texts `st` open, the innermost first and the main file last, the things `es` happen, and
    then the texts `st'` are open.

    Lines always come from the innermost text, in order.  An included file is left when, and only when, all its lines
    have been delivered; the text that included it continues.  Only the end of a macro call (ENDM, EXITM) closes texts
    early: those opened within the expansion.  The text of a macro line is that with the parameters replaced; what
    becomes of a line that is then longer than 240 characters is left open.  After the end of the main file empty lines
    may be delivered. -/
inductive Reads : List Frame → List Seen → List Frame → Prop
  | done (st) : Reads st [] st
  | opened {f st es st'} : Reads (f :: st) es st' → Reads st (.opened f :: es) st'
  | line {l ls st es st'} : Reads (.file ls :: st) es st' → Reads (.file (l :: ls) :: st) (.line st.length l :: es) st'
  | macroLine {args whole l ls st t es st'} : (t = expand args whole l ∨ 240 < (expand args whole l).length) →
      Reads (.macro args whole ls :: st) es st' → Reads (.macro args whole (l :: ls) :: st) (.line st.length t :: es) st'
  | leave {st es st'} : st ≠ [] → Reads st es st' → Reads (.file [] :: st) es st'
  | finish {top args whole ls st es st'} : Reads st es st' → Reads (top ++ .macro args whole ls :: st) es st'
  | eof {es st'} : Reads [.file []] es st' → Reads [.file []] (.line 0 [] :: es) st'

/-- The lines delivered from depth `d`. -/
def linesAt (d : Nat) (es : List Seen) : List (List Char) :=
  es.filterMap fun | .line d' t => if d' = d then some t else none | .opened _ => none

/-- Nothing is delivered from a depth less than `d`. -/
def Above (d : Nat) (es : List Seen) : Prop := ∀ d' t, .line d' t ∈ es → d ≤ d'

end Spec

/-!
  Macro lines: what the user means by a line with parameters.
-/

namespace Spec

/-- The text of a macro line for a call with the operand `whole`, made of the arguments `args` (at most 9):
    `\#` is their number, `\*` the operand, `\1` to `\9` are the arguments, absent ones being empty.
    Any other backslash stands for itself. -/
def expand (args : List (List Char)) (whole : List Char) : List Char → List Char
  | [] => []
  | ['\\'] => ['\\']
  | '\\' :: c :: s =>
    match c with
    | '#' => Nat.digitChar args.length :: expand args whole s
    | '*' => whole ++ expand args whole s
    | '1' => (args[0]?.getD []) ++ expand args whole s
    | '2' => (args[1]?.getD []) ++ expand args whole s
    | '3' => (args[2]?.getD []) ++ expand args whole s
    | '4' => (args[3]?.getD []) ++ expand args whole s
    | '5' => (args[4]?.getD []) ++ expand args whole s
    | '6' => (args[5]?.getD []) ++ expand args whole s
    | '7' => (args[6]?.getD []) ++ expand args whole s
    | '8' => (args[7]?.getD []) ++ expand args whole s
    | '9' => (args[8]?.getD []) ++ expand args whole s
    | c => '\\' :: expand args whole (c :: s)
  | c :: s => c :: expand args whole s

end Spec

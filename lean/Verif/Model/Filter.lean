import Verif.Model.Text
/-
  filter.c: pattern matching and string reversal.
-/

namespace Crasm

/-- The `quote` variable of filter.c:57, as its independent bit fields:
    `quote = 8*depth + 4*esc + 2*dq + 1*sq`.  `depth` can be negative (filter.c:156 subtracts 8);
    no operation of filter.c carries from one field into another. -/
structure Quote where
  sq : Bool := false
  dq : Bool := false
  esc : Bool := false
  depth : Int := 0
deriving DecidableEq, Repr

/-- `quote = 0` (filter.c:66). -/
def Quote.zero : Quote := {}

/-- filter.c:117-160: update of `quote` for the character `*starts` that the wildcard swallows. -/
def Quote.step (q : Quote) (c : Char) : Quote :=
  if q.esc then { q with esc := false }
  else if c = '\\' then (if q.sq || q.dq then { q with esc := true } else q)
  else if c = '\'' then (if q.dq then q else { q with sq := !q.sq })
  else if c = '"' then (if q.sq then q else { q with dq := !q.dq })
  else if c = '(' then (if q.sq || q.dq then q else { q with depth := q.depth + 1 })
  else if c = ')' then (if q.sq || q.dq then q else { q with depth := q.depth - 1 })
  else q

/-- Result of matching the part of a pattern up to the next wildcard. filter.c:52-171. -/
inductive SegRes where
  /-- the part matched; the rest of the subject string -/
  | ok (rest : Str)
  /-- mismatch; the flag tells whether `*s == 0` there (filter.c:110) -/
  | bad (atEnd : Bool)
deriving Repr

/-- filter.c:94: `while (*s == ' ' || *s == '\t') s++`. -/
def skipBlanks : Str → Str
  | [] => []
  | c :: s => if isblank c then skipBlanks s else c :: s

/-- filter.c:101-106: does the pattern character `p` accept the subject character `c` (quote aside)? -/
def litMatch (p c : Char) : Bool := toupper p = toupper c || (p = ' ' && c = '\t')

/-- The iterations of the loop filter.c:68-166 from just after a wildcard (or from the start of the
    pattern) up to the next wildcard: `_` skips blanks (filter.c:94), any other character must match
    (filter.c:101-106) and can only match when `quote` is 0.  `atEnd` is set for the last part of the
    pattern, whose terminating NUL must match the subject's NUL (same lines, with `*fil == 0`). -/
def matchSeg (q : Quote) (atEnd : Bool) : Str → Str → SegRes
  | [], s =>
    if atEnd then
      (if q = Quote.zero ∧ s = [] then .ok [] else .bad s.isEmpty)
    else .ok s
  | '_' :: seg, s => matchSeg q atEnd seg (skipBlanks s)
  | _ :: _, [] => .bad true
  | p :: seg, c :: s =>
    if q = Quote.zero ∧ litMatch p c then matchSeg q atEnd seg s else .bad false

/-- A wildcard followed by the pattern part `seg`: filter.c:108-165.  `starts` advances one character at a
    time, the swallowed characters going to the capture, until `seg` matches. Returns the capture, the rest
    of the subject and the current `quote`; on failure, the number of characters swallowed. -/
def seek (atEnd : Bool) (seg : Str) : Quote → Str → Except Nat (Str × Str × Quote)
  | q, [] =>
    match matchSeg q atEnd seg [] with
    | .ok rest => .ok ([], rest, q)
    | .bad _ => .error 0
  | q, c :: starts =>
    match matchSeg q atEnd seg (c :: starts) with
    | .ok rest => .ok ([], rest, q)
    | .bad true => .error 0
    | .bad false =>
      match seek atEnd seg (q.step c) starts with
      | .ok (cap, rest, q') => .ok (c :: cap, rest, q')
      | .error n => .error (n + 1)

/-- Outcome of `filter`: success flag, captured strings (in wildcard order), how far the write position
    `bufferpos` moved during the call (filter.c:72,79,162), and the offset at which the last wildcard
    started (`chars_consumed_by_filter`, filter.c:73). -/
structure FilterOut where
  ok : Bool
  caps : List Str
  wrote : Nat
  consumed : Nat
deriving Repr

/-- The wildcards of the pattern, one by one. `segs` are the pattern parts following each wildcard;
    an empty last part is the trailing wildcard that swallows everything (filter.c:75-84). -/
def filterWild (total : Nat) : List Str → Quote → Str → FilterOut
  | [], _, _ => ⟨true, [], 0, 0⟩
  | [[]], _, s => ⟨true, [s], 1 + s.length, total - s.length⟩
  | seg :: segs, q, s =>
    match seek segs.isEmpty seg q s with
    | .error n => ⟨false, [], 1 + n, total - s.length⟩
    | .ok (cap, rest, q') =>
      let r := filterWild total segs q' rest
      ⟨r.ok, cap :: r.caps, 1 + cap.length + r.wrote,
        if segs.isEmpty then total - s.length else r.consumed⟩

/-- Split a pattern at its wildcards `?`. filter.c:30, 52-171. -/
def splitPat : Str → Str × List Str
  | [] => ([], [])
  | c :: p =>
    let (s, ss) := splitPat p
    if c = '?' then ([], s :: ss) else (c :: s, ss)

/-- `filter(s, fil, ...)` of filter.c:52-171.  A NULL subject is the empty string (filter.c:59). -/
def filter (s : Str) (pat : Str) : FilterOut :=
  let (seg0, segs) := splitPat pat
  match matchSeg Quote.zero segs.isEmpty seg0 s with
  | .bad _ => ⟨false, [], 0, 0⟩
  | .ok rest => filterWild s.length segs Quote.zero rest

/-- The second loop of `reverse` (filter.c:196-236): after the characters have been reversed, inside
    quotes each backslash is moved back in front of the character it escapes. `quote` here only takes the
    values 0 (none), 1 (single) or 2 (double). -/
inductive RQuote | none | single | double
deriving DecidableEq, Repr

/-- filter.c:196-236. -/
def fixEscapes : RQuote → Str → Str → Str
  | _, acc, [] => acc.reverse
  | q, acc, c :: rest =>
    if c = '\'' then
      match q with
      | .none => fixEscapes .single (c :: acc) rest
      | .single => fixEscapes (if rest.head? = some '\\' then .single else .none) (c :: acc) rest
      | .double => fixEscapes q (c :: acc) rest
    else if c = '"' then
      match q with
      | .none => fixEscapes .double (c :: acc) rest
      | .double => fixEscapes (if rest.head? = some '\\' then .double else .none) (c :: acc) rest
      | .single => fixEscapes q (c :: acc) rest
    else if c = '\\' ∧ q ≠ .none then
      match acc with
      | p :: acc' => fixEscapes q (p :: '\\' :: acc') rest
      | [] => fixEscapes q (c :: acc) rest   -- not reached: a quote character precedes
    else fixEscapes q (c :: acc) rest

/-- `reverse(s)` of filter.c:174-237. -/
def creverse (s : Str) : Str := fixEscapes .none [] s.reverse

end Crasm

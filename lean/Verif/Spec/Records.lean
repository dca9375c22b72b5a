/-
  Readers for Motorola S-records and Intel HEX, written from the format definitions; nothing here refers to
  the model of crasm.
-/

namespace Spec

/-- Value of a hexadecimal digit. -/
def hexVal? (c : Char) : Option Nat :=
  if 48 ≤ c.toNat ∧ c.toNat ≤ 57 then some (c.toNat - 48)
  else if 65 ≤ c.toNat ∧ c.toNat ≤ 70 then some (c.toNat - 55)
  else if 97 ≤ c.toNat ∧ c.toNat ≤ 102 then some (c.toNat - 87)
  else none

/-- A string of hexadecimal digit pairs as a list of bytes (numbers below 256). -/
def hexPairs? : List Char → Option (List Nat)
  | [] => some []
  | [_] => none
  | a :: b :: s => do
    let x ← hexVal? a
    let y ← hexVal? b
    let r ← hexPairs? s
    pure ((16 * x + y) :: r)

/-- Big-endian value of a list of bytes. -/
def beValue (bs : List Nat) : Nat := bs.foldl (fun n b => 256 * n + b) 0

/-- What one line of a code file says. -/
inductive Record
  /-- put `data` at `addr`, `addr + 1`, ... -/
  | data (addr : Nat) (data : List Nat)
  /-- Intel HEX type 04: the upper 16 bits of the addresses that follow -/
  | upper (hi : Nat)
  /-- end of file -/
  | eof
deriving DecidableEq, Repr

/-- Width in bytes of the address of an S-record data type. -/
def sAddrLen (t : Char) : Option Nat :=
  if t = '1' then some 2 else if t = '2' then some 3 else if t = '3' then some 4 else none

/-- An S-record line without its newline: `S`, type, then bytes: count, address, data, checksum.
    The count is the number of bytes after it; the sum of all bytes is 255 modulo 256. -/
def readS (line : List Char) : Option Record :=
  match line with
  | 'S' :: t :: rest =>
    match hexPairs? rest with
    | some (n :: bytes) =>
      if n ≠ bytes.length ∨ (n + bytes.sum) % 256 ≠ 255 then none
      else if t = '9' then (if bytes.length = 3 then some .eof else none)
      else
        match sAddrLen t with
        | none => none
        | some w =>
          if bytes.length < w + 1 then none
          else some (.data (beValue (bytes.take w)) ((bytes.drop w).dropLast))
    | _ => none
  | _ => none

/-- An Intel HEX line without its newline: `:`, then bytes: count, address (2), type, data, checksum.
    The count is the number of data bytes; the sum of all bytes is 0 modulo 256. The address of a data record
    is relative to the current upper half `hi`. -/
def readHex (hi : Nat) (line : List Char) : Option Record :=
  match line with
  | ':' :: rest =>
    match hexPairs? rest with
    | some (n :: a1 :: a0 :: t :: bytes) =>
      if bytes.length ≠ n + 1 ∨ (n + a1 + a0 + t + bytes.sum) % 256 ≠ 0 then none
      else if t = 0 then some (.data (65536 * hi + 256 * a1 + a0) bytes.dropLast)
      else if t = 1 then (if n = 0 then some .eof else none)
      else if t = 4 then (if n = 2 then some (.upper (beValue bytes.dropLast)) else none)
      else none
    | _ => none
  | _ => none

/-- Cut a text into newline-terminated lines; `none` if the last line is not terminated. -/
def lines? : List Char → Option (List (List Char))
  | [] => some []
  | c :: s =>
    if c = '\n' then (lines? s).map ([] :: ·)
    else
      match lines? s with
      | some (l :: ls) => some ((c :: l) :: ls)
      | _ => none

/-- One line of a file in either format. -/
def readLine (hi : Nat) (line : List Char) : Option Record :=
  if line.head? = some 'S' then readS line else readHex hi line

def nextUpper (hi : Nat) : Record → Nat
  | .upper h => h
  | _ => hi

/-- The records of a file, line by line; `hi` is the upper address half in force. -/
def readLines (hi : Nat) : List (List Char) → Option (List Record)
  | [] => some []
  | l :: ls => do
    let r ← readLine hi l
    let rs ← readLines (nextUpper hi r) ls
    pure (r :: rs)

/-- All records of a code file. -/
def readFile (text : List Char) : Option (List Record) := do
  let ls ← lines? text
  readLines 0 ls

/-- The data blocks among the records. -/
def dataOf : List Record → List (Nat × List Nat)
  | [] => []
  | .data a d :: rs => (a, d) :: dataOf rs
  | _ :: rs => dataOf rs

/-- The bytes a loader stores, in order: block by block, at consecutive addresses modulo 2^32. -/
def storesOf (blocks : List (Nat × List Nat)) : List (Nat × Nat) :=
  blocks.flatMap fun b => b.2.zipIdx.map fun (x, i) => ((b.1 + i) % 2 ^ 32, x)

end Spec

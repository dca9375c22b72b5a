import Verif.Model.Output
/-
  scode.c: generation of the code file.
-/

namespace Crasm

/-- The two characters written by `scodebyte` (scode.c:143-144). -/
def hexByte (b : Byte) : Str := [hexDigit (b.toNat / 16), hexDigit b.toNat]

/-- A run of `scodebyte` calls (scode.c:139-150). -/
def hexBytes (bs : List Byte) : Str := bs.flatMap hexByte

/-- `checksum` after a run of `scodebyte` calls started from `c` (scode.c:141). -/
def checksum (c : Byte) (bs : List Byte) : Byte := bs.foldl (· + ·) c

/-- Byte `n` (0 = least significant) of an address. scode.c:173-238. -/
def byteOf (w : Word) (n : Nat) : Byte := (w >>> (8 * n)).setWidth 8

/-- scode.c:201-225 and 227-233: one S-record. -/
def sRecord (start : Word) (data : List Byte) : Str :=
  let n := data.length
  let (t, hdr) : Char × List Byte :=
    if start &&& 0xff000000#64 ≠ 0 then
      ('3', [BitVec.ofNat 8 (n + 5), byteOf start 3, byteOf start 2, byteOf start 1, byteOf start 0])
    else if start &&& 0xff0000#64 ≠ 0 then
      ('2', [BitVec.ofNat 8 (n + 4), byteOf start 2, byteOf start 1, byteOf start 0])
    else
      ('1', [BitVec.ofNat 8 (n + 3), byteOf start 1, byteOf start 0])
  let bytes := hdr ++ data
  'S' :: t :: hexBytes (bytes ++ [~~~ checksum 0 bytes]) ++ ['\n']

/-- scode.c:183-188: an extended linear address record. -/
def hexExtRecord (start : Word) : Str :=
  let bytes := [byteOf start 3, byteOf start 2]
  c!":02000004" ++ hexBytes (bytes ++ [~~~ checksum (0xff + 0x02 + 0x04) bytes]) ++ ['\n']

/-- scode.c:192-197 and 227-233: a HEX data record. -/
def hexDataRecord (start : Word) (data : List Byte) : Str :=
  let bytes := [BitVec.ofNat 8 data.length, byteOf start 1, byteOf start 0, 0] ++ data
  ':' :: hexBytes (bytes ++ [~~~ checksum 0xff bytes]) ++ ['\n']

/-- scode.c:181: does the upper half of the address differ from `rawextended`? -/
def needExt (rawextended : BitVec 32) (start : Word) : Bool :=
  (rawextended.signExtend 64 ^^^ start) &&& 0xffff0000#64 ≠ 0

/-- Text written by `flushscoderaw` for a non-empty block, and the new `rawextended`. scode.c:173-238. -/
def blockText (hex : Bool) (rawextended : BitVec 32) (start : Word) (data : List Byte) :
    Str × BitVec 32 :=
  if hex then
    if needExt rawextended start then
      (hexExtRecord start ++ hexDataRecord start data, start.setWidth 32)
    else (hexDataRecord start data, rawextended)
  else (sRecord start data, rawextended)

/-- Append to the code file.  A write with `scode == NULL` cannot happen: `raw` is only filled once the file
    is open (scode.c:73-81). -/
def Code.write (c : Code) (t : Str) : Code :=
  { c with file := match c.file with | some f => some (f ++ t) | none => none }

/-- `flushscoderaw()` scode.c:173-238. -/
def Code.flush (hex : Bool) (c : Code) : Code :=
  let c :=
    if c.raw = [] then c
    else
      let (t, ext) := blockText hex c.rawextended c.rawstart c.raw
      { c.write t with rawextended := ext }
  { c with rawstart := c.pc, raw := [] }

/-- `setpc(addr)` scode.c:38-46. -/
def setpc (addr : Word) : M Unit := modS fun s =>
  if addr ≠ s.code.pc then
    { s with code := { s.code.flush s.flags.codeHex with rawstart := addr, pc := addr, raw := [] } }
  else s

/-- scode.c:56-69: open the code file at the first byte. -/
def openScode : M Unit := do
  let s ← getS
  if !s.flags.nocode && s.code.file.isNone then
    if s.env.canCreate then modCode fun c => { c with file := some [], rawextended := 0 }
    else fatal c!"can't open scode file"
  else pure ()

/-- scode.c:73-81: add a byte to the current block. -/
def Code.push (hex : Bool) (x : Byte) (c : Code) : Code :=
  if c.file.isSome then
    let c := if 16 ≤ c.raw.length then c.flush hex else c
    { c with raw := c.raw ++ [x] }
  else c

/-- `insert8(x)` scode.c:49-89. -/
def insert8 (x : Byte) : M Unit := do
  let s ← getS
  if !s.flags.orgGv then error c!"no org given"
  else do
    openScode
    whenM s.flags.codeOn (do
      modS fun s => { s with code := { s.code.push s.flags.codeHex x with codelen := s.code.codelen + 1 } }
      outputbyte x)
    modS fun s => { s with
      advance := s.advance + 1, code := { s.code with pc := s.code.pc + 1 },
      log := .byte s.passnumber s.code.pc x s.flags.codeOn :: s.log }

/-- `insert16(x)` scode.c:92-104. -/
def insert16 (x : BitVec 16) : M Unit := do
  let s ← getS
  if s.flags.lohi then do
    insert8 (x.setWidth 8)
    insert8 ((x >>> 8).setWidth 8)
  else do
    insert8 ((x >>> 8).setWidth 8)
    insert8 (x.setWidth 8)

/-- `insert32(x)` scode.c:122-134.  (`insert24` is never called.) -/
def insert32 (x : BitVec 32) : M Unit := do
  let s ← getS
  if s.flags.lohi then do
    insert16 (x.setWidth 16)
    insert16 ((x >>> 16).setWidth 16)
  else do
    insert16 ((x >>> 16).setWidth 16)
    insert16 (x.setWidth 16)

/-- `closescodefile()` scode.c:153-170, when the file is open. -/
def Code.close (hex : Bool) (c : Code) : Code :=
  (c.flush hex).write (if hex then c!":00000001FF\n" else c!"S9030000FC\n")

end Crasm

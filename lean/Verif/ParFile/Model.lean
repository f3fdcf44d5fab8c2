/-
Model of the parallel data files of `src/fclaw2d_file.c` (the same source is
compiled for 3D through `src/fclaw3d_file.c`): formatting of the headers and
of the padding, creating a file, writing block and field sections from many
processes, and the (currently disabled) functions that read a file back.

What is simplified.
* A file is its size together with a partial map from positions to bytes; a
  position that was never written has no byte (`none`), whatever the file
  system may put there.
* Only the build with MPI I/O is modelled.  Every call of the I/O layer
  succeeds here and moves all its bytes; failing calls are the subject of
  `Verif.ParFile.FaultModel`.
* One collective write lets the bytes of the processes reach the file in any
  order: the parameter `sched` permutes the list of single-byte writes.
* Sizes and offsets are unbounded integers.
* Strings are the lists of their bytes up to the terminating NUL.
-/
import Mathlib.Data.List.Basic

set_option autoImplicit false

namespace Fclaw.ParFile

abbrev Byte := UInt8

/-- A file: its size and the bytes that have been written. -/
structure File where
  size : Nat
  at_ : Nat → Option Byte

/-- The result of a call: it completes, it completes with an error code, an
assertion of a debug build fails, or the behaviour is undefined. -/
inductive Outcome (α : Type) where
  | ok (a : α)
  | err (code : Nat)
  | abort
  | ub

/-- Sequencing of calls. -/
def Outcome.bind {α β : Type} : Outcome α → (α → Outcome β) → Outcome β
  | .ok a, f => f a
  | .err e, _ => .err e
  | .abort, _ => .abort
  | .ub, _ => .ub

/-- `src/fclaw2d_file.c` 101: FCLAW2D_FILE_METADATA_BYTES_V1. -/
abbrev metadataBytes : Nat := 96
/-- `src/fclaw2d_file.c` 107: FCLAW2D_FILE_BYTE_DIV_V1. -/
abbrev byteDiv : Nat := 16
/-- `src/fclaw2d_file.c` 108: FCLAW2D_FILE_MAX_NUM_PAD_BYTES_V1, the size of
the padding buffer of the writing functions. -/
abbrev maxNumPadBytes : Nat := byteDiv + 1
/-- `src/fclaw2d_file.c` 104: FCLAW2D_FILE_ARRAY_METADATA_BYTES_V1. -/
abbrev arrayMetadataBytes : Nat := 14
/-- `src/fclaw2d_file.c` 117: FCLAW2D_FILE_USER_STRING_BYTES_V1. -/
abbrev userStringBytes : Nat := 48
/-- `src/fclaw2d_file.c` 115: FCLAW2D_FILE_FIELD_HEADER_BYTES_V1. -/
abbrev fieldHeaderBytes : Nat := 2 + arrayMetadataBytes + userStringBytes
/-- `src/fclaw2d_file.c` 118: FCLAW2D_FILE_MAX_BLOCK_SIZE_V1. -/
abbrev maxBlockSize : Nat := 9999999999999
/-- `src/fclaw2d_file.c` 119: FCLAW2D_FILE_MAX_FIELD_ENTRY_SIZE_V1. -/
abbrev maxFieldEntrySize : Nat := 9999999999999
/-- `src/fclaw2d_file.c` 120: FCLAW2D_FILE_MAX_GLOBAL_QUAD_V1. -/
abbrev maxGlobalQuad : Nat := 9999999999999999
/-- `src/fclaw2d_file.c` 100, 122: the magic number "p4data0" and the header
string "p4est data file v1". -/
def magic : List Byte := [112, 52, 100, 97, 116, 97, 48]
def headerString : List Byte :=
  [112, 52, 101, 115, 116, 32, 100, 97, 116, 97, 32, 102, 105, 108, 101, 32, 118, 49]
/-- FCLAW2D_FILE_ERR_IN_DATA_V1 and FCLAW2D_FILE_ERR_FORMAT_V1,
`src/fclaw2d_file.c` 133–160 (the position in the enumeration). -/
abbrev errInData : Nat := 17
abbrev errFormat : Nat := 13
abbrev errSectionType : Nat := 14

/-- The newline, the blank, and the letters of the two section types. -/
abbrev nl : Byte := 10
abbrev blank : Byte := 32
abbrev chB : Byte := 66
abbrev chF : Byte := 70

/-- The `w` last decimal digits of `n`, most significant first.  For
`n < 10 ^ w` this is what `%.wllu` (or `%.wlld`) prints; the callers check
the range first. -/
def digits : Nat → Nat → List Byte
  | 0, _ => []
  | w + 1, n => digits w (n / 10) ++ [UInt8.ofNat (48 + n % 10)]

/-- `%-ws` for a string. -/
def padRight (w : Nat) (s : List Byte) : List Byte :=
  s ++ List.replicate (w - s.length) blank

/-- `snprintf` into a buffer of `n` bytes: the text without the NUL. -/
def snprintf (n : Nat) (s : List Byte) : List Byte := s.take (n - 1)

/-- The leading decimal digits as a number: `sc_atol` on such text.
Blanks and signs in front, which the files never contain, are not skipped. -/
def atol (l : List Byte) : Nat :=
  (l.takeWhile (fun c => decide (48 ≤ c.toNat ∧ c.toNat ≤ 57))).foldl
    (fun a c => 10 * a + (c.toNat - 48)) 0

/-- The number of padding bytes, `src/fclaw2d_file.c` 358–371
(`fcaw2d_file_get_padding_string_v1`). -/
def numPad (numBytes : Nat) : Nat :=
  let k := (byteDiv - numBytes % byteDiv) % byteDiv
  if k = 0 ∨ k = 1 then k + byteDiv else k

/-- `src/fclaw2d_file.c` 358–381 (`fcaw2d_file_get_padding_string_v1`) with a
buffer of `buf` bytes: the two assertions of a debug build, then `snprintf`
stores the text and its NUL, which is undefined behaviour if they are more
bytes than the buffer has. -/
def getPadding (debug : Bool) (numBytes buf : Nat) : Outcome (List Byte) :=
  let k := numPad numBytes
  if debug = true ∧ ¬ (1 < k ∧ k ≤ byteDiv) then .abort
  else
    let text := snprintf (k + 1) ([nl] ++ List.replicate (k - 2) blank ++ [nl])
    if text.length + 1 > buf then .ub else .ok text

/-- The same function called with a NULL buffer: only the number. -/
def getNumPad (debug : Bool) (numBytes : Nat) : Outcome Nat :=
  let k := numPad numBytes
  if debug = true ∧ ¬ (1 < k ∧ k ≤ byteDiv) then .abort else .ok k

/-- `src/fclaw2d_file.c` 553–580 (`fclaw2d_file_check_user_string`): true if
the string is accepted. -/
def checkUserString (u : List Byte) : Bool :=
  let copied := u.take (userStringBytes - 1)
  if copied.length < userStringBytes - 1 then true
  else decide (u.length = userStringBytes - 1)

/-- One byte reaches the file. -/
def writeByte (f : File) (w : Nat × Byte) : File :=
  { size := max f.size (w.1 + 1),
    at_ := fun i => if i = w.1 then some w.2 else f.at_ i }

/-- The single-byte writes of one write call. -/
def writesAt (off : Nat) : List Byte → List (Nat × Byte)
  | [] => []
  | b :: bs => (off, b) :: writesAt (off + 1) bs

/-- Several single-byte writes, one after the other. -/
def applyWrites (f : File) (ws : List (Nat × Byte)) : File := ws.foldl writeByte f

/-- `sc_io_write_at` by one process. -/
def writeAt (f : File) (off : Nat) (bs : List Byte) : File := applyWrites f (writesAt off bs)

/-- `MPI_File_set_size`: cuts or extends the file; the content of an extension
is not specified. -/
def setSize (f : File) (n : Nat) : File :=
  { size := n, at_ := fun i => if i < n then f.at_ i else none }

/-- The file context, `src/fclaw2d_file.c` 196–210, with the file; the same on
all processes.  `gfq r` is the first global element of process `r`. -/
structure Ctx where
  mpisize : Nat
  gfq : Nat → Nat
  globalNum : Nat
  accessed : Nat
  numCalls : Nat
  file : File

/-- `src/fclaw2d_file.c` 626–717 (`fclaw2d_file_open_create_v1`).  Opening
for writing empties the file. -/
def openCreate (mpisize : Nat) (gfq : Nat → Nat) (globalNum : Nat)
    (userString : List Byte) : Outcome Ctx :=
  if checkUserString userString = false then .err errInData
  else if ¬ globalNum ≤ maxGlobalQuad then .err errInData
  else
    let metadata := snprintf (metadataBytes + byteDiv + 1)
      (magic.take 7 ++ [nl] ++ padRight 23 headerString ++ [nl] ++ padRight 47 userString
        ++ [nl] ++ digits 16 globalNum ++ [nl] ++ padRight 14 [] ++ [nl])
    .ok { mpisize := mpisize, gfq := gfq, globalNum := globalNum, accessed := 0,
          numCalls := 0,
          file := writeAt { size := 0, at_ := fun _ => none } 0
            (metadata.take (metadataBytes + byteDiv)) }

/-- `src/fclaw2d_file.c` 929–1054 (`fclaw2d_file_write_block_v1`): only
process 0 writes; the other processes compute the number of padding bytes. -/
def writeBlock (debug : Bool) (c : Ctx) (data : List Byte) (userString : List Byte) :
    Outcome Ctx :=
  let blockSize := data.length
  if checkUserString userString = false then .err errInData
  else if ¬ blockSize ≤ maxBlockSize then .err errInData
  else
    let base := c.accessed + metadataBytes + byteDiv
    let f0 := setSize c.file (metadataBytes + byteDiv + blockSize + fieldHeaderBytes
      + c.accessed)
    let header := snprintf (fieldHeaderBytes + 1)
      ([chB, blank] ++ digits 13 blockSize ++ [nl] ++ padRight 47 userString ++ [nl])
    let f1 := writeAt f0 base (header.take fieldHeaderBytes)
    let f2 := writeAt f1 (base + fieldHeaderBytes) data
    (getPadding debug blockSize maxNumPadBytes).bind fun pad =>
      let f3 := writeAt f2 (base + fieldHeaderBytes + blockSize) (pad.take (numPad blockSize))
      .ok { c with
        accessed := c.accessed + (blockSize + fieldHeaderBytes + numPad blockSize),
        numCalls := c.numCalls + 1,
        file := f3 }

/-- The bytes that the processes hand to `sc_io_write_at_all` in
`fclaw2d_file_write_field_v1` (`src/fclaw2d_file.c` 1511–1514, 1559–1564),
process by process. -/
def fieldWrites (c : Ctx) (elemSize : Nat) (data : Nat → List Byte) : List (Nat × Byte) :=
  (List.range c.mpisize).flatMap fun rank =>
    let writeOffset := metadataBytes + byteDiv + c.gfq rank * elemSize
    writesAt (c.accessed + writeOffset + fieldHeaderBytes) (data rank)

/-- `src/fclaw2d_file.c` 1464–1602 (`fclaw2d_file_write_field_v1`): process
`r` passes `data r`.  The header and the padding are written by process 0. -/
def writeField (debug : Bool) (sched : List (Nat × Byte) → List (Nat × Byte)) (c : Ctx)
    (elemSize : Nat) (data : Nat → List Byte) (userString : List Byte) : Outcome Ctx :=
  if checkUserString userString = false then .err errInData
  else if ¬ elemSize ≤ maxFieldEntrySize then .err errInData
  else
    let f0 := setSize c.file (metadataBytes + byteDiv + c.globalNum * elemSize
      + fieldHeaderBytes + c.accessed)
    let header := snprintf (fieldHeaderBytes + 1)
      ([chF, blank] ++ digits 13 elemSize ++ [nl] ++ padRight 47 userString ++ [nl])
    let writeOffset0 := metadataBytes + byteDiv + c.gfq 0 * elemSize
    let f1 := writeAt f0 (c.accessed + writeOffset0) (header.take fieldHeaderBytes)
    let f2 := applyWrites f1 (sched (fieldWrites c elemSize data))
    let arraySize := c.globalNum * elemSize
    (getPadding debug arraySize maxNumPadBytes).bind fun pad =>
      let f3 := writeAt f2 (c.accessed + metadataBytes + byteDiv + arraySize
        + fieldHeaderBytes) (pad.take (numPad arraySize))
      .ok { c with
        accessed := c.accessed
          + (elemSize * c.globalNum + fieldHeaderBytes + numPad arraySize),
        numCalls := c.numCalls + 1,
        file := f3 }

/-- One call of a writing function, with the arguments of all processes. -/
inductive Call where
  | block (userString : List Byte) (data : List Byte)
  | field (userString : List Byte) (elemSize : Nat) (data : Nat → List Byte)

def doCall (debug : Bool) (sched : List (Nat × Byte) → List (Nat × Byte)) (c : Ctx) :
    Call → Outcome Ctx
  | .block u d => writeBlock debug c d u
  | .field u es d => writeField debug sched c es d u

def doCalls (debug : Bool) (sched : List (Nat × Byte) → List (Nat × Byte)) (c : Ctx) :
    List Call → Outcome Ctx
  | [] => .ok c
  | x :: xs => (doCall debug sched c x).bind fun c' => doCalls debug sched c' xs

/-- Creating a file, writing sections, closing it: the file that remains. -/
def writeFile (debug : Bool) (sched : List (Nat × Byte) → List (Nat × Byte)) (mpisize : Nat)
    (gfq : Nat → Nat) (globalNum : Nat) (userString : List Byte) (calls : List Call) :
    Outcome File :=
  (openCreate mpisize gfq globalNum userString).bind fun c =>
    (doCalls debug sched c calls).bind fun c' => .ok c'.file

/-- The user strings of `fclaw2d_file_open_write`. -/
def strConnSize : List Byte := "p4est connectivity size".toUTF8.toList
def strConn : List Byte := "p4est connectivity".toUTF8.toList
def strPertree : List Byte := "p4est count per tree".toUTF8.toList
def strQuads : List Byte := "p4est quadrants".toUTF8.toList
def strWriteData : List Byte := "Write quadrant data?".toUTF8.toList

/-- `src/fclaw2d_file.c` 3076–3148 (`fclaw2d_file_open_write`), the public
function, with `fclaw2d_file_write_connectivity_v1` (2815–2855) and
`fclaw2d_file_write_p4est_v1` (2406–2503, without quadrant data): the calls of
the writing functions.  `connSize` are the eight bytes of the length of the
serialised connectivity `conn`, `pertree` the eight bytes per tree (and one
more entry) of the element counts, and `quads r` the compressed elements of
process `r`, `quadSize` bytes each; these byte strings come from p4est. -/
def openWriteCalls (connSize conn pertree : List Byte) (quadSize : Nat)
    (quads : Nat → List Byte) : List Call :=
  [.block strConnSize connSize, .block strConn conn, .block strPertree pertree,
    .field strQuads quadSize quads, .block strWriteData [48]]

/-! ### Reading (the code inside `#if 0`) -/

/-- `n` bytes from position `off` on; `none` if one of them was never written. -/
def readBytes (f : File) : Nat → Nat → Option (List Byte)
  | _, 0 => some []
  | off, n + 1 =>
    match f.at_ off, readBytes f (off + 1) n with
    | some b, some bs => some (b :: bs)
    | _, _ => none

/-- `sc_io_read_at`: the bytes that are there, at most `n`; `none` if one of
them was never written. -/
def readAt (f : File) (off n : Nat) : Option (List Byte) :=
  readBytes f off (min n (f.size - off))

/-- A buffer after bytes have been read into its front. -/
def overlay (buf bs : List Byte) : List Byte := bs ++ buf.drop bs.length

/-- A C string inside a buffer: the bytes up to the first NUL. -/
def cstr (l : List Byte) : List Byte := l.takeWhile (fun c => decide (c ≠ 0))

/-- `sc_strcopy` into a buffer of `n` bytes. -/
def strcopy (n : Nat) (s : List Byte) : List Byte := (cstr s).take (n - 1)

/-- `src/fclaw2d_file.c` 385–500 (`fclaw2d_file_check_file_metadata_v1`) on
the 96 bytes of the file header: the user string and the number of elements.
`none` stands for a format error.  The buffer of the user string has only 47
bytes in the call of `sc_strcopy` (line 464).  The source string of that call
is not terminated after its line; the copy stops there because of the length.
A negative number of elements cannot be printed in the modelled file. -/
def checkFileMetadata (metadata : List Byte) : Option (List Byte × Nat) :=
  if metadata[7]? ≠ some nl then none
  else if cstr (metadata.take 7) ≠ magic then none
  else if metadata[8 + 24 - 1]? ≠ some nl then none
  else if (cstr ((metadata.drop 8).take 23)).length ≠ 24 - 1 then none
  else if metadata[8 + 24 + 48 - 1]? ≠ some nl then none
  else
    let userString := strcopy (userStringBytes - 1) (metadata.drop (8 + 24))
    if (cstr ((metadata.take metadataBytes).drop (8 + 24 + 48))).length ≠ 16 then none
    else some (userString, atol ((metadata.take metadataBytes).drop (8 + 24 + 48)))

/-- What the header of a section says: `fclaw2d_file_section_metadata_v1_t`,
`src/fclaw2d_file.c` 1841–1849. -/
structure Meta where
  blockType : Byte
  dataSize : Nat
  userString : List Byte

/-- The body of the loop of `fclaw2d_file_info_v1`,
`src/fclaw2d_file.c` 2026–2138, at one position: the section found there and
the position after it, or nothing (`break`). -/
def infoStep (f : File) (globalNum pos : Nat) : Option (Meta × Nat) :=
  match readAt f pos fieldHeaderBytes with
  | none => none
  | some buf =>
    if fieldHeaderBytes ≠ buf.length then none
    else if buf[0]? ≠ some chB ∧ buf[0]? ≠ some chF then none
    else if buf[arrayMetadataBytes + 1]? ≠ some nl then none
    else
      let dataSize := atol ((buf.take (arrayMetadataBytes + 1)).drop 2)
      if buf[fieldHeaderBytes - 1]? ≠ some nl then none
      else
        let userString := strcopy userStringBytes
          ((buf.take (fieldHeaderBytes - 1)).drop (arrayMetadataBytes + 2))
        let currentSize := if buf[0]? = some chF then globalNum * dataSize else dataSize
        let k := numPad currentSize
        match readAt f (pos + fieldHeaderBytes + currentSize) k with
        | none => none
        | some p =>
          let buf' := overlay buf p
          if buf'[0]? ≠ some nl ∨ buf'[k - 1]? ≠ some nl then none
          else some ({ blockType := if buf[0]? = some chF then chF else chB,
                       dataSize := dataSize, userString := userString },
                     pos + fieldHeaderBytes + currentSize + k)

/-- The loop of `fclaw2d_file_info_v1`; `fuel` bounds the number of turns (the
loop ends by itself since every turn reads further on in the file). -/
def infoLoop (f : File) (globalNum : Nat) : Nat → Nat → List Meta
  | 0, _ => []
  | fuel + 1, pos =>
    match infoStep f globalNum pos with
    | none => []
    | some (m, pos') => m :: infoLoop f globalNum fuel pos'

/-- `src/fclaw2d_file.c` 1897–2165 (`fclaw2d_file_info_v1`): the user string of
the file and the list of its sections; `none` for an error. -/
def fileInfo (f : File) (globalNum : Nat) : Option (List Byte × List Meta) :=
  match readAt f 0 metadataBytes with
  | none => none
  | some metadata =>
    if metadataBytes ≠ metadata.length then none
    else
      match checkFileMetadata metadata with
      | none => none
      | some (u, n) =>
        if globalNum ≠ n then none
        else some (u, infoLoop f globalNum f.size (metadataBytes + byteDiv))

/-- `src/fclaw2d_file.c` 1062–1255 (`fclaw2d_file_read_block_metadata_v1`) with
a user string argument: checks the header at the current position against the
expected type and size and returns the user string. -/
def readBlockMetadata (f : File) (globalNum accessed dataSize : Nat) (blockType : Byte) :
    Option (List Byte) :=
  match readAt f (accessed + metadataBytes + byteDiv) fieldHeaderBytes with
  | none => none
  | some buf =>
    if fieldHeaderBytes ≠ buf.length then none
    else if buf[0]? ≠ some blockType then none
    else if buf[arrayMetadataBytes + 1]? ≠ some nl then none
    else if atol ((buf.take (arrayMetadataBytes + 1)).drop 2) ≠ dataSize then none
    else if buf[fieldHeaderBytes - 1]? ≠ some nl then none
    else
      let userString := strcopy userStringBytes
        ((buf.take (fieldHeaderBytes - 1)).drop (arrayMetadataBytes + 2))
      let size := if buf[0]? = some chF then dataSize * globalNum else dataSize
      let k := numPad size
      match readAt f (accessed + metadataBytes + byteDiv + fieldHeaderBytes + size) k with
      | none => none
      | some p =>
        if k ≠ p.length then none
        else
          let buf' := overlay buf p
          if buf'[0]? ≠ some nl ∨ buf'[k - 1]? ≠ some nl then none
          else some userString

/-- `src/fclaw2d_file.c` 1308–1415 (`fclaw2d_file_read_block_v1`): user string,
data and the new position. -/
def readBlock (f : File) (globalNum accessed blockSize : Nat) :
    Option (List Byte × List Byte × Nat) :=
  if f.size - metadataBytes - byteDiv - fieldHeaderBytes < blockSize then none
  else
    match readBlockMetadata f globalNum accessed blockSize chB with
    | none => none
    | some u =>
      match readAt f (accessed + metadataBytes + fieldHeaderBytes + byteDiv) blockSize with
      | none => none
      | some d =>
        if blockSize ≠ d.length then none
        else some (u, d, accessed + (blockSize + fieldHeaderBytes + numPad blockSize))

/-- `src/fclaw2d_file.c` 1615–1718 (`fclaw2d_file_read_field_ext_v1`) on process
`rank`, with the partition `gfq` chosen by the reader. -/
def readField (f : File) (globalNum accessed elemSize : Nat) (gfq : Nat → Nat) (rank : Nat) :
    Option (List Byte × List Byte × Nat) :=
  let bytesToRead := (gfq (rank + 1) - gfq rank) * elemSize
  if f.size - metadataBytes - byteDiv - fieldHeaderBytes < bytesToRead then none
  else
    match readBlockMetadata f globalNum accessed elemSize chF with
    | none => none
    | some u =>
      match readAt f (accessed + metadataBytes + fieldHeaderBytes + byteDiv
          + gfq rank * elemSize) bytesToRead with
      | none => none
      | some d =>
        if bytesToRead ≠ d.length then none
        else some (u, d, accessed
          + (elemSize * globalNum + fieldHeaderBytes + numPad (globalNum * elemSize)))

end Fclaw.ParFile

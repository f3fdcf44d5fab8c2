/-
What a data file is meant to contain, said without the writing functions.
-/
import Verif.ParFile.Model

set_option autoImplicit false

namespace Fclaw.ParFile

/-- A section of a file in terms of the global forest: a block of bytes, or
`elemSize` bytes for every element (quadrant) of the forest, in global order. -/
inductive Section where
  | block (userString : List Byte) (data : List Byte)
  | field (userString : List Byte) (elemSize : Nat) (data : List Byte)

/-- The number of data bytes of a section. -/
def Section.bytes : Section → Nat
  | .block _ d => d.length
  | .field _ _ d => d.length

def Section.userString : Section → List Byte
  | .block u _ => u
  | .field u _ _ => u

/-- A field has data for each of the `n` elements of the forest. -/
def Section.Fits (n : Nat) : Section → Prop
  | .block _ _ => True
  | .field _ es d => d.length = n * es

/-- A distribution of `n` elements over processes: process `r` has the
elements from `gfq r` up to `gfq (r + 1)`. -/
structure Distribution (n : Nat) where
  mpisize : Nat
  gfq : Nat → Nat
  first : gfq 0 = 0
  last : gfq mpisize = n
  mono : ∀ r, r < mpisize → gfq r ≤ gfq (r + 1)

/-- The part of the data of a field that belongs to process `r`. -/
def localData (gfq : Nat → Nat) (elemSize : Nat) (data : List Byte) (r : Nat) : List Byte :=
  (data.drop (gfq r * elemSize)).take ((gfq (r + 1) - gfq r) * elemSize)

/-- The call that writes a section: every process passes its part. -/
def callOf (gfq : Nat → Nat) : Section → Call
  | .block u d => .block u d
  | .field u es d => .field u es (localData gfq es d)

/-- An order of the single writes of one collective call. -/
def Schedule (sched : List (Nat × Byte) → List (Nat × Byte)) : Prop :=
  ∀ l, (sched l).Perm l

/-- `n` padding bytes: a newline, blanks, and a newline. -/
def padText (n : Nat) : List Byte := [nl] ++ List.replicate (n - 2) blank ++ [nl]

/-- The documented layout of a section, `src/fclaw2d_file.c` 60–98: the type,
a blank, 13 digits, a newline, 47 characters, a newline, the data, and between
2 and 16 padding bytes that begin and end with a newline. -/
def Section.image : Section → List Byte
  | .block u d => [chB, blank] ++ digits 13 d.length ++ [nl] ++ padRight 47 u ++ [nl] ++ d
      ++ padText (numPad d.length)
  | .field u es d => [chF, blank] ++ digits 13 es ++ [nl] ++ padRight 47 u ++ [nl] ++ d
      ++ padText (numPad d.length)

/-- The documented layout of the file header (112 bytes). -/
def headerImage (n : Nat) (u : List Byte) : List Byte :=
  magic ++ [nl] ++ padRight 23 headerString ++ [nl] ++ padRight 47 u ++ [nl] ++ digits 16 n
    ++ [nl] ++ padRight 14 [] ++ [nl]

/-- The documented layout of a file. -/
def fileImage (n : Nat) (u : List Byte) (ss : List Section) : List Byte :=
  headerImage n u ++ ss.flatMap Section.image

/-- A file with exactly the given bytes. -/
def fileOf (l : List Byte) : File := { size := l.length, at_ := fun i => l[i]? }

/-- Sections that the writing functions accept. -/
def Section.Valid : Section → Prop
  | .block u d => u.length ≤ 47 ∧ d.length ≤ 9999999999999
  | .field u es _ => u.length ≤ 47 ∧ es ≤ 9999999999999

/-- What the list of sections says about a section. -/
def Section.metaOf : Section → Meta
  | .block u d => { blockType := chB, dataSize := d.length, userString := padRight 47 u }
  | .field u es _ => { blockType := chF, dataSize := es, userString := padRight 47 u }

/-- Reading the sections one after the other from position `acc` on, by
processes with the partition `gfq`, gives user string and data of each section,
and after the last one the file is at its end. -/
def ReadsBack (f : File) (n : Nat) (mpisize : Nat) (gfq : Nat → Nat) :
    Nat → List Section → Prop
  | acc, [] => acc + 112 = f.size
  | acc, .block u d :: ss => ∃ next,
      readBlock f n acc d.length = some (padRight 47 u, d, next) ∧
      ReadsBack f n mpisize gfq next ss
  | acc, .field u es d :: ss => ∃ next,
      (∀ r, r < mpisize →
        readField f n acc es gfq r = some (padRight 47 u, localData gfq es d r, next)) ∧
      ReadsBack f n mpisize gfq next ss

end Fclaw.ParFile

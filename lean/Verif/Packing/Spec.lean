import Verif.Packing.Model
/-
Specification vocabulary for properties C01-C03.
-/
set_option autoImplicit false
namespace Fclaw.Packing

/-- The characters of the C string a pointer refers to, without the terminating NUL.
`none` = NULL pointer. A region without NUL has no C string; see `IsCString`. -/
def content : CPtr → Option Bytes
  | none => none
  | some r => some (r.takeWhile (· ≠ 0))

/-- The pointer is NULL or points to a NUL-terminated string shorter than 2^64 bytes. -/
def IsCString : CPtr → Prop
  | none => True
  | some r => (0 : UInt8) ∈ r ∧ r.length < 2 ^ 64

/-- Number of bytes a string needs: a size_t and, unless NULL, its characters and the NUL. -/
def stringBytes : CPtr → Nat
  | none => 8
  | some r => 8 + ((r.takeWhile (· ≠ 0)).length + 1)

/-- What a caller expects of a pack / unpack pair for one value:
packing into any large enough buffer succeeds, advances by exactly `size`, keeps the length of
the buffer and everything behind the packed bytes, and unpacking the result at the same position
succeeds, advances by the same `size` and yields a value `y` equivalent to the packed one.
In a buffer which is too small, packing would overrun (so `size` is the exact need). -/
def RoundTrip {α : Type} (pack : Packer) (unpack : Unpacker α) (size : Nat) (same : α → Prop) :
    Prop :=
  (∀ buf : Bytes, size ≤ buf.length → ∃ buf' y,
      pack buf = some (buf', size) ∧
      buf'.length = buf.length ∧ buf'.drop size = buf.drop size ∧
      unpack buf' = some (y, size) ∧ same y) ∧
  (∀ buf : Bytes, buf.length < size → pack buf = none)

/-- `p` writes exactly the bytes `w`, or overruns if they do not fit. -/
def Writes (p : Packer) (w : Bytes) : Prop :=
  ∀ buf, p buf = if w.length ≤ buf.length then some (w ++ buf.drop w.length, w.length) else none

/-- `u` reads `w` from the start of any buffer beginning with `w` and returns `v`. -/
def Reads {α : Type} (u : Unpacker α) (w : Bytes) (v : α) : Prop :=
  ∀ rest, u (w ++ rest) = some (v, w.length)

end Fclaw.Packing

/-
Model of src/fclaw_packing.c and the FCLAW_PACK / FCLAW_UNPACK macros of src/fclaw_packing.h.

The target is a 64-bit little-endian machine (sizeof(size_t) = 8, sizeof(int) = 4,
sizeof(double) = 8). Doubles are represented by their 64-bit pattern: packing only copies bytes.
Writing or reading beyond the end of a buffer is undefined behaviour and is modelled by `none`.
-/
set_option autoImplicit false
namespace Fclaw.Packing

abbrev Bytes := List UInt8

/-- Object representation of an unsigned integer in `k` bytes, little endian. -/
def leBytes : Nat → Nat → Bytes
  | 0, _ => []
  | k + 1, n => UInt8.ofNat (n % 256) :: leBytes k (n / 256)

/-- The integer a little-endian object representation stands for. -/
def ofLe : Bytes → Nat
  | [] => 0
  | b :: bs => b.toNat + 256 * ofLe bs

/-- A packing function applied to its value: takes the buffer (from the current position to its
end), returns the buffer after the call and the number of bytes to advance. -/
abbrev Packer := Bytes → Option (Bytes × Nat)

/-- An unpacking function: reads from the buffer, returns a value and the number of bytes read. -/
abbrev Unpacker (α : Type) := Bytes → Option (α × Nat)

/-- `memcpy (buffer, src, n)` with `n` the length of `src`, then advance by `n`:
the FCLAW_PACK macro, src/fclaw_packing.h:39-43. -/
def memcpyTo (src : Bytes) : Packer := fun buf =>
  if src.length ≤ buf.length then some (src ++ buf.drop src.length, src.length) else none

/-- `memcpy (dst, buffer, n)`, then advance by `n`: the FCLAW_UNPACK macro,
src/fclaw_packing.h:45-49. -/
def memcpyFrom (n : Nat) : Unpacker Bytes := fun buf =>
  if n ≤ buf.length then some (buf.take n, n) else none

/-- The C idiom `buffer += p (buffer); buffer += q (buffer); return buffer - buffer_start;`. -/
def seqP (p q : Packer) : Packer := fun buf =>
  match p buf with
  | none => none
  | some (b1, n1) =>
    match q (b1.drop n1) with
    | none => none
    | some (b2, n2) => some (b1.take n1 ++ b2, n1 + n2)

/-- `return 0` / nothing left to pack. -/
def doneP : Packer := fun buf => some (buf, 0)

/-- The C idiom `buffer += u (buffer, &x); ...` for unpacking. -/
def bindU {α β : Type} (u : Unpacker α) (f : α → Unpacker β) : Unpacker β := fun buf =>
  match u buf with
  | none => none
  | some (x, n1) =>
    match f x (buf.drop n1) with
    | none => none
    | some (y, n2) => some (y, n1 + n2)

/-- Unpacking finished with the given result. -/
def doneU {α : Type} (x : α) : Unpacker α := fun _ => some (x, 0)

/-- Decoding of memory read by `memcpyFrom` (not a C operation by itself). -/
def mapU {α β : Type} (f : α → β) (u : Unpacker α) : Unpacker β := fun buf =>
  match u buf with
  | none => none
  | some (x, n) => some (f x, n)

/-- `fclaw_pack_int`, src/fclaw_packing.c:61-63. -/
def packInt (v : Int32) : Packer := memcpyTo (leBytes 4 v.toUInt32.toNat)
/-- `fclaw_unpack_int`, src/fclaw_packing.c:65-67. -/
def unpackInt : Unpacker Int32 := mapU (fun b => (UInt32.ofNat (ofLe b)).toInt32) (memcpyFrom 4)
/-- `fclaw_pack_size_t`, src/fclaw_packing.c:69-71. -/
def packSizeT (v : UInt64) : Packer := memcpyTo (leBytes 8 v.toNat)
/-- `fclaw_unpack_size_t`, src/fclaw_packing.c:73-75. -/
def unpackSizeT : Unpacker UInt64 := mapU (fun b => UInt64.ofNat (ofLe b)) (memcpyFrom 8)
/-- `fclaw_pack_double`, src/fclaw_packing.c:77-79 (the double as its bit pattern). -/
def packDouble (v : UInt64) : Packer := memcpyTo (leBytes 8 v.toNat)
/-- `fclaw_unpack_double`, src/fclaw_packing.c:81-83. -/
def unpackDouble : Unpacker UInt64 := mapU (fun b => UInt64.ofNat (ofLe b)) (memcpyFrom 8)

/-- A `char*`: `none` is NULL, `some r` points to the start of the memory region `r`. -/
abbrev CPtr := Option Bytes

/-- `strlen`; `none` = no terminating NUL inside the region (undefined behaviour). -/
def strlen : Bytes → Option Nat
  | [] => none
  | b :: bs => if b = 0 then some 0 else (strlen bs).map (· + 1)

/-- `fclaw_packsize_string`, src/fclaw_packing.c:30-32. -/
def packsizeString (s : CPtr) : Option Nat :=
  match s with
  | none => some (8 + 0)
  | some r =>
    match strlen r with
    | none => none
    | some n => some (8 + (n + 1))

/-- `fclaw_pack_string`, src/fclaw_packing.c:34-45. -/
def packString (s : CPtr) : Packer := fun buf =>
  match s with
  | none => packSizeT 0 buf
  | some r =>
    match strlen r with
    | none => none
    | some n =>
      let length := n + 1
      seqP (packSizeT (UInt64.ofNat length)) (memcpyTo (r.take length)) buf

/-- `fclaw_unpack_string`, src/fclaw_packing.c:47-59. The returned region is the freshly
allocated block of `length` bytes. -/
def unpackString : Unpacker CPtr :=
  bindU unpackSizeT fun length =>
    if length = 0 then doneU none
    else mapU some (memcpyFrom length.toNat)

end Fclaw.Packing

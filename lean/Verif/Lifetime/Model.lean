/-
Model of repartitioning with the patches of Verif/Repopulate: what `fclaw2d_partition_domain` (src/fclaw2d_partition.c,
see Verif/Partition) does with clawpatches.

* src/fclaw2d_patch.c:708-732: unpacking builds the patch first
* src/patches/clawpatch/fclaw2d_clawpatch.cpp:1285-1315: the solution is packed, with ghost cells, and nothing else

Simplifications: those of both; `copyToMemory` and `copyFromMemory` are in Verif/ArrayBox (C43).
-/
import Verif.Repopulate.Model
import Verif.Partition.Model

set_option autoImplicit false
namespace Fclaw.Lifetime

open Fort Transfer Repopulate
open Fclaw.Domain (Path)

variable {K P : Type} [Field K]

/-- A patch with its place; `none` stands for failure. -/
structure Item where
  block : Nat
  place : Path 4
  user : Option Patch

/-- The place of a quadrant is known to its new owner. -/
structure Packed where
  block : Nat
  place : Path 4
  q : Option (Grid ℚ)

/-- `clawpatch_partition_pack`. -/
def pack (x : Item) : Packed := ⟨x.block, x.place, x.user.map Patch.q⟩

/-- `fclaw2d_patch_partition_unpack` with `clawpatch_partition_unpack`. -/
def unpack (S : Setting K P) (mem : Nat → Path 4 → Memory P) (y : Packed) : Item :=
  ⟨y.block, y.place, y.q.bind fun q =>
    (buildPatch S y.block (Metric.quadAt y.place) (mem y.block y.place)).map fun p => { p with q := q }⟩

/-- `fclaw2d_partition_domain` on the process that owns `[a, b)` before and `[c, e)` afterwards. -/
def repartition (S : Setting K P) (mem : Nat → Path 4 → Memory P) (data : List (List Item)) (a b c e : Nat) :
    Option (Partition.TState Item) :=
  Partition.partitionDomain pack (unpack S mem) data a b c e 0 0

end Fclaw.Lifetime

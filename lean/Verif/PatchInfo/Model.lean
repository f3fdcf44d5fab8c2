import Verif.Adapt.Spec
import Verif.Partition.Spec
/-
Model of the block and patch numbers recorded in the patch data
(`fclaw2d_patch_data_t`, src/fclaw2d_patch.h:88-125) and returned by `fclaw2d_patch_get_blockno`,
`fclaw2d_patch_get_patchno` and `fclaw2d_patch_get_info2`, src/fclaw2d_patch.c:846-924.

The numbers are written by `patch_data_new` (src/fclaw2d_patch.c:86-87) when a patch is built.
`fclaw2d_patch_reset_data` (src/fclaw2d_patch.c:97-115), which would update them, has no caller
in the repository.
-/
set_option autoImplicit false
namespace Fclaw.PatchInfo

/-- `block_idx` and `patch_idx` of the patch data. -/
structure Rec where
  blockIdx : Nat
  patchIdx : Nat
  deriving DecidableEq, Repr

/-- `patch_data_new`, src/fclaw2d_patch.c:86-87. -/
def patchDataNew (blockno patchno : Nat) : Rec := ⟨blockno, patchno⟩

/-- What the new patch (or, for a refinement, new patch `new_patchno + k`) records after
`cb_fclaw2d_regrid_repopulate`, src/fclaw2d_regrid.c:114-230. -/
def regridRec (old : Nat → Nat → Rec) (c : Adapt.Call) (k : Nat) : Rec :=
  match c.newsize with
  | .sameSize => old c.blockno c.oldPatchno               -- line 135: new_patch->user = old_patch->user
  | .halfSize => patchDataNew c.blockno (c.newPatchno + k)  -- line 155: fclaw2d_patch_build
  | .doubleSize => patchDataNew c.blockno c.newPatchno      -- lines 200, 206

/-- What the new patch records after `cb_partition_transfer`, src/fclaw2d_partition.c:57-106. -/
def partitionRec (old : Nat → Nat → Rec) (c : Partition.TCall) : Rec :=
  match c.oldPatchno with
  | some o => old c.blockno o                               -- line 78: new_patch->user = old_patch->user
  | none => patchDataNew c.blockno c.newPatchno             -- line 95: unpack builds the patch

/-- `fclaw2d_patch_get_blockno`, src/fclaw2d_patch.c:906-914. -/
def getBlockno (r : Rec) : Nat := r.blockIdx
/-- `fclaw2d_patch_get_patchno`, src/fclaw2d_patch.c:916-924. -/
def getPatchno (r : Rec) : Nat := r.patchIdx

end Fclaw.PatchInfo

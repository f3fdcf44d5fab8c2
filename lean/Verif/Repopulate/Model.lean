/-
Model of how patches get their data on regridding, src/fclaw2d_regrid.c:114-229 and 265-276, with the patch
functions it calls (2D, clawpatch, clawpack 4.6 layout):

* src/fclaw2d_patch.c:117-214: build, build from fine, delete
* src/patches/clawpatch/fclaw2d_clawpatch.cpp:385-442: build, build from fine
* src/patches/clawpatch/fclaw2d_clawpatch_conservation.c:72-110, 312-347: registers of a new patch

The numerical parts are in Verif/Transfer and Verif/Metric, the matching of old and new patches in Verif/Adapt.

Simplifications: of the data of a patch we keep the solution, the cell areas and the registers. The patches of a
process are those of one process; patch counters are in Verif/Ledger, neighbour types in Verif/NbrType.
Dereferencing a null pointer is `none`.
-/
import Verif.Adapt.Model
import Verif.Transfer.Model
import Verif.Metric.Spec
import Verif.Correction.Spec
import Verif.Partition.Model

set_option autoImplicit false
namespace Fclaw.Repopulate

open Fort Transfer Adapt
open Fclaw.Domain (Path)
open Fclaw.Partition (set2)

/-- What `patch->user` points to: `griddata`, the areas in the metric patch, and the registers. -/
structure Patch where
  q : Grid ℚ
  area : Area
  reg : Correction.Regs

/-- Options and user functions. -/
structure Setting (K P : Type) where
  d : Dims
  manifold : Bool
  /-- The map of each block. -/
  map : Nat → Metric.Map K P ℚ
  maxlevel : Nat
  /-- Without a map: the area of a cell on level 0. -/
  unit : ℚ
  /-- Edge lengths along the faces, as computed for a new patch: not modelled. -/
  edge : Nat → Metric.Quad → Nat → ℤ → ℚ
  /-- What the user's initialisation puts into the interior cells of a patch. -/
  init : Nat → Metric.Quad → Grid ℚ

/-- New memory. -/
structure Memory (P : Type) where
  q : Grid ℚ
  area : Area
  store : Metric.Store P

variable {K P : Type} [Field K]

def Setting.man (S : Setting K P) : ℤ := if S.manifold then 1 else 0

/-- Without a map: `dx*dy`. -/
def Setting.uniform (S : Setting K P) (Q : Metric.Quad) : Area := fun _ => S.unit / 4 ^ Q.level

/-- `CLAWPATCH_TIME_SYNC_SETUP` (clawpack46_time_sync.f; edge lengths aside): the areas of the cells along the faces
(zero stands for places outside of the array). -/
def faceArea (d : Dims) (a : Area) : Nat → ℤ → ℚ := fun f t =>
  if 1 ≤ t ∧ t ≤ Correction.len d f then a (Correction.cellAt d f t) else 0

/-- The registers of a new patch. -/
def newRegs (S : Setting K P) (i : Nat) (Q : Metric.Quad) (a : Area) : Correction.Regs :=
  Correction.Regs.empty (faceArea S.d (if S.manifold then a else S.uniform Q)) (S.edge i Q)

/-- `fclaw2d_patch_build` with `clawpatch_build`. -/
def buildPatch (S : Setting K P) (i : Nat) (Q : Metric.Quad) (mem : Memory P) : Option Patch :=
  if S.manifold then
    (Metric.build S.d (S.map i) S.maxlevel Q.level (Q.geom S.d) mem.store mem.area).map fun a =>
      ⟨mem.q, a, newRegs S i Q a⟩
  else some ⟨mem.q, mem.area, newRegs S i Q mem.area⟩

/-- `fclaw2d_patch_build_from_fine` with `clawpatch_build_from_fine`. -/
def buildPatchFromFine (S : Setting K P) (i : Nat) (Q : Metric.Quad) (fine : ℤ → Patch) (mem : Memory P) : Option Patch :=
  if S.manifold then
    (Metric.buildFromFine S.d (S.map i) S.maxlevel Q.level (Q.geom S.d) mem.store (fun g => (fine g).area) mem.area).map
      fun a => ⟨mem.q, a, newRegs S i Q a⟩
  else some ⟨mem.q, mem.area, newRegs S i Q mem.area⟩

/-- `fclaw2d_patch_initialize`: sets the solution in the interior, and possibly elsewhere. -/
def initialize_patch (S : Setting K P) (i : Nat) (Q : Metric.Quad) (p : Patch) : Patch :=
  { p with q := fun c => if 1 ≤ c.1 ∧ c.1 ≤ S.d.mx ∧ 1 ≤ c.2.1 ∧ c.2.1 ≤ S.d.my then S.init i Q c else p.q c }

/-- The `user` pointers of the patches of the old and the new domain, by block and patch number. -/
structure State where
  old : Nat → Nat → Option Patch
  new : Nat → Nat → Option Patch

/-- Build new patch `nj` of block `i`; `pos` are the positions of the patches of the new domain. -/
def buildNew (S : Setting K P) (pos : Nat → Nat → Option Metric.Quad) (mem : Nat → Nat → Memory P) (init : Bool) (i nj : Nat) :
    Option Patch :=
  (pos i nj).bind fun Q => (buildPatch S i Q (mem i nj)).map fun p => if init then initialize_patch S i Q p else p

/-- Four patches as a family: the siblings are consecutive. -/
def family (p0 p1 p2 p3 : Patch) : ℤ → Patch := fun g => if g = 0 then p0 else if g = 1 then p1 else if g = 2 then p2 else p3

/-- `cb_fclaw2d_regrid_repopulate`, src/fclaw2d_regrid.c:114-229. -/
def repopulate (S : Setting K P) (pos : Nat → Nat → Option Metric.Quad) (mem : Nat → Nat → Memory P) (init : Bool)
    (st : State) (c : Call) : Option State :=
  let i := c.blockno
  let oj := c.oldPatchno
  let nj := c.newPatchno
  match c.newsize with
  | .sameSize => some ⟨set2 st.old i oj none, set2 st.new i nj (st.old i oj)⟩
  | .halfSize =>
    (buildNew S pos mem init i nj).bind fun f0 =>
    (buildNew S pos mem init i (nj + 1)).bind fun f1 =>
    (buildNew S pos mem init i (nj + 2)).bind fun f2 =>
    (buildNew S pos mem init i (nj + 3)).bind fun f3 =>
    (if init then some (fun g => (family f0 f1 f2 f3 g).q)
     else (st.old i oj).bind fun coarse =>
      refine S.d coarse.area (fun g => (family f0 f1 f2 f3 g).area) S.man coarse.q (fun g => (family f0 f1 f2 f3 g).q)).bind fun qs =>
    some ⟨set2 st.old i oj none,
      set2 (set2 (set2 (set2 st.new i nj (some { f0 with q := qs 0 })) i (nj + 1) (some { f1 with q := qs 1 }))
        i (nj + 2) (some { f2 with q := qs 2 })) i (nj + 3) (some { f3 with q := qs 3 })⟩
  | .doubleSize =>
    (if init then buildNew S pos mem init i nj
     else
      (st.old i oj).bind fun f0 =>
      (st.old i (oj + 1)).bind fun f1 =>
      (st.old i (oj + 2)).bind fun f2 =>
      (st.old i (oj + 3)).bind fun f3 =>
      (pos i nj).bind fun Q =>
      (buildPatchFromFine S i Q (family f0 f1 f2 f3) (mem i nj)).bind fun coarse =>
      (coarsen S.d coarse.area (fun g => (family f0 f1 f2 f3 g).area) S.man (fun g => (family f0 f1 f2 f3 g).q) coarse.q).map
        fun q => { coarse with q := q }).bind fun coarse =>
    some ⟨set2 (set2 (set2 (set2 st.old i oj none) i (oj + 1) none) i (oj + 2) none) i (oj + 3) none,
      set2 st.new i nj (some coarse)⟩

/-- All calls, in order. -/
def repopulateAll (S : Setting K P) (pos : Nat → Nat → Option Metric.Quad) (mem : Nat → Nat → Memory P) (init : Bool) :
    List Call → State → Option State
  | [], st => some st
  | c :: cs, st => (repopulate S pos mem init st c).bind fun st => repopulateAll S pos mem init cs st

/-- Lines 265-276 on one process, whose patches are `oldQ` before and `newQ` after adaptation, with the `user`
pointers `users` before. All pointers of the new domain are null at first. -/
def regrid (S : Setting K P) (init : Bool) (oldQ newQ : List (List (Path 4))) (users : Nat → Nat → Option Patch)
    (mem : Nat → Nat → Memory P) : Option State :=
  (iterateAdapted 4 oldQ newQ).bind fun cs =>
  repopulateAll S (fun i j => ((newQ[i]?.getD [])[j]?).map Metric.quadAt) mem init cs ⟨users, fun _ _ => none⟩

end Fclaw.Repopulate

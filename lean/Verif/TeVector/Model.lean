import Verif.Fort.Basic
import Mathlib.Data.Nat.Notation
/-
Model of the vectors through which the elliptic solver sees the data of all patches of a process:

* src/solvers/fc2d_thunderegg/fc2d_thunderegg_vector.cpp: `get_data` (37-50), `fc2d_thunderegg_get_vector` (51-85),
  `fc2d_thunderegg_store_vector` (86-111)
* src/patches/clawpatch/fclaw2d_clawpatch.cpp: `fclaw2d_clawpatch_soln_data` (1631-1638), `fclaw2d_clawpatch_rhs_data` (1640-1647), and the
  sizes of the arrays (211, 320, 337-339)

Simplifications: a pointer is the array it points into and an offset; an access outside of the array is `none`. The library ThunderEgg is not
part of ForestClaw: what is modelled of its class `Vector` is what it documents, that element `(i,j,e)` of a patch is found from the start
of the patch, which is its first ghost cell, with the strides. `num_patches_before` of a block is the number of
patches in the blocks before (C06). Values are of any type.
-/
set_option autoImplicit false
namespace Fclaw.TeVector

open Fort

/-- Options and the mesh of this process: `num_patches` of each block. -/
structure Config where
  mx : ℕ
  my : ℕ
  mbc : ℕ
  meqn : ℕ
  rhsFields : ℕ
  numBlocks : ℕ
  numPatches : ℕ → ℕ

/-- `num_patches_before` of a block; for `numBlocks` it is `local_num_patches`. -/
def Config.before (C : Config) (b : ℕ) : ℕ := ((List.range b).map C.numPatches).sum

/-- `fc2d_thunderegg_data_choice_t` -/
inductive Choice where
  | rhs
  | soln
  | storeState

/-- The arrays of a patch: `cp->rhs` and `cp->griddata`. -/
inductive Field where
  | rhs
  | soln
  deriving DecidableEq

/-- The number of components of the arrays. -/
def Config.fields (C : Config) : Field → ℕ
  | .rhs => C.rhsFields
  | .soln => C.meqn

/-- The number of elements of the arrays. -/
def Config.size (C : Config) (F : Field) : ℕ := (C.mx + 2 * C.mbc) * (C.my + 2 * C.mbc) * C.fields F

/-- `get_data` (37-50): the array, and the number of components. -/
def Config.getData (C : Config) : Choice → Field × ℕ
  | .rhs => (.rhs, C.rhsFields)
  | .soln => (.soln, C.meqn)
  | .storeState => (.soln, C.meqn)

/-- A patch: number of its block and number in the block. -/
abbrev Ptr := ℕ × ℕ

/-- A `ThunderEgg::Vector<2>`: pointers to the beginning of the data of each patch (`none`: a null pointer), strides, lengths and number of
layers of ghost cells. -/
structure Vec where
  num : ℕ
  starts : ℕ → Option (Ptr × Field)
  s0 : ℤ
  s1 : ℤ
  s2 : ℤ
  n0 : ℕ
  n1 : ℕ
  n2 : ℕ
  ghost : ℕ

/-- Where element `(i,j,e)` of patch `k` of a vector is. -/
def Vec.address (V : Vec) (k : ℕ) (i j e : ℤ) : Option ((Ptr × Field) × ℤ) :=
  if k < V.num then (V.starts k).map fun s => (s, (i + V.ghost) * V.s0 + (j + V.ghost) * V.s1 + e * V.s2) else none

/-- The components of a vector (57-67). -/
def Config.ns2 (C : Config) : Choice → ℕ
  | .rhs => C.rhsFields
  | .soln => C.meqn
  | .storeState => C.meqn

/-- `starts[block->num_patches_before+patchno] = …` (77) -/
def Config.setStart (C : Config) (ch : Choice) (b p : ℕ) (s : ℕ → Option (Ptr × Field)) : Option (ℕ → Option (Ptr × Field)) :=
  if C.before b + p < C.before C.numBlocks then
    some fun k => if k = C.before b + p then some ((b, p), (C.getData ch).1) else s k
  else none

/-- `fc2d_thunderegg_get_vector` (51-85) -/
def Config.getVector (C : Config) (ch : Choice) : Option Vec :=
  let s0 : ℤ := 1
  let s1 : ℤ := s0 * (C.mx + 2 * C.mbc)
  let s2 : ℤ := s1 * (C.my + 2 * C.mbc)
  (loop (List.range C.numBlocks) (fun b => loop (List.range (C.numPatches b)) fun p => C.setStart ch b p) fun _ => none).map
    fun starts => ⟨C.before C.numBlocks, starts, s0, s1, s2, C.mx, C.my, C.ns2 ch, C.mbc⟩

/-- The content of all arrays. -/
abbrev Mem (α : Type) := Ptr → Field → ℤ → α

/-- The array of a patch, and the pointer `data` into it. -/
structure Cursor (α : Type) where
  arr : ℤ → α
  off : ℤ

/-- `*data = v; data++;` (104-105) -/
def put {α : Type} (size : ℕ) (v : α) (c : Cursor α) : Option (Cursor α) :=
  if 0 ≤ c.off ∧ c.off < size then some ⟨fun o => if o = c.off then v else c.arr o, c.off + 1⟩ else none

/-- Lines 101-108, for a patch with elements `view(i,j,e)` in the vector. -/
def Config.storePatch {α : Type} (C : Config) (ch : Choice) (view : ℤ → ℤ → ℤ → α) (arr : ℤ → α) : Option (ℤ → α) :=
  (doLoop 0 ((C.getData ch).2 - 1) (fun eqn =>
    doLoop (-(C.mbc : ℤ)) (C.my + C.mbc - 1) fun j =>
      doLoop (-(C.mbc : ℤ)) (C.mx + C.mbc - 1) fun i => put (C.size (C.getData ch).1) (view i j eqn)) ⟨arr, 0⟩).map Cursor.arr

/-- `fc2d_thunderegg_store_vector` (86-111); `view k` are the elements of patch `k` of the vector. -/
def Config.storeVector {α : Type} (C : Config) (ch : Choice) (view : ℕ → ℤ → ℤ → ℤ → α) (mem : Mem α) : Option (Mem α) :=
  loop (List.range C.numBlocks) (fun b => loop (List.range (C.numPatches b)) fun p mem =>
    let F := (C.getData ch).1
    (C.storePatch ch (view (C.before b + p)) (mem (b, p) F)).map fun arr =>
      fun x G => if x = (b, p) ∧ G = F then arr else mem x G) mem

end Fclaw.TeVector

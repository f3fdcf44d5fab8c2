/-
The distribution of a forest over processes.
-/
import Verif.Output.Model
import Verif.ParFile.Spec

set_option autoImplicit false

namespace Fclaw.Output

open Fclaw.ParFile (Distribution)

/-- All patches, block by block, in the order of the forest. -/
abbrev Forest (α : Type) := List (List α)

/-- The number of patches of the forest. -/
def Forest.count {α : Type} (F : Forest α) : Nat := (F.map List.length).sum

/-- The patches with the number of their block, in global order. -/
def Forest.patches {α : Type} : Nat → Forest α → List (Nat × α)
  | _, [] => []
  | k, blk :: rest => blk.map (fun pt => (k, pt)) ++ Forest.patches (k + 1) rest

/-- The blocks of the process with the global patches from `a` up to `b`; the
first block begins at global number `start`, and `before` patches precede it on
this process. -/
def localBlocks {α : Type} (a b : Nat) : Nat → Nat → Forest α → List (LocalBlock α)
  | _, _, [] => []
  | start, before, blk :: rest =>
    let mine := (blk.take (b - start)).drop (a - start)
    ⟨mine, before⟩ :: localBlocks a b (start + blk.length) (before + mine.length) rest

/-- The domain of process `r`. -/
def localDom {α : Type} (F : Forest α) (D : Distribution F.count) (r : Nat) : Dom α where
  mpirank := r
  globalNumPatches := F.count
  globalNumPatchesBefore := D.gfq r
  blocks := localBlocks (D.gfq r) (D.gfq (r + 1)) 0 0 F

/-- Another view of each patch. -/
def LocalBlock.map {α β : Type} (f : α → β) (b : LocalBlock α) : LocalBlock β :=
  ⟨b.patches.map f, b.numPatchesBefore⟩

/-- The same domain with another view of each patch. -/
def Dom.map {α β : Type} (f : α → β) (d : Dom α) : Dom β :=
  ⟨d.mpirank, d.globalNumPatches, d.globalNumPatchesBefore, d.blocks.map (LocalBlock.map f)⟩

/-- The process that owns the patch with global number `g`. -/
def Owns {n : Nat} (D : Distribution n) (r g : Nat) : Prop :=
  r < D.mpisize ∧ D.gfq r ≤ g ∧ g < D.gfq (r + 1)

/-- Any number of steps. -/
inductive Steps {Op S : Type} (n K : Nat) (apply : S → Op → S)
    (inside after : Nat → Nat → ParFile.Outcome (List Op)) (w : World Op S) : World Op S → Prop where
  | none : Steps n K apply inside after w w
  | more (w' w'' : World Op S) : Steps n K apply inside after w w' →
      Step n K apply inside after w' w'' → Steps n K apply inside after w w''

end Fclaw.Output

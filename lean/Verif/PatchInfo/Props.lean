import Verif.PatchInfo.Model
import Verif.Adapt.Props
import Verif.Partition.Props
/-
Property C57: the block and patch numbers obtained from a patch handle are those of the patch in
the current domain. The code violates the part about the patch number.
-/
set_option autoImplicit false
namespace Fclaw.PatchInfo

/-- C57 (block number): if all patches of the old domain record their block, so do all patches of
the new domain, after regridding and after partitioning. -/
theorem C57_blockno_partial (old : Nat → Nat → Rec) (hold : ∀ i j, getBlockno (old i j) = i) :
    (∀ (c : Adapt.Call) (k : Nat), getBlockno (regridRec old c k) = c.blockno) ∧
    (∀ c : Partition.TCall, getBlockno (partitionRec old c) = c.blockno) := by
  constructor
  · intro c k
    unfold regridRec
    split
    · exact hold _ _
    · rfl
    · rfl
  · intro c
    unfold partitionRec
    split
    · exact hold _ _
    · rfl

/-- C57 (patch number): if the numbers were right in the old domain, then in the new one they are
right exactly for the patches built in this step and for those that kept their position. -/
theorem C57_patchno_partial (old : Nat → Nat → Rec) (hold : ∀ i j, getPatchno (old i j) = j) :
    (∀ (c : Adapt.Call), c.newsize ≠ .sameSize → ∀ k, getPatchno (regridRec old c k) =
      c.newPatchno + (if c.newsize = .halfSize then k else 0)) ∧
    (∀ (c : Adapt.Call), c.newsize = .sameSize →
      (getPatchno (regridRec old c 0) = c.newPatchno ↔ c.oldPatchno = c.newPatchno)) ∧
    (∀ c : Partition.TCall, getPatchno (partitionRec old c) = c.newPatchno ↔
      (c.oldPatchno = none ∨ c.oldPatchno = some c.newPatchno)) := by
  refine ⟨?_, ?_, ?_⟩
  · intro c hc k
    unfold regridRec
    split
    · rename_i h; exact absurd h hc
    · rename_i h; simp [h, patchDataNew, getPatchno]
    · rename_i h; simp [h, patchDataNew, getPatchno]
  · intro c hc
    unfold regridRec
    rw [hc]
    simp only [hold]
  · intro c
    unfold partitionRec
    cases h : c.oldPatchno with
    | none => simp [patchDataNew, getPatchno]
    | some o => simp [hold]

/-- The code violates C57: there is a regrid (refining the first of two patches) after which a
patch reports a wrong patch number, although all numbers were right before. -/
theorem C57_regrid_counterexample :
    ∃ (es : List (Adapt.Event 4)) (c : Adapt.Call),
      Adapt.iterateAdapted 4 [Adapt.oldPatches es] [Adapt.newPatches es] = some (Adapt.wanted 0 es) ∧
      c ∈ Adapt.wanted 0 es ∧
      getPatchno (regridRec (fun i j => ⟨i, j⟩) c 0) ≠ c.newPatchno := by
  refine ⟨[.refine [0], .keep [1]], ⟨.sameSize, 0, 1, 4⟩, ?_, by decide, by decide⟩
  have := Adapt.C08_callbacks (C := 4) (by decide) [[.refine [0], .keep [1]]]
  simpa using this

/-- The same for a partition. -/
theorem C57_partition_counterexample :
    ∃ (g : List (List Nat)) (a b c d : Nat) (cs : List Partition.TCall) (x : Partition.TCall),
      Partition.iteratePartitioned g a b c d = some cs ∧ x ∈ cs ∧
      getPatchno (partitionRec (fun i j => ⟨i, j⟩) x) ≠ x.newPatchno := by
  refine ⟨[[10, 11, 12]], 0, 2, 1, 3, _, ⟨0, some 1, 0⟩,
    Partition.C09_callbacks _ 0 2 1 3 (by decide) (by decide), by decide, by decide⟩

end Fclaw.PatchInfo

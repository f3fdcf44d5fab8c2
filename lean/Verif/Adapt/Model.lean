import Verif.Domain.Model
/-
Model of `fclaw2d_domain_iterate_adapted`, src/forestclaw2d.c:1452-1506, which matches the patches
of a domain with those of the domain obtained from it by refinement and coarsening.
-/
set_option autoImplicit false
set_option linter.unusedVariables false
namespace Fclaw.Adapt
open Fclaw.Domain (Path)

/-- `fclaw2d_patch_relation_t` as used here (src/forestclaw2d.h:270-281). -/
inductive Relation where
  | halfSize | doubleSize | sameSize
  deriving DecidableEq, Repr

/-- The arguments of one call of the match callback: `newsize, blockno, old_patchno, new_patchno`.
The patch pointers are `old_block->patches + oj` and `new_block->patches + nj`. -/
structure Call where
  newsize : Relation
  blockno : Nat
  oldPatchno : Nat
  newPatchno : Nat
  deriving DecidableEq, Repr

/-- `newsize, oskip, nskip` from the two levels, src/forestclaw2d.c:1479-1499. -/
def classify (C : Nat) (oldLevel newLevel : Nat) : Relation × Nat × Nat :=
  if oldLevel < newLevel then (.halfSize, 1, C)
  else if newLevel < oldLevel then (.doubleSize, C, 1)
  else (.sameSize, 1, 1)

/-- The loop over one block, src/forestclaw2d.c:1471-1504; `old` and `new` are the levels of the
remaining patches. `none` stands for a failed assertion (there are assertions on lines 1473, 1476,
1503, 1504, and a read past the end of the new patch array is the case of line 1473). -/
def blockLoop (C : Nat) (i : Nat) (oj nj : Nat) (old new : List Nat) : Option (List Call) :=
  match old, new with
  | [], [] => some []
  | [], _ :: _ => none
  | _ :: _, [] => none
  | o :: os, n :: ns =>
    if o + 1 < n ∨ n + 1 < o then none
    else
      let c := classify C o n
      -- the cursors must not move beyond the arrays, otherwise the final assertions fail
      if (o :: os).length < c.2.1 ∨ (n :: ns).length < c.2.2 then none
      else if h : c.2.1 = 0 then none      -- C = 0: the loop would not advance
      else
        match blockLoop C i (oj + c.2.1) (nj + c.2.2) ((o :: os).drop c.2.1) ((n :: ns).drop c.2.2) with
        | none => none
        | some l => some (⟨c.1, i, oj, nj⟩ :: l)
  termination_by old.length
  decreasing_by
    have h2 : (classify C o n).2.1 ≠ 0 := h
    simp only [List.length_drop, List.length_cons]
    omega

/-- The loop over blocks; both domains have the same number of blocks (assertion on line 1466). -/
def blocksLoop (C : Nat) : Nat → List (List Nat) → List (List Nat) → Option (List Call)
  | _, [], [] => some []
  | i, o :: os, n :: ns =>
    match blockLoop C i 0 0 o n with
    | none => none
    | some l =>
      match blocksLoop C (i + 1) os ns with
      | none => none
      | some r => some (l ++ r)
  | _, _, _ => none

/-- `fclaw2d_domain_iterate_adapted` for the local quadrants of the old and the new domain. -/
def iterateAdapted (C : Nat) (old new : List (List (Path C))) : Option (List Call) :=
  blocksLoop C 0 (old.map fun qs => qs.map List.length) (new.map fun qs => qs.map List.length)

end Fclaw.Adapt

/-
Model of the tagging phase of `fclaw2d_regrid`, src/fclaw2d_regrid.c:45-103, 246-252, on top of the
domains and iterators of `Verif.Domain` and the target levels of `Verif.Smooth`.
-/
import Verif.Domain.Model
import Verif.Smooth.Model

set_option autoImplicit false
namespace Fclaw.Regrid
open Fclaw.Domain Fclaw.Smooth

/-- `patch->level` of the patch at a position. -/
def levelAt (d : Domain) (p : Ptr) : Option Nat :=
  match d.blocks[p.1]? with
  | none => none
  | some b => b.patches[p.2]?.map (·.level)

/-- A call of mark_refine (`true`) or mark_coarsen (`false`) for a patch. -/
abbrev MarkCall := Ptr × Bool

/-- `cb_fclaw2d_regrid_tag4refinement`, src/fclaw2d_regrid.c:45-73. `tag p` is what the user's
tagging function returns for the patch (it is asked at most once for each patch). -/
def tag4refinement (d : Domain) (maxlevel : Int) (tag : Ptr → Int) (p : Ptr) : List MarkCall :=
  match levelAt d p with
  | none => []
  | some level =>
    if (level : Int) < maxlevel then (if tag p = 1 then [(p, true)] else []) else []

/-- `cb_regrid_tag4coarsening`, src/fclaw2d_regrid.c:77-108, for the family starting at `p`. -/
def tag4coarsening (d : Domain) (minlevel : Int) (tag : Ptr → Int) (p : Ptr) : List MarkCall :=
  match levelAt d p with
  | none => []
  | some level =>
    if (level : Int) > minlevel then
      (if tag p = 1 then (List.range 4).map fun igrid => ((p.1, p.2 + igrid), false) else [])
    else []

/-- The calls made by the tagging phase of `fclaw2d_regrid`, src/fclaw2d_regrid.c:246-252. -/
def tagging (d : Domain) (minlevel maxlevel : Int) (tagC tagR : Ptr → Int) : List MarkCall :=
  (iterateFamilies 4 d).flatMap (tag4coarsening d minlevel tagC) ++
  (iteratePatches d).flatMap (tag4refinement d maxlevel tagR)

/-- The target level of a patch after a sequence of calls (`targetLevel` in `Verif.Smooth`). -/
def targetAfter (qmax : Int) (d : Domain) (calls : List MarkCall) (p : Ptr) : Option Int :=
  (levelAt d p).map fun l =>
    targetLevel qmax l ((calls.filter fun c => decide (c.1 = p)).map (·.2))

end Fclaw.Regrid

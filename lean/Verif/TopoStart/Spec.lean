import Verif.TopoStart.Model
import Verif.Topo.Spec
import Verif.Dtopo.Spec
/-
Vocabulary for C104.
-/
set_option autoImplicit false
namespace Fclaw.TopoStart

noncomputable section

/-- There are files with topography, and all files make sense. -/
structure Input.Valid (I : Input) : Prop where
  some : 1 ≤ I.files.n
  files : I.files.Valid
  moves : ∀ m : ℤ, 1 ≤ m → m ≤ I.moves.n → (I.moves.move m).Valid

/-- The number of the grid with the nodes of file `m` with displacements. -/
def Input.grid (I : Input) (m : ℤ) : ℤ := I.files.n + m

/-- Column `i`, row `j` (from the north) of a file with displacements is at this point. -/
def point (m : Dtopo.Move) (i j : ℤ) : ℝ × ℝ := (m.col i, m.row j)

/-- The areas of a file with topography and of a file with displacements have a point in common. -/
def Meets (T : Topo.File) (m : Dtopo.Move) : Prop := ∃ p ∈ T.extent, m.Covers p.1 p.2

end

end Fclaw.TopoStart

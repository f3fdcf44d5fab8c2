import Verif.Parallel.Model
/-
Hypotheses of C72.
-/
set_option autoImplicit false
namespace Fclaw.Parallel

open Fort Transform GhostFill CopyGhost Advance

/-- A problem that can be solved: sizes, options, mesh and solver fit together. -/
structure Good (B : Problem) (M : Mesh) (S : Advance.Setup) : Prop where
  sizes : GhostAll.Sizes B.d
  /-- enough cells in a patch for time interpolation (C42) -/
  room : 1 ≤ B.z.meqn ∧ 2 * B.z.mbc ≤ B.z.mx ∧ 2 * B.z.mbc ≤ B.z.my ∧
    2 * (B.width / 2 + 1) ≤ B.z.mx ∧ 2 * (B.width / 2 + 1) ≤ B.z.my
  mesh : M.Ok
  fits : GhostAll.Fits B.d M B.S
  /-- levels of the domain and of the options -/
  levels : ∀ x ∈ M.patches, (S.globalMinlevel : Int) ≤ M.level x ∧ M.level x ≤ S.globalMaxlevel
  options : S.minlevel ≤ S.globalMinlevel ∧ S.globalMinlevel ≤ S.globalMaxlevel ∧ S.globalMaxlevel ≤ S.maxlevel
  nosync : S.timeSync = false
  /-- the solver (C70) -/
  usable : Wave.Usable B.z B.o
  setting : Wave.Setting B.z B.o
  dx : ∀ x ∈ M.patches, B.dx x ≠ 0 ∧ B.dy x ≠ 0
  capa : ∀ x ∈ M.patches, ∀ t dt i j, B.z.inGrid i j → B.o.mcapa ≠ 0 → B.aux x t dt i j B.o.mcapa ≠ 0
  /-- a corner without a neighbour is in the middle of a larger patch's face, or three blocks meet there -/
  corners : ∀ x ∈ M.patches, ∀ k : Nat, k < 4 → isBoundary (M.face x (faceX k)) = false → isBoundary (M.face x (faceY k)) = false →
    M.corner x k = .none → (∃ f y rf g, f < 4 ∧ M.face x f = .double y rf g k) ∨ B.count x k = 3

/-- In both runs, the owners of the patches have the same solution, in the interior and in the ghost cells that
are filled (all but those at corners where three blocks meet). -/
def SameSolution (B : Problem) (M : Mesh) (S : Advance.Setup) (o o' : Nat → Nat) (w w' : Nat → Proc) : Prop :=
  ∀ x ∈ M.patches, ∀ i j mq, interior B.d i j ∨ GhostAll.Due B.d M S.globalMinlevel false x i j → comp B.d mq →
    (w (o x)).g x false (i, j, mq) = (w' (o' x)).g x false (i, j, mq)

end Fclaw.Parallel

/-
What the neighbour summaries of a patch mean.
-/
import Verif.NbrType.Model

set_option autoImplicit false

namespace Fclaw.NbrType

/-- Some neighbour across a face, an edge or an existing corner of the patch has
one of the given relations. -/
def SomeNeighbor (sh : Shape) (p : PatchData) (R : Relation → Prop) : Prop :=
  (∃ k, k < sh.faces ∧ R (p.faceNeighbors k)) ∨ (∃ k, k < sh.edges ∧ R (p.edgeNeighbors k)) ∨
    ∃ k, k < sh.corners ∧ p.corners k = true ∧ R (p.cornerNeighbors k)

/-- The same, of the mesh in two dimensions. -/
def MeshView.Some (m : MeshView) (R : Relation → Prop) : Prop :=
  (∃ k, k < 4 ∧ R (m.face k)) ∨ ∃ k, k < 4 ∧ m.cornerExists k = true ∧ R (m.cornerType k)

/-- The record of a patch agrees with the mesh. -/
structure Agrees (m : MeshView) (p : PatchData) : Prop where
  set : p.neighborsSet = true
  face : ∀ k, k < 4 → p.faceNeighbors k = m.face k
  corner : ∀ k, k < 4 → p.corners k = m.cornerExists k
  cornerType : ∀ k, k < 4 → m.cornerExists k = true → p.cornerNeighbors k = m.cornerType k
  finer : p.hasFinegrid = true ↔ m.Some (· = .halfsize)
  coarsefine : p.onCoarsefine = true ↔ m.Some fun t => t = .halfsize ∨ t = .doublesize

/-- The patches that a process keeps in a partition are among those it has. -/
def Regrid.Valid (r : Regrid) (ps : List PatchData) : Prop :=
  ∀ o ∈ r.origins, ∀ i, o = .kept i → i < (repopulate r.changes ps).length

/-- A run in which every partition keeps only patches that exist. -/
def Valid (debug : Bool) (mem : List PatchData) (views : Nat → MeshView) (rs : List Regrid) :
    Prop :=
  ∀ pre r, pre ++ [r] <+: rs → ∀ ps, history debug mem views pre = some ps → r.Valid ps

end Fclaw.NbrType

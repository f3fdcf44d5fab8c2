/-
The result of smooth refinement stated on the forest as a whole, without any distribution.
-/
import Verif.Smooth.Model

set_option autoImplicit false
namespace Fclaw.Smooth

/-- What is last requested for a patch. -/
inductive Request where
  | nothing | coarsen | refine
  deriving DecidableEq

/-- The forest: patches with levels, the last request for each, and all face and corner
neighbours of each. -/
structure Forest (G : Type) where
  level : G → Int
  request : G → Request
  faceNbrs : G → List G
  cornerNbrs : G → List G

/-- The requested target level. -/
def Forest.target {G : Type} (F : Forest G) (qmax : Int) (g : G) : Int :=
  match F.request g with
  | .nothing => F.level g
  | .refine => min (F.level g + 1) qmax
  | .coarsen => max (F.level g - 1) 0

/-- A neighbour at or above the smoothing level wants to be finer than `lev`. -/
def Forest.pushed {G : Type} (F : Forest G) (qmax smoothLevel : Int) (g : G) (lev : Int) : Prop :=
  ∃ n, (n ∈ F.faceNbrs g ∨ n ∈ F.cornerNbrs g) ∧ smoothLevel ≤ F.level n ∧ lev ≤ F.target qmax n

/-- The mark a patch shall get: refined if itself or such a neighbour wants a level above its own;
coarsened if itself wants a level below its own and no such neighbour wants its level or more. -/
def Forest.IsMark {G : Type} (F : Forest G) (qmax smoothLevel : Int) (g : G) (m : Mark) : Prop :=
  (m = .refine ↔ F.level g < F.target qmax g ∨ F.pushed qmax smoothLevel g (F.level g + 1)) ∧
  (m = .coarsen ↔ F.target qmax g < F.level g ∧ ¬ F.pushed qmax smoothLevel g (F.level g))

/-- The patch meant by a neighbour answer on process `r`. -/
def resolve {G : Type} (W : List (Proc G)) (r : Nat) (n : Nbr) : Option G :=
  if n.proc ≠ r then
    match W[r]? with
    | none => none
    | some P => P.ghosts[n.num]?.map Ghost.id
  else (localPatch W r n.block n.num).map Patch.id

def FaceAns.nbrs : FaceAns → List Nbr
  | .same n => [n]
  | .double n => [n]
  | .half ns => ns
  | .boundary => []

def lastRequest (calls : List Bool) : Request :=
  match calls.getLast? with
  | none => .nothing
  | some true => .refine
  | some false => .coarsen

/-- `W` is a distribution of the forest: patches and ghosts have the levels of the forest, the
calls made add up to the requests, ghosts are on their owner where p4est expects them, and the
neighbour queries return the neighbours. -/
structure Distributes {G : Type} (W : List (Proc G)) (F : Forest G) : Prop where
  level : ∀ r b i p, localPatch W r b i = some p → p.level = F.level p.id
  request : ∀ r b i p, localPatch W r b i = some p → lastRequest p.calls = F.request p.id
  ghostLevel : ∀ P ∈ W, ∀ g ∈ P.ghosts, g.level = F.level g.id
  ghostOwner : ∀ P ∈ W, ∀ g ∈ P.ghosts,
    ∃ p, localPatch W g.owner g.ownerBlock g.ownerIdx = some p ∧ p.id = g.id
  face : ∀ r b i p P, W[r]? = some P → localPatch W r b i = some p →
    ((P.face b i).flatMap FaceAns.nbrs).map (resolve W r) = (F.faceNbrs p.id).map some
  corner : ∀ r b i p P, W[r]? = some P → localPatch W r b i = some p →
    ((P.corner b i).filterMap id).map (resolve W r) = (F.cornerNbrs p.id).map some

end Fclaw.Smooth

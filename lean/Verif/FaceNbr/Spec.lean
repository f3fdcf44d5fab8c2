import Verif.FaceNbr.Model
/-
Specification: what the arrays of a p4est mesh stand for (documentation of `p4est_mesh_t` in
p4est_mesh.h), independent of the code that decodes them.
-/
set_option autoImplicit false
namespace Fclaw.FaceNbr

/-- A patch as seen from this process: a local patch (block and number in the block) or a ghost. -/
inductive Where where
  | here (block patch : Nat)
  | ghost (g : Nat)
  deriving DecidableEq

/-- The number of a patch in the mesh arrays. -/
def Where.id (M : Mesh) : Where → Nat
  | .here b p => M.before b + p
  | .ghost g => M.localNum + g

def Where.exists (M : Mesh) : Where → Prop
  | .here b p => p < M.num b
  | .ghost g => g < M.ghostNum

def Where.proc (M : Mesh) : Where → Nat
  | .here _ _ => M.rank
  | .ghost g => M.ghostToProc g
def Where.block (M : Mesh) : Where → Nat
  | .here b _ => b
  | .ghost g => M.ghostTree g
def Where.patchno : Where → Nat
  | .here _ p => p
  | .ghost g => g
def Where.level (M : Mesh) : Where → Int
  | .here b p => M.level (M.before b + p)
  | .ghost g => M.ghostLevel g

/-- Local numbering is consistent and ghosts belong to other processes. -/
structure Mesh.Ok (M : Mesh) : Prop where
  inRange : ∀ b p, p < M.num b → M.before b + p < M.localNum
  tree : ∀ b p, p < M.num b → M.quadToTree (M.before b + p) = b
  remote : ∀ g, g < M.ghostNum → M.ghostToProc g ≠ M.rank

/-- What may lie behind a face. `face` and `orient` describe the neighbour's face and the relative
orientation; `sub` is the position of this patch among the small ones on the big neighbour's face. -/
inductive Neighbor where
  | boundary
  | half (ws : List Where) (face orient : Nat)
  | same (w : Where) (face orient : Nat)
  | double (w : Where) (face orient sub : Nat)

/-- The encoding of a neighbour in `quad_to_quad`, `quad_to_face` and `quad_to_half`. -/
def Encodes (D : Dim) (M : Mesh) (leaf f : Nat) : Neighbor → Prop
  | .boundary => M.quadToQuad leaf f = leaf ∧ M.quadToFace leaf f = f
  | .half ws face orient =>
    ws.length = D.half ∧ face < D.faces ∧ orient < D.half ∧
    (∀ w ∈ ws, w.exists M) ∧ (∀ w ∈ ws, ∀ w' ∈ ws, w.block M = w'.block M) ∧
    M.quadToFace leaf f = (orient * D.faces + face : Int) - D.faces * D.half ∧
    ∀ (k : Nat) (w : Where), ws[k]? = some w → M.quadToHalf (M.quadToQuad leaf f) k = w.id M
  | .same w face orient =>
    face < D.faces ∧ orient < D.half ∧ w.exists M ∧
    ¬ (w.id M = leaf ∧ orient * D.faces + face = f) ∧
    M.quadToQuad leaf f = w.id M ∧ M.quadToFace leaf f = (orient * D.faces + face : Int)
  | .double w face orient sub =>
    face < D.faces ∧ orient < D.half ∧ sub < D.half ∧ w.exists M ∧
    M.quadToQuad leaf f = w.id M ∧
    M.quadToFace leaf f = (D.faces * D.half : Int) + sub * (D.faces * D.half) + (orient * D.faces + face)

/-- What a query must answer, for the face `f` of patch `(b, p)`. Unused array entries are -1; for a
double-size neighbour the second entry of `rproc` is the subface number. -/
def answer (D : Dim) (M : Mesh) (b p f : Nat) : Neighbor → FaceResult
  | .boundary => ⟨.boundary, (M.rank : Int) :: List.replicate (D.half - 1) (-1), b,
      (p : Int) :: List.replicate (D.half - 1) (-1), f⟩
  | .half ws face orient => ⟨.halfSize, ws.map (fun w => (w.proc M : Int)),
      ((ws.head?.map (Where.block M)).getD 0 : Nat),
      ws.map (fun w => (w.patchno : Int)), (orient * D.faces + face : Nat)⟩
  | .same w face orient => ⟨.sameSize, (w.proc M : Int) :: List.replicate (D.half - 1) (-1),
      w.block M, (w.patchno : Int) :: List.replicate (D.half - 1) (-1), (orient * D.faces + face : Nat)⟩
  | .double w face orient sub => ⟨.doubleSize,
      (w.proc M : Int) :: (sub : Int) :: List.replicate (D.half - 2) (-1),
      w.block M, (w.patchno : Int) :: List.replicate (D.half - 1) (-1), (orient * D.faces + face : Nat)⟩

/-- What may lie behind a corner. -/
inductive CornerNeighbor where
  | none
  | several                          -- five or more blocks meet: not supported by the query
  | inside (w : Where)               -- in the same block: the opposite corner
  | across (w : Where) (corner : Nat) -- in another block

/-- The encoding in `quad_to_corner` and the corner lists. -/
def EncodesCorner (D : Dim) (M : Mesh) (leaf c : Nat) : CornerNeighbor → Prop
  | .none => M.quadToCorner leaf c < 0
  | .several => ∃ k, M.quadToCorner leaf c = ((M.localNum + M.ghostNum + k : Nat) : Int) ∧
      M.cornerOffset k + 1 < M.cornerOffset (k + 1)
  | .inside w => w.exists M ∧ M.quadToCorner leaf c = (w.id M : Int)
  | .across w corner => w.exists M ∧ corner < D.children ∧
      ∃ k, M.quadToCorner leaf c = ((M.localNum + M.ghostNum + k : Nat) : Int) ∧
        M.cornerOffset (k + 1) = M.cornerOffset k + 1 ∧
        M.cornerQuad (M.cornerOffset k) = w.id M ∧ M.cornerCorner (M.cornerOffset k) = corner

/-- Relation of sizes from levels (levels of corner neighbours differ by at most one). -/
inductive SizeRel (mine : Int) : Int → Rel → Prop
  | same : SizeRel mine mine .sameSize
  | half : SizeRel mine (mine + 1) .halfSize
  | double : SizeRel mine (mine - 1) .doubleSize

end Fclaw.FaceNbr

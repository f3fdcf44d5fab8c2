/-
Model of the face and corner neighbour queries of src/forestclaw2d.c (compiled twice: in 2D, and in
3D through fclaw2d_to_3d.h). The p4est mesh is a record of its arrays. Numbers stored in C `int`,
`int8_t` and `p4est_locidx_t` are `Int`/`Nat`; `quad_to_face` stays in `int8_t` since its largest
value is `FACES * HALF * (1 + HALF) - 1` = 23 in 2D and 119 in 3D.
`none` is a failed assertion.
-/
set_option autoImplicit false
set_option linter.unusedVariables false
namespace Fclaw.FaceNbr

/-- P4EST_FACES, P4EST_HALF, P4EST_CHILDREN. -/
structure Dim where
  faces : Nat
  half : Nat
  children : Nat

def dim2 : Dim := ⟨4, 2, 4⟩
def dim3 : Dim := ⟨6, 4, 8⟩

/-- `fclaw2d_domain_num_orientations`, src/forestclaw2d.c:109-113. -/
def Dim.numOrient (D : Dim) : Nat := D.faces * D.half

/-- The parts of `p4est_mesh_t`, `p4est_ghost_t`, `p4est_t` and of the domain that are read:
`quadToQuad leaf face`, `quadToFace leaf face`, `quadToHalf entry k`, `ghostToProc`,
`ghostTree` (`piggy3.which_tree`), `before` (`num_patches_before`, equal to `quadrants_offset`),
`num` (`num_patches` per block), `quadToCorner leaf corner`, the corner lists, and levels of local
(by local number) and ghost quadrants. -/
structure Mesh where
  rank : Nat
  localNum : Nat
  ghostNum : Nat
  quadToQuad : Nat → Nat → Nat
  quadToFace : Nat → Nat → Int
  quadToHalf : Nat → Nat → Nat
  quadToTree : Nat → Nat
  ghostToProc : Nat → Nat
  ghostTree : Nat → Nat
  before : Nat → Nat
  num : Nat → Nat
  quadToCorner : Nat → Nat → Int
  cornerOffset : Nat → Nat
  cornerQuad : Nat → Nat
  cornerCorner : Nat → Nat
  level : Nat → Int
  ghostLevel : Nat → Int

inductive Rel where
  | boundary | halfSize | sameSize | doubleSize
  deriving DecidableEq, Repr

/-- `fclaw2d_patch_encode_neighbor`, src/forestclaw2d.c:402-440: `proc, blockno, patchno`. -/
def encodeNeighbor (M : Mesh) (qtq : Nat) : Option (Int × Int × Int) :=
  if M.localNum + M.ghostNum ≤ qtq then none
  else if qtq < M.localNum then
    let b := M.quadToTree qtq
    if M.before b ≤ qtq ∧ qtq - M.before b < M.num b then
      some (M.rank, b, (qtq - M.before b : Nat))
    else none
  else
    let g := qtq - M.localNum
    some (M.ghostToProc g, M.ghostTree g, g)

/-- Output of `fclaw2d_patch_face_neighbors`: return value, `rproc[]`, `*rblockno`, `rpatchno[]`,
`*rfaceno`. -/
structure FaceResult where
  rel : Rel
  rproc : List Int
  rblockno : Int
  rpatchno : List Int
  rfaceno : Int
  deriving DecidableEq, Repr

/-- The loop over the half-size neighbours, src/forestclaw2d.c:502-508: `hblockno` of the previous
one is `prev`; result: `rproc`, `rpatchno` and the block of the first. -/
def halfLoop (M : Mesh) (qth : Nat → Nat) : Nat → Nat → Option Int →
    Option (List Int × List Int × Option Int)
  | 0, _, prev => some ([], [], prev)
  | n + 1, k, prev =>
    match encodeNeighbor M (qth k) with
    | none => none
    | some (p, b, q) =>
      if prev = none ∨ prev = some b then
        match halfLoop M qth n (k + 1) (some b) with
        | none => none
        | some (ps, qs, last) => some (p :: ps, q :: qs, last)
      else none

/-- `fclaw2d_patch_face_neighbors`, src/forestclaw2d.c:442-541. The assertion on
`block->is_boundary` is left out. Since all `hblockno` are asserted equal, `hblockno[0]` is the
last one. -/
def faceNeighbors (D : Dim) (M : Mesh) (blockno patchno faceno : Nat) : Option FaceResult :=
  if M.num blockno ≤ patchno ∨ D.faces ≤ faceno then none else
  let leaf := M.before blockno + patchno
  if M.localNum ≤ leaf then none else
  let qtq := M.quadToQuad leaf faceno
  let qtf := M.quadToFace leaf faceno
  let pad := List.replicate (D.half - 1) (-1 : Int)
  if qtq = leaf ∧ qtf = faceno then
    some ⟨.boundary, M.rank :: pad, blockno, patchno :: pad, faceno⟩
  else if qtf < 0 then
    match halfLoop M (M.quadToHalf qtq) D.half 0 none with
    | some (ps, qs, some b) =>
      if qtf + D.numOrient < 0 then none else some ⟨.halfSize, ps, b, qs, qtf + D.numOrient⟩
    | _ => none
  else
    match encodeNeighbor M qtq with
    | none => none
    | some (p, b, q) =>
      if qtf < D.numOrient then some ⟨.sameSize, p :: pad, b, q :: pad, qtf⟩
      else
        let sub := qtf / D.numOrient - 1
        if 0 ≤ sub ∧ sub < D.half then
          some ⟨.doubleSize, p :: sub :: pad.tail, b, q :: pad, qtf % D.numOrient⟩
        else none

/-- `fclaw2d_patch_boundary_type`, src/forestclaw2d.c:296-348: the entries `boundaries[faceno]`. -/
def boundaryType (D : Dim) (M : Mesh) (blockno patchno : Nat) : List Bool :=
  let leaf := M.before blockno + patchno
  (List.range D.faces).map fun f =>
    decide (M.quadToQuad leaf f = leaf ∧ M.quadToFace leaf f = f)

/-- `fclaw2d_patch_normal_match`, src/forestclaw2d.c:358-400: `(faceno + qtfi) & 1`. -/
def normalMatch (M : Mesh) (blockno patchno faceno : Nat) : Int :=
  (faceno + M.quadToFace (M.before blockno + patchno) faceno) % 2

/-- `fclaw2d_patch_face_swap`, src/forestclaw2d.c:543-558. -/
def faceSwap (D : Dim) (fr : Nat × Nat) : Option (Nat × Nat) :=
  let iface := fr.1
  let orientation := fr.2 / D.faces
  if fr.1 < D.faces ∧ fr.2 < D.half * D.faces ∧ orientation < D.half then
    let f := fr.2 % D.faces
    let r := iface + D.faces * orientation
    if f < D.faces ∧ r < D.half * D.faces then some (f, r) else none
  else none

/-- Output of `fclaw2d_patch_corner_neighbors`: `*rproc` and `*rpatchno` are not written for a
boundary (`none`). -/
structure CornerResult where
  rel : Rel
  rproc : Option Int
  rblockno : Int
  rpatchno : Option Int
  rcorner : Int
  deriving DecidableEq, Repr

/-- First half, src/forestclaw2d.c:1015-1054: the neighbouring quadrant (`none`: -1) and its
corner. `cornerno ^ (P4EST_CHILDREN - 1)` is `CHILDREN - 1 - cornerno`. -/
def cornerQuad (D : Dim) (M : Mesh) (leaf cornerno : Nat) : Option (Option (Nat × Nat)) :=
  let qid := M.quadToCorner leaf cornerno
  if qid < 0 then some none
  else
    let q := qid.toNat
    if M.localNum + M.ghostNum ≤ q then
      let c := q - (M.localNum + M.ghostNum)
      let cstart := M.cornerOffset c
      let cend := M.cornerOffset (c + 1)
      if cstart + 1 < cend then some none
      else if cstart + 1 = cend then
        if M.cornerCorner cstart < D.children then some (some (M.cornerQuad cstart, M.cornerCorner cstart))
        else none
      else none
    else some (some (q, D.children - 1 - cornerno))

/-- The level difference, src/forestclaw2d.c:1087-1100 (`none` is the abort). -/
def relOfLevels (other mine : Int) : Option Rel :=
  if other - mine = -1 then some .doubleSize
  else if other - mine = 0 then some .sameSize
  else if other - mine = 1 then some .halfSize
  else none

/-- `fclaw2d_patch_corner_neighbors`, src/forestclaw2d.c:985-1115. -/
def cornerNeighbors (D : Dim) (M : Mesh) (blockno patchno cornerno : Nat) : Option CornerResult :=
  if M.num blockno ≤ patchno ∨ D.children ≤ cornerno then none else
  let leaf := M.before blockno + patchno
  match cornerQuad D M leaf cornerno with
  | none => none
  | some none => some ⟨.boundary, none, blockno, none, -1⟩
  | some (some (q, rc)) =>
    if q < M.localNum then
      let b := M.quadToTree q
      if M.before b ≤ q ∧ q - M.before b < M.num b then
        (relOfLevels (M.level q) (M.level leaf)).map fun r =>
          ⟨r, some M.rank, b, some (q - M.before b : Nat), rc⟩
      else none
    else
      let g := q - M.localNum
      if g < M.ghostNum ∧ M.ghostToProc g ≠ M.rank then
        (relOfLevels (M.ghostLevel g) (M.level leaf)).map fun r =>
          ⟨r, some (M.ghostToProc g), M.ghostTree g, some g, rc⟩
      else none

end Fclaw.FaceNbr

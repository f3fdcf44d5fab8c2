/-
What a VTK file of an AMR solution is meant to contain, said without the
functions that write it: the distribution of a forest of patches over
processes, the XML header, and a reader of the appended arrays that follows the
definition of the file format (VTK XML format, raw appended data, 64 bit
headers).
-/
import Verif.Vtk.Model
import Verif.ParFile.Spec

set_option autoImplicit false

namespace Fclaw.Vtk

open Fclaw.ParFile (Byte File Outcome Distribution)

/-! ### The forest and its distribution -/

/-- All patches, block by block, in the order of the forest. -/
abbrev Forest (R : Type) := List (List (Patch R))

/-- The number of patches of the forest. -/
def Forest.count {R : Type} (F : Forest R) : Nat := (F.map List.length).sum

/-- The patches of the forest with the number of their block, in global order. -/
def Forest.patches {R : Type} : Nat → Forest R → List (Nat × Patch R)
  | _, [] => []
  | k, blk :: rest => blk.map (fun pt => (k, pt)) ++ Forest.patches (k + 1) rest

/-- The blocks of the process with the global patches from `a` up to `b`; the
first block begins at global number `start`, and `before` patches precede it on
this process. -/
def localBlocks {R : Type} (a b : Nat) : Nat → Nat → Forest R → List (LocalBlock R)
  | _, _, [] => []
  | start, before, blk :: rest =>
    let mine := (blk.take (b - start)).drop (a - start)
    ⟨mine, before⟩ :: localBlocks a b (start + blk.length) (before + mine.length) rest

/-- The domain of process `r`. -/
def localDom {R : Type} (F : Forest R) (D : Distribution F.count) (r : Nat) : Dom R where
  mpirank := r
  mpisize := D.mpisize
  globalNumPatches := F.count
  globalNumPatchesBefore := D.gfq r
  blocks := localBlocks (D.gfq r) (D.gfq (r + 1)) 0 0 F

/-- The domains of all processes. -/
def localDoms {R : Type} (F : Forest R) (D : Distribution F.count) : List (Dom R) :=
  (List.range D.mpisize).map (localDom F D)

/-! ### Sizes -/

def Params.points (p : Params) : Nat :=
  (p.mx + 1) * (p.my + 1) * (match p.mz with | none => 1 | some mz => mz + 1)
def Params.cells (p : Params) : Nat :=
  p.mx * p.my * (match p.mz with | none => 1 | some mz => mz)
/-- The number of corners of a cell. -/
def Params.corners (p : Params) : Nat := match p.mz with | none => 4 | some _ => 8
/-- The number of layers of cells in the third direction. -/
def Params.layers (p : Params) : Nat := match p.mz with | none => 1 | some mz => mz

/-- The data of one patch for one array is less than two gigabytes, and the
whole file can be addressed with 64 bits. -/
structure Fits (p : Params) (n : Nat) : Prop where
  points : p.points * 24 ≤ 2147483647
  cells : p.cells * p.corners * 8 ≤ 2147483647
  values : p.cells * p.meqn * 4 ≤ 2147483647
  total : n * (p.points * 24) + n * (p.cells * p.corners * 8) + n * (p.cells * p.meqn * 4)
    + 64 < 9223372036854775808

/-- The doubles have eight bytes, the floats have four. -/
structure Arith.Ok {R : Type} (N : Arith R) : Prop where
  dbl : ∀ x, (N.dbl x).length = 8
  flt : ∀ x, (N.flt x).length = 4

/-- The solution array of a patch holds `meqn` values for every cell, ghost
cells included. -/
def Patch.Ok {R : Type} (p : Params) (pt : Patch R) : Prop :=
  pt.q.length = (p.mx + 2 * p.mbc) * ((p.my + 2 * p.mbc)
    * ((match p.mz with | none => 1 | some mz => mz + 2 * p.mbc) * p.meqn))

/-! ### What is to be seen -/

/-- Where the point `(i, j, k)` of the mesh of a patch is. -/
def pointAt {R : Type} (N : Arith R) (p : Params) (blockno : Nat) (pt : Patch R)
    (c : Nat × Nat × Nat) : R × R × R :=
  let x := N.lin pt.xlower c.1 pt.dx
  let y := N.lin pt.ylower c.2.1 pt.dy
  let z := N.lin pt.zlower c.2.2 pt.dz
  match p.mz, p.manifold with
  | none, false => (x, y, N.zero)
  | none, true => N.c2m2 blockno x y
  | some _, false => (x, y, z)
  | some _, true => N.c2m3 blockno x y z

/-- The corners of the cell `(i, j, k)` in the order that VTK prescribes for
VTK_QUAD and VTK_HEXAHEDRON: counterclockwise, the lower face first. -/
def cornersOf (p : Params) (i j k : Nat) : List (Nat × Nat × Nat) :=
  match p.mz with
  | none => [(i, j, 0), (i + 1, j, 0), (i + 1, j + 1, 0), (i, j + 1, 0)]
  | some _ => [(i, j, k), (i + 1, j, k), (i + 1, j + 1, k), (i, j + 1, k),
      (i, j, k + 1), (i + 1, j, k + 1), (i + 1, j + 1, k + 1), (i, j + 1, k + 1)]

/-- The position of component `m` of cell `(i, j, k)` (counted from 0, without
ghost cells) in a Fortran array `q(1-mbc:mx+mbc, 1-mbc:my+mbc, meqn)`, or
`q(1-mbc:mx+mbc, 1-mbc:my+mbc, 1-mbc:mz+mbc, meqn)`: the first index is the
fastest. -/
def fortIndex (p : Params) (i j k m : Nat) : Nat :=
  match p.mz with
  | none => (i + p.mbc) + (p.mx + 2 * p.mbc) * ((j + p.mbc) + (p.my + 2 * p.mbc) * m)
  | some mz => (i + p.mbc) + (p.mx + 2 * p.mbc) * ((j + p.mbc) + (p.my + 2 * p.mbc)
      * ((k + p.mbc) + (mz + 2 * p.mbc) * m))

/-- A cell as VTK sees it: the coordinates of its corners (24 bytes for each),
its type, the process, block and patch it belongs to, its values (4 bytes each). -/
structure Cell where
  corners : List (List Byte)
  kind : Nat
  rank : Nat
  block : Nat
  patch : Nat
  values : List (List Byte)

/-- The cell `(i, j, k)` of a patch. -/
def cellOf {R : Type} (N : Arith R) (p : Params) (rank blockno g : Nat) (pt : Patch R)
    (i j k : Nat) : Cell where
  corners := (cornersOf p i j k).map fun c =>
    let x := pointAt N p blockno pt c
    N.dbl x.1 ++ N.dbl x.2.1 ++ N.dbl x.2.2
  kind := match p.mz with | none => 9 | some _ => 12
  rank := rank
  block := blockno
  patch := g
  values := (List.range p.meqn).filterMap fun m => (pt.q[fortIndex p i j k m]?).map N.flt

/-! ### The file format -/

/-- An element `DataArray` of the header. -/
structure DataArray where
  type : String
  name : String
  components : Option Nat
  offset : Nat

def DataArray.xml (a : DataArray) : List Byte :=
  text "    <DataArray type=\"" ++ text a.type ++ text "\" Name=\"" ++ text a.name ++ text "\" "
  ++ (match a.components with
      | none => []
      | some c => text "NumberOfComponents=\"" ++ dec c ++ text "\" ")
  ++ text "format=\"appended\" offset=\"" ++ dec a.offset ++ text "\">\n    </DataArray>\n"

/-- The header of a file with one piece. -/
structure Vtu where
  points : Nat
  cells : Nat
  position : DataArray
  connectivity : DataArray
  offsets : DataArray
  types : DataArray
  mpirank : DataArray
  blockno : DataArray
  patchno : DataArray
  meqn : DataArray

/-- The names that VTK and the users expect, and the components of the entries. -/
structure Vtu.Named (v : Vtu) (meqn : Nat) : Prop where
  position : v.position.name = "Position" ∧ v.position.components = some 3
  connectivity : v.connectivity.name = "connectivity" ∧ v.connectivity.components = none
  offsets : v.offsets.name = "offsets" ∧ v.offsets.components = none
  types : v.types.name = "types" ∧ v.types.components = none
  mpirank : v.mpirank.name = "mpirank" ∧ v.mpirank.components = none
  blockno : v.blockno.name = "blockno" ∧ v.blockno.components = none
  patchno : v.patchno.name = "patchno" ∧ v.patchno.components = none
  meqn : v.meqn.name = "meqn" ∧ v.meqn.components.getD 1 = meqn

def Vtu.xml (v : Vtu) : List Byte :=
  text "<?xml version=\"1.0\"?>\n<VTKFile type=\"UnstructuredGrid\" version=\"0.1\" byte_order=\"LittleEndian\" header_type=\"UInt64\" >\n <UnstructuredGrid>\n"
  ++ text "  <Piece NumberOfPoints=\"" ++ dec v.points ++ text "\" NumberOfCells=\"" ++ dec v.cells
  ++ text "\">\n"
  ++ text "   <Points>\n" ++ v.position.xml ++ text "   </Points>\n"
  ++ text "   <Cells>\n" ++ v.connectivity.xml ++ v.offsets.xml ++ v.types.xml
  ++ text "   </Cells>\n"
  ++ text "   <CellData Scalars=\"mpirank,blockno,patchno\" Fields=\"meqn\">\n"
  ++ v.mpirank.xml ++ v.blockno.xml ++ v.patchno.xml ++ v.meqn.xml
  ++ text "   </CellData>\n   <PointData>\n   </PointData>\n"
  ++ text "  </Piece>\n </UnstructuredGrid>\n <AppendedData encoding=\"raw\">\n  _"

/-- What follows the appended data. -/
def trailer : List Byte := text "\n </AppendedData>\n</VTKFile>\n"

/-- The number with the given bytes, lowest first. -/
def ofLe : List Byte → Nat
  | [] => 0
  | b :: bs => b.toNat + 256 * ofLe bs

/-- `n` bytes from position `a` on, if they are there. -/
def slice (l : List Byte) (a n : Nat) : Option (List Byte) :=
  if a + n ≤ l.length then some ((l.drop a).take n) else none

/-- The bytes of an appended array: at its offset, eight bytes with the number
of bytes, then these bytes. -/
def appended (payload : List Byte) (a : DataArray) : Option (List Byte) :=
  (slice payload a.offset 8).bind fun c => slice payload (a.offset + 8) (ofLe c)

/-- The number of bytes of an entry of the given type. -/
def width (type : String) : Option Nat :=
  if type = "Float64" then some 8
  else if type = "Float32" then some 4
  else if type = "Int64" then some 8
  else if type = "Int32" then some 4
  else if type = "UInt8" then some 1
  else none

/-- Entry `n` of an array (all its components). -/
def entry (payload : List Byte) (a : DataArray) (n : Nat) : Option (List Byte) :=
  (appended payload a).bind fun bytes => (width a.type).bind fun w =>
    slice bytes (n * (w * a.components.getD 1)) (w * a.components.getD 1)

/-- Entry `n` of an array of integers. -/
def intAt (payload : List Byte) (a : DataArray) (n : Nat) : Option Nat :=
  (entry payload a n).map ofLe

/-- The first entry of the connectivity of cell `n`: where cell `n - 1` ends. -/
def firstCorner (v : Vtu) (payload : List Byte) : Nat → Option Nat
  | 0 => some 0
  | n + 1 => intAt payload v.offsets n

/-- Cut into pieces of `w` bytes. -/
def chunks (w : Nat) : Nat → List Byte → List (List Byte)
  | 0, _ => []
  | n + 1, l => l.take w :: chunks w n (l.drop w)

/-- Cell `n` of a file. -/
def readCell (v : Vtu) (payload : List Byte) (n : Nat) : Option Cell :=
  (firstCorner v payload n).bind fun first =>
  (intAt payload v.offsets n).bind fun last =>
  ((List.range (last - first)).mapM fun t =>
    (intAt payload v.connectivity (first + t)).bind fun id => entry payload v.position id).bind
    fun corners =>
  (intAt payload v.types n).bind fun kind =>
  (intAt payload v.mpirank n).bind fun rank =>
  (intAt payload v.blockno n).bind fun block =>
  (intAt payload v.patchno n).bind fun patch =>
  (entry payload v.meqn n).bind fun values =>
  some { corners := corners, kind := kind, rank := rank, block := block, patch := patch,
         values := chunks 4 (v.meqn.components.getD 1) values }

/-- The file shows the forest: the header gives the numbers of points and cells,
and each cell of each patch is found in the file, patch after patch and within
a patch with the first index fastest. -/
structure Shows {R : Type} (N : Arith R) (p : Params) (F : Forest R) (D : Distribution F.count)
    (v : Vtu) (payload : List Byte) : Prop where
  numPoints : v.points = F.count * p.points
  numCells : v.cells = F.count * p.cells
  cells : ∀ g blockno pt, (Forest.patches 0 F)[g]? = some (blockno, pt) →
    ∀ r, r < D.mpisize → D.gfq r ≤ g → g < D.gfq (r + 1) →
    ∀ i j k : Nat, i < p.mx → j < p.my → k < p.layers →
      readCell v payload (g * p.cells + i + p.mx * (j + p.my * k))
        = some (cellOf N p r blockno g pt i j k)

/-- The array has nothing but its entries for the cells (or points) of the file. -/
def HasEntries (payload : List Byte) (a : DataArray) (n : Nat) : Prop :=
  ∃ bytes w, appended payload a = some bytes ∧ width a.type = some w ∧
    bytes.length = n * (w * a.components.getD 1)

/-- The eight arrays have as many entries as the header says. -/
structure Vtu.Complete (v : Vtu) (p : Params) (payload : List Byte) : Prop where
  position : HasEntries payload v.position v.points
  connectivity : HasEntries payload v.connectivity (v.cells * p.corners)
  offsets : HasEntries payload v.offsets v.cells
  types : HasEntries payload v.types v.cells
  mpirank : HasEntries payload v.mpirank v.cells
  blockno : HasEntries payload v.blockno v.cells
  patchno : HasEntries payload v.patchno v.cells
  meqn : HasEntries payload v.meqn v.cells

/-- The hypotheses on a forest, its distribution, and the patches. -/
structure Valid {R : Type} (N : Arith R) (p : Params) (F : Forest R) (D : Distribution F.count) :
    Prop where
  arith : N.Ok
  fits : Fits p F.count
  patches : ∀ blk ∈ F, ∀ pt ∈ blk, pt.Ok p
  some : 0 < D.mpisize
  procs : D.mpisize ≤ 2147483648
  blocks : F.length ≤ 2147483648

end Fclaw.Vtk

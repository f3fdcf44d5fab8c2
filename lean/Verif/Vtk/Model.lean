/-
Model of the VTK output of `src/patches/clawpatch/fclaw2d_clawpatch_output_vtk.c`
(below: "vtk.c"; the same source is compiled for 3D patches on a 2D forest
through `fclaw3dx_clawpatch_output_vtk.c`): one file in the XML format of VTK
with eight arrays appended as raw data, written by all processes together.

What is simplified.
* A file is its size with a partial map from positions to bytes
  (`Verif.ParFile.Model`).  The calls of the I/O layer move all their bytes.
  Opening or closing the file on process 0 may fail (two parameters); the calls
  that abort on failure (`SC_CHECK_MPI`, `SC_CHECK_ABORT`) succeed.
* There is no synchronisation between the eight arrays: the single bytes of
  all processes reach the file in any order (parameter `sched`).  Opening and
  closing the file with MPI is collective, so that nothing is written before
  the header is complete and nothing is missing when the footer follows.
* Numbers of type `int64_t` are unbounded; those of type `int` and `int32_t`
  are checked, and a value that does not fit is undefined behaviour.
* `long` has eight bytes and numbers are stored with the lowest byte first, as
  the header of the file says.
* Doubles are an arbitrary type with a byte string each (`Arith`).
-/
import Verif.ParFile.Model

set_option autoImplicit false

namespace Fclaw.Vtk

open Fclaw.ParFile (Byte File Outcome writesAt applyWrites writeAt)

/-- INT32_MAX, and the largest `int`. -/
abbrev intMax : Nat := 2147483647

/-- The options of the patches: `mx`, `my`, `mz` (`none` if PATCH_DIM is 2),
the number of ghost cell layers, of equations, and `manifold`. -/
structure Params where
  mx : Nat
  my : Nat
  mz : Option Nat
  mbc : Nat
  meqn : Nat
  manifold : Bool

/-- The doubles of the machine.  `lin a i d` is `a + i * d`; `dbl` gives the
eight bytes of a double, `flt` the four bytes of the double cast to `float`;
`c2m2` and `c2m3` are the mappings FCLAW2D_MAP_C2M and FCLAW3D_MAP_C2M. -/
structure Arith (R : Type) where
  zero : R
  lin : R → Nat → R → R
  dbl : R → List Byte
  flt : R → List Byte
  c2m2 : Nat → R → R → R × R × R
  c2m3 : Nat → R → R → R → R × R × R

/-- What the callbacks read of a patch: `fclaw2d_clawpatch_grid_data` and the
array of `fclaw2d_clawpatch_soln_data`. -/
structure Patch (R : Type) where
  xlower : R
  ylower : R
  zlower : R
  dx : R
  dy : R
  dz : R
  q : List R

/-- A block of the local domain: `src/forestclaw2d.h` 122–151. -/
structure LocalBlock (R : Type) where
  patches : List (Patch R)
  numPatchesBefore : Nat

/-- The local domain: `src/forestclaw2d.h` 171–215. -/
structure Dom (R : Type) where
  mpirank : Nat
  mpisize : Nat
  globalNumPatches : Nat
  globalNumPatchesBefore : Nat
  blocks : List (LocalBlock R)

/-- The bytes of a text of plain ASCII characters. -/
def text (s : String) : List Byte := s.toList.map fun c => UInt8.ofNat c.toNat

/-- `%lld` and `%d` of a number that is not negative. -/
def dec (n : Nat) : List Byte := (Nat.toDigits 10 n).map fun c => UInt8.ofNat c.toNat

/-- The `w` bytes of an integer in memory, lowest first. -/
def le : Nat → Nat → List Byte
  | 0, _ => []
  | w + 1, n => UInt8.ofNat (n % 256) :: le w (n / 256)

/-- A value of type `int` or `int32_t`. -/
def ckInt (n : Nat) : Outcome Nat := if n ≤ intMax then .ok n else .ub

/-- Several pieces one after the other. -/
def cat : List (Outcome (List Byte)) → Outcome (List Byte)
  | [] => .ok []
  | x :: xs => x.bind fun a => (cat xs).bind fun b => .ok (a ++ b)

/-- The pieces of a numbered list one after the other. -/
def catIdx {α : Type} (f : Nat → α → Outcome (List Byte)) : Nat → List α →
    Outcome (List Byte)
  | _, [] => .ok []
  | n, x :: xs => (f n x).bind fun a => (catIdx f (n + 1) xs).bind fun b => .ok (a ++ b)

/-- PATCH_CHILDREN: vtk.c 41, 52. -/
def children (p : Params) : Nat := match p.mz with | none => 4 | some _ => 8

/-- `fclaw2d_vtk_state_t`, vtk.c 63–95, without the file handles. -/
structure State where
  pointsPerPatch : Nat
  cellsPerPatch : Nat
  fits32 : Bool
  intsize : Nat
  globalNumPoints : Nat
  globalNumCells : Nat
  psizePosition : Nat
  psizeConnectivity : Nat
  psizeOffsets : Nat
  psizeTypes : Nat
  psizeMpirank : Nat
  psizeBlockno : Nat
  psizePatchno : Nat
  psizeMeqn : Nat
  offsetPosition : Nat
  offsetConnectivity : Nat
  offsetOffsets : Nat
  offsetTypes : Nat
  offsetMpirank : Nat
  offsetBlockno : Nat
  offsetPatchno : Nat
  offsetMeqn : Nat
  offsetEnd : Nat

/-- `s->ndsize`: vtk.c 631. -/
abbrev ndsize : Nat := 8

/-- vtk.c 610–663: the numbers of points and cells of a patch, the sizes of its
part of the eight arrays, and where the arrays begin.  The products of `int`
factors are computed with type `int`. -/
def setup (p : Params) (globalNumPatches : Nat) : Outcome State :=
  (ckInt ((p.mx + 1) * (p.my + 1))).bind fun points2 =>
  (ckInt (p.mx * p.my)).bind fun cells2 =>
  (ckInt (match p.mz with | none => points2 | some mz => points2 * (mz + 1))).bind fun points =>
  (ckInt (match p.mz with | none => cells2 | some mz => cells2 * mz)).bind fun cells =>
  let globalNumPoints := points * globalNumPatches
  let globalNumCells := cells * globalNumPatches
  let globalNumConnectivity := children p * (globalNumCells + 1)
  let fits32 := decide (globalNumPoints ≤ intMax ∧ globalNumConnectivity ≤ intMax)
  let intsize := if fits32 then 4 else 8
  (ckInt (points * 3)).bind fun p3 =>
  let psizePosition := p3 * 8
  (ckInt (cells * children p)).bind fun cc =>
  (ckInt (cc * intsize)).bind fun psizeConnectivity =>
  (ckInt (cells * intsize)).bind fun psizeOffsets =>
  let psizeTypes := cells * 1
  (ckInt (cells * 4)).bind fun psizeMpirank =>
  (ckInt (cells * 4)).bind fun psizeBlockno =>
  (ckInt (cells * intsize)).bind fun psizePatchno =>
  (ckInt (cells * p.meqn)).bind fun cm =>
  let psizeMeqn := cm * 4
  let offsetPosition := 0
  let offsetConnectivity := ndsize + offsetPosition + psizePosition * globalNumPatches
  let offsetOffsets := ndsize + offsetConnectivity + psizeConnectivity * globalNumPatches
  let offsetTypes := ndsize + offsetOffsets + psizeOffsets * globalNumPatches
  let offsetMpirank := ndsize + offsetTypes + psizeTypes * globalNumPatches
  let offsetBlockno := ndsize + offsetMpirank + psizeMpirank * globalNumPatches
  let offsetPatchno := ndsize + offsetBlockno + psizeBlockno * globalNumPatches
  let offsetMeqn := ndsize + offsetPatchno + psizePatchno * globalNumPatches
  let offsetEnd := ndsize + offsetMeqn + psizeMeqn * globalNumPatches
  .ok {
    pointsPerPatch := points, cellsPerPatch := cells, fits32 := fits32, intsize := intsize,
    globalNumPoints := globalNumPoints, globalNumCells := globalNumCells,
    psizePosition := psizePosition, psizeConnectivity := psizeConnectivity,
    psizeOffsets := psizeOffsets, psizeTypes := psizeTypes, psizeMpirank := psizeMpirank,
    psizeBlockno := psizeBlockno, psizePatchno := psizePatchno, psizeMeqn := psizeMeqn,
    offsetPosition := offsetPosition, offsetConnectivity := offsetConnectivity,
    offsetOffsets := offsetOffsets, offsetTypes := offsetTypes,
    offsetMpirank := offsetMpirank, offsetBlockno := offsetBlockno,
    offsetPatchno := offsetPatchno, offsetMeqn := offsetMeqn, offsetEnd := offsetEnd }

/-- vtk.c 97–195 (`fclaw2d_vtk_write_header`): the text of the header. -/
def headerText (p : Params) (s : State) : List Byte :=
  let inttype := if s.fits32 then text "Int32" else text "Int64"
  text "<?xml version=\"1.0\"?>\n"
  ++ text "<VTKFile type=\"UnstructuredGrid\" version=\"0.1\" byte_order=\"LittleEndian\" header_type=\"UInt64\" >\n"
  ++ text " <UnstructuredGrid>\n"
  ++ text "  <Piece NumberOfPoints=\"" ++ dec s.globalNumPoints
  ++ text "\" NumberOfCells=\"" ++ dec s.globalNumCells ++ text "\">\n"
  ++ text "   <Points>\n"
  ++ text "    <DataArray type=\"Float64\" Name=\"Position\" NumberOfComponents=\"3\" format=\"appended\" offset=\""
  ++ dec s.offsetPosition ++ text "\">\n"
  ++ text "    </DataArray>\n"
  ++ text "   </Points>\n"
  ++ text "   <Cells>\n"
  ++ text "    <DataArray type=\"" ++ inttype
  ++ text "\" Name=\"connectivity\" format=\"appended\" offset=\"" ++ dec s.offsetConnectivity
  ++ text "\">\n"
  ++ text "    </DataArray>\n"
  ++ text "    <DataArray type=\"" ++ inttype
  ++ text "\" Name=\"offsets\" format=\"appended\" offset=\"" ++ dec s.offsetOffsets
  ++ text "\">\n"
  ++ text "    </DataArray>\n"
  ++ text "    <DataArray type=\"UInt8\" Name=\"types\" format=\"appended\" offset=\""
  ++ dec s.offsetTypes ++ text "\">\n"
  ++ text "    </DataArray>\n"
  ++ text "   </Cells>\n"
  ++ text "   <CellData Scalars=\"mpirank,blockno,patchno\" Fields=\"meqn\">\n"
  ++ text "    <DataArray type=\"Int32\" Name=\"mpirank\" format=\"appended\" offset=\""
  ++ dec s.offsetMpirank ++ text "\">\n"
  ++ text "    </DataArray>\n"
  ++ text "    <DataArray type=\"Int32\" Name=\"blockno\" format=\"appended\" offset=\""
  ++ dec s.offsetBlockno ++ text "\">\n"
  ++ text "    </DataArray>\n"
  ++ text "    <DataArray type=\"" ++ inttype
  ++ text "\" Name=\"patchno\" format=\"appended\" offset=\"" ++ dec s.offsetPatchno
  ++ text "\">\n"
  ++ text "    </DataArray>\n"
  ++ (if p.meqn = 1 then
        text "    <DataArray type=\"Float32\" Name=\"meqn\" format=\"appended\" offset=\""
        ++ dec s.offsetMeqn ++ text "\">\n"
      else
        text "    <DataArray type=\"Float32\" Name=\"meqn\" NumberOfComponents=\"" ++ dec p.meqn
        ++ text "\" format=\"appended\" offset=\"" ++ dec s.offsetMeqn ++ text "\">\n")
  ++ text "    </DataArray>\n"
  ++ text "   </CellData>\n"
  ++ text "   <PointData>\n"
  ++ text "   </PointData>\n"
  ++ text "  </Piece>\n"
  ++ text " </UnstructuredGrid>\n"
  ++ text " <AppendedData encoding=\"raw\">\n  _"

/-- vtk.c 564–591 (`fclaw2d_vtk_write_footer`): the text of the footer. -/
def footerText : List Byte := text "\n </AppendedData>\n</VTKFile>\n"

/-- `for (k = 0; k < mz; ++k)`, a single turn if PATCH_DIM is 2. -/
def kCells (p : Params) : List Nat := match p.mz with | none => [0] | some mz => List.range mz

/-- `for (k = 0; k <= mz; ++k)`, a single turn if PATCH_DIM is 2. -/
def kPoints (p : Params) : List Nat :=
  match p.mz with | none => [0] | some mz => List.range (mz + 1)

/-- An entry of an array of integers: vtk.c 243–324, 339–356, 423–439, `int32_t` if everything
fits and `int64_t` otherwise. -/
def intEntry (s : State) (n : Nat) : Outcome (List Byte) :=
  if s.fits32 then (ckInt n).bind fun n => .ok (le 4 n) else .ok (le 8 n)

/-- The number that the callbacks compute for a patch, e.g. vtk.c 239–241:
`global_num_patches_before + blocks[blockno].num_patches_before + patchno`. -/
def gpno {R : Type} (d : Dom R) (b : LocalBlock R) (patchno : Nat) : Nat :=
  d.globalNumPatchesBefore + b.numPatchesBefore + patchno

/-- vtk.c 699–777 (`fclaw2d_output_vtk_coordinate_cb`). -/
def coordinateCb {R : Type} (N : Arith R) (p : Params) (blockno : Nat) (pt : Patch R) :
    List Byte :=
  (kPoints p).flatMap fun k =>
    let z := N.lin pt.zlower k pt.dz
    (List.range (p.my + 1)).flatMap fun j =>
      let y := N.lin pt.ylower j pt.dy
      (List.range (p.mx + 1)).flatMap fun i =>
        let x := N.lin pt.xlower i pt.dx
        if p.manifold then
          let c := match p.mz with | none => N.c2m2 blockno x y | some _ => N.c2m3 blockno x y z
          N.dbl c.1 ++ N.dbl c.2.1 ++ N.dbl c.2.2
        else
          N.dbl x ++ N.dbl y ++ N.dbl (match p.mz with | none => N.zero | some _ => z)

/-- vtk.c 232–326 (`write_connectivity_cb`). -/
def connectivityCb {R : Type} (p : Params) (s : State) (d : Dom R) (b : LocalBlock R)
    (patchno : Nat) : Outcome (List Byte) :=
  let pbefore := s.pointsPerPatch * gpno d b patchno
  cat ((kCells p).flatMap fun k => (List.range p.my).flatMap fun j =>
    (List.range p.mx).flatMap fun i =>
      let l := pbefore + i + j * (p.mx + 1)
        + (match p.mz with | none => 0 | some _ => k * (p.my + 1) * (p.mx + 1))
      let up := (p.mx + 1) * (p.my + 1)
      [intEntry s l, intEntry s (l + 1), intEntry s (l + (p.mx + 2)), intEntry s (l + (p.mx + 1))]
      ++ (match p.mz with
          | none => []
          | some _ => [intEntry s (l + up), intEntry s (l + up + 1),
              intEntry s (l + up + (p.mx + 2)), intEntry s (l + up + (p.mx + 1))]))

/-- The loop `for (c = 0; c < cells_per_patch; k += PATCH_CHILDREN, ++c)` of
`write_offsets_cb`, vtk.c 339–356: with 32 bits `k` must fit after every turn. -/
def offsetsLoop (p : Params) (s : State) : Nat → Nat → Outcome (List Byte)
  | _, 0 => .ok []
  | k, c + 1 => (intEntry s k).bind fun a =>
      (if s.fits32 then ckInt (k + children p) else .ok (k + children p)).bind fun k' =>
        (offsetsLoop p s k' c).bind fun b => .ok (a ++ b)

/-- vtk.c 328–358 (`write_offsets_cb`). -/
def offsetsCb {R : Type} (p : Params) (s : State) (d : Dom R) (b : LocalBlock R)
    (patchno : Nat) : Outcome (List Byte) :=
  let cbefore := s.cellsPerPatch * gpno d b patchno
  (if s.fits32 then ckInt (children p * (cbefore + 1)) else .ok (children p * (cbefore + 1))).bind
    fun k => offsetsLoop p s k s.cellsPerPatch

/-- vtk.c 360–378 (`write_types_cb`). -/
def typesCb (p : Params) (s : State) : List Byte :=
  List.replicate s.cellsPerPatch (match p.mz with | none => 9 | some _ => 12)

/-- vtk.c 380–394 (`write_mpirank_cb`) and 396–410 (`write_blockno_cb`): the
same `int` for all cells. -/
def sameIntCb (s : State) (v : Nat) : Outcome (List Byte) :=
  (ckInt v).bind fun v => .ok ((List.replicate s.cellsPerPatch (le 4 v)).flatten)

/-- vtk.c 412–441 (`write_patchno_cb`). -/
def patchnoCb {R : Type} (s : State) (d : Dom R) (b : LocalBlock R) (patchno : Nat) :
    Outcome (List Byte) :=
  (intEntry s (gpno d b patchno)).bind fun e =>
    .ok ((List.replicate s.cellsPerPatch e).flatten)

/-- vtk.c 780–851 (`fclaw2d_output_vtk_value_cb`): the Clawpack 4.6 layout.
Reading outside of the array is undefined behaviour. -/
def valueCb {R : Type} (N : Arith R) (p : Params) (pt : Patch R) : Outcome (List Byte) :=
  let xlane := p.mx + 2 * p.mbc
  let ylane := p.my + 2 * p.mbc
  cat ((kCells p).flatMap fun k => (List.range p.my).flatMap fun j =>
    (List.range p.mx).flatMap fun i => (List.range p.meqn).map fun m =>
      let idx := match p.mz with
        | none => (m * ylane + j + p.mbc) * xlane + i + p.mbc
        | some mz => m * (mz + 2 * p.mbc) * ylane * xlane + (k + p.mbc) * ylane * xlane
            + (j + p.mbc) * xlane + i + p.mbc
      match pt.q[idx]? with
      | some v => .ok (N.flt v)
      | none => .ub)

/-- The number that results when the count of a write of `n` bytes is passed as
an `int`: the lower 32 bits; `none` if it is negative. -/
def intCount (n : Nat) : Option Nat :=
  if n % 4294967296 ≤ intMax then some (n % 4294967296) else none

/-- vtk.c 203–219 (`write_buffer`) after a callback has put `data` into the
buffer of `psize` bytes.  A callback that writes past the buffer, or leaves part
of it uninitialised, is undefined behaviour.  With MPI I/O the size is passed as
an `int`; without, writing nothing is taken for a failure. -/
def writeBuffer (mpiio : Bool) (psize : Nat) (data : List Byte) : Outcome (List Byte) :=
  if data.length ≠ psize then .ub
  else if mpiio then
    match intCount psize with
    | none => .abort
    | some c => .ok (data.take c)
  else if psize = 0 then .abort else .ok data

/-- One of the eight arrays: where it begins, the size per patch, the callback
with the arguments `domain`, `blockno`, `domain->blocks[blockno]`, `patchno`,
`patch`. -/
structure Field (R : Type) where
  offset : Nat
  psize : Nat
  cb : Dom R → Nat → LocalBlock R → Nat → Patch R → Outcome (List Byte)

/-- vtk.c 539–555: the arrays in the order in which they are written. -/
def fields {R : Type} (N : Arith R) (p : Params) (s : State) : List (Field R) :=
  [ ⟨s.offsetPosition, s.psizePosition, fun _ blockno _ _ pt => .ok (coordinateCb N p blockno pt)⟩,
    ⟨s.offsetConnectivity, s.psizeConnectivity, fun d _ b patchno _ => connectivityCb p s d b patchno⟩,
    ⟨s.offsetOffsets, s.psizeOffsets, fun d _ b patchno _ => offsetsCb p s d b patchno⟩,
    ⟨s.offsetTypes, s.psizeTypes, fun _ _ _ _ _ => .ok (typesCb p s)⟩,
    ⟨s.offsetMpirank, s.psizeMpirank, fun d _ _ _ _ => sameIntCb s d.mpirank⟩,
    ⟨s.offsetBlockno, s.psizeBlockno, fun _ blockno _ _ _ => sameIntCb s blockno⟩,
    ⟨s.offsetPatchno, s.psizePatchno, fun d _ b patchno _ => patchnoCb s d b patchno⟩,
    ⟨s.offsetMeqn, s.psizeMeqn, fun _ _ _ _ pt => valueCb N p pt⟩ ]

/-- What one process writes for its patches: `fclaw2d_global_iterate_patches`
(`src/fclaw2d_global.c`, `src/forestclaw2d.c` 246–263) over the blocks and the
patches of each block. -/
def bodyOf {R : Type} (mpiio : Bool) (d : Dom R) (f : Field R) : Outcome (List Byte) :=
  catIdx (fun blockno b =>
    catIdx (fun patchno pt =>
      (f.cb d blockno b patchno pt).bind fun data => writeBuffer mpiio f.psize data)
      0 b.patches) 0 d.blocks

/-- vtk.c 455–518 (`fclaw2d_vtk_write_field`): the bytes this process writes,
one after the other; process 0 begins with the number of bytes of the array. -/
def fieldBytes {R : Type} (mpiio : Bool) (d : Dom R) (f : Field R) : Outcome (List Byte) :=
  (bodyOf mpiio d f).bind fun body =>
    .ok ((if d.mpirank = 0 then le ndsize (f.psize * d.globalNumPatches) else []) ++ body)

/-- vtk.c 476–483: where this process begins to write. -/
def fieldPos {R : Type} (mpibegin : Nat) (d : Dom R) (f : Field R) : Nat :=
  mpibegin + f.offset
    + (if d.mpirank > 0 then ndsize + f.psize * d.globalNumPatchesBefore else 0)

/-- vtk.c 505–517: the assertions of a debug build on the new position. -/
def debugOk {R : Type} (mpibegin : Nat) (d : Dom R) (f : Field R) (written : Nat) : Bool :=
  decide (written = (if d.mpirank = 0 then ndsize else 0)
      + (d.blocks.map fun b => b.patches.length).sum * f.psize) &&
  decide (d.mpirank + 1 < d.mpisize ∨
    fieldPos mpibegin d f + written
      = mpibegin + f.offset + ndsize + f.psize * d.globalNumPatches)

/-- `fclaw2d_vtk_write_data` with MPI I/O on one process, vtk.c 520–562: the
single-byte writes to all arrays. -/
def dataWrites {R : Type} (debug : Bool) (mpibegin : Nat) (d : Dom R) :
    List (Field R) → Outcome (List (Nat × Byte))
  | [] => .ok []
  | f :: fs => (fieldBytes true d f).bind fun bytes =>
      if debug = true ∧ debugOk mpibegin d f bytes.length = false then .abort
      else (dataWrites debug mpibegin d fs).bind fun ws =>
        .ok (writesAt (fieldPos mpibegin d f) bytes ++ ws)

/-- The writes of all processes. -/
def allWrites {R : Type} (debug : Bool) (mpibegin : Nat) (fs : List (Field R)) :
    List (Dom R) → Outcome (List (Nat × Byte))
  | [] => .ok []
  | d :: ds => (dataWrites debug mpibegin d fs).bind fun a =>
      (allWrites debug mpibegin fs ds).bind fun b => .ok (a ++ b)

/-- `MPI_File_preallocate`: the file has at least the given size. -/
def preallocate (f : File) (n : Nat) : File := { f with size := max f.size n }

/-- The empty file after `fopen (…, "wb")`. -/
def emptyFile : File := { size := 0, at_ := fun _ => none }

/-- vtk.c 593–697 (`fclaw2d_vtk_write_file`) in a build with MPI I/O.
`headerFails` and `footerFails` say whether process 0 cannot write header or
footer; all processes then return -1 (`.err 1`). -/
def writeFileMpiio {R : Type} (N : Arith R) (p : Params) (debug : Bool)
    (headerFails footerFails : Bool) (sched : List (Nat × Byte) → List (Nat × Byte))
    (globalNumPatches : Nat) (doms : List (Dom R)) : Outcome File :=
  (setup p globalNumPatches).bind fun s =>
    if headerFails then .err 1
    else
      let f0 := writeAt emptyFile 0 (headerText p s)
      let mpibegin := f0.size
      let f1 := preallocate f0 (mpibegin + s.offsetEnd)
      (allWrites debug mpibegin (fields N p s) doms).bind fun ws =>
        let f2 := applyWrites f1 (sched ws)
        if footerFails then .err 1
        else .ok (writeAt f2 f2.size footerText)

/-- What process 0 writes to its file without MPI I/O. -/
def dataSerial {R : Type} (d : Dom R) : List (Field R) → Outcome (List Byte)
  | [] => .ok []
  | f :: fs => (fieldBytes false d f).bind fun a =>
      (dataSerial d fs).bind fun b => .ok (a ++ b)

/-- The same function in a build without MPI I/O.  Only process 0 opens the file
(vtk.c 667–670); on the other processes `s->file` is not initialised, and
writing the first patch there is undefined behaviour. -/
def writeFileSerial {R : Type} (N : Arith R) (p : Params)
    (headerFails footerFails : Bool) (globalNumPatches : Nat) (doms : List (Dom R)) :
    Outcome File :=
  (setup p globalNumPatches).bind fun s =>
    if headerFails then .err 1
    else
      if doms.any (fun d => decide (d.mpirank > 0) && d.blocks.any fun b => !b.patches.isEmpty)
      then .ub
      else
        match doms with
        | [] => .ub
        | d :: _ =>
          (dataSerial d (fields N p s)).bind fun bytes =>
            if footerFails then .err 1
            else .ok (writeAt emptyFile 0 (headerText p s ++ bytes ++ footerText))

end Fclaw.Vtk

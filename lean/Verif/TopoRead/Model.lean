import Verif.Topo.Model
/-
Model of how GeoClaw reads a file with heights of the ground:

* src/solvers/fc2d_geoclaw/geolib_source/topo_module.f90: `read_topo_header` (case 1: 757-793, cases 2 and 3: 795-841) and
  `read_topo_file` (448-540, 659-663), called at lines 154-156 and 200-201.

Simplifications: numbers are real numbers without rounding. A text file is a list of records (lines), each of which is the list of the
numbers in it; how `parse_values` and list-directed input find the numbers in a line is not modelled. The sizes in the header are integers
already (`nint`). If `read` meets the end of the file, its variables keep their values (the standard leaves this open). A run that stops,
an end of file without `iostat`, an access outside of an array and a division by zero are `none`. Not modelled: NetCDF (case 4), messages.
-/
set_option autoImplicit false
namespace Fclaw.TopoRead

open Fort

noncomputable section

open Classical

/-- What `read_topo_header` returns. -/
structure Header where
  mx : ℤ
  my : ℤ
  xll : ℝ
  yll : ℝ
  xhi : ℝ
  yhi : ℝ
  dx : ℝ
  dy : ℝ

/-! ### Files with a position and a height in each line -/

/-- A line `x, y, z`. -/
structure Line where
  x : ℝ
  y : ℝ
  z : ℝ

/-- Lines 771-775: the loop over the first row, with `topo_size` and `mx`. It ends with the first line that has another `y`. -/
def firstRow (yhi : ℝ) : List Line → ℤ → ℤ → Option ((ℤ × ℤ) × Line × List Line)
  | [], _, _ => none
  | l :: ls, size, mx =>
    if yhi = l.y then firstRow yhi ls (size + 1) (mx + 1) else some ((size + 1, mx + 1), l, ls)

/-- Lines 778-782: the loop over the other lines. -/
def otherRows : Line → List Line → ℤ → Line × ℤ
  | last, [], size => (last, size)
  | _, l :: ls, size => otherRows l ls (size + 1)

/-- Case 1 of `read_topo_header` (lines 757-793). -/
def header1 : List Line → Option Header
  | [] => none
  | first :: lines =>
    (firstRow first.y lines 1 1).bind fun r =>
    let mx := r.1.2 - 1
    let e := otherRows r.2.1 r.2.2 r.1.1
    let my := e.2.tdiv mx
    let xhi := e.1.x
    let yll := e.1.y
    if mx - 1 = 0 ∨ my - 1 = 0 then none
    else some ⟨mx, my, first.x, yll, xhi, first.y, (xhi - first.x) / ((mx - 1 : ℤ) : ℝ), (first.y - yll) / ((my - 1 : ℤ) : ℝ)⟩

/-- `topo(i) = v`, with `topo(1:mx*my)`. -/
def put (n : ℤ) (topo : ℤ → ℝ) (i : ℤ) (v : ℝ) : Option (ℤ → ℝ) :=
  if 1 ≤ i ∧ i ≤ n then some (fun a => if a = i then v else topo a) else none

/-- One line (lines 458-475). -/
def read1Line (n : ℤ) (i : ℤ) (s : List Line × (ℤ → ℝ)) : Option (List Line × (ℤ → ℝ)) :=
  match s.1 with
  | [] => none
  | l :: ls => (put n s.2 i l.z).map fun t => (ls, t)

/-- Case 1 of `read_topo_file` (lines 453-477). -/
def read1 (mx my : ℤ) (lines : List Line) (topo : ℤ → ℝ) : Option (ℤ → ℝ) :=
  (doLoop 1 (mx * my) (read1Line (mx * my)) (lines, topo)).map fun s => s.2

/-! ### Files with a header -/

/-- The header: `mx`, `my`, the corner, whether the lines with the corner contain `xllcorner` and `yllcorner`, the values in the line with the
size of the cells and `no_data_value`. -/
structure Head where
  mx : ℤ
  my : ℤ
  xll : ℝ
  yll : ℝ
  xcorner : Bool
  ycorner : Bool
  cellsize : ℝ
  cellsize2 : Option ℝ
  noData : ℝ

/-- `dy` (lines 816-822) -/
def Head.dy (h : Head) : ℝ := match h.cellsize2 with
  | some d => d
  | none => h.cellsize

/-- Cases 2 and 3 of `read_topo_header` (lines 795-841). -/
def header23 (h : Head) : Header :=
  let dx := h.cellsize
  let dy := h.dy
  let xll := if h.xcorner then h.xll + 1 / 2 * dx else h.xll
  let yll := if h.ycorner then h.yll + 1 / 2 * dy else h.yll
  ⟨h.mx, h.my, xll, yll, xll + ((h.mx - 1 : ℤ) : ℝ) * dx, yll + ((h.my - 1 : ℤ) : ℝ) * dy, dx, dy⟩

/-- A list-directed `read` of `n` numbers: it uses as many lines as it needs; the rest of the last one is lost. -/
def readItems : ℕ → List (List ℝ) → Option (List ℝ × List (List ℝ))
  | _, [] => none
  | n, r :: rs =>
    if n ≤ r.length then some (r.take n, rs) else (readItems (n - r.length) rs).map fun p => (r ++ p.1, p.2)

/-- The state while heights are read: the lines that are left, `missing` and `topo`. -/
structure Reading where
  lines : List (List ℝ)
  missing : ℤ
  topo : ℤ → ℝ

/-- Is a value missing? (lines 499-504 and 511-520) -/
def replaceMissing (n : ℤ) (noData topoMissing : ℝ) (i : ℤ) (s : Reading) : Option Reading :=
  if 1 ≤ i ∧ i ≤ n then
    if s.topo i = noData then
      (put n s.topo i topoMissing).map fun t => { s with
        missing := s.missing + 1
        topo := t }
    else some s
  else none

/-- One value (lines 498-505). -/
def read2Value (n : ℤ) (noData topoMissing : ℝ) (i : ℤ) (s : Reading) : Option Reading :=
  (readItems 1 s.lines).bind fun r =>
  match r.1 with
  | [] => none
  | v :: _ => (put n s.topo i v).bind fun t =>
    replaceMissing n noData topoMissing i { s with
      lines := r.2
      topo := t }

/-- Case 2 (lines 497-508): one value in each line. -/
def read2 (mx my : ℤ) (noData topoMissing : ℝ) (s : Reading) : Option Reading :=
  doLoop 1 (mx * my) (read2Value (mx * my) noData topoMissing) s

/-- The assignment of the values of a row (line 511). -/
def putRow (n : ℤ) : List ℝ → ℤ → (ℤ → ℝ) → Option (ℤ → ℝ)
  | [], _, topo => some topo
  | v :: vs, i, topo => (put n topo i v).bind fun t => putRow n vs (i + 1) t

/-- Case 3 (lines 509-523): one row after the other. -/
def read3 (mx my : ℤ) (noData topoMissing : ℝ) (s : Reading) : Option Reading :=
  doLoop 1 my (fun j s =>
    (readItems mx.toNat s.lines).bind fun r =>
    (putRow (mx * my) r.1 ((j - 1) * mx + 1) s.topo).bind fun t =>
    doLoop 1 mx (fun i s => replaceMissing (mx * my) noData topoMissing ((j - 1) * mx + i) s) { s with
      lines := r.2
      topo := t }) s

/-- Lines 526-540: a file with missing values is refused if the default is to be used in their place. -/
def checkMissing (topoMissing : ℝ) (s : Reading) : Option (ℤ → ℝ) :=
  if s.missing > 0 ∧ topoMissing = 99999 then none else some s.topo

/-- Lines 659-663. -/
def negate (n : ℤ) (topo : ℤ → ℝ) : ℤ → ℝ := fun i => if 1 ≤ i ∧ i ≤ n then - topo i else topo i

/-! ### Both -/

/-- A file: `topo_type` 1, or 2 or 3 with header and lines. -/
inductive Contents where
  | xyz (lines : List Line)
  | column (head : Head) (lines : List (List ℝ))
  | rows (head : Head) (lines : List (List ℝ))

/-- `read_topo_header` -/
def Contents.header : Contents → Option Header
  | .xyz lines => header1 lines
  | .column h _ => some (header23 h)
  | .rows h _ => some (header23 h)

/-- `read_topo_file`, up to the sign -/
def Contents.heights (topoMissing : ℝ) (mx my : ℤ) (topo : ℤ → ℝ) : Contents → Option (ℤ → ℝ)
  | .xyz lines => read1 mx my lines topo
  | .column h lines => (read2 mx my h.noData topoMissing ⟨lines, 0, topo⟩).bind (checkMissing topoMissing)
  | .rows h lines => (read3 mx my h.noData topoMissing ⟨lines, 0, topo⟩).bind (checkMissing topoMissing)

/-- Lines 154-157 and 200-201, `negative` for `topo_type < 0`: a file as the rest of the program uses it; `topo` is what the memory held before. In
`topointegral.f` the part of `topowork` for this file is `zz(1:mx,1:my)`. -/
def readTopo (topoMissing : ℝ) (negative : Bool) (c : Contents) (topo : ℤ → ℝ) : Option Topo.File :=
  c.header.bind fun h =>
  (c.heights topoMissing h.mx h.my topo).map fun t =>
  let t := if negative then negate (h.mx * h.my) t else t
  ⟨h.mx.toNat, h.my.toNat, h.xll, h.xhi, h.yll, h.yhi, h.dx, h.dy, fun c => t ((c.2 - 1) * h.mx + c.1)⟩

end

end Fclaw.TopoRead

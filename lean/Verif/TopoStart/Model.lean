import Verif.Topo.Model
import Verif.Dtopo.Model
/-
Model of how the heights of the ground are prepared when a GeoClaw program starts, if there are files with displacements:

* src/solvers/fc2d_geoclaw/geolib_source/topo_module.f90: `read_topo_settings`, lines 127 and 160-279 (one array `topowork` for all
  files, with the position of each file in it; additional grids with the nodes of the files with displacements; the copy `topo0work`),
  and `set_topo_for_dtopo` (328-405)

Simplifications: numbers are real numbers without rounding. What `read_topo_file` and `read_topo_header` deliver is the input
(they are modelled in `TopoRead`). An element of an array without a value yet is `none`; using its value, an access outside of the
bounds of the array and a `stop` make the result `none`. Not modelled: a restart, output to a file, test topographies.
-/
set_option autoImplicit false
namespace Fclaw.TopoStart

open Fort

noncomputable section

/-- The files with topography, as they have been read, and those with displacements. -/
structure Input where
  files : Topo.Files
  moves : Dtopo.Moves

/-- `mtopofiles` (line 127) -/
def Input.n (I : Input) : ℕ := I.files.n + I.moves.n

/-- `mxtopo(i)`, `mytopo(i)`, `xlowtopo(i)`, …, `dytopo(i)` (lines 156-161, 168-183). Only the files that have been read have values here. -/
def Input.file (I : Input) (i : ℤ) : Topo.File :=
  if i ≤ (I.n : ℤ) - I.moves.n then I.files.file i
  else
    let m := I.moves.move (i - I.n + I.moves.n)
    ⟨m.mx, m.my, m.xlow, m.xhi, m.ylow, m.yhi, m.dx, m.dy, fun _ => 0⟩

/-- All grids. -/
def Input.all (I : Input) : Topo.Files := ⟨I.n, I.file⟩

/-- `mtopo(i)` (lines 161 and 179) -/
def Input.mtopo (I : Input) (i : ℤ) : ℤ := (I.file i).mx * (I.file i).my

/-- `topo0save(i)` (lines 167, 182 and 206-216), which is modelled in `Dtopo`. -/
def Input.save (I : Input) (i : ℤ) : ℤ :=
  (⟨I.moves, I.n, fun k =>
    ⟨(I.file k).mx, (I.file k).my, (I.file k).xlow, (I.file k).xhi, (I.file k).ylow, (I.file k).yhi, (I.file k).dx, (I.file k).dy,
      fun _ => 0⟩⟩ : Dtopo.Setup).save i

/-- `i0topo` (lines 187-192) or `i0topo0` (lines 265-270): the first is 1, and each file follows the one before. -/
def offsets (n : ℕ) (size : ℤ → ℤ) : ℤ → ℤ :=
  (range 2 n).foldl (fun a i => fun r => if r = i then a (i - 1) + size (i - 1) else a r) (fun r => if r = 1 then 1 else 0)

def Input.i0topo (I : Input) : ℤ → ℤ := offsets I.n I.mtopo
def Input.i0topo0 (I : Input) : ℤ → ℤ := offsets I.n fun i => I.mtopo i * I.save i

/-- `sum(mtopo)` (line 195) or `dot_product(mtopo,topo0save)` (line 266) -/
def total (n : ℕ) (size : ℤ → ℤ) : ℤ := (range 1 n).foldl (fun s i => s + size i) 0

def Input.mtoposize (I : Input) : ℤ := total I.n I.mtopo
def Input.mtopo0size (I : Input) : ℤ := total I.n fun i => I.mtopo i * I.save i

/-- `topowork` or `topo0work`; `none`: no value yet. -/
abbrev Mem := ℤ → Option ℝ

/-- The value of an element is used. -/
def get (size : ℤ) (w : Mem) (a : ℤ) : Option ℝ := if 1 ≤ a ∧ a ≤ size then w a else none

/-- An element is set, perhaps to something without a value. -/
def set (size : ℤ) (w : Mem) (a : ℤ) (v : Option ℝ) : Option Mem :=
  if 1 ≤ a ∧ a ≤ size then some (fun c => if c = a then v else w c) else none

/-- What `read_topo_file` leaves in element `b` of its argument `topo(1:mx*my)`: row by row. -/
def content (T : Topo.File) (b : ℤ) : ℝ := T.zz ((b - 1) % T.mx + 1, (b - 1) / T.mx + 1)

/-- An element of `topowork(i0topo(f):i0topo(f)+mtopo(f)-1)` is set (lines 201-202, 251-252). -/
def Input.setPart (I : Input) (f b : ℤ) (v : ℝ) (w : Mem) : Option Mem :=
  if 1 ≤ b ∧ b ≤ I.mtopo f then set I.mtoposize w (I.i0topo f + b - 1) (some v) else none

/-- Lines 198-202: file `f` is read. -/
def Input.readFile (I : Input) (f : ℤ) (w : Mem) : Option Mem :=
  doLoop 1 (I.mtopo f) (fun b w => I.setPart f b (content (I.files.file f) b) w) w

/-- Lines 372-398: interpolation between nodes of file `id`. -/
def Input.interp (I : Input) (w : Mem) (id : ℤ) (x y : ℝ) : Option ℝ :=
  let T := I.file id
  let itopo1 := ⌊(x - T.xlow) / T.dx⌋ + 1
  let itopo2 := ⌈(x - T.xlow) / T.dx⌉ + 1
  let jtopo1 := ⌊(T.yhi - y) / T.dy⌋ + 1
  let jtopo2 := ⌈(T.yhi - y) / T.dy⌉ + 1
  (get I.mtoposize w (I.i0topo id + (jtopo2 - 1) * T.mx + itopo1 - 1)).bind fun zll =>
  (get I.mtoposize w (I.i0topo id + (jtopo2 - 1) * T.mx + itopo2 - 1)).bind fun zlr =>
  (get I.mtoposize w (I.i0topo id + (jtopo1 - 1) * T.mx + itopo1 - 1)).bind fun zul =>
  (get I.mtoposize w (I.i0topo id + (jtopo1 - 1) * T.mx + itopo2 - 1)).bind fun zur =>
  let xl := T.xlow + ((itopo1 - 1 : ℤ) : ℝ) * T.dx
  let xr := xl + T.dx
  let yu := T.yhi - ((jtopo1 - 1 : ℤ) : ℝ) * T.dy
  let yl := yu - T.dy
  let z := zll * (xr - x) * (yu - y) + zlr * (x - xl) * (yu - y) + zul * (xr - x) * (y - yl) + zur * (x - xl) * (y - yl)
  some (z / (T.dx * T.dy))

/-- Lines 351-401: the loop over the files, from the finest one, for element `b` of grid `f` at the point `(x, y)`. It ends with the first file
that has data there. -/
def Input.search (I : Input) (f b : ℤ) (x y : ℝ) : List ℤ → Mem → Option Mem
  | [], w => some w
  | irank :: ranks, w =>
    let id := I.all.mtopoorder irank
    if id > (I.n : ℤ) - I.moves.n then I.search f b x y ranks w
    else if x > (I.file id).xhi ∨ x < (I.file id).xlow ∨ y > (I.file id).yhi ∨ y < (I.file id).ylow then I.search f b x y ranks w
    else (I.interp w id x y).bind fun z => I.setPart f b z w

/-- `set_topo_for_dtopo` (lines 328-405), called for grid `f` (lines 250-253). -/
def Input.setTopo (I : Input) (f : ℤ) (w : Mem) : Option Mem :=
  doLoop 1 (I.file f).my (fun j w =>
    let y := (I.file f).yhi - ((j - 1 : ℤ) : ℝ) * (I.file f).dy
    doLoop 1 (I.file f).mx (fun i w =>
      let x := (I.file f).xlow + ((i - 1 : ℤ) : ℝ) * (I.file f).dx
      let ij := (j - 1) * (I.file f).mx + i
      I.search f ij x y (range 1 I.n) w) w) w

/-- An element of `topowork`, for an assignment between arrays. -/
def copied (size : ℤ) (w : Mem) (a : ℤ) : Option (Option ℝ) := if 1 ≤ a ∧ a ≤ size then some (w a) else none

/-- Lines 273-276: the assignment of a part of `topowork` to one of `topo0work`. -/
def Input.copyFile (I : Input) (w : Mem) (f : ℤ) (w0 : Mem) : Option Mem :=
  if I.save f > 0 then
    doLoop 1 (I.mtopo f) (fun b w0 =>
      (copied I.mtoposize w (I.i0topo f + b - 1)).bind fun v => set I.mtopo0size w0 (I.i0topo0 f + b - 1) v) w0
  else some w0

/-- `topowork` and `topo0work`. -/
structure Started where
  work : Mem
  work0 : Mem

/-- Lines 194-279; the arrays have no values when they are allocated. -/
def Input.start (I : Input) : Option Started :=
  (doLoop 1 ((I.n : ℤ) - I.moves.n) I.readFile (fun _ => none)).bind fun w =>
  (doLoop ((I.n : ℤ) - I.moves.n + 1) I.n I.setTopo w).bind fun w =>
  if I.moves.n > 0 then (doLoop 1 I.n (I.copyFile w) (fun _ => none)).map fun w0 => ⟨w, w0⟩
  else some ⟨w, fun _ => none⟩

/-- `zz(i,j)` when a routine is called with the argument `topowork(i0topo(f))` and has declared it as `zz(1:mxtopo(f),1:mytopo(f))`
(topointegral.f:26, and its calls in topo_module.f90:1438 and 1461); column `i` and row `j`. -/
def Started.height (s : Started) (I : Input) (f i j : ℤ) : Option ℝ :=
  s.work (I.i0topo f + (j - 1) * (I.file f).mx + (i - 1))

/-- The initial height, as topo_update.f90:104 and 175 use it. -/
def Started.initial (s : Started) (I : Input) (f i j : ℤ) : Option ℝ :=
  s.work0 (I.i0topo0 f + (j - 1) * (I.file f).mx + (i - 1))

end

end Fclaw.TopoStart

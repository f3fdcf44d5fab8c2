import Verif.Dtopo.Model
import Verif.TopoRead.Model
/-
Model of how GeoClaw reads a file with displacements of the ground:

* src/solvers/fc2d_geoclaw/geolib_source/topo_module.f90: `read_dtopo_header` (1185-1304) and `read_dtopo` (1139-1182), called
  at lines 1083-1087 and 1127-1130.

Simplifications: as in Verif/TopoRead/Model.lean. The quotient for `dt` of a file with one time has denominator zero; it is 0 here (the program gets
a number that is not a number, which `topo_update` does not use for such a file). If `y` is used before it is set, the outcome is `none`.
-/
set_option autoImplicit false
namespace Fclaw.DtopoRead

open Fort TopoRead Dtopo

noncomputable section

open Classical

/-- A line `t, x, y, dz`. -/
structure Line where
  t : ℝ
  x : ℝ
  y : ℝ
  d : ℝ

/-- What `read_dtopo_header` returns. -/
structure Header where
  mx : ℤ
  my : ℤ
  mt : ℤ
  xlow : ℝ
  ylow : ℝ
  t0 : ℝ
  xhi : ℝ
  yhi : ℝ
  tf : ℝ
  dx : ℝ
  dy : ℝ
  dt : ℝ

/-- The variables after a loop: `my`, `topo_size`, the last line (`none` before the first one after the first line of the file), the lines that
are left and whether the end has been met (`status`). -/
structure After where
  my : ℤ
  size : ℤ
  last : Option Line
  rest : List Line
  eof : Bool

/-- The loop over the lines of the first time (lines 1240-1247), with `t.eq.t0` at its beginning. At the end of the file `t`, `x` and `y` are those of
the line before; `y` and `y_old` are equal then. -/
def firstTime (t0 : ℝ) : List Line → Option Line → ℝ → ℤ → ℤ → After
  | [], last, _, my, size => ⟨my, size + 1, last, [], true⟩
  | l :: ls, _, yOld, my, size =>
    let new := l.y ≠ yOld ∧ l.t = t0
    let my' := if new then my + 1 else my
    let yOld' := if new then l.y else yOld
    if l.t = t0 then firstTime t0 ls (some l) yOld' my' (size + 1) else ⟨my', size + 1, some l, ls, false⟩

/-- The loop over the other lines (lines 1249-1252): `topo_size` and the last line. -/
def otherTimes : List Line → Option Line → ℤ → ℤ × Option Line
  | [], last, size => (size + 1, last)
  | l :: ls, _, size => otherTimes ls (some l) (size + 1)

/-- Case 1 of `read_dtopo_header` (lines 1225-1268). -/
def header1 : List Line → Option Header
  | [] => none
  | first :: lines =>
    let a := firstTime first.t lines none first.y 1 1
    let mx := (a.size - 1).tdiv a.my
    let e := if a.eof then (a.size, a.last) else otherTimes a.rest a.last a.size
    e.2.bind fun l =>
    if a.my * mx = 0 then none
    else
      let mt := (e.1 - 1).tdiv (a.my * mx)
      if mx - 1 = 0 ∨ a.my - 1 = 0 then none
      else some ⟨mx, a.my, mt, first.x, l.y, first.t, l.x, first.y, l.t,
        (l.x - first.x) / ((mx - 1 : ℤ) : ℝ), (first.y - l.y) / ((a.my - 1 : ℤ) : ℝ), (l.t - first.t) / ((mt - 1 : ℤ) : ℝ)⟩

/-- Case 1 of `read_dtopo` (lines 1157-1161): a `read` that fails leaves the element as it was. -/
def read1Line (n : ℤ) (i : ℤ) (s : List Line × (ℤ → ℝ)) : Option (List Line × (ℤ → ℝ)) :=
  match s.1 with
  | [] => some s
  | l :: ls => (put n s.2 i l.d).map fun t => (ls, t)

def read1 (n : ℤ) (lines : List Line) (w : ℤ → ℝ) : Option (ℤ → ℝ) :=
  (doLoop 1 n (read1Line n) (lines, w)).map fun s => s.2

/-- The header of the other files: `mx`, `my`, `mt`, `xlow`, `ylow`, `t0`, `dx`, `dy`, `dt`. -/
structure Head where
  mx : ℤ
  my : ℤ
  mt : ℤ
  xlow : ℝ
  ylow : ℝ
  t0 : ℝ
  dx : ℝ
  dy : ℝ
  dt : ℝ

/-- Cases 2 and 3 (lines 1272-1286). -/
def header23 (h : Head) : Header :=
  ⟨h.mx, h.my, h.mt, h.xlow, h.ylow, h.t0, h.xlow + h.dx * ((h.mx - 1 : ℤ) : ℝ), h.ylow + h.dy * ((h.my - 1 : ℤ) : ℝ),
    h.t0 + h.dt * ((h.mt - 1 : ℤ) : ℝ), h.dx, h.dy, h.dt⟩

/-- Case 2 (lines 1168-1171). -/
def read2Value (n : ℤ) (i : ℤ) (s : List (List ℝ) × (ℤ → ℝ)) : Option (List (List ℝ) × (ℤ → ℝ)) :=
  (readItems 1 s.1).bind fun r =>
  match r.1 with
  | [] => none
  | v :: _ => (put n s.2 i v).map fun t => (r.2, t)

def read2 (n : ℤ) (lines : List (List ℝ)) (w : ℤ → ℝ) : Option (ℤ → ℝ) :=
  (doLoop 1 n (read2Value n) (lines, w)).map fun s => s.2

/-- Case 3 (lines 1177-1181). -/
def read3Row (mx my mt : ℤ) (k j : ℤ) (s : List (List ℝ) × (ℤ → ℝ)) : Option (List (List ℝ) × (ℤ → ℝ)) :=
  (readItems mx.toNat s.1).bind fun r =>
  (putRow (mx * my * mt) r.1 ((k - 1) * mx * my + (j - 1) * mx + 1) s.2).map fun t => (r.2, t)

def read3 (mx my mt : ℤ) (lines : List (List ℝ)) (w : ℤ → ℝ) : Option (ℤ → ℝ) :=
  (doLoop 1 mt (fun k s => doLoop 1 my (fun j s => read3Row mx my mt k j s) s) (lines, w)).map fun s => s.2

/-- A file: `dtopotype` 1, or 2 or 3 with header and lines. -/
inductive Contents where
  | txyz (lines : List Line)
  | column (head : Head) (lines : List (List ℝ))
  | rows (head : Head) (lines : List (List ℝ))

def Contents.header : Contents → Option Header
  | .txyz lines => header1 lines
  | .column h _ => some (header23 h)
  | .rows h _ => some (header23 h)

def Contents.values (mx my mt : ℤ) (w : ℤ → ℝ) : Contents → Option (ℤ → ℝ)
  | .txyz lines => read1 (mx * my * mt) lines w
  | .column _ lines => read2 (mx * my * mt) lines w
  | .rows _ lines => read3 mx my mt lines w

/-- Lines 1083-1087 and 1127-1130: a file as the rest of the program uses it; `w` is what the memory held before. -/
def readDtopo (c : Contents) (w : ℤ → ℝ) : Option Move :=
  c.header.bind fun h =>
  (c.values h.mx h.my h.mt w).map fun v =>
  { mx := h.mx.toNat
    my := h.my.toNat
    mt := h.mt.toNat
    xlow := h.xlow
    xhi := h.xhi
    ylow := h.ylow
    yhi := h.yhi
    t0 := h.t0
    tf := h.tf
    dx := h.dx
    dy := h.dy
    dt := h.dt
    work := v }

end

end Fclaw.DtopoRead

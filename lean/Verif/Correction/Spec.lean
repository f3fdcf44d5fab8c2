/-
What C36 claims: mass, and what a patch gains and loses through its faces.
-/
import Verif.Correction.Model
import Verif.CopyGhost.Spec
import Mathlib.Algebra.BigOperators.Group.Finset.Basic
import Mathlib.Data.Finset.Interval
import Mathlib.Order.Interval.Finset.Basic
import Mathlib.Data.Int.Interval

set_option autoImplicit false
namespace Fclaw.Correction

open Fort Transform CopyGhost

/-- The numbers `1, …, n`. -/
def upTo (n : Nat) : Finset ℤ := Finset.Icc 1 (n : ℤ)

/-- Cells along face `f`. -/
def len (d : Dims) (f : Nat) : Nat := if f / 2 = 0 then d.my else d.mx

/-- The cell inside the patch at place `t` of face `f`. -/
def cellAt (d : Dims) (f : Nat) (t : ℤ) : ℤ × ℤ :=
  if f = 0 then (1, t) else if f = 1 then ((d.mx : ℤ), t) else if f = 2 then (t, 1) else (t, (d.my : ℤ))

/-- Mass of component `m` in a patch. -/
def mass (d : Dims) (area : ℤ → ℤ → ℚ) (q : Grid ℚ) (m : ℤ) : ℚ :=
  ∑ i ∈ upTo d.mx, ∑ j ∈ upTo d.my, area i j * q (i, j, m)

/-- The accumulated fluctuation that moves right or up, at place `t` of face `f`; -/
def plus (r : Regs) (f : Nat) (t m : ℤ) : ℚ := if f / 2 = 0 then r.fp (f % 2) t m else r.gp (f % 2) t m

/-- … and the one that moves left or down. -/
def minus (r : Regs) (f : Nat) (t m : ℤ) : ℚ := if f / 2 = 0 then r.fm (f % 2) t m else r.gm (f % 2) t m

/-- What the patch has gained through place `t` of its face `f`, according to its registers. At a low face
the flux into the cell is the flux function in the cell, minus the fluctuation that entered the cell; at a
high face it is the flux function plus the fluctuation, and leaves the patch. -/
def gain (r : Regs) (f : Nat) (t m : ℤ) : ℚ :=
  if f % 2 = 0 then r.ef f t m 0 - plus r f t m else -(r.ef f t m 0 + minus r f t m)

/-- Through the whole face. -/
def gainFace (d : Dims) (r : Regs) (f : Nat) (m : ℤ) : ℚ := ∑ t ∈ upTo (len d f), gain r f t m

/-- The registers come from a conservative Riemann solver: the two fluctuations at a face add up to the
difference of the flux function on both sides. -/
def Balanced (d : Dims) (r : Regs) : Prop := ∀ f < 4, ∀ t ∈ upTo (len d f), ∀ m, comp d m →
  plus r f t m + minus r f t m =
    if f % 2 = 0 then r.ef f t m 0 - r.ef f t m 1 else r.ef f t m 1 - r.ef f t m 0

/-! ### Steps -/

/-- A patch's geometry: cell areas, capacities `area / (dx dy)`, sizes of the cells in the computational
domain. -/
structure Geom (d : Dims) where
  dx : ℚ
  dy : ℚ
  area : ℤ → ℤ → ℚ
  dxpos : 0 < dx
  dypos : 0 < dy
  areapos : ∀ i ∈ upTo d.mx, ∀ j ∈ upTo d.my, 0 < area i j

def Geom.capa {d : Dims} (G : Geom d) (i j : ℤ) : ℚ := G.area i j / (G.dx * G.dy)

/-- The registers hold the areas of the cells along the faces. -/
def HasAreas (d : Dims) (G : Geom d) (r : Regs) : Prop :=
  ∀ f < 4, ∀ t ∈ upTo (len d f), r.area f t = G.area (cellAt d f t).1 (cellAt d f t).2

/-- The Riemann solver is conservative. `φ k i j m` is the flux through face `k` of cell `(i, j)` as given by
the flux function in the cell, times the length of the edge. Fluctuations at an edge add up to the
difference of these on both sides; the fluxes of a constant state into a cell cancel; and along the faces of
the patch they are what the user's flux function returns. -/
structure Conservative (d : Dims) (G : Geom d) (rpn : Rpn) (q aux : Grid ℚ) (w : Waves) (el : Nat → ℤ → ℚ) : Prop where
  fluxes : ∃ φ : Nat → ℤ → ℤ → ℤ → ℚ, ∀ m, comp d m →
    (∀ i j : ℤ, 1 ≤ i → i ≤ d.mx + 1 → 1 ≤ j → j ≤ d.my →
      G.dy * (w.fm (i, j, m) - w.fp (i, j, m)) = φ 0 i j m - φ 1 (i - 1) j m) ∧
    (∀ i j : ℤ, 1 ≤ i → i ≤ d.mx → 1 ≤ j → j ≤ d.my + 1 →
      G.dx * (w.gm (i, j, m) - w.gp (i, j, m)) = φ 2 i j m - φ 3 i (j - 1) m) ∧
    (∀ i j : ℤ, 1 ≤ i → i ≤ d.mx → 1 ≤ j → j ≤ d.my → φ 0 i j m - φ 1 i j m + φ 2 i j m - φ 3 i j m = 0) ∧
    (∀ j : ℤ, 1 ≤ j → j ≤ d.my →
      φ 0 1 j m = el 0 j * rpn 0 0 (vec q 1 j) (vec aux 1 j) (vec aux 1 j) m ∧
      φ 1 0 j m = el 0 j * rpn 0 1 (vec q 0 j) (vec aux 0 j) (vec aux 1 j) m ∧
      φ 1 d.mx j m = el 1 j * rpn 0 1 (vec q d.mx j) (vec aux d.mx j) (vec aux (d.mx + 1) j) m ∧
      φ 0 (d.mx + 1) j m = el 1 j * rpn 0 0 (vec q (d.mx + 1) j) (vec aux (d.mx + 1) j) (vec aux (d.mx + 1) j) m) ∧
    (∀ i : ℤ, 1 ≤ i → i ≤ d.mx →
      φ 2 i 1 m = el 2 i * rpn 1 2 (vec q i 1) (vec aux i 1) (vec aux i 1) m ∧
      φ 3 i 0 m = el 2 i * rpn 1 3 (vec q i 0) (vec aux i 0) (vec aux i 1) m ∧
      φ 3 i d.my m = el 3 i * rpn 1 3 (vec q i d.my) (vec aux i d.my) (vec aux i (d.my + 1)) m ∧
      φ 2 i (d.my + 1) m = el 3 i * rpn 1 2 (vec q i (d.my + 1)) (vec aux i (d.my + 1)) (vec aux i (d.my + 1)) m)

/-- Histories of a patch between two synchronisations: any number of steps of any lengths, with whatever
ghost values before each of them. -/
inductive Evolves (d : Dims) (G : Geom d) (rpn : Rpn) (q0 : Grid ℚ) (r0 : Regs) : Grid ℚ → Regs → Prop
  | start : Evolves d G rpn q0 r0 q0 r0
  | step (q q' : Grid ℚ) (r : Regs) (dt : ℚ) (aux : Grid ℚ) (w : Waves) :
      Evolves d G rpn q0 r0 q r → (∀ i j m, interior d i j → q' (i, j, m) = q (i, j, m)) →
      Conservative d G rpn q' aux w r.el →
      Evolves d G rpn q0 r0 (step d rpn G.dx G.dy dt G.capa aux w q' r).1
        (step d rpn G.dx G.dy dt G.capa aux w q' r).2

/-! ### Neighbours of half the size -/

/-- Centre of the half-size patch number `g` next to `ip` across its face `f`, in the coordinates of the block
of `ip`. -/
def halfCentre (ip : Patch) (f g a : Nat) : ℚ :=
  ip.lower a + (if a = f / 2 then (if f % 2 = 1 then 5 / 4 else -1 / 4) else 1 / 4 + (g : ℚ) / 2) / 2 ^ ip.level

/-- `op` is that patch; `ft` is the transformation that the code has for the face. -/
structure HalfLink (d : Dims) (ft : Nat → Nat) (f g : Nat) (ip op : Patch) : Prop where
  level : ip.level + 1 = op.level
  latticeI : OnLattice ip
  latticeO : OnLattice op
  place : if ft 8 / 4 % 2 = 1 then valid false ft = true ∧ ∀ a ∈ axes false, patchCentre op (fun _ => 0) a = halfCentre ip f g a
    else Gluing false ft ∧ SizesMatch false ft (sizes d) ∧ ft 2 = f / 2 ∧ ft 8 / 2 = f % 2 ∧
      SamePoint false ft (halfCentre ip f g) (patchCentre op fun _ => 0)

/-- The neighbour's face. -/
def otherFace (ft : Nat → Nat) (f : Nat) : Nat :=
  if ft 8 / 4 % 2 = 1 then (if f % 2 = 0 then f + 1 else f - 1) else 2 * ft 5 + ft 8 % 2

/-- Is the other face counted backwards? -/
def backwards (ft : Nat → Nat) : Bool := decide (ft 8 / 4 % 2 ≠ 1 ∧ ft 6 ≠ 0)

/-- Places on the face of the coarse patch that touch the half-size patch number `g`. -/
def inHalf (n g : Nat) (t : ℤ) : Prop := (g : ℤ) * (n / 2) < t ∧ t ≤ ((g : ℤ) + 1) * (n / 2)

instance (n g : Nat) (t : ℤ) : Decidable (inHalf n g t) := by unfold inHalf; infer_instance

/-- The two places (`b = 0, 1`) on the fine patch's face that touch place `t` of the coarse one, of `n`. -/
def finePlace (ft : Nat → Nat) (n g : Nat) (t : ℤ) (b : ℤ) : ℤ :=
  let s := 2 * (t - g * (n / 2)) - 1 + b
  if backwards ft then n + 1 - s else s

/-- The place on the face of a neighbour of the same size. -/
def samePlace (ft : Nat → Nat) (n : Nat) (t : ℤ) : ℤ := if backwards ft then n + 1 - t else t

/-- `qtfi` in the mesh for this face (p4est): the face of the neighbour, up to a multiple of 4. -/
def MeshFace (ft : Nat → Nat) (f : Nat) (qtfi : ℤ) : Prop := qtfi % 4 = otherFace ft f

/-- `op` is the neighbour of the same size across face `f`. -/
def SameLink (d : Dims) (ft : Nat → Nat) (f : Nat) (ip op : Patch) : Prop :=
  FaceLink d ft f ip op ∧ (ft 8 / 4 % 2 ≠ 1 → ft 2 = f / 2 ∧ ft 8 / 2 = f % 2)

/-- Sizes for which this works: even, with at least two layers of ghost cells. -/
structure Sized (d : Dims) : Prop where
  mx : d.mx % 2 = 0
  my : d.my % 2 = 0
  mx2 : 2 ≤ d.mx
  my2 : 2 ≤ d.my
  mbc : 2 ≤ d.mbc

end Fclaw.Correction

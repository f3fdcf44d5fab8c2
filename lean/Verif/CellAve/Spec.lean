import Verif.CellAve.Model
/-
The edges of a cell that the discontinuity crosses.
-/
set_option autoImplicit false
set_option linter.unusedSectionVars false
namespace Fclaw.CellAve

variable {K : Type} [Field K] [LinearOrder K] [IsStrictOrderedRing K]

/-- The discontinuity separates two points. -/
def Separates (fdisc : Pt K → K) (p q : Pt K) : Prop := ¬ (fdisc p < 0 ↔ fdisc q < 0)

/-- On each edge of the cell that the discontinuity crosses, `find` gives a result with the property `R`. The edges are followed in the order of
the corners: lower left, upper left, upper right, lower right. -/
structure Found (find : (K → K) → Option K) (R : K → Prop) (fdisc : Pt K → K) (xlow ylow dx dy : K) : Prop where
  left : Separates fdisc (xlow, ylow) (xlow, ylow + dy) →
    ∃ s, find (fun s => fdisc (xlow + s * (xlow - xlow), ylow + s * (ylow + dy - ylow))) = some s ∧ R s
  top : Separates fdisc (xlow, ylow + dy) (xlow + dx, ylow + dy) →
    ∃ s, find (fun s => fdisc (xlow + s * (xlow + dx - xlow), ylow + dy + s * (ylow + dy - (ylow + dy)))) = some s ∧ R s
  right : Separates fdisc (xlow + dx, ylow + dy) (xlow + dx, ylow) →
    ∃ s, find (fun s => fdisc (xlow + dx + s * (xlow + dx - (xlow + dx)), ylow + dy + s * (ylow - (ylow + dy)))) = some s ∧ R s
  bottom : Separates fdisc (xlow + dx, ylow) (xlow, ylow) →
    ∃ s, find (fun s => fdisc (xlow + dx + s * (xlow - (xlow + dx)), ylow + s * (ylow - ylow))) = some s ∧ R s

/-- Opposite corners are on the same side, and the others on the other side. -/
def Saddle (fdisc : Pt K → K) (xlow ylow dx dy : K) : Prop :=
  (fdisc (xlow, ylow) < 0 ↔ fdisc (xlow + dx, ylow + dy) < 0) ∧ (fdisc (xlow, ylow + dy) < 0 ↔ fdisc (xlow + dx, ylow) < 0) ∧
    Separates fdisc (xlow, ylow) (xlow, ylow + dy)

end Fclaw.CellAve

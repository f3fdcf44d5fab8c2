import Mathlib.Algebra.Order.Field.Basic
import Mathlib.Algebra.Order.Group.Abs
/-
Model of src/fortran_source2d/cellave2.f: `cellave2` (1-96), `fss` (102-117) and `zeroin` (119-257), with which applications set the initial
values of cells that a discontinuity cuts.

Simplifications: numbers are those of any ordered field, without rounding; `eps`, which `zeroin` finds with a loop as the relative precision of the
machine, is therefore a parameter. The function `fdisc`, which the user supplies, gives a number for each point; the number of the
block is left out. A division by zero is an outcome of its own. `zeroin` has no limit for the number of steps: the result is asked for after any
number of them.
-/
set_option autoImplicit false
namespace Fclaw.CellAve

variable {K : Type} [Field K] [LinearOrder K] [IsStrictOrderedRing K]

/-- The variables of `zeroin`. -/
structure St (K : Type) where
  a : K
  b : K
  c : K
  d : K
  e : K
  fa : K
  fb : K
  fc : K

/-- Label 20 (`c = a`, …). -/
def at20 (s : St K) : St K := { s with c := s.a, fc := s.fa, d := s.b - s.a, e := s.b - s.a }

/-- Label 30: `b` becomes the better one of the two ends. -/
def at30 (s : St K) : St K :=
  if |s.fc| ≥ |s.fb| then s else { s with a := s.b, b := s.c, c := s.b, fa := s.fb, fb := s.fc, fc := s.fb }

/-- `tol1` (label 40) -/
def tol1 (eps tol b : K) : K := 2 * eps * |b| + 1 / 2 * tol

/-- `xm` -/
def St.xm (s : St K) : K := 1 / 2 * (s.c - s.b)

/-- A division; `none`: by zero. -/
def quot (x y : K) : Option K := if y = 0 then none else some (x / y)

/-- From "is quadratic interpolation possible" to label 60: `p` and `q`. -/
def interpolation (s : St K) : Option (K × K) :=
  if s.a ≠ s.c then
    (quot s.fa s.fc).bind fun q => (quot s.fb s.fc).bind fun r => (quot s.fb s.fa).bind fun t =>
      some (t * (2 * s.xm * q * (q - r) - (s.b - s.a) * (r - 1)), (q - 1) * (r - 1) * (t - 1))
  else (quot s.fb s.fa).bind fun t => some (2 * s.xm * t, 1 - t)

/-- Labels 60 and 70: the new `d` and `e`. -/
def accept (s : St K) (tol1 p q : K) : Option (K × K) :=
  let q := if p > 0 then -q else q
  let p := |p|
  if 2 * p ≥ 3 * s.xm * q - |tol1 * q| then some (s.xm, s.xm)
  else if p ≥ |1 / 2 * s.e * q| then some (s.xm, s.xm)
  else (quot p q).bind fun d => some (d, s.d)

/-- From "is bisection necessary" to label 80. -/
def correction (s : St K) (tol1 : K) : Option (K × K) :=
  if |s.e| < tol1 then some (s.xm, s.xm)
  else if |s.fa| ≤ |s.fb| then some (s.xm, s.xm)
  else (interpolation s).bind fun pq => accept s tol1 pq.1 pq.2

/-- The new `b` (label 80) -/
def newB (s : St K) (tol1 d : K) : K :=
  if |d| > tol1 then s.b + d else if s.xm ≥ 0 then s.b + tol1 else s.b - s.xm

/-- The rest of a step: evaluation of the function, and back to label 20 or 30. -/
def move (f : K → K) (s : St K) (tol1 d e : K) : Option (St K) :=
  let s' : St K := { s with a := s.b, fa := s.fb, b := newB s tol1 d, fb := f (newB s tol1 d), d := d, e := e }
  (quot s.fc |s.fc|).bind fun g => if s'.fb * g > 0 then some (at20 s') else some s'

/-- What `zeroin` has come to. -/
inductive Outcome (K : Type) where
  | value (x : K)
  | running
  | divisionByZero
  deriving DecidableEq

/-- `zeroin` from label 30 on, with at most `n` steps. -/
def run (f : K → K) (eps tol : K) : ℕ → St K → Outcome K
  | 0, _ => .running
  | n + 1, s =>
    let s := at30 s
    let t := tol1 eps tol s.b
    if |s.xm| ≤ t then .value s.b
    else if s.fb = 0 then .value s.b
    else match (correction s t).bind fun de => move f s t de.1 de.2 with
      | none => .divisionByZero
      | some s' => run f eps tol n s'

/-- The beginning of `zeroin`, to label 20. -/
def start (f : K → K) (ax bx : K) : St K := at20 ⟨ax, bx, ax, 0, 0, f ax, f bx, f ax⟩

/-- `zeroin(blockno, ax, bx, f, tol)` -/
def zeroin (eps : K) (n : ℕ) (f : K → K) (ax bx tol : K) : Outcome K := run f eps tol n (start f ax bx)

/-- A point of the plane. -/
abbrev Pt (K : Type) := K × K

/-- `xx(i)`, `yy(i)` -/
def corners (xlow ylow dx dy : K) : Pt K × Pt K × Pt K × Pt K :=
  ((xlow, ylow), (xlow, ylow + dy), (xlow + dx, ylow + dy), (xlow + dx, ylow))

/-- `fss`: `fdisc` along the line between two corners. -/
def fss (fdisc : Pt K → K) (p q : Pt K) (s : K) : K := fdisc (p.1 + s * (q.1 - p.1), p.2 + s * (q.2 - p.2))

/-- Lines 58-75, for corner `p` with the next corner `q`: points of the polygon; `find` is the call of `zeroin`. -/
def side (find : (K → K) → Option K) (fdisc : Pt K → K) (p q : Pt K) : Option (List (Pt K)) :=
  let fl := decide (fdisc p < 0)
  let fl' := decide (fdisc q < 0)
  let own := if fl then [p] else []
  if fl ≠ fl' then
    (find (fss fdisc p q)).bind fun ss => some (own ++ [(p.1 + ss * (q.1 - p.1), p.2 + ss * (q.2 - p.2))])
  else some own

/-- One term of the area (line 88) -/
def term (p q : Pt K) : K := 1 / 2 * (p.2 + q.2) * (q.1 - p.1)

/-- Lines 84-90: the sum over the points; after the last one comes the first one again. -/
def areaFrom (first : Pt K) : List (Pt K) → K
  | [] => 0
  | [p] => term p first
  | p :: q :: l => term p q + areaFrom first (q :: l)

/-- `cellave2`: the fraction of a cell for which `fdisc` is negative. -/
def cellave2 (find : (K → K) → Option K) (fdisc : Pt K → K) (xlow ylow dx dy : K) : Option K :=
  let P := corners xlow ylow dx dy
  let fl (p : Pt K) := decide (fdisc p < 0)
  if fl P.1 && fl P.2.1 && fl P.2.2.1 && fl P.2.2.2 then some 1
  else if !fl P.1 && !fl P.2.1 && !fl P.2.2.1 && !fl P.2.2.2 then some 0
  else
    (side find fdisc P.1 P.2.1).bind fun l1 => (side find fdisc P.2.1 P.2.2.1).bind fun l2 =>
    (side find fdisc P.2.2.1 P.2.2.2).bind fun l3 => (side find fdisc P.2.2.2 P.1).bind fun l4 =>
    match l1 ++ l2 ++ l3 ++ l4 with
    | [] => some 0
    | p :: l => some (areaFrom p (p :: l) / (dx * dy))

/-- The call of `zeroin` in line 70, with at most `n` steps. -/
def call (eps tol : K) (n : ℕ) (f : K → K) : Option K :=
  match zeroin eps n f 0 1 tol with
  | .value x => some x
  | _ => none

end Fclaw.CellAve

/-
Model of the patch diagnostics: conservation check and error norms.
`src/patches/clawpatch/fort_4.6/fclaw2d_clawpatch46_diagnostics.f`,
`src/patches/clawpatch/fclaw2d_clawpatch_diagnostics.c`,
`src/patches/clawpatch/fclaw2d_clawpatch_diagnostics_default.c` and
`src/fclaw2d_diagnostics.c` 122–207, in two dimensions.

What is simplified.
* Rational numbers instead of floating point numbers.  The second error norm is
  the number under the square root.
* `none` stands for an access outside of an array, a null pointer, and the failed
  assertion that the total area is not zero.
* The errors of the cells are given with the patch: they are computed by a user
  function.  Gauges, rays, solver and user diagnostics are separate.
* A global sum or maximum adds or compares the values of all processes.
-/
import Verif.Fort.Basic
import Mathlib.Data.Rat.Defs
import Mathlib.Algebra.Order.Ring.Rat

set_option autoImplicit false

namespace Fclaw.Diag

open Fclaw.Fort

/-- A patch.  `area` is `none` if the metric terms are not defined. -/
structure Patch where
  q : Grid ℚ
  error : Grid ℚ
  area : Option (ℤ → ℤ → ℚ)
  dx : ℚ
  dy : ℚ

/-- Options: `compute_error`, `conservation_check`; whether a mapping is used;
whether `fort_compute_patch_error` is set. -/
structure Opts where
  computeError : Bool
  conservation : Bool
  mapped : Bool
  patchError : Bool

/-- `error_info_t`, `src/patches/clawpatch/fclaw2d_clawpatch_diagnostics.h` 48–55.
C arrays, indexed from 0; `global_error` is part of the report. -/
structure Acc where
  localError : Nat → ℚ
  area : ℚ
  mass : Nat → ℚ
  mass0 : Nat → ℚ
  cKahan : Nat → ℚ

/-- `fclaw2d_clawpatch_diagnostics.c` 59–80. -/
def Acc.init : Acc :=
  { localError := fun _ => 0, area := 0, mass := fun _ => 0, mass0 := fun _ => 0,
    cKahan := fun _ => 0 }

/-- The index in a C array of an element `(m)` of a Fortran array. -/
def idx (m : ℤ) : Nat := (m - 1).toNat

/-- The index in a C array of an element `(m,k)` of the Fortran array
`error_norm(mfields,3)`, which is stored by columns. -/
def idx2 (mfields : Nat) (m k : ℤ) : Nat := (m - 1).toNat + (k - 1).toNat * mfields

/-- An assignment to an element of an array. -/
def setAt (a : Nat → ℚ) (k : Nat) (v : ℚ) : Nat → ℚ := fun k' => if k' = k then v else a k'

/-- The area of a cell: `fclaw2d_clawpatch46_diagnostics.f` 35–41. -/
def areaOf (o : Opts) (p : Patch) (i j : ℤ) : Option ℚ :=
  if o.mapped then
    match p.area with
    | some a => some (a i j)
    | none => none
  else some (p.dx * p.dy)

/-- `fclaw2d_clawpatch46_diagnostics.f` 39–50. -/
def consCell (o : Opts) (d : Dims) (p : Patch) (m i j : ℤ) (s : Acc) : Option Acc :=
  match areaOf o p i j, rd d p.q (i, j, m) with
  | some area, some q =>
    let y := q * area - s.cKahan (idx m)
    let t := s.mass (idx m) + y
    let c := (t - s.mass (idx m)) - y
    some { s with mass := setAt s.mass (idx m) t, cKahan := setAt s.cKahan (idx m) c }
  | _, _ => none

/-- `fclaw2d_clawpatch46_diagnostics.f` 13–55, called by
`fclaw2d_clawpatch_diagnostics_default.c` 57–92. -/
def consCheck (o : Opts) (d : Dims) (p : Patch) : Acc → Option Acc :=
  doLoop 1 d.meqn fun m => doLoop 1 d.my fun j => doLoop 1 d.mx fun i => consCell o d p m i j

/-- `fclaw2d_clawpatch46_diagnostics.f` 64–95. -/
def patchArea (o : Opts) (d : Dims) (p : Patch) : Option ℚ :=
  if o.mapped then
    doLoop 1 d.my (fun j => doLoop 1 d.mx fun i sum => (areaOf o p i j).map fun a => sum + a) 0
  else some (p.dx * p.dy * d.mx * d.my)

/-- `fclaw2d_clawpatch46_diagnostics.f` 129–147. -/
def errorCell (o : Opts) (d : Dims) (p : Patch) (m i j : ℤ) (s : Acc) : Option Acc :=
  match areaOf o p i j, rd d p.error (i, j, m) with
  | some area, some e =>
    let eij := |e|
    let n1 := setAt s.localError (idx2 d.meqn m 1) (s.localError (idx2 d.meqn m 1) + eij * area)
    let n2 := setAt n1 (idx2 d.meqn m 2) (n1 (idx2 d.meqn m 2) + eij ^ 2 * area)
    let n3 := setAt n2 (idx2 d.meqn m 3) (max eij (n2 (idx2 d.meqn m 3)))
    some { s with localError := n3 }
  | _, _ => none

/-- `fclaw2d_clawpatch46_diagnostics.f` 105–153, called by
`fclaw2d_clawpatch_diagnostics_default.c` 94–143. -/
def errorNorm (o : Opts) (d : Dims) (p : Patch) : Acc → Option Acc :=
  doLoop 1 d.meqn fun m => doLoop 1 d.my fun j => doLoop 1 d.mx fun i => errorCell o d p m i j

/-- `fclaw2d_clawpatch_diagnostics.c` 107–144 (`cb_compute_diagnostics`). -/
def cbCompute (o : Opts) (d : Dims) (p : Patch) (s : Acc) : Option Acc :=
  match patchArea o d p with
  | none => none
  | some a =>
    match (if o.computeError then
        (if o.patchError then errorNorm o d p { s with area := s.area + a }
          else some { s with area := s.area + a })
      else some { s with area := s.area + a }) with
    | none => none
    | some s1 => if o.conservation then consCheck o d p s1 else some s1

/-- `fclaw2d_clawpatch_diagnostics.c` 146–155. -/
def compute (o : Opts) (d : Dims) (ps : List Patch) (s : Acc) : Option Acc :=
  if o.computeError || o.conservation then loop ps (cbCompute o d) s else some s

/-- What is reported: total masses and their differences to the stored ones; the
error norms. -/
structure Report where
  mass : Nat → ℚ
  deviation : Nat → ℚ
  error1 : Nat → ℚ
  error2 : Nat → ℚ
  errorInf : Nat → ℚ

/-- `fclaw2d_domain_global_sum`, `src/forestclaw2d.c` 63–74. -/
def globalSum (xs : List ℚ) : ℚ := xs.foldr (· + ·) 0

/-- `fclaw2d_domain_global_maximum`, `src/forestclaw2d.c` 50–61; there is at least
one process. -/
def globalMax : List ℚ → ℚ
  | [] => 0
  | x :: xs => xs.foldl max x

/-- `fclaw2d_clawpatch_diagnostics.c` 159–224 on all processes, for the variables
below `meqn`. -/
def gather (o : Opts) (d : Dims) (init : Bool) (accs : List Acc) :
    Option (List Acc × Report) :=
  let totalArea := globalSum (accs.map (·.area))
  if o.computeError ∧ totalArea = 0 then none
  else
    let e1 := fun m => if o.computeError ∧ m < d.meqn then
      globalSum (accs.map fun a => a.localError m) / totalArea else 0
    let e2 := fun m => if o.computeError ∧ m < d.meqn then
      globalSum (accs.map fun a => a.localError (d.meqn + m)) / totalArea else 0
    let e3 := fun m => if o.computeError ∧ m < d.meqn then
      globalMax (accs.map fun a => a.localError (2 * d.meqn + m)) else 0
    let total := fun m => if o.conservation ∧ m < d.meqn then
      globalSum (accs.map fun a => a.mass m) else 0
    let accs' := accs.map fun a => { a with
      mass0 := fun m => if o.conservation ∧ init ∧ m < d.meqn then total m else a.mass0 m }
    let mass0 := fun m => match accs' with
      | a :: _ => a.mass0 m
      | [] => 0
    let dev := fun m => |total m - mass0 m|
    some (accs', { mass := total, deviation := dev, error1 := e1, error2 := e2, errorInf := e3 })

/-- `fclaw2d_clawpatch_diagnostics.c` 82–103. -/
def reset (d : Dims) (s : Acc) : Acc :=
  { s with
    localError := fun k => if k < 3 * d.meqn then 0 else s.localError k
    mass := fun k => if k < d.meqn then 0 else s.mass k
    cKahan := fun k => if k < d.meqn then 0 else s.cKahan k
    area := 0 }

/-- The computation on each process. -/
def computeAll (o : Opts) (d : Dims) : List (List Patch) → List Acc → Option (List Acc)
  | ps :: pss, a :: as =>
    match compute o d ps a, computeAll o d pss as with
    | some a', some as' => some (a' :: as')
    | _, _ => none
  | [], [] => some []
  | _, _ => none

/-- One call of `fclaw2d_diagnostics_gather`, `src/fclaw2d_diagnostics.c` 122–207,
on all processes: each has its patches. -/
def diagnostics (o : Opts) (d : Dims) (patches : List (List Patch)) (init : Bool)
    (accs : List Acc) : Option (List Acc × Report) :=
  match computeAll o d patches accs with
  | none => none
  | some accs1 =>
    match gather o d init accs1 with
    | none => none
    | some (accs2, r) => some (accs2.map (reset d), r)

/-- A call of the diagnostics in a run: the patches of each process at that time,
and `init_flag`. -/
structure Call where
  patches : List (List Patch)
  init : Bool

/-- The calls of a run, one after the other. -/
def runCalls (o : Opts) (d : Dims) : List Call → List Acc → Option (List Acc × List Report)
  | [], accs => some (accs, [])
  | c :: cs, accs =>
    match diagnostics o d c.patches c.init accs with
    | none => none
    | some (accs1, r) =>
      match runCalls o d cs accs1 with
      | none => none
      | some (accs2, rs) => some (accs2, r :: rs)

/-- A run on `n` processes. -/
def run (o : Opts) (d : Dims) (n : Nat) (cs : List Call) : Option (List Acc × List Report) :=
  runCalls o d cs (List.replicate n Acc.init)

end Fclaw.Diag

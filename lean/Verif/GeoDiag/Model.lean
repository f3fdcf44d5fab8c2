/-
Model of GeoClaw's conservation check:

* src/solvers/fc2d_geoclaw/fclaw2d_source/fc2d_geoclaw_diagnostics_fort.f:4-43 (below: "diag.f"), called by
  `fclaw2d_clawpatch_diagnostics_cons_default` (src/patches/clawpatch/fclaw2d_clawpatch_diagnostics_default.c:57-92)
  since fc2d_geoclaw.cpp:891.

What is simplified. Patches, areas and options are those of `Verif.Diag.Model`: rational numbers, `p.q (i, j, m)` stands
for `q(m,i,j)`. The caller passes `c_kahan` as a last argument, but the routine does not have it; it has a local variable
with this name, which has no value at first (`none`). Using it without a value, and access outside of an array, are
`none`.
-/
import Verif.Diag.Model

set_option autoImplicit false

namespace Fclaw.GeoDiag

open Fclaw.Fort
open Fclaw.Diag

/-- The sums, and `c_kahan`. -/
structure St where
  sum : Nat → ℚ
  c : Option ℚ

/-- diag.f:28-32. The indices of `q` are `(i,j,m)` although the array is `q(meqn,1-mbc:mx+mbc,1-mbc:my+mbc)`. -/
def mappedCell (d : Dims) (p : Patch) (m i j : ℤ) (s : St) : Option St :=
  match s.c, p.area, rd d p.q (j, m, i) with
  | some c, some area, some q =>
    let y := q * area i j - c
    let t := s.sum (idx m) + y
    some ⟨setAt s.sum (idx m) t, some ((t - s.sum (idx m)) - y)⟩
  | _, _, _ => none

/-- diag.f:38. -/
def plainCell (d : Dims) (p : Patch) (m i j : ℤ) (s : St) : Option St :=
  (rd d p.q (i, j, m)).map fun q => { s with sum := setAt s.sum (idx m) (s.sum (idx m) + q * p.dx * p.dy) }

/-- diag.f:23-42. -/
def checkLoops (mapped : Bool) (d : Dims) (p : Patch) : St → Option St :=
  doLoop 1 d.meqn fun m =>
    if mapped then doLoop 1 d.my fun j => doLoop 1 d.mx fun i => mappedCell d p m i j
    else doLoop 1 d.my fun j => doLoop 1 d.mx fun i => plainCell d p m i j

/-- `fc2d_geoclaw_fort_conservation_check`, diag.f:4-43. -/
def consCheck (mapped : Bool) (d : Dims) (p : Patch) (sum : Nat → ℚ) : Option (Nat → ℚ) :=
  (checkLoops mapped d p ⟨sum, none⟩).map St.sum

/-- All patches of a process, beginning with zero (src/patches/clawpatch/fclaw2d_clawpatch_diagnostics.c:59-80 and
104-172). -/
def consAll (mapped : Bool) (d : Dims) : List Patch → (Nat → ℚ) → Option (Nat → ℚ)
  | [], sum => some sum
  | p :: ps, sum => (consCheck mapped d p sum).bind (consAll mapped d ps)

end Fclaw.GeoDiag

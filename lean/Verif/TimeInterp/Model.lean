import Verif.Fort.Basic
import Mathlib.Data.Rat.Defs
/-
Model of the interpolation in time of a patch (2D, Clawpack 4.6 layout):

* src/patches/clawpatch/fort_4.6/fclaw2d_clawpatch46_timeinterp.f
* src/patches/clawpatch/fclaw2d_clawpatch.cpp:472-526: clawpatch_setup_timeinterp

Simplification: real numbers are rationals, without rounding. A failing assertion is `none`.
-/
set_option autoImplicit false
namespace Fclaw.TimeInterp

open Fort

/-- The interpolated solution, and `k`. -/
structure St where
  q : Grid ℚ
  k : ℤ

/-- timeinterp.f:42-44. -/
def cell (d : Dims) (qcurr qlast : Grid ℚ) (alpha : ℚ) (c : Cell) (s : St) : Option St :=
  (rd d qlast c).bind fun l => (rd d qcurr c).bind fun r =>
  (wr d s.q c (l + alpha * (r - l))).bind fun q => some ⟨q, s.k + 1⟩

/-- `fclaw2d_clawpatch46_fort_timeinterp`: the interpolated solution and `ierror`. -/
def timeinterp (d : Dims) (psize : ℤ) (qcurr qlast : Grid ℚ) (alpha : ℚ) (qinterp : Grid ℚ) : Option (Grid ℚ × ℤ) :=
  let mint : ℤ := d.mbc
  let at' := cell d qcurr qlast alpha
  (doLoop 1 d.meqn (fun m s =>
    (doLoop 1 (d.my - mint) (fun j => doLoop 1 mint fun i => at' (i, j, m)) s).bind fun s =>
    (doLoop 1 mint (fun j => doLoop (mint + 1) d.mx fun i => at' (i, j, m)) s).bind fun s =>
    (doLoop (mint + 1) d.my (fun j => doLoop (d.mx - mint + 1) d.mx fun i => at' (i, j, m)) s).bind fun s =>
    doLoop (d.my - mint + 1) d.my (fun j => doLoop 1 (d.mx - mint) fun i => at' (i, j, m)) s)
    ⟨qinterp, 1⟩).bind fun s =>
  some (s.q, if s.k - 1 ≠ psize then 2 else 0)

/-- The size that `clawpatch_setup_timeinterp` announces. `width` is the option interp_stencil_width. -/
def announced (d : Dims) (width : Nat) : Option ℤ :=
  let mint : ℤ := ((width / 2 + 1 : Nat) : ℤ)
  let hole := ((d.mx : ℤ) - 2 * mint) * (d.my - 2 * mint)
  let wg := (d.mx : ℤ) * d.my
  if hole < 0 then none
  else
    let psize := (wg - hole) * d.meqn
    if ¬ 0 < psize then none else some psize

/-- `clawpatch_setup_timeinterp`. `ierror` is not looked at afterwards. -/
def setupTimeinterp (d : Dims) (width : Nat) (qcurr qlast : Grid ℚ) (alpha : ℚ) (qinterp : Grid ℚ) :
    Option (Grid ℚ × ℤ) :=
  (announced d width).bind fun psize => timeinterp d psize qcurr qlast alpha qinterp

end Fclaw.TimeInterp

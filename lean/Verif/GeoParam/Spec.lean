/-
What geoclaw.data looks like.
-/
import Verif.GeoParam.Model

set_option autoImplicit false

namespace Fclaw.GeoParam.Spec

/-- A line: values, the mark and a description. -/
def entry (vals : List Tok) (note : List Tok) : List Tok := vals ++ Tok.mark :: note

/-- The lines of a file with these parameters: `note i` is the description of line `i`. The latitude is written only if
it is used, the coefficients of friction only with friction; `breaks` are the breaks without the last one. -/
def lines (p : Params) (breaks : List ℚ) (note : Nat → List Tok) : File :=
  [ entry [.real p.grav] (note 0), entry (p.rho.map .real) (note 1), entry [.real p.rhoAir] (note 2),
    entry [.real p.pressure] (note 3), entry [.real p.radius] (note 4), entry [.int p.system] (note 5),
    entry [.real p.seaLevel] (note 6), [], entry [.flag p.coriolis] (note 7) ] ++
  (if p.system = 1 ∧ p.coriolis = true then [entry [.real p.theta0] (note 8)] else []) ++
  [entry [.flag p.friction] (note 9)] ++
  (if p.friction = true then
    [ entry [.int p.manning.length] (note 10), entry (p.manning.map .real) (note 11),
      entry (breaks.map .real) (note 12), entry [.real p.depth] (note 13) ] else []) ++
  [ [], entry [.real p.dry] (note 14) ]

/-- What holds for parameters that a file can give: there is a density, unused parameters have their default values, and there is one break
less than there are coefficients. -/
structure Sound (inf : ℚ) (p : Params) (breaks : List ℚ) : Prop where
  rho : p.rho ≠ []
  theta : ¬ (p.system = 1 ∧ p.coriolis = true) → p.theta0 = 0
  off : p.friction = false → p.manning = [] ∧ p.breaks = [] ∧ p.depth = inf
  on : p.friction = true → p.breaks = breaks ++ [inf] ∧ p.manning.length = breaks.length + 1

/-- The coordinate system fits the capacity function. -/
def Fits (system mcapa : ℤ) : Prop := ¬ (system > 1 ∧ mcapa = 0) ∧ ¬ (system = 1 ∧ mcapa > 0)

end Fclaw.GeoParam.Spec

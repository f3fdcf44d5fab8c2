import Verif.Friction.Model
import Verif.Topo.Spec
/-
Vocabulary for C106: regions with friction coefficients that depend on the height of the ground.
-/
set_option autoImplicit false
namespace Fclaw.Friction

noncomputable section

/-- The centre of a cell. -/
def centre (P : Topo.Patch) (i j : ℤ) : ℝ × ℝ := (P.xlow + ((i : ℝ) - 1 / 2) * P.dx, P.ylow + ((j : ℝ) - 1 / 2) * P.dy)

/-- The points of a region: its boundaries in the west and south belong to the neighbours. -/
def Region.set (R : Region) : Set (ℝ × ℝ) := Set.Ioc R.xlo R.xhi ×ˢ Set.Ioc R.ylo R.yhi

/-- The heights, from the highest to the lowest, divide the line into intervals, each with one coefficient: `c` is the one for the height `h`. -/
def Region.Gives (R : Region) (h c : ℝ) : Prop :=
  ∃ (k : ℕ) (hi lo : EReal), R.depths[k]? = some hi ∧ R.depths[k + 1]? = some lo ∧ R.coefficients[k]? = some c ∧ lo ≤ h ∧ (h : EReal) < hi

/-- There is at least one interval, and one coefficient for each. -/
structure Region.Valid (R : Region) : Prop where
  down : R.depths.Pairwise (· ≥ ·)
  size : R.depths.length = R.coefficients.length + 1

/-- Region number `m` (from zero) says that the coefficient is `c` at the point `p` where the ground has the height `h` over sea level. -/
def Settings.Says (S : Settings) (p : ℝ × ℝ) (h : ℝ) (m : ℕ) (c : ℝ) : Prop := ∃ R, S.regions[m]? = some R ∧ p ∈ R.set ∧ R.Gives h c

/-- Valid data, without files. -/
structure Settings.Valid (S : Settings) (P : Topo.Patch) : Prop where
  useRegions : S.useRegions = true
  regions : ∀ R ∈ S.regions, R.Valid
  files : S.numFiles = 0
  index : 2 ≤ S.index ∧ S.index ≤ P.d.meqn

end

end Fclaw.Friction

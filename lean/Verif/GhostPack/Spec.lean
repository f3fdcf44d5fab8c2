import Verif.GhostPack.Model
import Verif.CopyGhost.Spec
/-
What a process needs to know about a patch of another process (C41).
-/
set_option autoImplicit false
namespace Fclaw.GhostPack

open Fort

/-- A ghost cell, or an interior cell among the outermost `w` layers. -/
def Outer (d : Dims) (w i j : ℤ) : Prop :=
  (1 - (d.mbc : ℤ) ≤ i ∧ i ≤ d.mx + d.mbc ∧ 1 - (d.mbc : ℤ) ≤ j ∧ j ≤ d.my + d.mbc) ∧
  (i ≤ w ∨ (d.mx : ℤ) - w < i ∨ j ≤ w ∨ (d.my : ℤ) - w < j)

/-- All values of the solution in ghost cells and in the outermost `2 mbc` layers; the areas of these cells,
if they are to be sent; all registers, if they are in use. -/
def Needed (d : Dims) (o : Opts) : Loc → Prop
  | .q i j mq => Outer d (2 * d.mbc) i j ∧ 1 ≤ mq ∧ mq ≤ d.meqn
  | .area i j => Outer d (2 * d.mbc) i j ∧ (o.packArea && o.manifold) = true
  | l => valid d l = true ∧ o.timeSync = true

/-- What the checks of the options let through (fclaw2d_clawpatch_options.c; see the model of options). -/
structure Accepted (d : Dims) (o : Opts) : Prop where
  ref : o.refratio = 2
  mbc : 2 * d.mbc ≤ d.mx
  pos : 1 ≤ d.mx ∧ 1 ≤ d.my ∧ 1 ≤ d.meqn

end Fclaw.GhostPack

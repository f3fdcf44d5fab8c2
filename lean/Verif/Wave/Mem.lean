import Verif.Fort.Loops
import Mathlib.Data.Rat.Defs
import Mathlib.Algebra.Order.Ring.Rat
/-
Programs that work on several Fortran arrays at once: one memory for all of them. An access outside of the
bounds of an array is `none`.
-/
set_option autoImplicit false
namespace Fclaw.Wave

open Fort

/-- The elements of the arrays of clawpack46_step2 and clawpack46_flux2: the solution `q`, `aux`, fluctuations
`fm`, `fp`, `gm`, `gp`; the pieces of `work`; and two scalars. -/
inductive Loc
  | q (i j m : ℤ) | aux (i j m : ℤ)
  | fm (i j m : ℤ) | fp (i j m : ℤ) | gm (i j m : ℤ) | gp (i j m : ℤ)
  | faddm (i m : ℤ) | faddp (i m : ℤ) | gaddm (i m k : ℤ) | gaddp (i m k : ℤ)
  | q1d (i m : ℤ) | dtdx1d (i : ℤ) | dtdy1d (i : ℤ) | aux1 (i m : ℤ) | aux2 (i m : ℤ) | aux3 (i m : ℤ)
  | wave (i m w : ℤ) | s (i w : ℤ) | amdq (i m : ℤ) | apdq (i m : ℤ) | cqxx (i m : ℤ) | bmasdq (i m : ℤ) | bpasdq (i m : ℤ)
  | cfl1d | cflgrid
  deriving DecidableEq

/-- Sizes. -/
structure Shape where
  mx : Nat
  my : Nat
  mbc : Nat
  meqn : Nat
  maux : Nat
  mwaves : Nat

/-- `maxm = max(mx,my)`, fc2d_clawpack46.cpp:307. -/
def Shape.maxm (z : Shape) : ℤ := max (z.mx : ℤ) z.my

/-- An index of a slice, `1-mbc:maxm+mbc`. -/
def Shape.inLine (z : Shape) (i : ℤ) : Prop := 1 - (z.mbc : ℤ) ≤ i ∧ i ≤ z.maxm + z.mbc
/-- A cell, `1-mbc:mx+mbc, 1-mbc:my+mbc`. -/
def Shape.inGrid (z : Shape) (i j : ℤ) : Prop :=
  (1 - (z.mbc : ℤ) ≤ i ∧ i ≤ z.mx + z.mbc) ∧ 1 - (z.mbc : ℤ) ≤ j ∧ j ≤ z.my + z.mbc
def Shape.eqn (z : Shape) (m : ℤ) : Prop := 1 ≤ m ∧ m ≤ z.meqn
def Shape.auxn (z : Shape) (m : ℤ) : Prop := 1 ≤ m ∧ m ≤ z.maux
def Shape.wav (z : Shape) (w : ℤ) : Prop := 1 ≤ w ∧ w ≤ z.mwaves

/-- The declared bounds: clawpack46_step2.f:22-39, clawpack46_flux2.f:64-82. -/
def Shape.has (z : Shape) : Loc → Prop
  | .q i j m => z.inGrid i j ∧ z.eqn m
  | .aux i j m => z.inGrid i j ∧ z.auxn m
  | .fm i j m => z.inGrid i j ∧ z.eqn m
  | .fp i j m => z.inGrid i j ∧ z.eqn m
  | .gm i j m => z.inGrid i j ∧ z.eqn m
  | .gp i j m => z.inGrid i j ∧ z.eqn m
  | .faddm i m => z.inLine i ∧ z.eqn m
  | .faddp i m => z.inLine i ∧ z.eqn m
  | .gaddm i m k => z.inLine i ∧ z.eqn m ∧ 1 ≤ k ∧ k ≤ 2
  | .gaddp i m k => z.inLine i ∧ z.eqn m ∧ 1 ≤ k ∧ k ≤ 2
  | .q1d i m => z.inLine i ∧ z.eqn m
  | .dtdx1d i => z.inLine i
  | .dtdy1d i => z.inLine i
  | .aux1 i m => z.inLine i ∧ z.auxn m
  | .aux2 i m => z.inLine i ∧ z.auxn m
  | .aux3 i m => z.inLine i ∧ z.auxn m
  | .wave i m w => z.inLine i ∧ z.eqn m ∧ z.wav w
  | .s i w => z.inLine i ∧ z.wav w
  | .amdq i m => z.inLine i ∧ z.eqn m
  | .apdq i m => z.inLine i ∧ z.eqn m
  | .cqxx i m => z.inLine i ∧ z.eqn m
  | .bmasdq i m => z.inLine i ∧ z.eqn m
  | .bpasdq i m => z.inLine i ∧ z.eqn m
  | .cfl1d => True
  | .cflgrid => True

instance (z : Shape) (l : Loc) : Decidable (z.has l) := by
  cases l <;> simp only [Shape.has, Shape.inGrid, Shape.inLine, Shape.eqn, Shape.auxn, Shape.wav] <;> infer_instance

abbrev Mem := Loc → ℚ
abbrev Prog := Mem → Option Mem

/-- Expressions. -/
def Ex := Mem → Option ℚ

def Ex.lit (v : ℚ) : Ex := fun _ => some v
/-- The value of an array element. -/
def rd (z : Shape) (l : Loc) : Ex := fun M => if z.has l then some (M l) else none
def Ex.lift (f : ℚ → ℚ → ℚ) (a b : Ex) : Ex := fun M => (a M).bind fun x => (b M).bind fun y => some (f x y)
def Ex.lift1 (f : ℚ → ℚ) (a : Ex) : Ex := fun M => (a M).bind fun x => some (f x)
instance : Add Ex := ⟨Ex.lift (· + ·)⟩
instance : Sub Ex := ⟨Ex.lift (· - ·)⟩
instance : Mul Ex := ⟨Ex.lift (· * ·)⟩
/-- Division by zero is not modelled. -/
instance : Div Ex := ⟨fun a b => fun M => (a M).bind fun x => (b M).bind fun y => if y = 0 then none else some (x / y)⟩
instance : Neg Ex := ⟨Ex.lift1 (- ·)⟩
instance : Max Ex := ⟨Ex.lift max⟩
def Ex.abs (a : Ex) : Ex := Ex.lift1 (fun x => |x|) a

/-- `l = e` -/
def asg (z : Shape) (l : Loc) (e : Ex) : Prog := fun M =>
  (e M).bind fun v => if z.has l then some (fun l' => if l' = l then v else M l') else none

/-- One after the other. -/
def seq : List Prog → Prog
  | [] => some
  | p :: ps => fun M => (p M).bind (seq ps)

/-- `if c then p` -/
def when (c : Bool) (p : Prog) : Prog := if c then p else some

end Fclaw.Wave

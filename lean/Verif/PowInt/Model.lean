/-
Model of the integer power routine, src/fclaw_math.c.
-/
set_option autoImplicit false
namespace Fclaw.PowInt

/-- The largest value of a 32-bit C `int`. -/
def intMax : Int := 2147483647
/-- The smallest value of a 32-bit C `int`. -/
def intMin : Int := -2147483648

/-- A product of two C `int`s. Signed overflow is undefined behaviour in C, so the
model returns `none` when the exact product does not fit (C11 6.5/5). -/
def cmul (a b : Int) : Option Int :=
  if intMin ≤ a * b ∧ a * b ≤ intMax then some (a * b) else none

/-- The `while (exp)` loop of `pow_int`, src/fclaw_math.c:41-49.
`exp & 1` is `exp % 2`, `exp >>= 1` is `exp / 2` (exp is non-negative, asserted on line 39).
Note that `base *= base` on line 48 is executed in every iteration, also in the last one. -/
def loop (result base : Int) (exp : Nat) : Option Int :=
  if _h : exp = 0 then some result
  else
    match (if exp % 2 = 1 then cmul result base else some result) with
    | none => none
    | some result' =>
      match cmul base base with
      | none => none
      | some base' => loop result' base' (exp / 2)
  termination_by exp
  decreasing_by omega

/-- `pow_int (base, exp)`, src/fclaw_math.c:34-52. `none` = undefined behaviour or failed
assertion `exp >= 0` (line 39). -/
def powInt (base : Int) (exp : Int) : Option Int :=
  if exp < 0 then none else loop 1 base exp.toNat

end Fclaw.PowInt

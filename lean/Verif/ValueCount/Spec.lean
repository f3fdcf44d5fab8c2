/-
Lines with values.
-/
import Verif.ValueCount.Model

set_option autoImplicit false

namespace Fclaw.ValueCount.Spec

/-- A value: some characters that are neither blank nor '='. -/
def IsValue (w : List Char) : Prop := w ≠ [] ∧ ∀ c ∈ w, c ≠ ' ' ∧ c ≠ '='

/-- A first value and more values, each behind a number of blanks (one more than the number given). -/
def text (w : List Char) (more : List (Nat × List Char)) : List Char :=
  w ++ more.flatMap fun p => List.replicate (p.1 + 1) ' ' ++ p.2

/-- The values, blanks (at least one), the mark and the name of the values. -/
def line (w : List Char) (more : List (Nat × List Char)) (gap : Nat) (name : List Char) : List Char :=
  text w more ++ List.replicate (gap + 1) ' ' ++ '=' :: ':' :: name

end Fclaw.ValueCount.Spec

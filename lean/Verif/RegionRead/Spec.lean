/-
What is written in regions.data.
-/
import Verif.RegionRead.Model
import Verif.DataFile.Spec

set_option autoImplicit false

namespace Fclaw.RegionRead.Spec

open Fclaw.DataFile

/-- Decimal digits. -/
def IsNumber (ds : List Char) : Prop := ds ≠ [] ∧ ∀ c ∈ ds, '0' ≤ c ∧ c ≤ '9'

/-- The number that digits denote. -/
def value (ds : List Char) : Nat := ds.foldl (fun n c => 10 * n + (c.toNat - 48)) 0

/-- A file: comments, a blank line, a line that begins with the number of regions, and the lines of the regions, with
blank lines anywhere between them. -/
structure Written {α : Type} (rec : Line → Option α) (f : List Line) (ds : List Char) (rs : List α) : Prop where
  few : (DataFile.Spec.comments f).length ≤ 1001
  number : IsNumber ds
  parts : ∃ b tail lines, DataFile.Spec.data f = b :: (ds ++ ' ' :: tail) :: lines ∧ DataFile.Spec.isBlank b = true ∧
    (DataFile.Spec.content lines).map rec = rs.map some
  count : value ds = rs.length

end Fclaw.RegionRead.Spec

import Verif.Rays.Model
import Verif.Search.Spec
/-
Vocabulary for C101.
-/
set_option autoImplicit false
namespace Fclaw.Rays

open Search (Forest)

/-- Is a function called at all? -/
def Table.Enabled (vt : Table) (c : Comp) (k : Kind) : Prop := vt.set c k = true ∧ (c = .user → vt.runUser ≠ 0)

section
variable {Q U : Type}

/-- The quadrants for which the callback is asked about a ray: all those whose ancestors were hit; with the number if it is a leaf. -/
def reached (hit : Q → Bool) : Forest Q → List (Q × Option Nat)
  | .nil => []
  | .leaf q n rest => (q, some n) :: reached hit rest
  | .node q kids rest => (q, none) :: ((if hit q then reached hit kids else []) ++ reached hit rest)

/-- Some process marks the ray. -/
def Marked (cb : Q → Option Nat → U → Answer) (W : List (Forest Q)) (u : U) : Prop :=
  ∃ F ∈ W, ∃ v ∈ reached (fun q => (cb q none u).hit) F, (cb v.1 v.2 u).mark = true

/-- The callback as one of `fclaw2d_domain_integrate_rays`. -/
def asIntersect (cb : Q → Option Nat → U → Answer) (q : Q) (n : Option Nat) (u : U) : Bool × ℚ := ((cb q n u).hit, (cb q n u).value)

open Classical in
/-- What is to be printed: for each ray in order its number and the sum of the contributions of all patches of all processes,
after a warning exactly if some process has marked it. -/
noncomputable def report (cb : Q → Option Nat → U → Answer) (W : List (Forest Q)) (defs : List (ℤ × U)) : List Line :=
  defs.flatMap fun d => (if Marked cb W d.2 then [Line.warning d.1] else []) ++
    [Line.value d.1 (Search.totalIntegral (asIntersect cb) W d.2)]

/-- The callback marks rays on leaves only, and does not miss a leaf on which it would. -/
def MarksLeaves (cb : Q → Option Nat → U → Answer) (u : U) : Forest Q → Prop
  | .nil => True
  | .leaf _ _ rest => MarksLeaves cb u rest
  | .node q kids rest => (cb q none u).mark = false ∧
      ((cb q none u).hit = false → ∀ l ∈ kids.leaves, (cb l.1 (some l.2) u).mark = false) ∧
      MarksLeaves cb u kids ∧ MarksLeaves cb u rest

end

end Fclaw.Rays

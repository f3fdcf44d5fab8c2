/-
C115: the conservation check of GeoClaw reports the amounts of water and momentum.
-/
import Verif.GeoDiag.Lemmas

set_option autoImplicit false
set_option linter.unusedVariables false

namespace Fclaw.GeoDiag

open Fclaw.Fort
open Fclaw.Diag

/-- Without a mapping, the check of some patches succeeds and reports the sum over all their cells of value times area,
for each component. `mass` is the specification of C53, here with the area `dx dy` of all cells. Missing: mappings, see
the two counterexamples. -/
theorem C115_total_partial (d : Dims) (ps : List Patch) :
    ∃ sum, consAll false d ps (fun _ => 0) = some sum ∧ ∀ m, m < d.meqn →
      sum m = (ps.map fun p => overCells d fun i j => p.dx * p.dy * p.q (i, j, m + 1)).sum := by
  have gen : ∀ (ps : List Patch) (s : Nat → ℚ), ∃ sum, consAll false d ps s = some sum ∧ ∀ m, m < d.meqn →
      sum m = s m + (ps.map fun p => overCells d fun i j => p.dx * p.dy * p.q (i, j, m + 1)).sum := by
    intro ps
    induction ps with
    | nil => intro s; exact ⟨s, rfl, fun m _ => by simp⟩
    | cons p ps ih =>
      intro s
      obtain ⟨sum, h1, h2⟩ := ih (fun m => if m < d.meqn then s m + mass plain d [p] m else s m)
      refine ⟨sum, ?_, ?_⟩
      · unfold consAll
        rw [consCheck_plain]
        exact h1
      · intro m hm
        rw [h2 m hm, if_pos hm, List.map_cons, List.sum_cons, ← add_assoc]
        congr 2
        simp only [mass, List.map_cons, List.map_nil, List.sum_cons, List.sum_nil, add_zero]
        rfl
  obtain ⟨sum, h1, h2⟩ := gen ps (fun _ => 0)
  exact ⟨sum, h1, fun m hm => by rw [h2 m hm, zero_add]⟩

/-- With a mapping, the check uses a variable without a value, whatever the patch. -/
theorem C115_value_counterexample (d : Dims) (p : Patch) (sum : Nat → ℚ) (hx : 1 ≤ d.mx) (hy : 1 ≤ d.my)
    (hm : 1 ≤ d.meqn) : consCheck true d p sum = none := by
  have r : ∀ n : Nat, 1 ≤ n → ∃ L, range 1 (n : ℤ) = 1 :: L := by
    intro n hn
    obtain ⟨k, rfl⟩ : ∃ k, n = k + 1 := ⟨n - 1, by omega⟩
    unfold range
    have : ((k + 1 : Nat) : ℤ) + 1 - 1 = ((k + 1 : Nat) : ℤ) := by ring
    rw [this, Int.toNat_natCast, List.range_succ_eq_map]
    exact ⟨_, by rw [List.map_cons]; rfl⟩
  obtain ⟨L1, e1⟩ := r d.meqn hm
  obtain ⟨L2, e2⟩ := r d.my hy
  obtain ⟨L3, e3⟩ := r d.mx hx
  unfold consCheck checkLoops
  simp only [if_true, doLoop, e1, e2, e3, loop, mappedCell, Option.bind_none, Option.map_none]

/-- Even if this variable had a value, the check would access memory outside of the solution as soon as there are more
cells in a row than components: indices are in the wrong order. -/
theorem C115_index_counterexample (d : Dims) (p : Patch) (s : St) (hx : d.meqn < d.mx) (hy : 1 ≤ d.my)
    (hm : 1 ≤ d.meqn) : checkLoops true d p s = none := by
  unfold checkLoops doLoop
  apply loop_none _ _ 1 ((mem_range _ _ _).2 (by omega))
  intro s
  simp only [if_true]
  apply loop_none _ _ 1 ((mem_range _ _ _).2 (by omega))
  intro s
  apply loop_none _ _ ((d.meqn : ℤ) + 1) ((mem_range _ _ _).2 (by omega))
  intro s
  have : rd d p.q (1, 1, (d.meqn : ℤ) + 1) = none := by
    unfold rd
    rw [if_neg]
    intro h
    rw [inBox_iff] at h
    obtain ⟨-, -, h⟩ := h
    omega
  unfold mappedCell
  rw [this]
  cases s.c <;> cases p.area <;> rfl

/-! ### The hypotheses can be met -/

/-- A patch with 2 × 2 cells of size 1/2 × 1, depth `i + j`, ghost cells with depth 100. -/
def patchX : Patch :=
  ⟨fun c => if 1 ≤ c.1 ∧ c.1 ≤ 2 ∧ 1 ≤ c.2.1 ∧ c.2.1 ≤ 2 then (if c.2.2 = 1 then c.1 + c.2.1 else 0) else 100,
    fun _ => 0, some fun _ _ => 1, 1 / 2, 1⟩

example : (consAll false ⟨2, 2, 1, 1⟩ [patchX, patchX] (fun _ => 0)).map (fun s => s 0) = some 12 := by decide +kernel
example : 1 ≤ (⟨4, 4, 2, 3⟩ : Dims).mx ∧ (⟨4, 4, 2, 3⟩ : Dims).meqn < (⟨4, 4, 2, 3⟩ : Dims).mx := by decide
/-- With as many components as cells in a row, the indices in the wrong order give a wrong amount: 4 in place of 5. -/
example : ((checkLoops true ⟨1, 2, 1, 1⟩ ⟨fun c => if c.2.1 = 1 then 2 else 3, fun _ => 0, some fun _ _ => 1, 1, 1⟩
    ⟨fun _ => 0, some 0⟩).map fun s => s.sum 0) = some 4 := by decide +kernel

end Fclaw.GeoDiag

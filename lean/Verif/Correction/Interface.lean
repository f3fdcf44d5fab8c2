/-
Corrections and mass.
-/
import Verif.Correction.Same
import Mathlib.Algebra.BigOperators.Ring.Finset
import Mathlib.Algebra.BigOperators.Group.Finset.Sigma

set_option autoImplicit false
set_option linter.unusedSimpArgs false
set_option linter.unusedVariables false
namespace Fclaw.Correction

open Fort Transform CopyGhost

variable {d : Dims}

/-! ### Sums along a face -/

theorem sum_pairs (k : Nat) (v : ℤ → ℚ) : ∑ s ∈ upTo k, (v (2 * s - 1) + v (2 * s)) = ∑ t ∈ upTo (2 * k), v t := by
  induction k with
  | zero => rw [upTo_zero]; simp [upTo_zero]
  | succ k ih =>
    rw [sum_upTo_succ, ih, show 2 * (k + 1) = 2 * k + 1 + 1 by omega, sum_upTo_succ, sum_upTo_succ]
    push_cast
    rw [show (2 : ℤ) * (k + 1) - 1 = 2 * k + 1 by ring, show (2 : ℤ) * (k + 1) = 2 * k + 1 + 1 by ring]
    ring

theorem sum_rev (n : Nat) (v : ℤ → ℚ) : ∑ t ∈ upTo n, v (n + 1 - t) = ∑ t ∈ upTo n, v t := by
  refine Finset.sum_nbij' (fun t => (n : ℤ) + 1 - t) (fun t => (n : ℤ) + 1 - t) ?_ ?_ ?_ ?_ ?_
  · intro t ht; rw [mem_upTo] at *; omega
  · intro t ht; rw [mem_upTo] at *; omega
  · intro t ht; omega
  · intro t ht; omega
  · intro t ht; rfl

theorem sum_half (n g : Nat) (hn : n % 2 = 0) (hg : g < 2) (v : ℤ → ℚ) :
    ∑ t ∈ upTo n, (if inHalf n g t then v t else 0) = ∑ s ∈ upTo (n / 2), v (s + (g : ℤ) * ((n : ℤ) / 2)) := by
  rw [← Finset.sum_filter]
  have hg' : g = 0 ∨ g = 1 := by omega
  refine Finset.sum_nbij' (fun t => t - (g : ℤ) * ((n : ℤ) / 2)) (fun s => s + (g : ℤ) * ((n : ℤ) / 2)) ?_ ?_ ?_ ?_ ?_
  · intro t ht
    rw [Finset.mem_filter, mem_upTo] at ht
    rw [mem_upTo]
    unfold inHalf at ht
    rcases hg' with rfl | rfl <;> push_cast at ht ⊢ <;> omega
  · intro s hs
    rw [mem_upTo] at hs
    rw [Finset.mem_filter, mem_upTo]
    unfold inHalf
    rcases hg' with rfl | rfl <;> push_cast at hs ⊢ <;> omega
  · intro t ht; omega
  · intro t ht; omega
  · intro t ht
    rw [sub_add_cancel]

/-- The fine places next to a half of the coarse face are all places of the fine face. -/
theorem sum_two (n g : Nat) (hn : n % 2 = 0) (hg : g < 2) (ft : Nat → Nat) (v : ℤ → ℚ) :
    ∑ t ∈ upTo n, (if inHalf n g t then two ft n g t v else 0) = ∑ t ∈ upTo n, v t := by
  rw [sum_half n g hn hg]
  have e : 2 * (n / 2) = n := by omega
  by_cases hb : backwards ft = true
  · have : ∀ s ∈ upTo (n / 2), two ft n g (s + (g : ℤ) * ((n : ℤ) / 2)) v =
        (fun t => v (n + 1 - t)) (2 * s - 1) + (fun t => v (n + 1 - t)) (2 * s) := by
      intro s hs
      unfold two finePlace
      simp only [hb, if_true]
      congr 2 <;> ring
    rw [Finset.sum_congr rfl this, sum_pairs (n / 2) (fun t => v (n + 1 - t)), e, sum_rev]
  · have : ∀ s ∈ upTo (n / 2), two ft n g (s + (g : ℤ) * ((n : ℤ) / 2)) v = v (2 * s - 1) + v (2 * s) := by
      intro s hs
      unfold two finePlace
      simp only [hb, Bool.false_eq_true, if_false]
      congr 2 <;> ring
    rw [Finset.sum_congr rfl this, sum_pairs (n / 2) v, e]

theorem sum_same (ft : Nat → Nat) (n : Nat) (v : ℤ → ℚ) : ∑ t ∈ upTo n, v (samePlace ft n t) = ∑ t ∈ upTo n, v t := by
  unfold samePlace
  by_cases hb : backwards ft = true
  · simp only [hb, if_true]
    exact sum_rev n v
  · simp only [hb, Bool.false_eq_true, if_false]

/-- Both halves together are the face. -/
theorem sum_halves (n : Nat) (hn : n % 2 = 0) (v : ℤ → ℚ) :
    ∑ t ∈ upTo n, (if inHalf n 0 t then v t else 0) + ∑ t ∈ upTo n, (if inHalf n 1 t then v t else 0) = ∑ t ∈ upTo n, v t := by
  rw [← Finset.sum_add_distrib]
  refine Finset.sum_congr rfl fun t ht => ?_
  rw [mem_upTo] at ht
  by_cases h : inHalf n 0 t
  · rw [if_pos h, if_neg, add_zero]
    unfold inHalf at *
    push_cast at *
    omega
  · rw [if_neg h, if_pos, zero_add]
    unfold inHalf at *
    push_cast at *
    omega

/-! ### Mass -/

/-- Adding `v t / area` along face `f` adds the sum of the `v t`. -/
theorem mass_add (hd : 1 ≤ d.mx ∧ 1 ≤ d.my) (f : Nat) (hf : f < 4) (area : ℤ → ℤ → ℚ)
    (hpos : ∀ i ∈ upTo d.mx, ∀ j ∈ upTo d.my, 0 < area i j) (q q' : Grid ℚ) (m : ℤ) (v : ℤ → ℚ)
    (h1 : ∀ t ∈ upTo (len d f), q' ((cellAt d f t).1, (cellAt d f t).2, m) = q ((cellAt d f t).1, (cellAt d f t).2, m) +
      v t / area (cellAt d f t).1 (cellAt d f t).2)
    (h2 : ∀ i j : ℤ, (¬ ∃ t ∈ upTo (len d f), (i, j) = cellAt d f t) → q' (i, j, m) = q (i, j, m)) :
    mass d area q' m - mass d area q m = ∑ t ∈ upTo (len d f), v t := by
  obtain ⟨hx, hy⟩ := hd
  unfold mass
  rw [← Finset.sum_sub_distrib]
  simp only [← Finset.sum_sub_distrib, ← mul_sub]
  have key : ∀ i ∈ upTo d.mx, ∀ j ∈ upTo d.my, area i j * (q' (i, j, m) - q (i, j, m)) =
      if f / 2 = 0 then (if i = (cellAt d f j).1 then v j else 0) else (if j = (cellAt d f i).2 then v i else 0) := by
    intro i hi j hj
    have hp := hpos i hi j hj
    rw [mem_upTo] at hi hj
    have hf' : f = 0 ∨ f = 1 ∨ f = 2 ∨ f = 3 := by omega
    have val : ∀ t ∈ upTo (len d f), (i, j) = cellAt d f t → area i j * (q' (i, j, m) - q (i, j, m)) = v t := by
      intro t ht e
      have := h1 t ht
      rw [← e] at this
      dsimp only at this
      rw [this]
      field_simp
      ring
    have non : (¬ ∃ t ∈ upTo (len d f), (i, j) = cellAt d f t) → area i j * (q' (i, j, m) - q (i, j, m)) = 0 := by
      intro h
      rw [h2 i j h]
      ring
    rcases hf' with rfl | rfl | rfl | rfl <;> simp only [Nat.reduceDiv, if_true, if_false, show ¬ (1 : Nat) = 0 by omega] <;>
      split
    · rename_i e
      refine val j (by rw [mem_upTo]; exact hj) ?_
      simp [cellAt] at e ⊢; exact e
    · rename_i e
      refine non ?_
      rintro ⟨t, ht, e'⟩
      simp [cellAt] at e e'
      exact e e'.1
    · rename_i e
      refine val j (by rw [mem_upTo]; exact hj) ?_
      simp [cellAt] at e ⊢; exact e
    · rename_i e
      refine non ?_
      rintro ⟨t, ht, e'⟩
      simp [cellAt] at e e'
      exact e e'.1
    · rename_i e
      refine val i (by rw [mem_upTo]; exact hi) ?_
      simp [cellAt] at e ⊢; exact e
    · rename_i e
      refine non ?_
      rintro ⟨t, ht, e'⟩
      simp [cellAt] at e e'
      exact e e'.2
    · rename_i e
      refine val i (by rw [mem_upTo]; exact hi) ?_
      simp [cellAt] at e ⊢; exact e
    · rename_i e
      refine non ?_
      rintro ⟨t, ht, e'⟩
      simp [cellAt] at e e'
      exact e e'.2
  rw [Finset.sum_congr rfl fun i hi => Finset.sum_congr rfl fun j hj => key i hi j hj]
  have hf' : f = 0 ∨ f = 1 ∨ f = 2 ∨ f = 3 := by omega
  have m1 : (1 : ℤ) ∈ upTo d.mx := by rw [mem_upTo]; omega
  have m2 : (d.mx : ℤ) ∈ upTo d.mx := by rw [mem_upTo]; omega
  have m3 : (1 : ℤ) ∈ upTo d.my := by rw [mem_upTo]; omega
  have m4 : (d.my : ℤ) ∈ upTo d.my := by rw [mem_upTo]; omega
  rcases hf' with rfl | rfl | rfl | rfl
  · rw [Finset.sum_comm]
    refine Finset.sum_congr rfl fun j hj => ?_
    simp [cellAt, m1]
  · rw [Finset.sum_comm]
    refine Finset.sum_congr rfl fun j hj => ?_
    simp [cellAt, m2]
  · refine Finset.sum_congr rfl fun j hj => ?_
    simp [cellAt, m3]
  · refine Finset.sum_congr rfl fun j hj => ?_
    simp [cellAt, m4]

end Fclaw.Correction

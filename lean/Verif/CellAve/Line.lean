import Verif.CellAve.Exact
/-
C110: the fraction for a straight line is exact.
-/
set_option autoImplicit false
set_option linter.unusedSimpArgs false
set_option linter.unusedVariables false
namespace Fclaw.CellAve

open MeasureTheory

/-- The area of the part of a cell on which a linear function is negative, from its values at the corners; both slopes are not zero. -/
theorem integral_line (A B C x0 x1 y0 y1 : ℝ) (hB : B ≠ 0) (hC : C ≠ 0) :
    (∫ x in x0..x1, ∫ y in y0..y1, if A + B * x + C * y < 0 then (1 : ℝ) else 0) =
      (neg (A + B * x1 + C * y1) ^ 2 - neg (A + B * x0 + C * y1) ^ 2 - neg (A + B * x1 + C * y0) ^ 2 + neg (A + B * x0 + C * y0) ^ 2) /
        (2 * B * C) := by
  have e : ∀ x, (∫ y in y0..y1, if A + B * x + C * y < 0 then (1 : ℝ) else 0) =
      neg (A + C * y1 + B * x) / C - neg (A + C * y0 + B * x) / C := by
    intro x
    rw [integral_step (A + B * x) C y0 y1 hC, sub_div]
    congr 3 <;> ring
  have hi : ∀ u : ℝ, IntervalIntegrable (fun x => neg (u + B * x) / C) volume x0 x1 := fun u =>
    ((neg_continuous.comp (by fun_prop)).div_const C).intervalIntegrable _ _
  simp only [e]
  rw [intervalIntegral.integral_sub (hi _) (hi _), intervalIntegral.integral_div, intervalIntegral.integral_div,
    integral_neg _ _ _ _ hB, integral_neg _ _ _ _ hB]
  have r1 : A + C * y1 + B * x1 = A + B * x1 + C * y1 := by ring
  have r2 : A + C * y1 + B * x0 = A + B * x0 + C * y1 := by ring
  have r3 : A + C * y0 + B * x1 = A + B * x1 + C * y0 := by ring
  have r4 : A + C * y0 + B * x0 = A + B * x0 + C * y0 := by ring
  rw [r1, r2, r3, r4]
  field_simp
  ring

/-- The same if the function does not depend on `y`. -/
theorem integral_line_x (A B x0 x1 y0 y1 : ℝ) (hB : B ≠ 0) :
    (∫ x in x0..x1, ∫ _y in y0..y1, if A + B * x < 0 then (1 : ℝ) else 0) = (y1 - y0) * ((neg (A + B * x1) - neg (A + B * x0)) / B) := by
  simp only [intervalIntegral.integral_const, smul_eq_mul]
  rw [intervalIntegral.integral_const_mul, integral_step A B x0 x1 hB]

/-- The same if the function does not depend on `x`. -/
theorem integral_line_y (A C x0 x1 y0 y1 : ℝ) (hC : C ≠ 0) :
    (∫ _x in x0..x1, ∫ y in y0..y1, if A + C * y < 0 then (1 : ℝ) else 0) = (x1 - x0) * ((neg (A + C * y1) - neg (A + C * y0)) / C) := by
  rw [integral_step A C y0 y1 hC, intervalIntegral.integral_const, smul_eq_mul]

/-- The area in terms of the values at the corners. -/
theorem area_corners (A B C x0 y0 dx dy : ℝ) (hx : 0 < dx) (hy : 0 < dy) (f1 f2 f3 f4 : ℝ) (e1 : f1 = A + B * x0 + C * y0)
    (e2 : f2 = A + B * x0 + C * (y0 + dy)) (e3 : f3 = A + B * (x0 + dx) + C * (y0 + dy)) (e4 : f4 = A + B * (x0 + dx) + C * y0) (w : ℝ)
    (h : f2 ≠ f1 → f4 ≠ f1 → w * (2 * (f4 - f1) * (f2 - f1)) = neg f3 ^ 2 - neg f2 ^ 2 - neg f4 ^ 2 + neg f1 ^ 2)
    (hx' : f2 = f1 → f4 ≠ f1 → w * (f4 - f1) = neg f4 - neg f1) (hy' : f4 = f1 → f2 ≠ f1 → w * (f2 - f1) = neg f2 - neg f1)
    (h0 : f4 = f1 → f2 = f1 → w = if f1 < 0 then 1 else 0) :
    w * (dx * dy) = ∫ x in x0..x0 + dx, ∫ y in y0..y0 + dy, if A + B * x + C * y < 0 then (1 : ℝ) else 0 := by
  have d2 : f2 - f1 = C * dy := by rw [e1, e2]; ring
  have d4 : f4 - f1 = B * dx := by rw [e1, e4]; ring
  by_cases hC : C = 0
  · have q2 : f2 = f1 := by rw [hC] at d2; linarith
    by_cases hB : B = 0
    · have q4 : f4 = f1 := by rw [hB] at d4; linarith
      rw [h0 q4 q2, e1, hB, hC]
      simp only [zero_mul, add_zero, intervalIntegral.integral_const, smul_eq_mul]
      ring
    · have q4 : f4 ≠ f1 := by
        intro q
        rw [q, sub_self] at d4
        exact mul_ne_zero hB hx.ne' d4.symm
      have := hx' q2 q4
      have i := integral_line_x A B x0 (x0 + dx) y0 (y0 + dy) hB
      subst hC
      simp only [zero_mul, add_zero] at e1 e4 ⊢
      rw [i, ← e1, ← e4, ← this, d4]
      field_simp
      ring
  · have q2 : f2 ≠ f1 := by
      intro q
      rw [q, sub_self] at d2
      exact mul_ne_zero hC hy.ne' d2.symm
    by_cases hB : B = 0
    · have q4 : f4 = f1 := by rw [hB] at d4; linarith
      have := hy' q4 q2
      have i := integral_line_y A C x0 (x0 + dx) y0 (y0 + dy) hC
      subst hB
      simp only [zero_mul, add_zero] at e1 e2 ⊢
      rw [i, ← e1, ← e2, ← this, d2]
      field_simp
      ring
    · have q4 : f4 ≠ f1 := by
        intro q
        rw [q, sub_self] at d4
        exact mul_ne_zero hB hx.ne' d4.symm
      have := h q2 q4
      rw [integral_line A B C x0 (x0 + dx) y0 (y0 + dy) hB hC, ← e1, ← e2, ← e3, ← e4, ← this, d4, d2]
      field_simp

end Fclaw.CellAve

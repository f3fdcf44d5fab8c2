import Verif.CellAve.Lemmas
import Verif.CellAve.Spec
import Mathlib.MeasureTheory.Integral.DivergenceTheorem
import Mathlib.MeasureTheory.Integral.IntervalIntegral.FundThmCalculus
import Mathlib.Analysis.Calculus.Deriv.Pow
import Mathlib.Analysis.Calculus.Deriv.Comp
import Mathlib.Analysis.Calculus.Deriv.Mul
import Mathlib.Analysis.Calculus.Deriv.Add
/-
Integrals for C110.
-/
set_option autoImplicit false
namespace Fclaw.CellAve

open MeasureTheory Set Filter Topology

/-- The negative part, with its sign. -/
noncomputable def neg (t : ℝ) : ℝ := min t 0

theorem neg_of_neg {t : ℝ} (h : t < 0) : neg t = t := min_eq_left h.le
theorem neg_of_nonneg {t : ℝ} (h : 0 ≤ t) : neg t = 0 := min_eq_right h

theorem neg_if (t : ℝ) : neg t = if t < 0 then t else 0 := by
  split_ifs with h
  · exact neg_of_neg h
  · exact neg_of_nonneg (not_lt.1 h)

theorem neg_continuous : Continuous neg := continuous_id.min continuous_const

theorem neg_deriv (t : ℝ) (h : t ≠ 0) : HasDerivAt neg (if t < 0 then 1 else 0) t := by
  rcases lt_or_gt_of_ne h with h | h
  · rw [if_pos h]
    refine (hasDerivAt_id t).congr_of_eventuallyEq ?_
    filter_upwards [Iio_mem_nhds h] with x hx
    exact neg_of_neg hx
  · rw [if_neg (not_lt.2 h.le)]
    refine (hasDerivAt_const t (0 : ℝ)).congr_of_eventuallyEq ?_
    filter_upwards [Ioi_mem_nhds h] with x hx
    exact neg_of_nonneg (le_of_lt hx)

theorem line_deriv (u c y : ℝ) : HasDerivAt (fun y => u + c * y) c y := by
  simpa using ((hasDerivAt_id y).const_mul c).const_add u

theorem countable_zero (u c : ℝ) (hc : c ≠ 0) : {y : ℝ | u + c * y = 0}.Countable := by
  refine (Set.countable_singleton (-u / c)).mono ?_
  intro y hy
  rw [Set.mem_singleton_iff, eq_div_iff hc]
  have : u + c * y = 0 := hy
  linarith

/-- The length of the part of an interval on which a linear function is negative. -/
theorem integral_step (u c a b : ℝ) (hc : c ≠ 0) :
    (∫ y in a..b, if u + c * y < 0 then (1 : ℝ) else 0) = (neg (u + c * b) - neg (u + c * a)) / c := by
  have hm : MeasurableSet {y : ℝ | u + c * y < 0} := (isOpen_lt (by fun_prop) continuous_const).measurableSet
  have hi : IntervalIntegrable (fun y => if u + c * y < 0 then (1 : ℝ) else 0) volume a b := by
    have e : (fun y => if u + c * y < 0 then (1 : ℝ) else 0) = Set.indicator {y : ℝ | u + c * y < 0} (fun _ => (1 : ℝ)) := by
      funext y
      simp [Set.indicator]
    rw [e, intervalIntegrable_iff]
    exact (integrableOn_const (by simp) (by simp)).indicator hm
  have := integral_eq_of_hasDerivAt_off_countable (fun y => neg (u + c * y) / c) (fun y => if u + c * y < 0 then (1 : ℝ) else 0)
    (a := a) (b := b) (countable_zero u c hc) (by
      refine Continuous.continuousOn ?_
      exact (neg_continuous.comp (by fun_prop)).div_const _) (by
      intro y hy
      have h := ((neg_deriv (u + c * y) hy.2).comp y (line_deriv u c y)).div_const c
      rwa [mul_div_assoc, div_self hc, mul_one] at h) hi
  rw [this, sub_div]

/-- The integral of the negative part. -/
theorem integral_neg (u c a b : ℝ) (hc : c ≠ 0) :
    (∫ y in a..b, neg (u + c * y)) = (neg (u + c * b) ^ 2 - neg (u + c * a) ^ 2) / (2 * c) := by
  have := integral_eq_of_hasDerivAt_off_countable (fun y => neg (u + c * y) ^ 2 / (2 * c)) (fun y => neg (u + c * y))
    (a := a) (b := b) (countable_zero u c hc) (by
      refine Continuous.continuousOn ?_
      exact ((neg_continuous.comp (by fun_prop)).pow 2).div_const _) (by
      intro y hy
      have h := (((neg_deriv (u + c * y) hy.2).comp y (line_deriv u c y)).pow 2).div_const (2 * c)
      refine h.congr_deriv ?_
      simp only [Function.comp]
      by_cases hn : u + c * y < 0
      · rw [if_pos hn]
        field_simp
        simp
      · rw [if_neg hn, neg_of_nonneg (not_lt.1 hn)]
        simp) ((neg_continuous.comp (by fun_prop)).intervalIntegrable _ _)
  rw [this, sub_div]

end Fclaw.CellAve

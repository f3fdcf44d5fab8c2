import Verif.Topo.Spec
import Mathlib.Analysis.SpecialFunctions.Integrals.Basic
import Mathlib.MeasureTheory.Integral.IntervalIntegral.FundThmCalculus
/-
Integrals over rectangles.
-/
set_option autoImplicit false
namespace Fclaw.Topo

open MeasureTheory

theorem rect_ae (a b c d : ℝ) :
    (Set.Ioc a b ×ˢ Set.Ioc c d : Set (ℝ × ℝ)) =ᵐ[volume] Set.Icc a b ×ˢ Set.Icc c d :=
  Measure.set_prod_ae_eq Ioc_ae_eq_Icc Ioc_ae_eq_Icc

theorem continuous_integrableOn {f : ℝ × ℝ → ℝ} (hf : Continuous f) (a b c d : ℝ) :
    IntegrableOn f (Set.Icc a b ×ˢ Set.Icc c d) :=
  hf.continuousOn.integrableOn_compact (isCompact_Icc.prod isCompact_Icc)

theorem continuous_integrableOn_Ioc {f : ℝ × ℝ → ℝ} (hf : Continuous f) (a b c d : ℝ) :
    IntegrableOn f (Set.Ioc a b ×ˢ Set.Ioc c d) :=
  (continuous_integrableOn hf a b c d).mono_set
    (Set.prod_mono Set.Ioc_subset_Icc_self Set.Ioc_subset_Icc_self)

theorem integral_split (a b c d : ℝ) (f g : ℝ → ℝ) :
    ∫ p in Set.Ioc a b ×ˢ Set.Ioc c d, f p.1 * g p.2 =
      (∫ x in Set.Ioc a b, f x) * ∫ y in Set.Ioc c d, g y :=
  setIntegral_prod_mul (μ := volume) (ν := volume) f g _ _

theorem integral_affine (a b x1 A B : ℝ) (h : a ≤ b) :
    ∫ x in Set.Ioc a b, (A + B * (x - x1)) = A * (b - a) + B * (1 / 2 * ((b - x1) ^ 2 - (a - x1) ^ 2)) := by
  rw [← intervalIntegral.integral_of_le h]
  rw [intervalIntegral.integral_eq_sub_of_hasDerivAt
    (f := fun x => A * x + B * (1 / 2 * (x - x1) ^ 2))]
  · ring
  · intro x _
    have h1 : HasDerivAt (fun x : ℝ => x - x1) 1 x := (hasDerivAt_id x).sub_const x1
    have h2 := h1.pow 2
    have h3 := ((hasDerivAt_id x).const_mul A).add ((h2.const_mul (1 / 2 : ℝ)).const_mul B)
    refine h3.congr_deriv ?_
    push_cast
    ring
  · apply Continuous.intervalIntegrable
    fun_prop

theorem integral_weight_cos (c d k K : ℝ) (hk : k ≠ 0) (h : c ≤ d) :
    ∫ y in Set.Ioc c d, K * Real.cos (y * k) = K * ((Real.sin (k * d) - Real.sin (k * c)) / k) := by
  rw [← intervalIntegral.integral_of_le h]
  rw [intervalIntegral.integral_eq_sub_of_hasDerivAt
    (f := fun y => K * (Real.sin (k * y) / k))]
  · ring
  · intro y _
    have h1 : HasDerivAt (fun y : ℝ => k * y) k y := by
      simpa using (hasDerivAt_id y).const_mul k
    have h3 := ((h1.sin).div_const k).const_mul K
    refine h3.congr_deriv ?_
    rw [mul_comm y k]
    field_simp
  · apply Continuous.intervalIntegrable
    fun_prop

theorem integral_moment_cos (c d y1 k K : ℝ) (hk : k ≠ 0) (h : c ≤ d) :
    ∫ y in Set.Ioc c d, (y - y1) * (K * Real.cos (y * k)) =
      K * (((d - y1) * Real.sin (k * d) / k + Real.cos (k * d) / k ^ 2)
        - ((c - y1) * Real.sin (k * c) / k + Real.cos (k * c) / k ^ 2)) := by
  rw [← intervalIntegral.integral_of_le h]
  rw [intervalIntegral.integral_eq_sub_of_hasDerivAt
    (f := fun y => K * ((y - y1) * Real.sin (k * y) / k + Real.cos (k * y) / k ^ 2))]
  · ring
  · intro y _
    have h1 : HasDerivAt (fun y : ℝ => k * y) k y := by
      simpa using (hasDerivAt_id y).const_mul k
    have h0 : HasDerivAt (fun y : ℝ => y - y1) 1 y := (hasDerivAt_id y).sub_const y1
    have h3 := (((h0.mul h1.sin).div_const k).add (h1.cos.div_const (k ^ 2))).const_mul K
    refine h3.congr_deriv ?_
    rw [mul_comm y k]
    field_simp
    ring
  · apply Continuous.intervalIntegrable
    fun_prop

/-- A bilinear function times a function of `y`. -/
theorem integral_bilinear (a b c d x1 y1 A B C D : ℝ) (e : ℝ → ℝ) (he : Continuous e) (h : a ≤ b) :
    ∫ p in Set.Ioc a b ×ˢ Set.Ioc c d,
      ((A + B * (p.1 - x1)) + (C + D * (p.1 - x1)) * (p.2 - y1)) * e p.2 =
    (A * (b - a) + B * (1 / 2 * ((b - x1) ^ 2 - (a - x1) ^ 2))) * (∫ y in Set.Ioc c d, e y)
    + (C * (b - a) + D * (1 / 2 * ((b - x1) ^ 2 - (a - x1) ^ 2))) * (∫ y in Set.Ioc c d, (y - y1) * e y) := by
  have e1 : (fun p : ℝ × ℝ => ((A + B * (p.1 - x1)) + (C + D * (p.1 - x1)) * (p.2 - y1)) * e p.2)
      = fun p => (fun x => A + B * (x - x1)) p.1 * e p.2
        + (fun x => C + D * (x - x1)) p.1 * (fun y => (y - y1) * e y) p.2 := by
    funext p; ring
  rw [e1, integral_add, integral_split a b c d (fun x => A + B * (x - x1)) e,
    integral_split a b c d (fun x => C + D * (x - x1)) (fun y => (y - y1) * e y),
    integral_affine _ _ _ _ _ h, integral_affine _ _ _ _ _ h]
  · exact continuous_integrableOn_Ioc (by fun_prop) a b c d
  · exact continuous_integrableOn_Ioc (by fun_prop) a b c d

end Fclaw.Topo

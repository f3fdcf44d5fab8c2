import Verif.Mapping.Five
import Mathlib.Analysis.Convex.Deriv
import Mathlib.Analysis.SpecialFunctions.Trigonometric.ArctanDeriv
import Mathlib.Analysis.SpecialFunctions.Pow.Continuity
import Mathlib.Topology.Order.IntermediateValue
/-
The squared disk: one-to-one and onto.
-/
set_option autoImplicit false
set_option linter.unusedVariables false
namespace Fclaw.Mapping

noncomputable section

open Real

theorem tan_strictConvex : StrictConvexOn ℝ (Set.Icc 0 (π / 4)) Real.tan := by
  have hp := Real.pi_pos
  apply StrictMonoOn.strictConvexOn_of_deriv (convex_Icc 0 (π / 4))
  · apply Real.continuousOn_tan_Ioo.mono
    intro x hx
    exact ⟨by linarith [hx.1], by linarith [hx.2]⟩
  · rw [interior_Icc]
    intro x hx y hy hxy
    rw [Real.deriv_tan, Real.deriv_tan]
    have c1 : Real.cos y < Real.cos x :=
      Real.cos_lt_cos_of_nonneg_of_le_pi_div_two hx.1.le (by linarith [hy.2]) hxy
    have c2 : 0 < Real.cos y := Real.cos_pos_of_mem_Ioo ⟨by linarith [hy.1], by linarith [hy.2]⟩
    apply one_div_lt_one_div_of_lt (by positivity)
    nlinarith

theorem tq_zero : tq 0 = 0 := by unfold tq; simp

/-- The tangent is below the straight line. -/
theorem tq_lt {u : ℝ} (h0 : 0 < u) (h1 : u < 1) : tq u < u := by
  have hp := Real.pi_pos
  have hm0 : (0 : ℝ) ∈ Set.Icc 0 (π / 4) := ⟨le_refl _, by linarith⟩
  have hm1 : π / 4 ∈ Set.Icc 0 (π / 4) := ⟨by linarith, le_refl _⟩
  have hne : (0 : ℝ) ≠ π / 4 := by linarith
  have hu : 0 < 1 - u := by linarith
  have := tan_strictConvex.2 hm0 hm1 hne hu h0 (by ring)
  simp only [smul_eq_mul, mul_zero, zero_add, Real.tan_zero, Real.tan_pi_div_four, mul_one] at this
  unfold tq
  rw [mul_comm]
  exact this

theorem tq_le {u : ℝ} (h0 : 0 ≤ u) (h1 : u ≤ 1) : tq u ≤ u := by
  rcases eq_or_lt_of_le h0 with rfl | h0
  · rw [tq_zero]
  · rcases eq_or_lt_of_le h1 with rfl | h1
    · rw [tq_one]
    · exact (tq_lt h0 h1).le

theorem tq_nonneg {u : ℝ} (h0 : 0 ≤ u) (h1 : u ≤ 1) : 0 ≤ tq u := by
  rw [← tq_zero]
  exact tq_mono (by norm_num) (by rw [abs_of_nonneg h0]; exact h1) h0

/-- The slope as a function of the coordinate of the cube. -/
def aF (u η : ℝ) : ℝ := (1 - η) * u + η * tq u
/-- The number under the root. -/
def dF (u η : ℝ) : ℝ := 2 + η * (tq u ^ 2 - 1)

theorem dA_eq (ξ η : ℝ) : dA ξ η = aF (2 * ξ - 1) η := by unfold dA aF; ring
theorem dY_eq (α ξ η : ℝ) : dY α ξ η = α ^ (1 - η) / Real.sqrt (dF (2 * ξ - 1) η) := rfl

theorem aF_neg (u η : ℝ) : aF (-u) η = -aF u η := by unfold aF; rw [tq_neg]; ring
theorem dF_neg (u η : ℝ) : dF (-u) η = dF u η := by unfold dF; rw [tq_neg, neg_sq]

theorem tq_strict {a b : ℝ} (ha : |a| ≤ 1) (hb : |b| ≤ 1) (h : a < b) : tq a < tq b :=
  lt_of_le_of_ne (tq_mono ha hb h.le) fun e => absurd (tq_inj ha hb e) h.ne

theorem aF_strict {a b η : ℝ} (hη : I01 η) (ha : |a| ≤ 1) (hb : |b| ≤ 1) (h : a < b) : aF a η < aF b η := by
  have := tq_strict ha hb h
  obtain ⟨h0, h1⟩ := hη
  unfold aF
  rcases eq_or_lt_of_le h0 with rfl | h0
  · linarith
  · nlinarith

theorem aF_pos {u η : ℝ} (hη : I01 η) (h0 : 0 < u) (h1 : u ≤ 1) : 0 < aF u η := by
  have := aF_strict hη (a := 0) (b := u) (by norm_num) (by rw [abs_of_pos h0]; exact h1) h0
  rwa [show aF 0 η = 0 by unfold aF; rw [tq_zero]; ring] at this

/-- Along a ray from the centre the number under the root falls. -/
theorem dF_ray {u1 u2 η1 η2 : ℝ} (i1 : I01 η1) (i2 : I01 η2) (h10 : 0 ≤ u1) (h11 : u1 ≤ 1) (h20 : 0 ≤ u2)
    (h21 : u2 ≤ 1) (hη : η1 < η2) (h : aF u1 η1 = aF u2 η2) : dF u2 η2 ≤ dF u1 η1 := by
  have a1 : |u1| ≤ 1 := by rw [abs_of_nonneg h10]; exact h11
  have a2 : |u2| ≤ 1 := by rw [abs_of_nonneg h20]; exact h21
  have t1 := tq_le h10 h11
  have t2 := tq_le h20 h21
  have n1 := tq_nonneg h10 h11
  have n2 := tq_nonneg h20 h21
  have hu : u1 ≤ u2 := by
    by_contra hn
    rw [not_le] at hn
    have k := aF_strict i1 a2 a1 hn
    have : aF u2 η2 ≤ aF u2 η1 := by unfold aF; nlinarith
    linarith
  have tm := tq_mono a1 a2 hu
  have o2 : tq u2 ≤ 1 := by linarith
  unfold aF at h
  unfold dF
  generalize tq u1 = τ1 at *
  generalize tq u2 = τ2 at *
  have e : η2 * (τ2 - τ1) ≤ (η2 - η1) * (u1 - τ1) := by
    have : (η2 - η1) * (u1 - τ1) = (u2 - u1) * (1 - η2) + η2 * (τ2 - τ1) := by linear_combination h
    rw [this]
    have : 0 ≤ (u2 - u1) * (1 - η2) := mul_nonneg (by linarith) (by linarith [i2.2])
    linarith
  have e2 : η2 * (τ2 - τ1) * (τ1 + τ2) ≤ (η2 - η1) * (u1 - τ1) * (τ1 + τ2) :=
    mul_le_mul_of_nonneg_right e (by linarith)
  have e3 : (u1 - τ1) * (τ1 + τ2) ≤ (1 - τ1) * (1 + τ1) :=
    mul_le_mul (by linarith) (by linarith) (by linarith) (by linarith)
  have e4 : (η2 - η1) * ((u1 - τ1) * (τ1 + τ2)) ≤ (η2 - η1) * ((1 - τ1) * (1 + τ1)) :=
    mul_le_mul_of_nonneg_left e3 (by linarith)
  nlinarith

theorem dF_pos {u η : ℝ} (hu : |u| ≤ 1) (hη : I01 η) : 0 < dF u η := by
  have := tq_abs_le hu
  have h2 : tq u ^ 2 ≤ 1 := by rw [← sq_abs]; nlinarith [abs_nonneg (tq u)]
  have h3 := sq_nonneg (tq u)
  obtain ⟨h4, h5⟩ := hη
  unfold dF
  nlinarith

/-- A place of a sector is known from slope and second coordinate. -/
theorem disk_inj_pos {α : ℝ} (h0 : 0 < α) (h1 : α < 1) {u1 u2 η1 η2 : ℝ} (i1 : I01 η1) (i2 : I01 η2) (h10 : 0 ≤ u1)
    (h11 : u1 ≤ 1) (h20 : 0 ≤ u2) (h21 : u2 ≤ 1) (ha : aF u1 η1 = aF u2 η2)
    (hy : α ^ (1 - η1) / Real.sqrt (dF u1 η1) = α ^ (1 - η2) / Real.sqrt (dF u2 η2)) : η1 = η2 := by
  have a1 : |u1| ≤ 1 := by rw [abs_of_nonneg h10]; exact h11
  have a2 : |u2| ≤ 1 := by rw [abs_of_nonneg h20]; exact h21
  rcases lt_trichotomy η1 η2 with hη | hη | hη
  · have k := dF_ray i1 i2 h10 h11 h20 h21 hη ha
    have : α ^ (1 - η1) / Real.sqrt (dF u1 η1) < α ^ (1 - η2) / Real.sqrt (dF u2 η2) :=
      div_lt_div₀ (Real.rpow_lt_rpow_of_exponent_gt h0 h1 (by linarith)) (Real.sqrt_le_sqrt k) (by positivity)
        (Real.sqrt_pos.mpr (dF_pos a2 i2))
    linarith
  · exact hη
  · have k := dF_ray i2 i1 h20 h21 h10 h11 hη ha.symm
    have : α ^ (1 - η2) / Real.sqrt (dF u2 η2) < α ^ (1 - η1) / Real.sqrt (dF u1 η1) :=
      div_lt_div₀ (Real.rpow_lt_rpow_of_exponent_gt h0 h1 (by linarith)) (Real.sqrt_le_sqrt k) (by positivity)
        (Real.sqrt_pos.mpr (dF_pos a1 i1))
    linarith

theorem aF_inj {a b η : ℝ} (hη : I01 η) (ha : |a| ≤ 1) (hb : |b| ≤ 1) (h : aF a η = aF b η) : a = b := by
  rcases lt_trichotomy a b with k | k | k
  · exact absurd h (aF_strict hη ha hb k).ne
  · exact k
  · exact absurd h.symm (aF_strict hη hb ha k).ne

theorem disk_inj {α : ℝ} (h0 : 0 < α) (h1 : α < 1) {ξ1 ξ2 η1 η2 : ℝ} (j1 : I01 ξ1) (j2 : I01 ξ2) (i1 : I01 η1)
    (i2 : I01 η2) (ha : dA ξ1 η1 * dY α ξ1 η1 = dA ξ2 η2 * dY α ξ2 η2) (hy : dY α ξ1 η1 = dY α ξ2 η2) :
    ξ1 = ξ2 ∧ η1 = η2 := by
  have a1 := abs_coord j1
  have a2 := abs_coord j2
  have hp : 0 < dY α ξ2 η2 := (diskSector h0 h1).pos j2 i2
  rw [hy] at ha
  have ha := mul_right_cancel₀ hp.ne' ha
  rw [dA_eq, dA_eq] at ha
  rw [dY_eq, dY_eq] at hy
  suffices hη : η1 = η2 by
    subst hη
    have := aF_inj i1 a1 a2 ha
    exact ⟨by linarith, rfl⟩
  generalize 2 * ξ1 - 1 = u1 at *
  generalize 2 * ξ2 - 1 = u2 at *
  have hn : ∀ u η, I01 η → |u| ≤ 1 → u < 0 → aF u η < 0 := by
    intro u η hη hu hu0
    have := aF_pos hη (u := -u) (by linarith) (by linarith [(abs_le.mp hu).1])
    rw [aF_neg] at this
    linarith
  have hz : ∀ u η, I01 η → |u| ≤ 1 → 0 ≤ u → 0 ≤ aF u η := by
    intro u η hη hu hu0
    rcases eq_or_lt_of_le hu0 with rfl | hu0
    · unfold aF; rw [tq_zero]; simp
    · exact (aF_pos hη hu0 (abs_le.mp hu).2).le
  rcases le_or_gt 0 u1 with k1 | k1 <;> rcases le_or_gt 0 u2 with k2 | k2
  · exact disk_inj_pos h0 h1 i1 i2 k1 (abs_le.mp a1).2 k2 (abs_le.mp a2).2 ha hy
  · have := hz u1 η1 i1 a1 k1
    have := hn u2 η2 i2 a2 k2
    linarith
  · have := hz u2 η2 i2 a2 k2
    have := hn u1 η1 i1 a1 k1
    linarith
  · refine disk_inj_pos h0 h1 i1 i2 (u1 := -u1) (u2 := -u2) (by linarith) (by linarith [(abs_le.mp a1).1]) (by linarith)
      (by linarith [(abs_le.mp a2).1]) ?_ ?_
    · rw [aF_neg, aF_neg, ha]
    · rw [dF_neg, dF_neg, hy]

theorem squareddisk_inj {α : ℝ} (h0 : 0 < α) (h1 : α < 1) {b : ℤ} {s t s' t' : ℝ} (hb0 : 0 ≤ b) (hb5 : b < 5)
    (h : squareddisk b s t α = squareddisk b s' t' α) (i1 : I01 s) (i2 : I01 t) (i1' : I01 s') (i2' : I01 t') :
    s = s' ∧ t = t' := by
  have S := diskSector h0 h1
  have hb : b = 0 ∨ b = 1 ∨ b = 2 ∨ b = 3 ∨ b = 4 := by omega
  rw [squareddisk_five, squareddisk_five] at h
  rcases hb with rfl | rfl | rfl | rfl | rfl
  · rw [S.five0, S.five0, some_p3] at h
    obtain ⟨k1, k2⟩ := disk_inj h0 h1 i1 i1' i2.flip i2'.flip h.1 (neg_injective h.2)
    exact ⟨k1, by linarith⟩
  · rw [S.five1, S.five1, some_p3] at h
    obtain ⟨k1, k2⟩ := disk_inj h0 h1 i2 i2' i1.flip i1'.flip h.2 (neg_injective h.1)
    exact ⟨by linarith, k1⟩
  · rw [S.five2, S.five2, some_p3] at h
    have hc := S.cpos.ne'
    have k1 := mul_right_cancel₀ hc h.1
    have k2 := mul_right_cancel₀ hc h.2
    constructor <;> linarith
  · rw [S.five3, S.five3, some_p3] at h
    obtain ⟨k1, k2⟩ := disk_inj h0 h1 i2 i2' i1 i1' h.2 h.1
    exact ⟨k2, k1⟩
  · rw [S.five4, S.five4, some_p3] at h
    exact disk_inj h0 h1 i1 i1' i2 i2' h.1 h.2

theorem tq_cont {a b : ℝ} (ha : 0 ≤ a) (hb : b ≤ 1) : ContinuousOn tq (Set.Icc a b) := by
  have hp := Real.pi_pos
  have : ContinuousOn (fun x : ℝ => Real.tan (π / 4 * x)) (Set.Icc a b) := by
    apply Real.continuousOn_tan_Ioo.comp (by fun_prop)
    intro x hx
    have h1 := hx.1
    have h2 := hx.2
    constructor <;> nlinarith
  exact this

/-- Every point of a sector with given slope is reached. -/
theorem disk_ray {α : ℝ} (h0 : 0 < α) (h1 : α < 1) {a y : ℝ} (ha0 : 0 ≤ a) (ha1 : a ≤ 1) (hy : α / Real.sqrt 2 ≤ y)
    (hy1 : y ≤ 1 / Real.sqrt (1 + a ^ 2)) :
    ∃ u η, 0 ≤ u ∧ u ≤ 1 ∧ I01 η ∧ aF u η = a ∧ α ^ (1 - η) / Real.sqrt (dF u η) = y := by
  -- at the two ends of the segment, `u` and `η` are as follows
  suffices H : ∃ u η : ℝ → ℝ, ContinuousOn u (Set.Icc 0 1) ∧ ContinuousOn η (Set.Icc 0 1) ∧
      (∀ t ∈ Set.Icc (0 : ℝ) 1, 0 ≤ u t ∧ u t ≤ 1 ∧ I01 (η t) ∧ aF (u t) (η t) = a) ∧ η 0 = 0 ∧ η 1 = 1 by
    obtain ⟨u, η, cu, cη, hk, e0, e1⟩ := H
    have cF : ContinuousOn (fun t => α ^ (1 - η t) / Real.sqrt (dF (u t) (η t))) (Set.Icc 0 1) := by
      apply ContinuousOn.div
      · exact ContinuousOn.rpow continuousOn_const (continuousOn_const.sub cη) (fun t _ => Or.inl h0.ne')
      · apply ContinuousOn.sqrt
        have ct : ContinuousOn (fun t => tq (u t)) (Set.Icc 0 1) :=
          (tq_cont (le_refl 0) (le_refl 1)).comp cu (fun t ht => ⟨(hk t ht).1, (hk t ht).2.1⟩)
        exact continuousOn_const.add (cη.mul ((ct.pow 2).sub continuousOn_const))
      · intro t ht
        obtain ⟨k1, k2, k3, _⟩ := hk t ht
        exact (Real.sqrt_pos.mpr (dF_pos (by rw [abs_of_nonneg k1]; exact k2) k3)).ne'
    have hv := intermediate_value_Icc (zero_le_one) cF
    have hmem : y ∈ Set.Icc (α ^ (1 - η 0) / Real.sqrt (dF (u 0) (η 0)))
        (α ^ (1 - η 1) / Real.sqrt (dF (u 1) (η 1))) := by
      rw [e0, e1]
      constructor
      · rw [sub_zero, Real.rpow_one, show dF (u 0) 0 = 2 by unfold dF; ring]; exact hy
      · obtain ⟨_, _, _, k⟩ := hk 1 ⟨zero_le_one, le_refl _⟩
        rw [e1] at k
        have k' : tq (u 1) = a := by rw [← k]; unfold aF; ring
        rw [sub_self, Real.rpow_zero, show dF (u 1) 1 = 1 + a ^ 2 by unfold dF; rw [k']; ring]
        exact hy1
    obtain ⟨t, ht, rfl⟩ := hv hmem
    obtain ⟨k1, k2, k3, k4⟩ := hk t ht
    exact ⟨u t, η t, k1, k2, k3, k4, rfl⟩
  rcases eq_or_lt_of_le ha0 with rfl | hap
  · refine ⟨fun _ => 0, fun t => t, continuousOn_const, continuousOn_id, ?_, rfl, rfl⟩
    intro t ht
    refine ⟨le_refl _, zero_le_one, ht, ?_⟩
    unfold aF; rw [tq_zero]; ring
  · rcases eq_or_lt_of_le ha1 with rfl | hal
    · refine ⟨fun _ => 1, fun t => t, continuousOn_const, continuousOn_id, ?_, rfl, rfl⟩
      intro t ht
      refine ⟨zero_le_one, le_refl _, ht, ?_⟩
      unfold aF; rw [tq_one]; ring
    · -- from `a` to the place where the tangent is `a`
      have hw := tqInv_abs (w := a) (by rw [abs_of_pos hap]; exact ha1)
      have ew := tq_tqInv a
      generalize tqInv a = w at hw ew
      have hwp : 0 < w := by
        by_contra hn
        rw [not_lt] at hn
        have := tq_mono hw (by norm_num : |(0 : ℝ)| ≤ 1) hn
        rw [tq_zero] at this
        linarith
      have hw1 : w < 1 := by
        rcases eq_or_lt_of_le (abs_le.mp hw).2 with e | e
        · rw [e, tq_one] at ew; linarith
        · exact e
      have haw : a < w := by rw [← ew]; exact tq_lt hwp hw1
      have hr : ∀ t ∈ Set.Icc (0 : ℝ) 1, a ≤ a + t * (w - a) ∧ a + t * (w - a) ≤ w := by
        intro t ht
        have := ht.1; have := ht.2
        constructor <;> nlinarith
      have hu : ∀ t ∈ Set.Icc (0 : ℝ) 1, 0 < a + t * (w - a) ∧ a + t * (w - a) < 1 := by
        intro t ht
        have := hr t ht
        constructor <;> linarith
      have cu : ContinuousOn (fun t : ℝ => a + t * (w - a)) (Set.Icc 0 1) := by fun_prop
      have hd : ∀ t ∈ Set.Icc (0 : ℝ) 1, 0 < a + t * (w - a) - tq (a + t * (w - a)) := by
        intro t ht
        have := tq_lt (hu t ht).1 (hu t ht).2
        linarith
      refine ⟨fun t => a + t * (w - a), fun t => (t * (w - a)) / (a + t * (w - a) - tq (a + t * (w - a))), cu, ?_, ?_,
        by simp, ?_⟩
      · apply ContinuousOn.div (by fun_prop)
        · apply cu.sub
          exact (tq_cont (le_refl 0) (le_refl 1)).comp cu (fun t ht => ⟨(hu t ht).1.le, (hu t ht).2.le⟩)
        · intro t ht; exact (hd t ht).ne'
      · intro t ht
        have k := hd t ht
        have hle : tq (a + t * (w - a)) ≤ a := by
          rw [← ew, ew]
          have := tq_mono (a := a + t * (w - a)) (b := w) (by rw [abs_of_pos (hu t ht).1]; exact (hu t ht).2.le) hw (hr t ht).2
          linarith
        refine ⟨(hu t ht).1.le, (hu t ht).2.le, ⟨?_, ?_⟩, ?_⟩
        · exact div_nonneg (mul_nonneg ht.1 (by linarith)) k.le
        · rw [div_le_one k]; linarith
        · unfold aF
          have := k.ne'
          field_simp
          ring
      · have : a + 1 * (w - a) = w := by ring
        dsimp only
        rw [this, ew, one_mul]
        exact div_self (by linarith)

theorem diskSector_surj {α : ℝ} (h0 : 0 < α) (h1 : α < 1) {x y : ℝ} (hx : |x| ≤ y) (hy : α / Real.sqrt 2 ≤ y)
    (hr : x ^ 2 + y ^ 2 ≤ 1) :
    ∃ ξ η, I01 ξ ∧ I01 η ∧ dA ξ η * dY α ξ η = x ∧ dY α ξ η = y := by
  have hp : 0 < y := lt_of_lt_of_le (by positivity) hy
  have hb : y ≤ 1 / Real.sqrt (1 + (|x| / y) ^ 2) := by
    rw [le_div_iff₀ (Real.sqrt_pos.mpr (by positivity))]
    apply (sq_le_sq₀ (by positivity) zero_le_one).mp
    rw [mul_pow, Real.sq_sqrt (by positivity), div_pow, sq_abs]
    have : y ^ 2 * (1 + x ^ 2 / y ^ 2) = y ^ 2 + x ^ 2 := by field_simp
    rw [this]; linarith
  obtain ⟨u, η, k0, k1, k2, k3, k4⟩ := disk_ray h0 h1 (a := |x| / y) (by positivity) (by rw [div_le_one hp]; exact hx) hy hb
  rcases abs_cases x with ⟨e, _⟩ | ⟨e, _⟩
  · refine ⟨(u + 1) / 2, η, ⟨by linarith, by linarith⟩, k2, ?_, ?_⟩
    · rw [dA_eq, dY_eq, show 2 * ((u + 1) / 2) - 1 = u by ring, k3, k4, e]
      field_simp
    · rw [dY_eq, show 2 * ((u + 1) / 2) - 1 = u by ring, k4]
  · refine ⟨(-u + 1) / 2, η, ⟨by linarith, by linarith⟩, k2, ?_, ?_⟩
    · rw [dA_eq, dY_eq, show 2 * ((-u + 1) / 2) - 1 = -u by ring, aF_neg, dF_neg, k3, k4, e]
      field_simp
    · rw [dY_eq, show 2 * ((-u + 1) / 2) - 1 = -u by ring, dF_neg, k4]

theorem squareddisk_surj {α : ℝ} (h0 : 0 < α) (h1 : α < 1) {p : P3} (hp : InDisk p) :
    ∃ a : Place, InBlocks 5 a ∧ squareddisk a.1 a.2.1 a.2.2 α = some p := by
  have S := diskSector h0 h1
  have hc0 := S.cpos
  obtain ⟨x, y, z⟩ := p
  obtain ⟨hd, hz⟩ := hp
  dsimp only at *
  subst hz
  generalize hα : α / Real.sqrt 2 = c at *
  by_cases hc : |x| ≤ c ∧ |y| ≤ c
  · rw [abs_le, abs_le] at hc
    refine ⟨(2, (x / c + 1) / 2, (y / c + 1) / 2), ⟨by norm_num, by norm_num, ⟨?_, ?_⟩, ⟨?_, ?_⟩⟩, ?_⟩ <;>
      dsimp only
    · have : -1 ≤ x / c := by rw [le_div_iff₀ hc0]; linarith [hc.1.1]
      linarith
    · have : x / c ≤ 1 := by rw [div_le_iff₀ hc0]; linarith [hc.1.2]
      linarith
    · have : -1 ≤ y / c := by rw [le_div_iff₀ hc0]; linarith [hc.2.1]
      linarith
    · have : y / c ≤ 1 := by rw [div_le_iff₀ hc0]; linarith [hc.2.2]
      linarith
    · rw [squareddisk_five, hα, S.five2, some_p3]
      constructor <;> field_simp <;> ring
  · by_cases hxy : |x| ≤ |y|
    · have hl : c < |y| := by
        by_contra hn; rw [not_lt] at hn; exact hc ⟨le_trans hxy hn, hn⟩
      rcases abs_cases y with ⟨hy, _⟩ | ⟨hy, _⟩
      · rw [hy] at hxy hl
        obtain ⟨ξ, η, i1, i2, k1, k2⟩ := diskSector_surj h0 h1 hxy (by rw [hα]; exact hl.le) hd
        exact ⟨(4, ξ, η), ⟨by norm_num, by norm_num, i1, i2⟩, by
          rw [squareddisk_five, hα, S.five4, some_p3]; exact ⟨k1, k2⟩⟩
      · rw [hy] at hxy hl
        obtain ⟨ξ, η, i1, i2, k1, k2⟩ := diskSector_surj h0 h1 hxy (by rw [hα]; exact hl.le) (by linarith [neg_sq y])
        refine ⟨(0, ξ, 1 - η), ⟨by norm_num, by norm_num, i1, i2.flip⟩, ?_⟩
        rw [squareddisk_five, hα, S.five0, some_p3, show 1 - (1 - η) = η by ring]
        exact ⟨k1, by linarith⟩
    · rw [not_le] at hxy
      have hl : c < |x| := by
        by_contra hn; rw [not_lt] at hn; exact hc ⟨hn, le_trans hxy.le hn⟩
      rcases abs_cases x with ⟨hx, _⟩ | ⟨hx, _⟩
      · rw [hx] at hxy hl
        obtain ⟨ξ, η, i1, i2, k1, k2⟩ := diskSector_surj h0 h1 hxy.le (by rw [hα]; exact hl.le) (by linarith)
        exact ⟨(3, η, ξ), ⟨by norm_num, by norm_num, i2, i1⟩, by
          rw [squareddisk_five, hα, S.five3, some_p3]; exact ⟨k2, k1⟩⟩
      · rw [hx] at hxy hl
        obtain ⟨ξ, η, i1, i2, k1, k2⟩ := diskSector_surj h0 h1 hxy.le (by rw [hα]; exact hl.le) (by linarith [neg_sq x])
        refine ⟨(1, 1 - η, ξ), ⟨by norm_num, by norm_num, i2.flip, i1⟩, ?_⟩
        rw [squareddisk_five, hα, S.five1, some_p3, show 1 - (1 - η) = η by ring]
        exact ⟨by linarith, k1⟩

end

end Fclaw.Mapping

import Verif.GeoStep.Mass
import Mathlib.Algebra.BigOperators.Intervals
/-
Water in a patch: balance, periodic patches, closed patches, and the sphere.
-/
set_option autoImplicit false
set_option linter.unusedSimpArgs false
set_option linter.unusedVariables false
namespace Fclaw.GeoStep

/-! ### Closed edges -/

theorem edgeWaves_wallR (tol g : ℝ) (L R : Side) (hg : 0 < g) (ht : 0 ≤ tol) (hL : tol < L.h) (hR : R.h ≤ tol)
    (hw : max L.h ((riemanntype L.h L.h L.u (-L.u) tol g).hm) + L.b < R.b) :
    (edgeWaves g tol L R).s 0 < 0 ∧ (edgeWaves g tol L R).s 1 = 0 ∧ (edgeWaves g tol L R).s 2 = 0 ∧
    (edgeWaves g tol L R).f 0 0 = -L.hu ∧ (∀ m, (edgeWaves g tol L R).f m 1 = 0) ∧
    ∀ m, (edgeWaves g tol L R).f m 2 = 0 := by
  have hm : Mirrored L (mirror L R.hv) := ⟨rfl, rfl, rfl, rfl⟩
  have hs := mirror_neg tol g L (mirror L R.hv) hg ht hL hm
  obtain ⟨a, b, c⟩ := mirror_f0 tol g L (mirror L R.hv) hg ht hL hm
  unfold edgeWaves shore
  simp only []
  rw [if_pos hR, if_pos hw]
  refine ⟨?_, by simp, by simp, ?_, by simp, by simp⟩
  · rw [augJCP_eq]; simpa using hs
  · simp only []; rw [a]; simp

theorem edgeWaves_wallL (tol g : ℝ) (L R : Side) (hg : 0 < g) (ht : 0 ≤ tol) (hR : tol < R.h) (hL : L.h ≤ tol)
    (hw : max R.h ((riemanntype R.h R.h (-R.u) R.u tol g).hm) + R.b < L.b) :
    0 < (edgeWaves g tol L R).s 2 ∧ (edgeWaves g tol L R).s 1 = 0 ∧ (edgeWaves g tol L R).s 0 = 0 ∧
    (edgeWaves g tol L R).f 0 2 = R.hu ∧ (∀ m, (edgeWaves g tol L R).f m 1 = 0) ∧
    ∀ m, (edgeWaves g tol L R).f m 0 = 0 := by
  have hm : Mirrored (mirror R L.hv) R := ⟨rfl, by simp [mirror], by simp [mirror], rfl⟩
  have hw' : tol < (mirror R L.hv).h := hR
  have hs := mirror_neg tol g (mirror R L.hv) R hg ht hw' hm
  have hs3 := mirror_speeds tol g (mirror R L.hv) R hg ht hw' hm
  obtain ⟨a, b, c⟩ := mirror_f0 tol g (mirror R L.hv) R hg ht hw' hm
  unfold edgeWaves shore
  simp only []
  rw [if_neg (by linarith), if_pos hL, if_pos hw]
  refine ⟨?_, by simp, by simp, ?_, by simp, by simp⟩
  · rw [augJCP_eq]; simp; linarith
  · simp only []; rw [c]; simp [mirror]

theorem side_wet (g tol b : ℝ) (ixy : ℤ) (q : V) (ht : 0 ≤ tol) (h : tol < q 0) :
    side g tol ixy (clean q) b = ⟨q 0, q (muOf ixy), q (nvOf ixy), b, q (muOf ixy) / q 0, q (nvOf ixy) / q 0,
      1 / 2 * g * q 0 ^ 2 + q (muOf ixy) ^ 2 / q 0⟩ := by
  have : clean q = q := by unfold clean; rw [if_neg (by linarith)]
  rw [this]; unfold side; simp only []; rw [if_pos h]

/-- `rpn2` without a capacity, in terms of `edgeWaves`. -/
theorem rpn2_plain (P : Params) (ixy : ℤ) (qL qR : V) (bL bR lat : ℝ) (hm : ¬ 0 < P.mcapa)
    (hd : ¬ (clean qL 0 ≤ P.tol ∧ clean qR 0 ≤ P.tol)) (mw : Fin 3) :
    let w := edgeWaves P.g P.tol (side P.g P.tol ixy (clean qL) bL) (side P.g P.tol ixy (clean qR) bR)
    (rpn2 P ixy qL qR bL bR lat).s mw = w.s mw ∧
      (rpn2 P ixy qL qR bL bR lat).f 0 mw = w.f 0 mw ∧
      ∀ m, (rpn2 P ixy qL qR bL bR lat).f m mw = 0 ∨ ∃ k, (rpn2 P ixy qL qR bL bR lat).f m mw = w.f k mw := by
  unfold rpn2
  simp only []
  rw [if_neg hm, if_neg hd]
  refine ⟨rfl, rfl, fun m => Or.inr ?_⟩
  simp only []
  split
  · exact ⟨0, rfl⟩
  · split
    · exact ⟨1, rfl⟩
    · exact ⟨2, rfl⟩

theorem rpn2_dry (P : Params) (ixy : ℤ) (qL qR : V) (bL bR lat : ℝ)
    (hd : clean qL 0 ≤ P.tol ∧ clean qR 0 ≤ P.tol) (m mw : Fin 3) : (rpn2 P ixy qL qR bL bR lat).f m mw = 0 := by
  unfold rpn2
  simp only []
  rw [if_pos hd]
  split <;> simp

/-- Nothing flows into a wall on the right. -/
theorem wall_right (P : Params) (ixy : ℤ) (qL qR : V) (bL bR lat : ℝ) (ht : 0 ≤ P.tol) (hg : 0 < P.g)
    (hm : ¬ 0 < P.mcapa) (hw : Wall P.g P.tol qL qR bL bR (qL (muOf ixy))) :
    flow P.tol (muOf ixy) qL + amdqOf (rpn2 P ixy qL qR bL bR lat) 0 = 0 ∧
      ∀ m, apdqOf (rpn2 P ixy qL qR bL bR lat) m = 0 := by
  obtain ⟨h1, h2⟩ := hw
  have hRd : ¬ P.tol < qR 0 := not_lt.mpr h1
  by_cases hL : P.tol < qL 0
  · have hd : ¬ (clean qL 0 ≤ P.tol ∧ clean qR 0 ≤ P.tol) := by
      rintro ⟨a, _⟩
      exact absurd ((clean_wet _ _ ht).mpr hL) (not_lt.mpr a)
    have k := rpn2_plain P ixy qL qR bL bR lat hm hd
    have r := riemanntype_runup (qL 0) (qL (muOf ixy) / qL 0) P.tol P.g hg (by linarith) hL
    have sR : (side P.g P.tol ixy (clean qR) bR).h = 0 := by rw [side_h _ _ _ _ _ ht, if_neg hRd]
    have e := edgeWaves_wallR P.tol P.g (side P.g P.tol ixy (clean qL) bL) (side P.g P.tol ixy (clean qR) bR) hg ht
      (by rw [side_wet _ _ _ _ _ ht hL]; exact hL) (by rw [sR]; exact ht)
      (by rw [side_b _ _ bR, side_wet _ _ _ _ _ ht hL]; simp only []; rw [r]; exact h2 hL)
    obtain ⟨e1, e2, e3, e4, e5, e6⟩ := e
    rw [side_hu _ _ _ _ _ ht] at e4
    simp only at k
    have z1 : ∀ m, (rpn2 P ixy qL qR bL bR lat).f m 1 = 0 := by
      intro m
      rcases (k 1).2.2 m with h | ⟨x, h⟩
      · exact h
      · rw [h, e5]
    have z2 : ∀ m, (rpn2 P ixy qL qR bL bR lat).f m 2 = 0 := by
      intro m
      rcases (k 2).2.2 m with h | ⟨x, h⟩
      · exact h
      · rw [h, e6]
    have s0 : (rpn2 P ixy qL qR bL bR lat).s 0 < 0 := by rw [(k 0).1]; exact e1
    constructor
    · unfold amdqOf
      rw [Fin.sum_univ_three, if_pos s0, z1, z2, (k 0).2.1, e4]
      simp
    · intro m
      unfold apdqOf
      rw [Fin.sum_univ_three, if_pos s0, z1, z2]
      simp
  · have hd : clean qL 0 ≤ P.tol ∧ clean qR 0 ≤ P.tol :=
      ⟨not_lt.mp fun h => hL ((clean_wet _ _ ht).mp h), not_lt.mp fun h => hRd ((clean_wet _ _ ht).mp h)⟩
    have z := rpn2_dry P ixy qL qR bL bR lat hd
    exact ⟨by rw [amdq_zero _ z, flow, if_neg hL, add_zero], fun m => apdq_zero _ z m⟩

/-- Nothing flows into a wall on the left. -/
theorem wall_left (P : Params) (ixy : ℤ) (qL qR : V) (bL bR lat : ℝ) (ht : 0 ≤ P.tol) (hg : 0 < P.g)
    (hm : ¬ 0 < P.mcapa) (hw : Wall P.g P.tol qR qL bR bL (-qR (muOf ixy))) :
    flow P.tol (muOf ixy) qR - apdqOf (rpn2 P ixy qL qR bL bR lat) 0 = 0 ∧
      ∀ m, amdqOf (rpn2 P ixy qL qR bL bR lat) m = 0 := by
  obtain ⟨h1, h2⟩ := hw
  have hLd : ¬ P.tol < qL 0 := not_lt.mpr h1
  by_cases hR : P.tol < qR 0
  · have hd : ¬ (clean qL 0 ≤ P.tol ∧ clean qR 0 ≤ P.tol) := by
      rintro ⟨_, a⟩
      exact absurd ((clean_wet _ _ ht).mpr hR) (not_lt.mpr a)
    have k := rpn2_plain P ixy qL qR bL bR lat hm hd
    have r := riemanntype_runup (qR 0) (-(qR (muOf ixy) / qR 0)) P.tol P.g hg (by linarith) hR
    rw [neg_neg] at r
    have sL : (side P.g P.tol ixy (clean qL) bL).h = 0 := by rw [side_h _ _ _ _ _ ht, if_neg hLd]
    have e := edgeWaves_wallL P.tol P.g (side P.g P.tol ixy (clean qL) bL) (side P.g P.tol ixy (clean qR) bR) hg ht
      (by rw [side_wet _ _ _ _ _ ht hR]; exact hR) (by rw [sL]; exact ht)
      (by rw [side_b _ _ bL, side_wet _ _ _ _ _ ht hR]; simp only []; rw [r, ← neg_div]; exact h2 hR)
    obtain ⟨e1, e2, e3, e4, e5, e6⟩ := e
    rw [side_hu _ _ _ _ _ ht] at e4
    simp only at k
    have z1 : ∀ m, (rpn2 P ixy qL qR bL bR lat).f m 1 = 0 := by
      intro m
      rcases (k 1).2.2 m with h | ⟨x, h⟩
      · exact h
      · rw [h, e5]
    have z0 : ∀ m, (rpn2 P ixy qL qR bL bR lat).f m 0 = 0 := by
      intro m
      rcases (k 0).2.2 m with h | ⟨x, h⟩
      · exact h
      · rw [h, e6]
    have s2 : 0 < (rpn2 P ixy qL qR bL bR lat).s 2 := by rw [(k 2).1]; exact e1
    constructor
    · unfold apdqOf
      rw [Fin.sum_univ_three, z1, z0, if_neg (show ¬ (rpn2 P ixy qL qR bL bR lat).s 2 < 0 by linarith), if_pos s2,
        (k 2).2.1, e4]
      simp
    · intro m
      unfold amdqOf
      rw [Fin.sum_univ_three, z1, z0, if_neg (show ¬ (rpn2 P ixy qL qR bL bR lat).s 2 < 0 by linarith), if_pos s2]
      simp
  · have hd : clean qL 0 ≤ P.tol ∧ clean qR 0 ≤ P.tol :=
      ⟨not_lt.mp fun h => hLd ((clean_wet _ _ ht).mp h), not_lt.mp fun h => hR ((clean_wet _ _ ht).mp h)⟩
    have z := rpn2_dry P ixy qL qR bL bR lat hd
    exact ⟨by rw [apdq_zero _ z, flow, if_neg hR, sub_zero], fun m => amdq_zero _ z m⟩

/-- Nothing flows between mirrored states, on the sphere or in the plane. -/
theorem mirror_edge (P : Params) (ixy : ℤ) (qL qR : V) (bL bR lat : ℝ) (ht : 0 ≤ P.tol) (hg : 0 < P.g)
    (hl : 0 < len P ixy lat) (hw : Reflects P.tol (muOf ixy) qL qR bL bR) :
    len P ixy lat * flow P.tol (muOf ixy) qL + amdqOf (rpn2 P ixy qL qR bL bR lat) 0 = 0 := by
  obtain ⟨h1, h2, h3, h4⟩ := hw
  have h1R : P.tol < qR 0 := by rw [h2]; exact h1
  have hd : ¬ (clean qL 0 ≤ P.tol ∧ clean qR 0 ≤ P.tol) := by
    rintro ⟨a, _⟩
    exact absurd ((clean_wet _ _ ht).mpr h1) (not_lt.mpr a)
  have hm : Mirrored (side P.g P.tol ixy (clean qL) bL) (side P.g P.tol ixy (clean qR) bR) := by
    rw [side_wet _ _ _ _ _ ht h1, side_wet _ _ _ _ _ ht h1R]
    exact ⟨h2, h3, by simp only []; rw [h2, h3, neg_div], h4⟩
  have hwL : P.tol < (side P.g P.tol ixy (clean qL) bL).h := by rw [side_wet _ _ _ _ _ ht h1]; exact h1
  have hwR : P.tol < (side P.g P.tol ixy (clean qR) bR).h := by rw [side_wet _ _ _ _ _ ht h1R]; exact h1R
  obtain ⟨a, b, c⟩ := mirror_f0 P.tol P.g _ _ hg ht hwL hm
  have s1 := mirror_neg P.tol P.g _ _ hg ht hwL hm
  have s3 := mirror_speeds P.tol P.g _ _ hg ht hwL hm
  rw [side_hu _ _ _ _ _ ht] at a c
  have es : shore P.g P.tol (side P.g P.tol ixy (clean qL) bL) (side P.g P.tol ixy (clean qR) bR) =
      (side P.g P.tol ixy (clean qL) bL, side P.g P.tol ixy (clean qR) bR, fun _ => 1) := by
    unfold shore; rw [if_neg (by linarith), if_neg (by linarith)]
  have key : ∀ f : ℝ, 0 < f → ∀ w : Waves, w.s 0 < 0 → 0 < w.s 2 → w.f 0 0 = -(f * flow P.tol (muOf ixy) qL) → w.f 0 1 = 0 →
      f * flow P.tol (muOf ixy) qL + amdqOf w 0 = 0 := by
    intro f hf w w0 w2 e0 e1
    unfold amdqOf
    rw [Fin.sum_univ_three, if_pos w0, e0, e1, if_neg (show ¬ w.s 2 < 0 by linarith), if_pos w2]
    simp
  have s0' : (edgeWaves P.g P.tol (side P.g P.tol ixy (clean qL) bL) (side P.g P.tol ixy (clean qR) bR)).s 0 < 0 := by
    unfold edgeWaves; rw [es]; simp only [mul_one]; rw [augJCP_eq]; simpa using s1
  have s2' : 0 < (edgeWaves P.g P.tol (side P.g P.tol ixy (clean qL) bL) (side P.g P.tol ixy (clean qR) bR)).s 2 := by
    unfold edgeWaves; rw [es]; simp only [mul_one]; rw [augJCP_eq]; simp; linarith
  have f0' : (edgeWaves P.g P.tol (side P.g P.tol ixy (clean qL) bL) (side P.g P.tol ixy (clean qR) bR)).f 0 0 = -flow P.tol (muOf ixy) qL := by
    unfold edgeWaves; rw [es]; simp only [mul_one]; exact a
  have f1' : (edgeWaves P.g P.tol (side P.g P.tol ixy (clean qL) bL) (side P.g P.tol ixy (clean qR) bR)).f 0 1 = 0 := by
    unfold edgeWaves; rw [es]; simp only [mul_one]; exact b
  unfold rpn2 len
  unfold len at hl
  simp only []
  rw [if_neg hd]
  by_cases hc : 0 < P.mcapa
  · rw [if_pos hc] at hl
    rw [if_pos hc, if_pos hc]
    refine key _ hl _ (mul_neg_of_pos_of_neg hl s0') (mul_pos hl s2') ?_ ?_
    · simp only [if_true]; rw [f0']; ring
    · simp only [if_true]; rw [f1', mul_zero]
  · rw [if_neg hc, if_neg hc]
    refine key _ one_pos _ s0' s2' ?_ ?_
    · simp only [if_true]; rw [f0']; ring
    · simp only [if_true]; rw [f1']

end Fclaw.GeoStep

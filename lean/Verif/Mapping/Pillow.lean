import Verif.Mapping.Five
import Mathlib.Analysis.SpecialFunctions.Trigonometric.Bounds
/-
Pillow disk and pillow sphere.
-/
set_option autoImplicit false
set_option linter.unusedVariables false
namespace Fclaw.Mapping

noncomputable section

open Real

/-- The second result of `northSector`. -/
def nY (xi eta : ℝ) : ℝ := Real.sqrt (2 - xi ^ 2) - Real.sqrt (2 - eta ^ 2) + eta

theorem northSector_eq (xi eta : ℝ) : northSector xi eta = (xi, nY xi eta) := rfl

theorem nY_ge {xi eta : ℝ} (h0 : 0 ≤ xi) (h1 : xi ≤ eta) : eta ≤ nY xi eta := by
  unfold nY
  have : Real.sqrt (2 - eta ^ 2) ≤ Real.sqrt (2 - xi ^ 2) := Real.sqrt_le_sqrt (by nlinarith)
  linarith

theorem le_root {eta : ℝ} (h0 : 0 ≤ eta) (h1 : eta ≤ 1) : eta ≤ Real.sqrt (2 - eta ^ 2) :=
  Real.le_sqrt_of_sq_le (by nlinarith)

theorem lt_root {eta : ℝ} (h0 : 0 ≤ eta) (h1 : eta < 1) : eta < Real.sqrt (2 - eta ^ 2) :=
  Real.lt_sqrt_of_sq_lt (by nlinarith)

theorem nY_le {xi eta : ℝ} (h0 : 0 ≤ xi) (h1 : xi ≤ eta) (h2 : eta ≤ 1) :
    xi ^ 2 + nY xi eta ^ 2 ≤ 2 := by
  have k1 : nY xi eta ≤ Real.sqrt (2 - xi ^ 2) := by
    unfold nY; have := le_root (h0.trans h1) h2; linarith
  have k2 := nY_ge h0 h1
  have k3 := Real.sq_sqrt (show 0 ≤ 2 - xi ^ 2 by nlinarith)
  have k4 : 0 ≤ nY xi eta := by linarith
  nlinarith [Real.sqrt_nonneg (2 - xi ^ 2)]

theorem nY_lt {xi eta : ℝ} (h0 : 0 ≤ xi) (h1 : xi ≤ eta) (h2 : eta < 1) :
    xi ^ 2 + nY xi eta ^ 2 < 2 := by
  have k1 : nY xi eta < Real.sqrt (2 - xi ^ 2) := by
    unfold nY; have := lt_root (h0.trans h1) h2; linarith
  have k2 := nY_ge h0 h1
  have k3 := Real.sq_sqrt (show 0 ≤ 2 - xi ^ 2 by nlinarith)
  have k4 : 0 ≤ nY xi eta := by linarith
  nlinarith [Real.sqrt_nonneg (2 - xi ^ 2)]

theorem nY_edge {xi : ℝ} (h0 : 0 ≤ xi) (h1 : xi ≤ 1) : xi ^ 2 + nY xi 1 ^ 2 = 2 := by
  have k1 : nY xi 1 = Real.sqrt (2 - xi ^ 2) := by unfold nY; norm_num
  rw [k1, Real.sq_sqrt (by nlinarith)]; ring

theorem nY_inj {xi eta eta' : ℝ} (h0 : 0 ≤ eta) (h0' : 0 ≤ eta') (h1 : eta ≤ 1) (h1' : eta' ≤ 1)
    (h : nY xi eta = nY xi eta') : eta = eta' := by
  unfold nY at h
  rcases lt_trichotomy eta eta' with k | k | k
  · have : Real.sqrt (2 - eta' ^ 2) ≤ Real.sqrt (2 - eta ^ 2) := Real.sqrt_le_sqrt (by nlinarith)
    linarith
  · exact k
  · have : Real.sqrt (2 - eta ^ 2) ≤ Real.sqrt (2 - eta' ^ 2) := Real.sqrt_le_sqrt (by nlinarith)
    linarith

theorem sign1_mul_abs (x : ℝ) : sign1 x * |x| = x := by
  unfold sign1
  split_ifs with h
  · rw [abs_of_nonneg h, one_mul]
  · rw [abs_of_neg (not_le.mp h)]; ring

theorem sign1_sq (x : ℝ) : sign1 x ^ 2 = 1 := by unfold sign1; split_ifs <;> norm_num

theorem abs_sign1 (x : ℝ) : |sign1 x| = 1 := by unfold sign1; split_ifs <;> norm_num

/-- The sum of the squares. -/
theorem sectors_sq (xc yc x y : ℝ) : (sectors xc yc x y).1 ^ 2 + (sectors xc yc x y).2 ^ 2 = x ^ 2 + y ^ 2 := by
  have hmm : min |x| |y| ^ 2 + max |x| |y| ^ 2 = x ^ 2 + y ^ 2 := by
    rcases le_total |x| |y| with h | h
    · rw [min_eq_left h, max_eq_right h, sq_abs, sq_abs]
    · rw [min_eq_right h, max_eq_left h, sq_abs, sq_abs]; ring
  unfold sectors
  dsimp only
  split_ifs
  · dsimp only
    rw [mul_pow, mul_pow, sign1_sq, sign1_sq, one_mul, one_mul, hmm]
  · dsimp only
    rw [mul_pow, mul_pow, sign1_sq, sign1_sq, one_mul, one_mul, add_comm, hmm]

/-- The smallest value of `eta`. -/
def eps : ℝ := 1 / 10000000000

theorem eps_pos : 0 < eps := by unfold eps; norm_num

/-- `eta`. -/
def etaOf (x y : ℝ) : ℝ := max (max |x| |y|) (1 / 10000000000)

theorem etaOf_le {x y : ℝ} (hx : |x| ≤ 1) (hy : |y| ≤ 1) : etaOf x y ≤ 1 :=
  max_le (max_le hx hy) (by norm_num)

theorem eps_le_etaOf (x y : ℝ) : eps ≤ etaOf x y := le_max_right _ _

theorem etaOf_pos (x y : ℝ) : 0 < etaOf x y := lt_of_lt_of_le eps_pos (eps_le_etaOf x y)

theorem xi_le_etaOf (x y : ℝ) : min |x| |y| ≤ etaOf x y :=
  le_trans (le_trans (min_le_left _ _) (le_max_left _ _)) (le_max_left _ _)

theorem etaOf_eq {x y : ℝ} (h : eps ≤ max |x| |y|) : etaOf x y = max |x| |y| := max_eq_left h

theorem etaOf_one {x y : ℝ} : etaOf x y = 1 ↔ max |x| |y| = 1 := by
  unfold etaOf
  constructor
  · intro h
    rcases max_choice (max |x| |y|) (1 / 10000000000) with k | k
    · rw [k] at h; exact h
    · rw [k] at h; norm_num at h
  · intro h; rw [h]; norm_num

theorem diskCircle_eq (x y : ℝ) :
    diskCircle x y = sectors x y (min |x| |y|) (nY (min |x| |y|) (etaOf x y)) := rfl

theorem xi_nonneg (x y : ℝ) : 0 ≤ min |x| |y| := le_min (abs_nonneg x) (abs_nonneg y)

theorem diskCircle_sq {x y : ℝ} : (diskCircle x y).1 ^ 2 + (diskCircle x y).2 ^ 2
    = min |x| |y| ^ 2 + nY (min |x| |y|) (etaOf x y) ^ 2 := by
  rw [diskCircle_eq, sectors_sq]

theorem diskCircle_le {x y : ℝ} (hx : |x| ≤ 1) (hy : |y| ≤ 1) :
    (diskCircle x y).1 ^ 2 + (diskCircle x y).2 ^ 2 ≤ 2 := by
  rw [diskCircle_sq]
  exact nY_le (xi_nonneg x y) (xi_le_etaOf x y) (etaOf_le hx hy)

theorem diskCircle_edge {x y : ℝ} (hx : |x| ≤ 1) (hy : |y| ≤ 1) :
    (diskCircle x y).1 ^ 2 + (diskCircle x y).2 ^ 2 = 2 ↔ max |x| |y| = 1 := by
  rw [diskCircle_sq, ← etaOf_one]
  constructor
  · intro h
    by_contra hn
    have := nY_lt (xi_nonneg x y) (xi_le_etaOf x y) (lt_of_le_of_ne (etaOf_le hx hy) hn)
    linarith
  · intro h
    rw [h]
    exact nY_edge (xi_nonneg x y) (le_trans (min_le_left _ _) hx)

/-- North and south sectors. -/
theorem diskCircle_ns {x y : ℝ} (h : |x| ≤ |y|) : diskCircle x y = (x, sign1 y * nY |x| (etaOf x y)) := by
  have hm : min |x| |y| = |x| := min_eq_left h
  have hg := nY_ge (xi_nonneg x y) (xi_le_etaOf x y)
  rw [hm] at hg
  have hx : |x| ≤ etaOf x y := le_trans (le_max_left _ _) (le_max_left _ _)
  have hp : 0 ≤ nY |x| (etaOf x y) := le_trans (etaOf_pos x y).le hg
  rw [diskCircle_eq, hm]
  unfold sectors
  dsimp only
  rw [if_pos h, abs_of_nonneg hp, abs_abs, min_eq_left (hx.trans hg), max_eq_right (hx.trans hg),
    sign1_mul_abs]

/-- East and west sectors. -/
theorem diskCircle_ew {x y : ℝ} (h : |y| < |x|) : diskCircle x y = (sign1 x * nY |y| (etaOf x y), y) := by
  have hm : min |x| |y| = |y| := min_eq_right h.le
  have hg := nY_ge (xi_nonneg x y) (xi_le_etaOf x y)
  rw [hm] at hg
  have hx : |y| ≤ etaOf x y := le_trans (le_max_right _ _) (le_max_left _ _)
  have hp : 0 ≤ nY |y| (etaOf x y) := le_trans (etaOf_pos x y).le hg
  rw [diskCircle_eq, hm]
  unfold sectors
  dsimp only
  rw [if_neg (not_le.mpr h), abs_of_nonneg hp, abs_abs, min_eq_left (hx.trans hg), max_eq_right (hx.trans hg),
    sign1_mul_abs]

theorem sign1_mul_inj {x x' u u' : ℝ} (hu : 0 < u) (hu' : 0 < u') (h : sign1 x * u = sign1 x' * u') :
    sign1 x = sign1 x' ∧ u = u' := by
  unfold sign1 at *
  split_ifs at * <;> constructor <;> linarith

/-- Away from the centre two points of the square are never mapped to the same point. -/
theorem diskCircle_inj {x y x' y' : ℝ} (hx : |x| ≤ 1) (hy : |y| ≤ 1) (hx' : |x'| ≤ 1) (hy' : |y'| ≤ 1)
    (hc : eps ≤ max |x| |y|) (hc' : eps ≤ max |x'| |y'|) (h : diskCircle x y = diskCircle x' y') :
    x = x' ∧ y = y' := by
  have ge1 {a b : ℝ} (k : |a| ≤ |b|) : |b| ≤ nY |a| (etaOf a b) :=
    le_trans (le_trans (le_max_right _ _) (le_max_left _ _))
      (nY_ge (abs_nonneg a) (le_trans (le_max_left _ _) (le_max_left _ _)))
  have ge2 {a b : ℝ} (k : |b| < |a|) : |a| ≤ nY |b| (etaOf a b) :=
    le_trans (le_trans (le_max_left _ _) (le_max_left _ _))
      (nY_ge (abs_nonneg b) (le_trans (le_max_right _ _) (le_max_left _ _)))
  have pos1 {a b : ℝ} : 0 < nY |a| (etaOf a b) :=
    lt_of_lt_of_le (etaOf_pos a b) (nY_ge (abs_nonneg a) (le_trans (le_max_left _ _) (le_max_left _ _)))
  have pos2 {a b : ℝ} : 0 < nY |b| (etaOf a b) :=
    lt_of_lt_of_le (etaOf_pos a b) (nY_ge (abs_nonneg b) (le_trans (le_max_right _ _) (le_max_left _ _)))
  have cross {a b a' b' : ℝ} (k : |a| ≤ |b|) (k' : |b'| < |a'|)
      (e : diskCircle a b = diskCircle a' b') : False := by
    rw [diskCircle_ns k, diskCircle_ew k'] at e
    have e1 := congrArg Prod.fst e
    have e2 := congrArg Prod.snd e
    dsimp only at e1 e2
    have a1 := congrArg abs e1
    have a2 := congrArg abs e2
    rw [abs_mul, abs_sign1, one_mul, abs_of_pos pos2] at a1
    rw [abs_mul, abs_sign1, one_mul, abs_of_pos pos1] at a2
    have := ge1 k
    have := ge2 k'
    linarith
  rcases le_or_gt |x| |y| with k | k <;> rcases le_or_gt |x'| |y'| with k' | k'
  · rw [diskCircle_ns k, diskCircle_ns k'] at h
    have e1 := congrArg Prod.fst h
    have e2 := congrArg Prod.snd h
    dsimp only at e1 e2
    subst e1
    obtain ⟨hs, hn⟩ := sign1_mul_inj pos1 pos1 e2
    have := nY_inj (etaOf_pos _ _).le (etaOf_pos _ _).le (etaOf_le hx hy) (etaOf_le hx' hy') hn
    rw [etaOf_eq hc, etaOf_eq hc', max_eq_right k, max_eq_right k'] at this
    refine ⟨rfl, ?_⟩
    rw [← sign1_mul_abs y, ← sign1_mul_abs y', hs, this]
  · exact (cross k k' h).elim
  · exact (cross k' k h.symm).elim
  · rw [diskCircle_ew k, diskCircle_ew k'] at h
    have e1 := congrArg Prod.fst h
    have e2 := congrArg Prod.snd h
    dsimp only at e1 e2
    subst e2
    obtain ⟨hs, hn⟩ := sign1_mul_inj pos2 pos2 e1
    have := nY_inj (etaOf_pos _ _).le (etaOf_pos _ _).le (etaOf_le hx hy) (etaOf_le hx' hy') hn
    rw [etaOf_eq hc, etaOf_eq hc', max_eq_left k.le, max_eq_left k'.le] at this
    refine ⟨?_, rfl⟩
    rw [← sign1_mul_abs x, ← sign1_mul_abs x', hs, this]

theorem root_low {e : ℝ} (h0 : 0 ≤ e) (h1 : e ≤ 1) : Real.sqrt 2 - e ≤ Real.sqrt (2 - e ^ 2) := by
  apply Real.le_sqrt_of_sq_le
  have h2 := Real.sq_sqrt (show (0 : ℝ) ≤ 2 by norm_num)
  have h3 : 1 ≤ Real.sqrt 2 := Real.le_sqrt_of_sq_le (by norm_num)
  nlinarith [mul_nonneg h0 (sub_nonneg.mpr h3), mul_nonneg h0 (sub_nonneg.mpr h1)]

/-- One sector is covered. -/
theorem nY_surj {u v : ℝ} (hu : 0 ≤ u) (huv : u ≤ v) (hd : u ^ 2 + v ^ 2 ≤ 2) (hv : 2 * eps ≤ v) :
    ∃ eta, u ≤ eta ∧ eps ≤ eta ∧ eta ≤ 1 ∧ nY u eta = v := by
  have hu1 : u ≤ 1 := by nlinarith
  have hr := Real.sq_sqrt (show 0 ≤ 2 - u ^ 2 by nlinarith)
  have hrn := Real.sqrt_nonneg (2 - u ^ 2)
  have hv0 : 0 ≤ v := hu.trans huv
  have hk : v ≤ Real.sqrt (2 - u ^ 2) := Real.le_sqrt_of_sq_le (by linarith)
  have hr2 : Real.sqrt (2 - u ^ 2) ≤ 2 := by
    rw [Real.sqrt_le_left (by norm_num)]; nlinarith
  generalize hkd : v - Real.sqrt (2 - u ^ 2) = k at *
  have hk0 : k ≤ 0 := by linarith
  have hk2 : -2 ≤ k := by linarith
  have hq := Real.sq_sqrt (show 0 ≤ 4 - k ^ 2 by nlinarith)
  have hqn := Real.sqrt_nonneg (4 - k ^ 2)
  have hq2 : Real.sqrt (4 - k ^ 2) ≤ 2 := by
    rw [Real.sqrt_le_left (by norm_num)]; nlinarith
  generalize Real.sqrt (4 - k ^ 2) = w at *
  have hroot : Real.sqrt (2 - ((k + w) / 2) ^ 2) = (w - k) / 2 := by
    rw [show 2 - ((k + w) / 2) ^ 2 = ((w - k) / 2) ^ 2 by nlinarith]
    exact Real.sqrt_sq (by linarith)
  have hY : nY u ((k + w) / 2) = v := by
    unfold nY
    rw [hroot]; linarith
  have heta0 : 0 ≤ (k + w) / 2 := by
    -- `k² ≤ 2`
    have : k ^ 2 ≤ 2 := by nlinarith
    nlinarith
  have heta1 : (k + w) / 2 ≤ 1 := by linarith
  refine ⟨(k + w) / 2, ?_, ?_, heta1, hY⟩
  · by_contra hn
    rw [not_le] at hn
    have h0 : ((k + w) / 2) ^ 2 ≤ u ^ 2 := pow_le_pow_left₀ heta0 hn.le 2
    have h1 : Real.sqrt (2 - u ^ 2) ≤ Real.sqrt (2 - ((k + w) / 2) ^ 2) := Real.sqrt_le_sqrt (by linarith)
    rw [hroot] at h1
    linarith
  · have h2 : Real.sqrt (2 - u ^ 2) ≤ Real.sqrt 2 := Real.sqrt_le_sqrt (by nlinarith)
    have h3 : Real.sqrt 2 - (k + w) / 2 ≤ Real.sqrt (2 - ((k + w) / 2) ^ 2) := root_low heta0 heta1
    rw [hroot] at h3
    linarith

/-- Away from the centre every point of the disk of radius √2 is reached. -/
theorem diskCircle_surj {p q : ℝ} (hd : p ^ 2 + q ^ 2 ≤ 2) (hc : 2 * eps ≤ max |p| |q|) :
    ∃ x y, |x| ≤ 1 ∧ |y| ≤ 1 ∧ diskCircle x y = (p, q) := by
  have hs {a e : ℝ} (he : 0 ≤ e) : |sign1 a * e| = e := by
    rw [abs_mul, abs_sign1, one_mul, abs_of_nonneg he]
  have hss {a e : ℝ} (he : 0 < e) : sign1 (sign1 a * e) = sign1 a := by
    unfold sign1
    by_cases h : 0 ≤ a
    · rw [if_pos h, one_mul, if_pos he.le]
    · rw [if_neg h, if_neg (by linarith)]
  rcases le_or_gt |p| |q| with k | k
  · rw [max_eq_right k] at hc
    obtain ⟨e, h1, h2, h3, h4⟩ := nY_surj (abs_nonneg p) k (by rw [sq_abs, sq_abs]; exact hd) hc
    have ep : 0 < e := lt_of_lt_of_le eps_pos h2
    have ha : |sign1 q * e| = e := hs ep.le
    have hle : |p| ≤ |sign1 q * e| := by rw [ha]; exact h1
    refine ⟨p, sign1 q * e, h1.trans h3, by rw [ha]; exact h3, ?_⟩
    rw [diskCircle_ns hle, hss ep, etaOf_eq (by rw [ha]; exact h2.trans (le_max_right _ _)), ha,
      max_eq_right h1, h4, sign1_mul_abs]
  · rw [max_eq_left k.le] at hc
    obtain ⟨e, h1, h2, h3, h4⟩ := nY_surj (abs_nonneg q) k.le (by rw [sq_abs, sq_abs]; linarith) hc
    have ep : 0 < e := lt_of_lt_of_le eps_pos h2
    have ha : |sign1 p * e| = e := hs ep.le
    have hne : |q| ≠ e := by
      intro hqe
      rw [hqe] at h4
      unfold nY at h4
      have : e = |p| := by rw [← h4]; ring
      rw [← this, ← hqe] at k
      exact lt_irrefl _ k
    have hlt : |q| < |sign1 p * e| := by rw [ha]; exact lt_of_le_of_ne h1 hne
    refine ⟨sign1 p * e, q, by rw [ha]; exact h3, h1.trans h3, ?_⟩
    rw [diskCircle_ew hlt, hss ep, etaOf_eq (by rw [ha]; exact h2.trans (le_max_left _ _)), ha,
      max_eq_left h1, h4, sign1_mul_abs]

/-! ### The sphere -/

/-- The place in the disk that is used for the sphere. -/
theorem circleSp_eq {x y : ℝ} (hx : |x| ≤ 1) (hy : |y| ≤ 1) : circleSp x y =
    sectors x y (min |x| |y| / etaOf x y * Real.sin (Real.pi * etaOf x y / 2))
      (nY (min |x| |y| / etaOf x y * Real.sin (Real.pi * etaOf x y / 2))
        (Real.sin (Real.pi * etaOf x y / 2))) := by
  have h : ¬ x < -1 := not_lt.mpr (abs_le.mp hx).1
  unfold circleSp
  dsimp only
  rw [if_neg h]
  rfl

theorem dd_pos {e : ℝ} (h0 : 0 < e) (h1 : e ≤ 1) : 0 < Real.sin (Real.pi * e / 2) := by
  have := Real.pi_pos
  apply Real.sin_pos_of_pos_of_lt_pi <;> nlinarith

theorem dd_one {e : ℝ} (h0 : 0 < e) (h1 : e ≤ 1) : Real.sin (Real.pi * e / 2) = 1 ↔ e = 1 := by
  have hp := Real.pi_pos
  constructor
  · intro h
    by_contra hn
    have h2 : e < 1 := lt_of_le_of_ne h1 hn
    have h3 : Real.sin (Real.pi * e / 2) < Real.sin (Real.pi / 2) := by
      apply Real.sin_lt_sin_of_lt_of_le_pi_div_two <;> nlinarith
    rw [Real.sin_pi_div_two] at h3
    linarith
  · rintro rfl; rw [mul_one, Real.sin_pi_div_two]

theorem circleSp_sq {x y : ℝ} (hx : |x| ≤ 1) (hy : |y| ≤ 1) :
    (circleSp x y).1 ^ 2 + (circleSp x y).2 ^ 2 ≤ 2 ∧
    ((circleSp x y).1 ^ 2 + (circleSp x y).2 ^ 2 = 2 ↔ max |x| |y| = 1) := by
  rw [circleSp_eq hx hy, sectors_sq]
  have he := etaOf_pos x y
  have he1 := etaOf_le hx hy
  have hd := dd_pos he he1
  have hd1 := Real.sin_le_one (Real.pi * etaOf x y / 2)
  have hr0 : 0 ≤ min |x| |y| / etaOf x y := div_nonneg (xi_nonneg x y) he.le
  have hr1 : min |x| |y| / etaOf x y ≤ 1 := by rw [div_le_one he]; exact xi_le_etaOf x y
  have hq0 : 0 ≤ min |x| |y| / etaOf x y * Real.sin (Real.pi * etaOf x y / 2) := mul_nonneg hr0 hd.le
  have hq1 : min |x| |y| / etaOf x y * Real.sin (Real.pi * etaOf x y / 2)
      ≤ Real.sin (Real.pi * etaOf x y / 2) := by nlinarith
  refine ⟨nY_le hq0 hq1 hd1, ?_⟩
  rw [← etaOf_one, ← dd_one he he1]
  constructor
  · intro h
    by_contra hn
    have := nY_lt hq0 hq1 (lt_of_le_of_ne hd1 hn)
    linarith
  · intro h
    rw [h] at hq1 ⊢
    exact nY_edge (by rw [h] at hq0; exact hq0) hq1

/-- Away from the centre: first a shift along the rays from the centre, then the disk. -/
theorem circleSp_disk {x y : ℝ} (hx : |x| ≤ 1) (hy : |y| ≤ 1) (hc : eps ≤ max |x| |y|) :
    let e := max |x| |y|
    let d := Real.sin (Real.pi * e / 2)
    circleSp x y = diskCircle (x / e * d) (y / e * d) ∧ |x / e * d| ≤ 1 ∧ |y / e * d| ≤ 1 ∧
      max |x / e * d| |y / e * d| = d ∧ eps ≤ d := by
  intro e d
  have he : 0 < e := lt_of_lt_of_le eps_pos hc
  have he1 : e ≤ 1 := max_le hx hy
  have hee : etaOf x y = e := etaOf_eq hc
  have hd : 0 < d := dd_pos he he1
  have hd1 : d ≤ 1 := Real.sin_le_one _
  have hf : 0 < d / e := div_pos hd he
  have ax : |x / e * d| = d / e * |x| := by
    rw [abs_mul, abs_div, abs_of_pos he, abs_of_pos hd]; ring
  have ay : |y / e * d| = d / e * |y| := by
    rw [abs_mul, abs_div, abs_of_pos he, abs_of_pos hd]; ring
  have hm : max |x / e * d| |y / e * d| = d := by
    rw [ax, ay, ← mul_max_of_nonneg _ _ hf.le]
    exact div_mul_cancel₀ d he.ne'
  have hmin : min |x / e * d| |y / e * d| = min |x| |y| / e * d := by
    rw [ax, ay, ← mul_min_of_nonneg _ _ hf.le]; ring
  have hjordan : e ≤ d := by
    have := Real.mul_le_sin (x := Real.pi * e / 2) (by have := Real.pi_pos; positivity)
      (by have := Real.pi_pos; nlinarith)
    have hp := Real.pi_pos.ne'
    calc e = 2 / Real.pi * (Real.pi * e / 2) := by field_simp
      _ ≤ d := this
  have hde : eps ≤ d := le_trans hc hjordan
  refine ⟨?_, ?_, ?_, hm, hde⟩
  · rw [circleSp_eq hx hy, diskCircle_eq, hee, hmin, etaOf_eq (by rw [hm]; exact hde), hm]
    have hs {a : ℝ} : sign1 (a / e * d) = sign1 a := by
      have : a / e * d = a * (d / e) := by ring
      unfold sign1
      rw [this]
      by_cases h : 0 ≤ a
      · rw [if_pos h, if_pos (mul_nonneg h hf.le)]
      · rw [if_neg h, if_neg (not_le.mpr (mul_neg_of_neg_of_pos (not_le.mp h) hf))]
    have hcond : (|x / e * d| ≤ |y / e * d|) ↔ |x| ≤ |y| := by
      rw [ax, ay]; exact mul_le_mul_iff_right₀ hf
    unfold sectors
    dsimp only
    rw [hs, hs]
    by_cases h : |x| ≤ |y|
    · rw [if_pos h, if_pos (hcond.mpr h)]
    · rw [if_neg h, if_neg (fun k => h (hcond.mp k))]
  · rw [← hm] at hd1; exact le_trans (le_max_left _ _) hd1
  · rw [← hm] at hd1; exact le_trans (le_max_right _ _) hd1

theorem circleSp_inj {x y x' y' : ℝ} (hx : |x| ≤ 1) (hy : |y| ≤ 1) (hx' : |x'| ≤ 1) (hy' : |y'| ≤ 1)
    (hc : eps ≤ max |x| |y|) (hc' : eps ≤ max |x'| |y'|) (h : circleSp x y = circleSp x' y') :
    x = x' ∧ y = y' := by
  obtain ⟨k1, k2, k3, k4, k5⟩ := circleSp_disk hx hy hc
  obtain ⟨l1, l2, l3, l4, l5⟩ := circleSp_disk hx' hy' hc'
  rw [k1, l1] at h
  obtain ⟨m1, m2⟩ := diskCircle_inj k2 k3 l2 l3 (by rw [k4]; exact k5) (by rw [l4]; exact l5) h
  have hd : Real.sin (Real.pi * max |x| |y| / 2) = Real.sin (Real.pi * max |x'| |y'| / 2) := by
    rw [← k4, ← l4, m1, m2]
  have he : 0 < max |x| |y| := lt_of_lt_of_le eps_pos hc
  have he' : 0 < max |x'| |y'| := lt_of_lt_of_le eps_pos hc'
  have he1 : max |x| |y| ≤ 1 := max_le hx hy
  have he1' : max |x'| |y'| ≤ 1 := max_le hx' hy'
  have hp := Real.pi_pos
  have hee : max |x| |y| = max |x'| |y'| := by
    have := Real.injOn_sin ⟨by nlinarith, by nlinarith⟩ ⟨by nlinarith, by nlinarith⟩ hd
    nlinarith
  have hdp := dd_pos he he1
  rw [hee] at m1 m2 hdp
  have c1 := mul_right_cancel₀ hdp.ne' m1
  have c2 := mul_right_cancel₀ hdp.ne' m2
  exact ⟨(div_left_inj' he'.ne').mp c1, (div_left_inj' he'.ne').mp c2⟩

/-- Inside of a block nothing is folded. -/
theorem fold_in {x : ℝ} (h : |x| ≤ 1) : fold x = x := by
  rw [abs_le] at h
  unfold fold
  dsimp only
  rw [max_eq_right (by linarith), max_eq_right (by linarith)]
  norm_num

theorem fold_hi {d : ℝ} (h0 : 0 ≤ d) : fold (1 + d) = 1 - d := by
  unfold fold
  dsimp only
  rw [max_eq_left (by linarith), max_eq_right (by linarith)]
  have : 1 + d ≠ 0 := by linarith
  rw [show 1 + d - 1 + 0 = d by ring]
  field_simp

theorem fold_lo {d : ℝ} (h0 : 0 ≤ d) : fold (-1 - d) = -(1 - d) := by
  unfold fold
  dsimp only
  rw [max_eq_right (by linarith), max_eq_left (by linarith)]
  have : 1 + d ≠ 0 := by linarith
  rw [show 0 + (-1 - (-1 - d)) = d by ring]
  field_simp
  ring

/-- The height above the equator before the sign is set. -/
def height (p : ℝ × ℝ) : ℝ :=
  if |p.1 ^ 2 + p.2 ^ 2 - 2| < 1 / 10000000000 then 0 else Real.sqrt (2 - (p.1 ^ 2 + p.2 ^ 2))

theorem height_nonneg (p : ℝ × ℝ) : 0 ≤ height p := by
  unfold height; split_ifs
  · exact le_refl _
  · exact Real.sqrt_nonneg _

/-- The sign of the height. -/
def hsign (b : ℤ) (x y : ℝ) : ℝ :=
  (if decide (|2 * x - 1| > 1) ≠ decide (|2 * y - 1| > 1) then -1 else 1) * (if b = 1 then -1 else 1)

theorem pillowsphere_eq (b : ℤ) (x y : ℝ) : pillowsphere true b x y =
    ⟨(circleSp (fold (2 * x - 1)) (fold (2 * y - 1))).1 / Real.sqrt 2,
     (circleSp (fold (2 * x - 1)) (fold (2 * y - 1))).2 / Real.sqrt 2,
     hsign b x y * height (circleSp (fold (2 * x - 1)) (fold (2 * y - 1))) / Real.sqrt 2⟩ := by
  unfold pillowsphere cart hsign height
  dsimp only
  rw [if_pos rfl]
  ext
  · rfl
  · rfl
  · dsimp only
    by_cases h1 : decide (|2 * x - 1| > 1) ≠ decide (|2 * y - 1| > 1)
    · rw [if_pos h1, if_pos h1]
      by_cases h2 : b = 1
      · rw [if_pos h2, if_pos h2]; ring
      · rw [if_neg h2, if_neg h2]; ring
    · rw [if_neg h1, if_neg h1]
      by_cases h2 : b = 1
      · rw [if_pos h2, if_pos h2]; ring
      · rw [if_neg h2, if_neg h2]; ring

theorem hsign_sq (b : ℤ) (x y : ℝ) : hsign b x y ^ 2 = 1 := by
  unfold hsign; split_ifs <;> norm_num

theorem near_sphere {p : ℝ × ℝ} {σ : ℝ} (hσ : σ ^ 2 = 1) (h : p.1 ^ 2 + p.2 ^ 2 ≤ 2) :
    1 - 5 / 100000000000 < (p.1 / Real.sqrt 2) ^ 2 + (p.2 / Real.sqrt 2) ^ 2
        + (σ * height p / Real.sqrt 2) ^ 2 ∧
    (p.1 / Real.sqrt 2) ^ 2 + (p.2 / Real.sqrt 2) ^ 2 + (σ * height p / Real.sqrt 2) ^ 2 ≤ 1 := by
  have h2 := Real.sq_sqrt (show (0 : ℝ) ≤ 2 by norm_num)
  rw [div_pow, div_pow, div_pow, h2, mul_pow, hσ, one_mul]
  unfold height
  split_ifs with k
  · rw [abs_lt] at k
    constructor <;> linarith
  · rw [Real.sq_sqrt (by linarith)]
    constructor <;> linarith

end

end Fclaw.Mapping

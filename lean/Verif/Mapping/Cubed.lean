import Verif.Mapping.Spec
/-
The cubed sphere: each block is the same function of the point on the cube.
-/
set_option autoImplicit false
set_option linter.unusedVariables false
namespace Fclaw.Mapping

noncomputable section

open Real

/-- The tangent that is used, as a function of a coordinate of the cube. -/
def tq (a : ℝ) : ℝ := Real.tan (Real.pi / 4 * a)

/-- From the cube to the sphere. -/
def toSphere (c : P3) : P3 :=
  let n := Real.sqrt (tq c.x ^ 2 + tq c.y ^ 2 + tq c.z ^ 2)
  ⟨tq c.x / n, tq c.y / n, tq c.z / n⟩

theorem tq_one : tq 1 = 1 := by
  unfold tq; rw [mul_one]; exact Real.tan_pi_div_four

theorem tq_neg (a : ℝ) : tq (-a) = -tq a := by
  unfold tq; rw [mul_neg, Real.tan_neg]

theorem tq_neg_one : tq (-1) = -1 := by rw [tq_neg, tq_one]

theorem tq_coord (s : ℝ) : Real.tan (1 / 2 * Real.pi * (s - 1 / 2)) = tq (2 * s - 1) := by
  unfold tq; congr 1; ring

theorem csphereBasic_eq (s t : ℝ) : csphereBasic s t =
    ⟨tq (2 * s - 1) / Real.sqrt (tq (2 * s - 1) ^ 2 + tq (2 * t - 1) ^ 2 + 1),
     tq (2 * t - 1) / Real.sqrt (tq (2 * s - 1) ^ 2 + tq (2 * t - 1) ^ 2 + 1),
     1 / Real.sqrt (tq (2 * s - 1) ^ 2 + tq (2 * t - 1) ^ 2 + 1)⟩ := by
  unfold csphereBasic
  simp only [tq_coord]
  ext <;> dsimp only <;> ring

theorem cubedsphere_eq {b : ℤ} (h0 : 0 ≤ b) (h6 : b < 6) (s t : ℝ) :
    cubedsphere b s t = some (toSphere (cubePoint b s t)) := by
  have hb : b = 0 ∨ b = 1 ∨ b = 2 ∨ b = 3 ∨ b = 4 ∨ b = 5 := by omega
  unfold cubedsphere cubePoint
  rw [csphereBasic_eq]
  generalize 2 * s - 1 = u
  generalize 2 * t - 1 = v
  rcases hb with rfl | rfl | rfl | rfl | rfl | rfl
  · rw [if_pos rfl, if_pos rfl]
    unfold toSphere
    dsimp only
    rw [tq_neg_one, show tq v ^ 2 + tq u ^ 2 + (-1) ^ 2 = tq u ^ 2 + tq v ^ 2 + 1 by ring, neg_div]
  · rw [if_neg (by norm_num), if_pos rfl, if_neg (by norm_num), if_pos rfl]
    unfold toSphere
    dsimp only
    rw [tq_one, show tq v ^ 2 + 1 ^ 2 + tq u ^ 2 = tq u ^ 2 + tq v ^ 2 + 1 by ring]
  · rw [if_neg (by norm_num), if_neg (by norm_num), if_pos rfl, if_neg (by norm_num),
      if_neg (by norm_num), if_pos rfl]
    unfold toSphere
    dsimp only
    rw [tq_neg_one, show (-1) ^ 2 + tq v ^ 2 + tq u ^ 2 = tq u ^ 2 + tq v ^ 2 + 1 by ring, neg_div]
  · rw [if_neg (by norm_num), if_neg (by norm_num), if_neg (by norm_num), if_pos rfl,
      if_neg (by norm_num), if_neg (by norm_num), if_neg (by norm_num), if_pos rfl]
    unfold toSphere
    dsimp only
    rw [tq_one, one_pow]
  · rw [if_neg (by norm_num), if_neg (by norm_num), if_neg (by norm_num), if_neg (by norm_num), if_pos rfl,
      if_neg (by norm_num), if_neg (by norm_num), if_neg (by norm_num), if_neg (by norm_num), if_pos rfl]
    unfold toSphere
    dsimp only
    rw [tq_neg_one, show tq u ^ 2 + (-1) ^ 2 + tq v ^ 2 = tq u ^ 2 + tq v ^ 2 + 1 by ring, neg_div]
  · rw [if_neg (by norm_num), if_neg (by norm_num), if_neg (by norm_num), if_neg (by norm_num),
      if_neg (by norm_num), if_pos rfl,
      if_neg (by norm_num), if_neg (by norm_num), if_neg (by norm_num), if_neg (by norm_num),
      if_neg (by norm_num)]
    unfold toSphere
    dsimp only
    rw [tq_one, show 1 ^ 2 + tq u ^ 2 + tq v ^ 2 = tq u ^ 2 + tq v ^ 2 + 1 by ring]

/-- The surface of the cube. -/
def OnCube (c : P3) : Prop := (|c.x| ≤ 1 ∧ |c.y| ≤ 1 ∧ |c.z| ≤ 1) ∧ (|c.x| = 1 ∨ |c.y| = 1 ∨ |c.z| = 1)

theorem abs_coord {s : ℝ} (h : I01 s) : |2 * s - 1| ≤ 1 := by
  obtain ⟨h0, h1⟩ := h
  rw [abs_le]; constructor <;> linarith

theorem onCube_cubePoint {b : ℤ} {s t : ℝ} (hs : I01 s) (ht : I01 t) : OnCube (cubePoint b s t) := by
  have h1 := abs_coord hs
  have h2 := abs_coord ht
  unfold cubePoint
  dsimp only
  split_ifs <;> simp [OnCube, h1, h2]

theorem tq_range {a : ℝ} (h : |a| ≤ 1) : -(Real.pi / 2) < Real.pi / 4 * a ∧ Real.pi / 4 * a < Real.pi / 2 := by
  rw [abs_le] at h
  have := Real.pi_pos
  constructor <;> nlinarith

theorem tq_inj {a b : ℝ} (ha : |a| ≤ 1) (hb : |b| ≤ 1) (h : tq a = tq b) : a = b := by
  have h1 := tq_range ha
  have h2 := tq_range hb
  have := Real.injOn_tan ⟨h1.1, h1.2⟩ ⟨h2.1, h2.2⟩ h
  have hp : Real.pi / 4 ≠ 0 := by have := Real.pi_pos; positivity
  exact mul_left_cancel₀ hp this

theorem tq_mono {a b : ℝ} (ha : |a| ≤ 1) (hb : |b| ≤ 1) (h : a ≤ b) : tq a ≤ tq b := by
  have h1 := tq_range ha
  have h2 := tq_range hb
  refine Real.strictMonoOn_tan.monotoneOn ⟨h1.1, h1.2⟩ ⟨h2.1, h2.2⟩ ?_
  have := Real.pi_pos
  nlinarith

theorem tq_abs_le {a : ℝ} (ha : |a| ≤ 1) : |tq a| ≤ 1 := by
  have h := abs_le.mp ha
  rw [abs_le]
  constructor
  · have := tq_mono (a := -1) (by simp) ha h.1
    rwa [tq_neg_one] at this
  · have := tq_mono (b := 1) ha (by simp) h.2
    rwa [tq_one] at this

theorem tq_abs_one {a : ℝ} (ha : |a| = 1) : |tq a| = 1 := by
  rcases (abs_eq (by norm_num)).mp ha with h | h
  · rw [h, tq_one]; norm_num
  · rw [h, tq_neg_one]; norm_num

theorem sqrt_pos_of_cube {c : P3} (h : OnCube c) :
    0 < Real.sqrt (tq c.x ^ 2 + tq c.y ^ 2 + tq c.z ^ 2) := by
  apply Real.sqrt_pos.mpr
  obtain ⟨_, h | h | h⟩ := h <;> have := tq_abs_one h <;>
    nlinarith [sq_abs (tq c.x), sq_abs (tq c.y), sq_abs (tq c.z), sq_nonneg (tq c.x), sq_nonneg (tq c.y),
      sq_nonneg (tq c.z)]

theorem onSphere_toSphere {c : P3} (h : OnCube c) : OnSphere (toSphere c) := by
  have hp := sqrt_pos_of_cube h
  unfold OnSphere toSphere
  dsimp only
  have hs := Real.sq_sqrt (show 0 ≤ tq c.x ^ 2 + tq c.y ^ 2 + tq c.z ^ 2 by positivity)
  rw [div_pow, div_pow, div_pow, ← add_div, ← add_div, hs]
  apply div_self
  rw [← hs]; positivity

/-- The largest coordinate. -/
def maxAbs (p : P3) : ℝ := max |p.x| (max |p.y| |p.z|)

theorem maxAbs_one {x y z : ℝ} (h : (|x| ≤ 1 ∧ |y| ≤ 1 ∧ |z| ≤ 1) ∧ (|x| = 1 ∨ |y| = 1 ∨ |z| = 1)) :
    max |x| (max |y| |z|) = 1 := by
  obtain ⟨⟨h1, h2, h3⟩, h⟩ := h
  apply le_antisymm
  · exact max_le h1 (max_le h2 h3)
  · rcases h with h | h | h
    · rw [← h]; exact le_max_left _ _
    · rw [← h]; exact le_trans (le_max_left _ _) (le_max_right _ _)
    · rw [← h]; exact le_trans (le_max_right _ _) (le_max_right _ _)

theorem maxAbs_toSphere {c : P3} (h : OnCube c) :
    maxAbs (toSphere c) = 1 / Real.sqrt (tq c.x ^ 2 + tq c.y ^ 2 + tq c.z ^ 2) := by
  have hp := sqrt_pos_of_cube h
  unfold maxAbs toSphere
  dsimp only
  rw [abs_div, abs_div, abs_div, abs_of_pos hp, max_div_div_right hp.le, max_div_div_right hp.le,
    maxAbs_one]
  refine ⟨⟨tq_abs_le h.1.1, tq_abs_le h.1.2.1, tq_abs_le h.1.2.2⟩, ?_⟩
  rcases h.2 with h | h | h
  · exact Or.inl (tq_abs_one h)
  · exact Or.inr (Or.inl (tq_abs_one h))
  · exact Or.inr (Or.inr (tq_abs_one h))

theorem toSphere_inj {c d : P3} (hc : OnCube c) (hd : OnCube d) (h : toSphere c = toSphere d) : c = d := by
  have hpc := sqrt_pos_of_cube hc
  have hpd := sqrt_pos_of_cube hd
  have hm : maxAbs (toSphere c) = maxAbs (toSphere d) := by rw [h]
  rw [maxAbs_toSphere hc, maxAbs_toSphere hd] at hm
  have hn : Real.sqrt (tq c.x ^ 2 + tq c.y ^ 2 + tq c.z ^ 2)
      = Real.sqrt (tq d.x ^ 2 + tq d.y ^ 2 + tq d.z ^ 2) := by
    have := congrArg (fun a => 1 / a) hm
    simpa using this
  have hx := congrArg P3.x h
  have hy := congrArg P3.y h
  have hz := congrArg P3.z h
  unfold toSphere at hx hy hz
  dsimp only at hx hy hz
  rw [hn] at hx hy hz
  have k {a b : ℝ} (hh : a / Real.sqrt (tq d.x ^ 2 + tq d.y ^ 2 + tq d.z ^ 2)
      = b / Real.sqrt (tq d.x ^ 2 + tq d.y ^ 2 + tq d.z ^ 2)) : a = b :=
    (div_left_inj' hpd.ne').mp hh
  ext
  · exact tq_inj hc.1.1 hd.1.1 (k hx)
  · exact tq_inj hc.1.2.1 hd.1.2.1 (k hy)
  · exact tq_inj hc.1.2.2 hd.1.2.2 (k hz)

/-- The inverse of `tq`. -/
def tqInv (w : ℝ) : ℝ := 4 / Real.pi * Real.arctan w

theorem tq_tqInv (w : ℝ) : tq (tqInv w) = w := by
  unfold tq tqInv
  have := Real.pi_pos.ne'
  rw [show Real.pi / 4 * (4 / Real.pi * Real.arctan w) = Real.arctan w by field_simp]
  exact Real.tan_arctan w

theorem tqInv_one : tqInv 1 = 1 := by
  unfold tqInv
  have := Real.pi_pos.ne'
  rw [Real.arctan_one]; field_simp

theorem tqInv_neg (w : ℝ) : tqInv (-w) = -tqInv w := by
  unfold tqInv; rw [Real.arctan_neg]; ring

theorem tqInv_abs {w : ℝ} (h : |w| ≤ 1) : |tqInv w| ≤ 1 := by
  have hp : 0 ≤ 4 / Real.pi := by have := Real.pi_pos; positivity
  have hm {a b : ℝ} (hab : a ≤ b) : tqInv a ≤ tqInv b := by
    unfold tqInv
    exact mul_le_mul_of_nonneg_left (Real.arctan_strictMono.monotone hab) hp
  rw [abs_le] at h ⊢
  constructor
  · have := hm h.1; rwa [tqInv_neg, tqInv_one] at this
  · have := hm h.2; rwa [tqInv_one] at this

theorem tqInv_abs_one {w : ℝ} (h : |w| = 1) : |tqInv w| = 1 := by
  rcases (abs_eq (by norm_num)).mp h with h | h
  · rw [h, tqInv_one]; norm_num
  · rw [h, tqInv_neg, tqInv_one]; norm_num

theorem toSphere_surj {p : P3} (hp : OnSphere p) : ∃ c, OnCube c ∧ toSphere c = p := by
  unfold OnSphere at hp
  have hm : 0 < maxAbs p := by
    unfold maxAbs
    by_contra hn
    rw [not_lt] at hn
    have h1 : |p.x| ≤ 0 := le_trans (le_max_left _ _) hn
    have h2 : |p.y| ≤ 0 := le_trans (le_trans (le_max_left _ _) (le_max_right _ _)) hn
    have h3 : |p.z| ≤ 0 := le_trans (le_trans (le_max_right _ _) (le_max_right _ _)) hn
    rw [abs_nonpos_iff] at h1 h2 h3
    rw [h1, h2, h3] at hp
    norm_num at hp
  have hx : |p.x / maxAbs p| ≤ 1 := by
    rw [abs_div, abs_of_pos hm, div_le_one hm]; exact le_max_left _ _
  have hy : |p.y / maxAbs p| ≤ 1 := by
    rw [abs_div, abs_of_pos hm, div_le_one hm]; exact le_trans (le_max_left _ _) (le_max_right _ _)
  have hz : |p.z / maxAbs p| ≤ 1 := by
    rw [abs_div, abs_of_pos hm, div_le_one hm]; exact le_trans (le_max_right _ _) (le_max_right _ _)
  have ho : |p.x / maxAbs p| = 1 ∨ |p.y / maxAbs p| = 1 ∨ |p.z / maxAbs p| = 1 := by
    rw [abs_div, abs_div, abs_div, abs_of_pos hm, div_eq_one_iff_eq hm.ne', div_eq_one_iff_eq hm.ne',
      div_eq_one_iff_eq hm.ne']
    unfold maxAbs
    rcases max_choice |p.x| (max |p.y| |p.z|) with h | h
    · exact Or.inl h.symm
    · rcases max_choice |p.y| |p.z| with h' | h'
      · rw [h, h']; exact Or.inr (Or.inl rfl)
      · rw [h, h']; exact Or.inr (Or.inr rfl)
  refine ⟨⟨tqInv (p.x / maxAbs p), tqInv (p.y / maxAbs p), tqInv (p.z / maxAbs p)⟩,
    ⟨⟨tqInv_abs hx, tqInv_abs hy, tqInv_abs hz⟩, ?_⟩, ?_⟩
  · rcases ho with h | h | h
    · exact Or.inl (tqInv_abs_one h)
    · exact Or.inr (Or.inl (tqInv_abs_one h))
    · exact Or.inr (Or.inr (tqInv_abs_one h))
  · unfold toSphere
    dsimp only
    rw [tq_tqInv, tq_tqInv, tq_tqInv]
    have hn : Real.sqrt ((p.x / maxAbs p) ^ 2 + (p.y / maxAbs p) ^ 2 + (p.z / maxAbs p) ^ 2)
        = 1 / maxAbs p := by
      rw [div_pow, div_pow, div_pow, ← add_div, ← add_div, hp, ← one_div_pow]
      exact Real.sqrt_sq (by positivity)
    rw [hn]
    ext <;> dsimp only <;> field_simp

/-- Each point on the cube is on one of the faces. -/
theorem cubePoint_surj {c : P3} (h : OnCube c) :
    ∃ b s t, 0 ≤ b ∧ b < 6 ∧ I01 s ∧ I01 t ∧ cubePoint b s t = c := by
  have hin {a : ℝ} (ha : |a| ≤ 1) : I01 ((a + 1) / 2) := by
    rw [abs_le] at ha; constructor <;> linarith
  have hc (a : ℝ) : 2 * ((a + 1) / 2) - 1 = a := by ring
  obtain ⟨⟨hx, hy, hz⟩, h⟩ := h
  obtain ⟨x, y, z⟩ := c
  dsimp only at hx hy hz h
  rcases h with h | h | h <;> rcases (abs_eq (by norm_num)).mp h with h | h <;> subst h
  · exact ⟨5, (y + 1) / 2, (z + 1) / 2, by norm_num, by norm_num, hin hy, hin hz, by
      simp [cubePoint, hc]⟩
  · exact ⟨2, (z + 1) / 2, (y + 1) / 2, by norm_num, by norm_num, hin hz, hin hy, by
      simp [cubePoint, hc]⟩
  · exact ⟨1, (z + 1) / 2, (x + 1) / 2, by norm_num, by norm_num, hin hz, hin hx, by
      simp [cubePoint, hc]⟩
  · exact ⟨4, (x + 1) / 2, (z + 1) / 2, by norm_num, by norm_num, hin hx, hin hz, by
      simp [cubePoint, hc]⟩
  · exact ⟨3, (x + 1) / 2, (y + 1) / 2, by norm_num, by norm_num, hin hx, hin hy, by
      simp [cubePoint, hc]⟩
  · exact ⟨0, (y + 1) / 2, (x + 1) / 2, by norm_num, by norm_num, hin hy, hin hx, by
      simp [cubePoint, hc]⟩

end

end Fclaw.Mapping

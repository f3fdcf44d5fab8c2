import Verif.GeoGauge.Spec
import Mathlib.Tactic.Linarith
import Mathlib.Tactic.Ring
import Mathlib.Tactic.FieldSimp
import Mathlib.Tactic.NormNum
/-
C107: A gauge records the state of the water at its position.
-/
set_option autoImplicit false
set_option linter.unusedSimpArgs false
set_option linter.unusedVariables false
namespace Fclaw.GeoGauge

open Fort

noncomputable section

/-! ### Lemmas -/

theorem index_eq (lo d x : ℝ) (n : ℕ) (hd : 0 < d) (h1 : lo ≤ x) (h2 : x ≤ lo + (n : ℝ) * d) :
    (1 ≤ int ((x - lo) / d) + 1 ∧ int ((x - lo) / d) + 1 ≤ (n : ℤ) + 1) ∧
    ∀ i : ℤ, lo + ((i : ℝ) - 1) * d ≤ x → x < lo + (i : ℝ) * d → int ((x - lo) / d) + 1 = i := by
  have h0 : 0 ≤ (x - lo) / d := div_nonneg (by linarith) hd.le
  have hn : (x - lo) / d ≤ n := by rw [div_le_iff₀ hd]; linarith
  unfold int
  rw [if_pos h0]
  refine ⟨⟨?_, ?_⟩, ?_⟩
  · have := Int.floor_nonneg.2 h0
    omega
  · have : ⌊(x - lo) / d⌋ ≤ ⌊(n : ℝ)⌋ := Int.floor_le_floor hn
    rw [Int.floor_natCast] at this
    omega
  · intro i a b
    have : ⌊(x - lo) / d⌋ = i - 1 := by
      rw [Int.floor_eq_iff]
      push_cast
      constructor
      · rw [le_div_iff₀ hd]; linarith
      · rw [div_lt_iff₀ hd]; linarith
    omega

theorem written_zeroOut (v : ℝ) : Written v (zeroOut v) := by
  unfold Written zeroOut
  constructor
  · intro h; rw [if_pos h]
  · intro h; rw [if_neg (not_lt.2 h)]

theorem box (P : Patch) (hP : P.Valid) (p : ℝ × ℝ) (hp : P.Has p) (n : ℕ) (m : ℤ) (h1 : 1 ≤ m) (h2 : m ≤ n) :
    ∀ c ∈ four (P.iindex p.1) (P.jindex p.2), inBox (P.dims n) (c.1, c.2, m) = true := by
  have hx := (index_eq P.xlower P.dx p.1 P.mx hP.dx hp.1.1 hp.1.2).1
  have hy := (index_eq P.ylower P.dy p.2 P.my hP.dy hp.2.1 hp.2.2).1
  have hm := hP.mbc
  intro c hc
  rw [inBox_iff]
  unfold Patch.dims
  simp only
  unfold Patch.iindex Patch.jindex at hc
  simp only [four, List.mem_cons, List.not_mem_nil, or_false] at hc
  rcases hc with rfl | rfl | rfl | rfl <;> simp only <;> omega

/-- The weighted sum that the program computes. -/
def mix (q : Grid ℝ) (s t : ℝ) (i j m : ℤ) : ℝ :=
  (1 - s) * (1 - t) * q (i, j, m) + s * (1 - t) * q (i + 1, j, m) + (1 - s) * t * q (i, j + 1, m) + s * t * q (i + 1, j + 1, m)

theorem interp_eq (P : Patch) (hP : P.Valid) (p : ℝ × ℝ) (hp : P.Has p) (n : ℕ) (m : ℤ) (h1 : 1 ≤ m) (h2 : m ≤ n) (q : Grid ℝ) (s t : ℝ) :
    interp P n q s t (P.iindex p.1) (P.jindex p.2) m = some (mix q s t (P.iindex p.1) (P.jindex p.2) m) := by
  have hb := box P hP p hp n m h1 h2
  simp only [four, List.forall_mem_cons, List.not_mem_nil, false_imp_iff, implies_true, and_true] at hb
  obtain ⟨b1, b2, b3, b4⟩ := hb
  unfold interp
  simp only [rd, b1, b2, b3, b4, if_true, Option.bind_some]
  rfl

open Classical in
/-- The result of the program. -/
theorem update_eq (tol : ℝ) (P : Patch) (hP : P.Valid) (level : ℤ) (maux : ℕ) (ha : 1 ≤ maux) (q aux : Grid ℝ) (p : ℝ × ℝ) (hp : P.Has p) (t : ℝ) :
    ∃ e, update tol P level 3 maux q aux p.1 p.2 t = some e ∧ e.level = level ∧ e.tcurr = t ∧
      (∀ m : ℤ, 1 ≤ m → m ≤ 3 → e.comp m = zeroOut (if Wet tol q (P.iindex p.1) (P.jindex p.2) then
        mix q (P.xoff p.1) (P.yoff p.2) (P.iindex p.1) (P.jindex p.2) m else q (P.iindex p.1, P.jindex p.2, m))) ∧
      e.s.topo = if Wet tol q (P.iindex p.1) (P.jindex p.2) then
        mix aux (P.xoff p.1) (P.yoff p.2) (P.iindex p.1) (P.jindex p.2) 1 else aux (P.iindex p.1, P.jindex p.2, 1) := by
  have hb1 := box P hP p hp 3 1 (by norm_num) (by norm_num)
  have hb2 := box P hP p hp 3 2 (by norm_num) (by norm_num) (P.iindex p.1, P.jindex p.2) (by simp [four])
  have hb3 := box P hP p hp 3 3 (by norm_num) (by norm_num) (P.iindex p.1, P.jindex p.2) (by simp [four])
  have hba := box P hP p hp maux 1 (by norm_num) (by exact_mod_cast ha) (P.iindex p.1, P.jindex p.2) (by simp [four])
  simp only [four, List.forall_mem_cons, List.not_mem_nil, false_imp_iff, implies_true, and_true] at hb1
  obtain ⟨b1, b2, b3, b4⟩ := hb1
  have hcases : ∀ (e : Entry) (f : ℤ → ℝ), e.s.h = f 1 → e.s.hu = f 2 → e.s.hv = f 3 → ∀ m : ℤ, 1 ≤ m → m ≤ 3 → e.comp m = f m := by
    intro e f k1 k2 k3 m m1 m2
    unfold Entry.comp
    rcases (by omega : m = 1 ∨ m = 2 ∨ m = 3) with rfl | rfl | rfl
    · simpa using k1
    · simpa using k2
    · simpa using k3
  unfold update sample
  simp only [rd, b1, b2, b3, b4, hb2, hb3, hba, if_true, Option.bind_some,
    interp_eq P hP p hp 3 1 (by norm_num) (by norm_num), interp_eq P hP p hp 3 2 (by norm_num) (by norm_num),
    interp_eq P hP p hp 3 3 (by norm_num) (by norm_num), interp_eq P hP p hp maux 1 (by norm_num) (by exact_mod_cast ha)]
  by_cases hw : Wet tol q (P.iindex p.1) (P.jindex p.2)
  · rw [if_neg]
    · simp only [Option.bind_some, le_refl, if_true, if_pos hw]
      refine ⟨_, rfl, rfl, rfl, ?_, rfl⟩
      exact hcases _ (fun m => zeroOut (mix q (P.xoff p.1) (P.yoff p.2) (P.iindex p.1) (P.jindex p.2) m)) rfl rfl rfl
    · unfold Wet at hw
      simp only [four, List.forall_mem_cons, List.not_mem_nil, false_imp_iff, implies_true, and_true] at hw
      obtain ⟨w1, w2, w3, w4⟩ := hw
      rintro (h | h | h | h) <;> linarith
  · rw [if_pos]
    · simp only [Option.bind_some, le_refl, if_true, if_neg hw]
      refine ⟨_, rfl, rfl, rfl, ?_, rfl⟩
      exact hcases _ (fun m => zeroOut (q (P.iindex p.1, P.jindex p.2, m))) rfl rfl rfl
    · by_contra hn
      push Not at hn
      obtain ⟨w1, w2, w3, w4⟩ := hn
      apply hw
      unfold Wet
      simp only [four, List.forall_mem_cons, List.not_mem_nil, false_imp_iff, implies_true, and_true]
      refine ⟨?_, ?_, ?_, ?_⟩ <;> linarith

theorem in_index (P : Patch) (hP : P.Valid) (p : ℝ × ℝ) (hp : P.Has p) (i j : ℤ) (h : P.In i j p) : P.iindex p.1 = i ∧ P.jindex p.2 = j :=
  ⟨(index_eq P.xlower P.dx p.1 P.mx hP.dx hp.1.1 hp.1.2).2 i h.1.1 h.1.2, (index_eq P.ylower P.dy p.2 P.my hP.dy hp.2.1 hp.2.2).2 j h.2.1 h.2.2⟩

theorem off_eq (P : Patch) (hP : P.Valid) (p : ℝ × ℝ) (hp : P.Has p) (i j : ℤ) (h : P.In i j p) :
    p.1 = (P.centre i j).1 + P.xoff p.1 * P.dx ∧ p.2 = (P.centre i j).2 + P.yoff p.2 * P.dy := by
  obtain ⟨e1, e2⟩ := in_index P hP p hp i j h
  have hx := hP.dx.ne'
  have hy := hP.dy.ne'
  unfold Patch.xoff Patch.yoff Patch.centre
  rw [e1, e2]
  simp only
  constructor
  · field_simp; ring
  · field_simp; ring

theorem mix_bilinear (P : Patch) (q : Grid ℝ) (s t : ℝ) (i j m : ℤ) (F : ℝ × ℝ → ℝ) (hF : Bilinear F) (h : Samples P q m i j F) (p : ℝ × ℝ)
    (h1 : p.1 = (P.centre i j).1 + s * P.dx) (h2 : p.2 = (P.centre i j).2 + t * P.dy) : mix q s t i j m = F p := by
  obtain ⟨a, b, c, d, hf⟩ := hF
  unfold Samples at h
  simp only [four, List.forall_mem_cons, List.not_mem_nil, false_imp_iff, implies_true, and_true] at h
  obtain ⟨k1, k2, k3, k4⟩ := h
  unfold mix
  rw [k1, k2, k3, k4, hf, hf, hf, hf, hf, h1, h2]
  unfold Patch.centre
  simp only
  push_cast
  ring

/-! ### The property -/

/-- The record has the level of the patch and the time. If one of the four cells is dry, the rest is the state of the cell with the gauge. -/
theorem C107_dry (tol : ℝ) (P : Patch) (hP : P.Valid) (level : ℤ) (maux : ℕ) (ha : 1 ≤ maux) (q aux : Grid ℝ) (p : ℝ × ℝ) (hp : P.Has p) (t : ℝ)
    (i j : ℤ) (hc : P.In i j p) (hw : ¬ Wet tol q i j) :
    ∃ e, update tol P level 3 maux q aux p.1 p.2 t = some e ∧ e.level = level ∧ e.tcurr = t ∧
      (∀ m : ℤ, 1 ≤ m → m ≤ 3 → Written (q (i, j, m)) (e.comp m)) ∧ e.s.topo = aux (i, j, 1) := by
  obtain ⟨e, h, h1, h2, h3, h4⟩ := update_eq tol P hP level maux ha q aux p hp t
  obtain ⟨e1, e2⟩ := in_index P hP p hp i j hc
  rw [e1, e2] at h3 h4
  rw [if_neg hw] at h4
  refine ⟨e, h, h1, h2, ?_, h4⟩
  intro m m1 m2
  rw [h3 m m1 m2, if_neg hw]
  exact written_zeroOut _

/-- Otherwise, wherever in the cell the gauge is: a quantity that varies linearly in each coordinate between the four centres is recorded exactly. -/
theorem C107_linear (tol : ℝ) (P : Patch) (hP : P.Valid) (level : ℤ) (maux : ℕ) (ha : 1 ≤ maux) (q aux : Grid ℝ) (p : ℝ × ℝ) (hp : P.Has p)
    (t : ℝ) (i j : ℤ) (hc : P.In i j p) (hw : Wet tol q i j) :
    ∃ e, update tol P level 3 maux q aux p.1 p.2 t = some e ∧ e.level = level ∧ e.tcurr = t ∧
      (∀ (m : ℤ) (F : ℝ × ℝ → ℝ), 1 ≤ m → m ≤ 3 → Bilinear F → Samples P q m i j F → Written (F p) (e.comp m)) ∧
      (∀ F : ℝ × ℝ → ℝ, Bilinear F → Samples P aux 1 i j F → e.s.topo = F p) := by
  obtain ⟨e, h, h1, h2, h3, h4⟩ := update_eq tol P hP level maux ha q aux p hp t
  obtain ⟨e1, e2⟩ := in_index P hP p hp i j hc
  obtain ⟨o1, o2⟩ := off_eq P hP p hp i j hc
  rw [e1, e2] at h3 h4
  rw [if_pos hw] at h4
  refine ⟨e, h, h1, h2, ?_, ?_⟩
  · intro m F m1 m2 hF hS
    rw [h3 m m1 m2, if_pos hw, mix_bilinear P q _ _ i j m F hF hS p o1 o2]
    exact written_zeroOut _
  · intro F hF hS
    rw [h4, mix_bilinear P aux _ _ i j 1 F hF hS p o1 o2]

theorem mix_between (q : Grid ℝ) (s t : ℝ) (i j m : ℤ) (hs0 : 0 ≤ s) (hs1 : s ≤ 1) (ht0 : 0 ≤ t) (ht1 : t ≤ 1) (lo hi : ℝ)
    (h : ∀ c ∈ four i j, lo ≤ q (c.1, c.2, m) ∧ q (c.1, c.2, m) ≤ hi) : lo ≤ mix q s t i j m ∧ mix q s t i j m ≤ hi := by
  simp only [four, List.forall_mem_cons, List.not_mem_nil, false_imp_iff, implies_true, and_true] at h
  obtain ⟨⟨a1, a2⟩, ⟨b1, b2⟩, ⟨c1, c2⟩, d1, d2⟩ := h
  have w1 : 0 ≤ (1 - s) * (1 - t) := mul_nonneg (by linarith) (by linarith)
  have w2 : 0 ≤ s * (1 - t) := mul_nonneg hs0 (by linarith)
  have w3 : 0 ≤ (1 - s) * t := mul_nonneg (by linarith) ht0
  have w4 : 0 ≤ s * t := mul_nonneg hs0 ht0
  unfold mix
  constructor
  · have e1 := mul_le_mul_of_nonneg_left a1 w1
    have e2 := mul_le_mul_of_nonneg_left b1 w2
    have e3 := mul_le_mul_of_nonneg_left c1 w3
    have e4 := mul_le_mul_of_nonneg_left d1 w4
    nlinarith
  · have e1 := mul_le_mul_of_nonneg_left a2 w1
    have e2 := mul_le_mul_of_nonneg_left b2 w2
    have e3 := mul_le_mul_of_nonneg_left c2 w3
    have e4 := mul_le_mul_of_nonneg_left d2 w4
    nlinarith

/-- If the gauge is in the upper right quarter of its cell, then what is recorded is between the smallest and the largest of the values in the four cells.

Partial: in the other quarters the same cells are used, although they are not the nearest ones, and the result can be outside of their range: see
`C107_range_counterexample`. -/
theorem C107_range_partial (tol : ℝ) (P : Patch) (hP : P.Valid) (level : ℤ) (maux : ℕ) (ha : 1 ≤ maux) (q aux : Grid ℝ) (p : ℝ × ℝ) (hp : P.Has p)
    (t : ℝ) (i j : ℤ) (hc : P.In i j p) (hw : Wet tol q i j) (hx : (P.centre i j).1 ≤ p.1) (hy : (P.centre i j).2 ≤ p.2) :
    ∃ e, update tol P level 3 maux q aux p.1 p.2 t = some e ∧
      (∀ (m : ℤ) (lo hi : ℝ), 1 ≤ m → m ≤ 3 → (∀ c ∈ four i j, lo ≤ q (c.1, c.2, m) ∧ q (c.1, c.2, m) ≤ hi) →
        ∃ v, lo ≤ v ∧ v ≤ hi ∧ Written v (e.comp m)) ∧
      (∀ lo hi : ℝ, (∀ c ∈ four i j, lo ≤ aux (c.1, c.2, 1) ∧ aux (c.1, c.2, 1) ≤ hi) → lo ≤ e.s.topo ∧ e.s.topo ≤ hi) := by
  obtain ⟨e, h, h1, h2, h3, h4⟩ := update_eq tol P hP level maux ha q aux p hp t
  obtain ⟨e1, e2⟩ := in_index P hP p hp i j hc
  obtain ⟨o1, o2⟩ := off_eq P hP p hp i j hc
  rw [e1, e2] at h3 h4
  rw [if_pos hw] at h4
  have hdx := hP.dx
  have hdy := hP.dy
  have s0 : 0 ≤ P.xoff p.1 := by
    by_contra hn; push Not at hn
    have := mul_neg_of_neg_of_pos hn hdx
    linarith
  have t0 : 0 ≤ P.yoff p.2 := by
    by_contra hn; push Not at hn
    have := mul_neg_of_neg_of_pos hn hdy
    linarith
  have s1 : P.xoff p.1 ≤ 1 := by
    by_contra hn; push Not at hn
    have := mul_lt_mul_of_pos_right hn hdx
    have b := hc.1.2
    unfold Patch.centre at o1
    simp only at o1
    linarith
  have t1 : P.yoff p.2 ≤ 1 := by
    by_contra hn; push Not at hn
    have := mul_lt_mul_of_pos_right hn hdy
    have b := hc.2.2
    unfold Patch.centre at o2
    simp only at o2
    linarith
  refine ⟨e, h, ?_, ?_⟩
  · intro m lo hi m1 m2 hb
    obtain ⟨k1, k2⟩ := mix_between q _ _ i j m s0 s1 t0 t1 lo hi hb
    refine ⟨_, k1, k2, ?_⟩
    rw [h3 m m1 m2, if_pos hw]
    exact written_zeroOut _
  · intro lo hi hb
    rw [h4]
    exact mix_between aux _ _ i j 1 s0 s1 t0 t1 lo hi hb

theorem zeroOut_near (v : ℝ) : |zeroOut v - v| ≤ 1 / 10 ^ 99 := by
  unfold zeroOut
  split
  · next h => rw [zero_sub, abs_neg]; exact h.le
  · simp

/-- The surface that is written is the depth plus the ground. Over water at rest it is its surface, wherever the gauge is: with water in all
four cells, and also near a shore, if the cell of the gauge has water. -/
theorem C107_surface (tol : ℝ) (P : Patch) (hP : P.Valid) (level : ℤ) (maux : ℕ) (ha : 1 ≤ maux) (q aux : Grid ℝ) (p : ℝ × ℝ) (hp : P.Has p) (t : ℝ)
    (i j : ℤ) (hc : P.In i j p) :
    ∃ e, update tol P level 3 maux q aux p.1 p.2 t = some e ∧ Written (e.s.h + e.s.topo) e.row.eta ∧ e.row.h = e.s.h ∧ e.row.hu = e.s.hu ∧
      e.row.hv = e.s.hv ∧ e.row.level = level ∧ e.row.t = t ∧
      ∀ surface : ℝ, (∀ c ∈ four i j, (Wet tol q i j ∨ c = (i, j)) → q (c.1, c.2, 1) + aux (c.1, c.2, 1) = surface) →
        |e.row.eta - surface| ≤ 2 / 10 ^ 99 := by
  obtain ⟨e, h, h1, h2, h3, h4⟩ := update_eq tol P hP level maux ha q aux p hp t
  obtain ⟨e1, e2⟩ := in_index P hP p hp i j hc
  rw [e1, e2] at h3 h4
  have hrow : e.row.eta = zeroOut (e.s.h + e.s.topo) := rfl
  refine ⟨e, h, ?_, rfl, rfl, rfl, h1, h2, ?_⟩
  · rw [hrow]; exact written_zeroOut _
  · intro surface hs
    have hh := h3 1 (le_refl _) (by norm_num)
    have hcomp : e.comp 1 = e.s.h := by unfold Entry.comp; rw [if_pos rfl]
    rw [hcomp] at hh
    have key : ∃ v, e.s.h = zeroOut v ∧ v + e.s.topo = surface := by
      by_cases hw : Wet tol q i j
      · rw [if_pos hw] at hh h4
        refine ⟨_, hh, ?_⟩
        rw [h4]
        simp only [hw, true_or, true_imp_iff, four, List.forall_mem_cons, List.not_mem_nil, false_imp_iff, implies_true, and_true] at hs
        obtain ⟨k1, k2, k3, k4⟩ := hs
        unfold mix
        have r1 : aux (i, j, 1) = surface - q (i, j, 1) := by linarith
        have r2 : aux (i + 1, j, 1) = surface - q (i + 1, j, 1) := by linarith
        have r3 : aux (i, j + 1, 1) = surface - q (i, j + 1, 1) := by linarith
        have r4 : aux (i + 1, j + 1, 1) = surface - q (i + 1, j + 1, 1) := by linarith
        rw [r1, r2, r3, r4]
        ring
      · rw [if_neg hw] at hh h4
        refine ⟨_, hh, ?_⟩
        rw [h4]
        exact hs (i, j) (by simp [four]) (Or.inr rfl)
    obtain ⟨v, k1, k2⟩ := key
    have a := zeroOut_near v
    have b := zeroOut_near (e.s.h + e.s.topo)
    rw [hrow]
    have : zeroOut (e.s.h + e.s.topo) - surface = (zeroOut (e.s.h + e.s.topo) - (e.s.h + e.s.topo)) + (zeroOut v - v) := by
      rw [← k2, ← k1]; ring
    rw [this]
    calc |_ + _| ≤ |zeroOut (e.s.h + e.s.topo) - (e.s.h + e.s.topo)| + |zeroOut v - v| := abs_add_le _ _
      _ ≤ 1 / 10 ^ 99 + 1 / 10 ^ 99 := add_le_add b a
      _ = 2 / 10 ^ 99 := by ring

/-- A gauge on the right or upper boundary of a patch is served too: there is always a record, without an access outside of the arrays. -/
theorem C107_total (tol : ℝ) (P : Patch) (hP : P.Valid) (level : ℤ) (maux : ℕ) (ha : 1 ≤ maux) (q aux : Grid ℝ) (p : ℝ × ℝ) (hp : P.Has p) (t : ℝ) :
    ∃ e, update tol P level 3 maux q aux p.1 p.2 t = some e ∧ e.level = level ∧ e.tcurr = t := by
  obtain ⟨e, h, h1, h2, _⟩ := update_eq tol P hP level maux ha q aux p hp t
  exact ⟨e, h, h1, h2⟩

/-! ### Examples -/

/-- Four times four cells of size 1. -/
def box4 : Patch := ⟨4, 4, 2, 0, 0, 1, 1⟩

theorem box4_valid : box4.Valid := ⟨by simp [box4], by simp [box4], by simp [box4]⟩

/-- The depth is 2 + x at the centres. -/
def slope : Grid ℝ := fun c => if c.2.2 = 1 then 2 + ((c.1 : ℝ) - 1 / 2) else 0

/-- `C107_linear` can be applied: the gauge is left of the centre of its cell. -/
example : ∃ e, update (1 / 1000) box4 3 3 1 slope (fun _ => -5) (9 / 4) (1 / 2) 7 = some e ∧ e.s.h = 17 / 4 ∧ e.s.topo = -5 ∧ e.level = 3 := by
  have hp : box4.Has (9 / 4, 1 / 2) := by
    unfold Patch.Has box4
    constructor <;> constructor <;> norm_num
  have hc : box4.In 3 1 (9 / 4, 1 / 2) := by
    unfold Patch.In box4
    constructor <;> constructor <;> norm_num
  have hw : Wet (1 / 1000) slope 3 1 := by
    unfold Wet slope
    simp [four]
    norm_num
  obtain ⟨e, h, h1, h2, h3, h4⟩ := C107_linear (1 / 1000) box4 box4_valid 3 1 (le_refl _) slope (fun _ => -5) (9 / 4, 1 / 2) hp 7 3 1 hc hw
  refine ⟨e, h, ?_, ?_, h1⟩
  · have := (h3 1 (fun p => 2 + p.1) (by norm_num) (by norm_num) ⟨2, 1, 0, 0, fun p => by ring⟩ (by
      unfold Samples slope Patch.centre box4
      simp [four])).2
    have hcomp : e.comp 1 = e.s.h := by unfold Entry.comp; rw [if_pos rfl]
    rw [hcomp] at this
    rw [this (by norm_num [abs_of_pos])]
    norm_num
  · exact h4 (fun _ => -5) ⟨-5, 0, 0, 0, fun p => by ring⟩ (by intro c _; rfl)

/-- The depth is 1 left of `x = 1`, and 10 right of it. -/
def deep : Grid ℝ := fun c => if c.2.2 = 1 then if c.1 ≤ 1 then 1 else 10 else 0

/-- A gauge in a cell with water of depth 1, with water of depth 1 on the left and of depth 10 on the right, left of the centre of its cell: the recorded depth is
negative. -/
theorem C107_range_counterexample : ∃ (tol : ℝ) (P : Patch) (q aux : Grid ℝ) (p : ℝ × ℝ) (e : Entry), P.Valid ∧ P.Has p ∧ P.In 1 1 p ∧ 0 < tol ∧
    (∀ i j, tol ≤ q (i, j, 1)) ∧ update tol P 0 3 1 q aux p.1 p.2 0 = some e ∧ e.s.h < 0 := by
  have hp : box4.Has (0, 1 / 2) := by
    unfold Patch.Has box4
    constructor <;> constructor <;> norm_num
  have hc : box4.In 1 1 (0, 1 / 2) := by
    unfold Patch.In box4
    constructor <;> constructor <;> norm_num
  have hall : ∀ i j : ℤ, (1 / 1000 : ℝ) ≤ deep (i, j, 1) := by
    intro i j
    unfold deep
    simp only [if_true]
    split <;> norm_num
  have hw : Wet (1 / 1000) deep 1 1 := by
    intro c _
    have := hall c.1 c.2
    linarith
  obtain ⟨e, h, _, _, h3, _⟩ := C107_linear (1 / 1000) box4 box4_valid 0 1 (le_refl _) deep (fun _ => -5) (0, 1 / 2) hp 0 1 1 hc hw
  refine ⟨1 / 1000, box4, deep, fun _ => -5, (0, 1 / 2), e, box4_valid, hp, hc, by norm_num, hall, h, ?_⟩
  have := (h3 1 (fun p => 1 + 9 * (p.1 - 1 / 2)) (by norm_num) (by norm_num) ⟨1 - 9 / 2, 9, 0, 0, fun p => by ring⟩ (by
    unfold Samples deep Patch.centre box4
    simp [four]
    norm_num)).2
  have hcomp : e.comp 1 = e.s.h := by unfold Entry.comp; rw [if_pos rfl]
  rw [hcomp] at this
  rw [this (by norm_num [abs_of_neg])]
  norm_num

end

end Fclaw.GeoGauge

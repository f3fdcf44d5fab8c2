/-
C54: the brick map tiles the unit square.
-/
import Verif.Brick.Spec
import Mathlib.Algebra.Order.Floor.Ring
import Mathlib.Data.Rat.Floor
import Mathlib.Tactic.Ring
import Mathlib.Tactic.Linarith
import Mathlib.Tactic.FieldSimp
import Mathlib.Tactic.NormNum
import Mathlib.Tactic.IntervalCases

set_option autoImplicit false
set_option linter.unusedSimpArgs false
namespace Fclaw.Brick

/-- Both constructors yield the same brick. -/
theorem newBrick_eq (conn : Conn) (mi mj : Nat) : newBrick conn mi mj = newBrickConn conn mi mj := by
  simp [newBrick, newBrickConn, blockVertices]

/-- A coordinate of the unit interval lies in one of `m` equal parts. -/
theorem exists_part (m : Nat) (hm : 0 < m) (x : ℚ) (h0 : 0 ≤ x) (h1 : x ≤ 1) :
    ∃ (a : Nat) (r : ℚ), a < m ∧ 0 ≤ r ∧ r ≤ 1 ∧ x = ((a : ℚ) + r) / m := by
  have hm' : (0 : ℚ) < m := by exact_mod_cast hm
  by_cases hx : x = 1
  · refine ⟨m - 1, 1, by omega, by norm_num, by norm_num, ?_⟩
    have : ((m - 1 : Nat) : ℚ) = m - 1 := by push_cast [Nat.cast_sub hm]; ring
    rw [this, hx]
    field_simp
    ring
  · have hlt : x < 1 := lt_of_le_of_ne h1 hx
    have hfl := Int.floor_le (x * m)
    have hfu := Int.lt_floor_add_one (x * m)
    have hnn : 0 ≤ ⌊x * m⌋ := Int.floor_nonneg.2 (mul_nonneg h0 hm'.le)
    have hlm : ⌊x * m⌋ < m := by
      have : (⌊x * m⌋ : ℚ) < (m : ℤ) := by
        push_cast
        nlinarith
      exact_mod_cast this
    obtain ⟨a, ha⟩ := Int.eq_ofNat_of_zero_le hnn
    rw [ha] at hfl hfu hlm
    push_cast at hfl hfu
    refine ⟨a, x * m - a, by exact_mod_cast hlm, by linarith, by linarith, ?_⟩
    field_simp
    ring

/-- Points of the open unit interval in different parts are different. -/
theorem part_unique (m : Nat) (hm : 0 < m) (a b : Nat) (r s : ℚ) (hr : 0 < r ∧ r < 1) (hs : 0 < s ∧ s < 1)
    (h : ((a : ℚ) + r) / m = ((b : ℚ) + s) / m) : a = b ∧ r = s := by
  have hm' : (m : ℚ) ≠ 0 := by exact_mod_cast hm.ne'
  have h : (a : ℚ) + r = b + s := by
    field_simp at h
    exact h
  have hab : a = b := by
    rcases Nat.lt_trichotomy a b with hlt | heq | hgt
    · exfalso
      have : (a : ℚ) + 1 ≤ b := by exact_mod_cast hlt
      linarith [hr.2, hs.1]
    · exact heq
    · exfalso
      have : (b : ℚ) + 1 ≤ a := by exact_mod_cast hgt
      linarith [hs.2, hr.1]
  subst hab
  exact ⟨rfl, by linarith⟩

/-- **C54.** Whichever constructor is used, the map of a brick of `mi` by `mj` blocks
sends the unit square of block `i` onto the block's cell of the unit square, one to one;
every point of the unit square is reached from some block;
no point is reached from the interior of two blocks;
and blocks next to each other agree on the edge they share. -/
theorem C54 (conn : Conn) (mi mj : Nat) (px py : Nat → Nat) (hc : IsBrick conn mi mj px py) (bv : Ll)
    (hbv : bv = newBrick conn mi mj ∨ bv = newBrickConn conn mi mj) :
    (∀ i, i < conn.numTrees → ∀ X Y, InCell mi mj (px i) (py i) X Y ↔
      ∃ x y, InSquare x y ∧ c2m bv i x y = (X, Y, 0)) ∧
    (∀ i, i < conn.numTrees → ∀ x y x' y', c2m bv i x y = c2m bv i x' y' → x = x' ∧ y = y') ∧
    (∀ i, i < conn.numTrees → ∀ x y, InSquare x y → InSquare (c2m bv i x y).1 (c2m bv i x y).2.1) ∧
    (0 < mi → 0 < mj → ∀ X Y, InSquare X Y →
      ∃ i x y, i < conn.numTrees ∧ InSquare x y ∧ c2m bv i x y = (X, Y, 0)) ∧
    (∀ i j, i < conn.numTrees → j < conn.numTrees → ∀ x y x' y', Inside x y → Inside x' y' →
      c2m bv i x y = c2m bv j x' y' → i = j) ∧
    (∀ i j, i < conn.numTrees → j < conn.numTrees →
      (px j = px i + 1 → py j = py i → ∀ y, c2m bv i 1 y = c2m bv j 0 y) ∧
      (py j = py i + 1 → px j = px i → ∀ x, c2m bv i x 1 = c2m bv j x 0) ∧
      (px j = px i + 1 → py j = py i + 1 → c2m bv i 1 1 = c2m bv j 0 0)) := by
  have hbv : bv = newBrickConn conn mi mj := by
    rcases hbv with h | h
    · rw [h, newBrick_eq]
    · exact h
  subst hbv
  have hmap : ∀ i, i < conn.numTrees → ∀ x y, c2m (newBrickConn conn mi mj) i x y =
      (((px i : ℚ) + x) / mi, ((py i : ℚ) + y) / mj, 0) := by
    intro i hi x y
    simp only [c2m, newBrickConn, hc.x i hi, hc.y i hi]
  have hpos : ∀ i, i < conn.numTrees → (0 : ℚ) < mi ∧ (0 : ℚ) < mj := by
    intro i hi
    have h1 := hc.xlt i hi
    have h2 := hc.ylt i hi
    exact ⟨by exact_mod_cast (by omega : 0 < mi), by exact_mod_cast (by omega : 0 < mj)⟩
  refine ⟨?_, ?_, ?_, ?_, ?_, ?_⟩
  · intro i hi X Y
    obtain ⟨hmi, hmj⟩ := hpos i hi
    simp only [hmap i hi, InCell]
    constructor
    · rintro ⟨h1, h2, h3, h4⟩
      rw [div_le_iff₀ hmi] at h1
      rw [le_div_iff₀ hmi] at h2
      rw [div_le_iff₀ hmj] at h3
      rw [le_div_iff₀ hmj] at h4
      refine ⟨X * mi - px i, Y * mj - py i, ⟨by linarith, by linarith, by linarith, by linarith⟩, ?_⟩
      refine Prod.ext ?_ (Prod.ext ?_ rfl)
      · dsimp only
        field_simp
        ring
      · dsimp only
        field_simp
        ring
    · rintro ⟨x, y, ⟨h1, h2, h3, h4⟩, he⟩
      simp only [Prod.mk.injEq, and_true] at he
      obtain ⟨rfl, rfl⟩ := he
      refine ⟨?_, ?_, ?_, ?_⟩
      · exact div_le_div_of_nonneg_right (by linarith) hmi.le
      · exact div_le_div_of_nonneg_right (by linarith) hmi.le
      · exact div_le_div_of_nonneg_right (by linarith) hmj.le
      · exact div_le_div_of_nonneg_right (by linarith) hmj.le
  · intro i hi x y x' y' h
    obtain ⟨hmi, hmj⟩ := hpos i hi
    simp only [hmap i hi, Prod.mk.injEq, and_true] at h
    have hmi' := hmi.ne'
    have hmj' := hmj.ne'
    obtain ⟨h1, h2⟩ := h
    rw [div_left_inj' hmi'] at h1
    rw [div_left_inj' hmj'] at h2
    exact ⟨by linarith, by linarith⟩
  · rintro i hi x y ⟨h1, h2, h3, h4⟩
    obtain ⟨hmi, hmj⟩ := hpos i hi
    have hx : (px i : ℚ) + 1 ≤ mi := by exact_mod_cast hc.xlt i hi
    have hy : (py i : ℚ) + 1 ≤ mj := by exact_mod_cast hc.ylt i hi
    have hx0 : (0 : ℚ) ≤ px i := by positivity
    have hy0 : (0 : ℚ) ≤ py i := by positivity
    rw [hmap i hi]
    refine ⟨?_, ?_, ?_, ?_⟩ <;> dsimp only
    · exact div_nonneg (by linarith) hmi.le
    · rw [div_le_one hmi]
      linarith
    · exact div_nonneg (by linarith) hmj.le
    · rw [div_le_one hmj]
      linarith
  · rintro hmi hmj X Y ⟨h1, h2, h3, h4⟩
    obtain ⟨a, r, ha, hr0, hr1, hX⟩ := exists_part mi hmi X h1 h2
    obtain ⟨b, s, hb, hs0, hs1, hY⟩ := exists_part mj hmj Y h3 h4
    obtain ⟨i, hi, hpa, hpb⟩ := hc.surj a b ha hb
    refine ⟨i, r, s, hi, ⟨hr0, hr1, hs0, hs1⟩, ?_⟩
    rw [hmap i hi, hpa, hpb, hX, hY]
  · rintro i j hi hj x y x' y' ⟨h1, h2, h3, h4⟩ ⟨g1, g2, g3, g4⟩ he
    rw [hmap i hi, hmap j hj] at he
    simp only [Prod.mk.injEq, and_true] at he
    have hmi : 0 < mi := by have := hc.xlt i hi; omega
    have hmj : 0 < mj := by have := hc.ylt i hi; omega
    exact hc.inj i j hi hj (part_unique mi hmi _ _ _ _ ⟨h1, h2⟩ ⟨g1, g2⟩ he.1).1
      (part_unique mj hmj _ _ _ _ ⟨h3, h4⟩ ⟨g3, g4⟩ he.2).1
  · intro i j hi hj
    refine ⟨?_, ?_, ?_⟩
    · intro h1 h2 y
      rw [hmap i hi, hmap j hj, h1, h2]
      push_cast
      simp only [add_zero]
    · intro h1 h2 x
      rw [hmap i hi, hmap j hj, h1, h2]
      push_cast
      simp only [add_zero]
    · intro h1 h2
      rw [hmap i hi, hmap j hj, h1, h2]
      push_cast
      simp only [add_zero]

/-- The hypotheses hold for a brick of two blocks numbered from right to left. -/
example : IsBrick exConn 2 1 (fun i => 1 - i) (fun _ => 0) := by
  constructor
  · intro i hi
    have : i < 2 := hi
    interval_cases i <;> simp [exConn]
  · intro i hi
    have : i < 2 := hi
    interval_cases i <;> simp [exConn]
  · intro i hi
    omega
  · intro i hi
    omega
  · intro i j hi hj h _
    have h1 : i < 2 := hi
    have h2 : j < 2 := hj
    omega
  · intro a b ha hb
    exact ⟨1 - a, by show 1 - a < 2; omega, by omega, by omega⟩

/-- Through the generic entry point a mapping with a brick sees the brick map, in every build. -/
theorem C54_brick2c (debug : Bool) (bv : Ll) (i : Nat) (x y : ℚ) : brick2c debug (some bv) i x y = .ok (c2m bv i x y) := rfl

/-- Without a brick, on a single block, the generic entry point is meant to be the identity; but its assertion tests the
address of the block number, so that a debug build always stops. Builds without assertions behave as intended. -/
theorem C54_no_brick_counterexample (i : Nat) (x y : ℚ) :
    brick2c true none i x y = .error .assertion ∧ brick2c false none i x y = .ok (x, y, 0) := ⟨rfl, rfl⟩

end Fclaw.Brick

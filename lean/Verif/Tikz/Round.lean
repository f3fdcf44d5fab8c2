/-
Rounding to the nearest double.
-/
import Verif.Tikz.Edges
import Mathlib.Tactic.IntervalCases
import Mathlib.Algebra.Order.Round
import Mathlib.Algebra.Order.Archimedean.Basic
import Mathlib.Algebra.Order.Group.Abs
import Mathlib.Algebra.Order.Field.Power

set_option autoImplicit false

namespace Fclaw.Tikz

open Fclaw.ParFile (Outcome)
open Fclaw.Output
open Fclaw.PowInt (cmul powInt intMin intMax)

/-- From `2^k` on, doubles are multiples of `2^(k-52)`. -/
theorem double_grid {y : ℚ} {k : ℤ} (h : IsDouble y) (hk : (2 : ℚ) ^ k ≤ |y|) :
    ∃ n : ℤ, y = n * (2 : ℚ) ^ (k - 52) := by
  obtain ⟨m, e, hm, rfl⟩ := h
  have hpos : (0 : ℚ) < 2 ^ e := by positivity
  have h1 : (2 : ℚ) ^ k < 2 ^ (53 + e) := by
    refine lt_of_le_of_lt hk ?_
    rw [abs_mul, abs_of_pos hpos, zpow_add₀ (by norm_num)]
    refine mul_lt_mul_of_pos_right ?_ hpos
    exact_mod_cast hm
  have h2 : k < 53 + e := (zpow_lt_zpow_iff_right₀ (by norm_num)).1 h1
  obtain ⟨j, hj⟩ : ∃ j : ℕ, e = (k - 52) + j := ⟨(e - (k - 52)).toNat, by omega⟩
  refine ⟨m * 2 ^ j, ?_⟩
  rw [hj, zpow_add₀ (by norm_num), zpow_natCast]
  push_cast
  ring

/-- If a multiple of `2^(k-52)` is nearer than half of that, it is the nearest double. -/
theorem nearest_eq {fl : ℚ → ℚ} (hfl : Nearest fl) {x : ℚ} {k N : ℤ} (hN : |N| < 2 ^ 53)
    (hd : |N * (2 : ℚ) ^ (k - 52) - x| < 2 ^ (k - 52) / 2)
    (hx : (2 : ℚ) ^ k + 2 ^ (k - 52) / 2 ≤ x) : fl x = N * (2 : ℚ) ^ (k - 52) := by
  obtain ⟨h1, h2⟩ := hfl x
  have h3 := h2 _ ⟨N, k - 52, hN, rfl⟩
  have hu : (0 : ℚ) < 2 ^ (k - 52) := by positivity
  have h4 : |fl x - x| < 2 ^ (k - 52) / 2 := lt_of_le_of_lt h3 hd
  have h5 : (2 : ℚ) ^ k ≤ fl x := by
    have := (abs_lt.1 h4).1
    linarith
  obtain ⟨n, hn⟩ := double_grid h1 (le_trans h5 (le_abs_self _))
  have h6 : |((n - N : ℤ) : ℚ)| < 1 := by
    have e : ((n - N : ℤ) : ℚ) * 2 ^ (k - 52)
        = (fl x - x) - (N * (2 : ℚ) ^ (k - 52) - x) := by
      rw [hn]; push_cast; ring
    have h7 : |((n - N : ℤ) : ℚ) * 2 ^ (k - 52)| < 2 ^ (k - 52) := by
      rw [e]
      refine lt_of_le_of_lt (abs_sub _ _) ?_
      linarith
    rw [abs_mul, abs_of_pos hu] at h7
    by_contra hc
    have := mul_le_mul_of_nonneg_right (not_lt.1 hc) (le_of_lt hu)
    linarith
  have h8 : n = N := by
    have h9 : |n - N| < 1 := by exact_mod_cast h6
    have := Int.abs_lt_one_iff.1 h9
    omega
  rw [hn, h8]

theorem nearest_faithful {fl : ℚ → ℚ} (hfl : Nearest fl) : Faithful fl := by
  intro x hx
  have := (hfl x).2 x hx
  rw [sub_self, abs_zero] at this
  have := abs_nonpos_iff.1 this
  linarith

theorem fl_three_fifths {fl : ℚ → ℚ} (hfl : Nearest fl) :
    fl (3 / 5) = 5404319552844595 / 2 ^ 53 := by
  rw [nearest_eq hfl (k := -1) (N := 5404319552844595) (by norm_num) (by norm_num [abs_lt])
    (by norm_num)]
  norm_num

theorem fl_fifth {fl : ℚ → ℚ} (hfl : Nearest fl) : fl (1 / 5) = 3602879701896397 / 2 ^ 54 := by
  rw [nearest_eq hfl (k := -3) (N := 7205759403792794) (by norm_num) (by norm_num [abs_lt])
    (by norm_num)]
  norm_num

theorem fl_quotient {fl : ℚ → ℚ} (hfl : Nearest fl) :
    fl (5404319552844595 / 2 ^ 53 / (3602879701896397 / 2 ^ 54)) = 6755399441055743 / 2 ^ 51 := by
  rw [nearest_eq hfl (k := 1) (N := 6755399441055743) (by norm_num) (by norm_num [abs_lt])
    (by norm_num)]
  norm_num

/-- The fourth of five blocks in a row begins at 2 instead of 3. -/
theorem edges_five {fl : ℚ → ℚ} (hfl : Nearest fl) : edges fl true 3 5 0 0 0 = .ok (2, 3) := by
  have e0 : fl 3 = 3 := nearest_faithful hfl 3 ⟨3, 0, by norm_num, by norm_num⟩
  have hc : convertBrick fl true 3 5 0 = 5404319552844595 / 2 ^ 53 := by
    unfold convertBrick
    rw [if_pos rfl, add_zero, e0]
    exact_mod_cast fl_three_fifths hfl
  have hf : finest 5 0 = .ok 5 := by
    have := finest_eq (m := 5) (lmax := 0) (by norm_num) (by norm_num)
    simpa using this
  have hp : powInt 2 ((0 : Nat) - (0 : Nat) : Int) = some 1 := PowInt.C05_powInt_zero 2
  have ht : toInt (6755399441055743 / 2 ^ 51) = .ok 2 := by
    have hfloor : ⌊(6755399441055743 / 2 ^ 51 : ℚ)⌋ = 2 := by
      rw [Int.floor_eq_iff]; norm_num
    have hneg : ¬ ((6755399441055743 / 2 ^ 51 : ℚ) < 0) := by norm_num
    unfold toInt
    simp only [hneg, if_false, hfloor]
    exact if_pos (by decide)
  unfold edges
  rw [hp, hf]
  have hm : cmul 1 1 = some 1 := by decide
  simp only [defined, bind_ok, hm, hc]
  have hd : fl (1 / ((5 : Int) : ℚ)) = 3602879701896397 / 2 ^ 54 := by
    have := fl_fifth hfl
    push_cast
    exact this
  rw [hd, fl_quotient hfl, ht]
  simp only [bind_ok]
  rfl

/-- Every number has a nearest double. -/
theorem exists_nearest (x : ℚ) : ∃ z, IsDouble z ∧ ∀ y, IsDouble y → |z - x| ≤ |y - x| := by
  by_cases hx : x = 0
  · refine ⟨0, ⟨0, 0, by norm_num, by norm_num⟩, fun y _ => ?_⟩
    rw [hx]; simp
  · obtain ⟨k, hk1, hk2⟩ := exists_mem_Ico_zpow (x := |x|) (y := 2) (abs_pos.2 hx) (by norm_num)
    have hu : (0 : ℚ) < 2 ^ (k - 52) := by positivity
    have hpow : (2 : ℚ) ^ k = 2 ^ 52 * 2 ^ (k - 52) := by
      rw [← zpow_natCast, ← zpow_add₀ (by norm_num)]; congr 1; norm_num
    have hpow1 : (2 : ℚ) ^ (k + 1) = 2 ^ 53 * 2 ^ (k - 52) := by
      rw [zpow_add₀ (by norm_num), hpow]; ring
    -- the nearest multiple
    have hgrid : ∀ n : ℤ, |(round (x / 2 ^ (k - 52)) : ℚ) * 2 ^ (k - 52) - x|
        ≤ |(n : ℚ) * 2 ^ (k - 52) - x| := by
      intro n
      have h1 := round_le (x / 2 ^ (k - 52)) n
      have e : ∀ m : ℤ, |(m : ℚ) * 2 ^ (k - 52) - x|
          = |x / 2 ^ (k - 52) - m| * 2 ^ (k - 52) := by
        intro m
        rw [← abs_of_pos hu, ← abs_mul, abs_of_pos hu, sub_mul, div_mul_cancel₀ _ (ne_of_gt hu),
          abs_sub_comm]
      rw [e, e]
      exact mul_le_mul_of_nonneg_right h1 (le_of_lt hu)
    have hbound : |round (x / 2 ^ (k - 52))| ≤ 2 ^ 53 := by
      have h1 : |x / 2 ^ (k - 52)| < 2 ^ 53 := by
        rw [abs_div, abs_of_pos hu, div_lt_iff₀ hu, ← hpow1]
        exact hk2
      have h2 := abs_sub_round (x / (2 : ℚ) ^ (k - 52))
      have h3 : |(round (x / (2 : ℚ) ^ (k - 52)) : ℚ)| < 2 ^ 53 + 1 := by
        have := abs_sub_abs_le_abs_sub (round (x / (2 : ℚ) ^ (k - 52)) : ℚ) (x / (2 : ℚ) ^ (k - 52))
        rw [abs_sub_comm] at this
        linarith
      have h4 : |round (x / (2 : ℚ) ^ (k - 52))| < 2 ^ 53 + 1 := by exact_mod_cast h3
      omega
    have hdouble : IsDouble ((round (x / 2 ^ (k - 52)) : ℚ) * 2 ^ (k - 52)) := by
      by_cases hc : |round (x / (2 : ℚ) ^ (k - 52))| < 2 ^ 53
      · exact ⟨_, _, hc, rfl⟩
      · have he : |round (x / (2 : ℚ) ^ (k - 52))| = 2 ^ 53 := by omega
        rcases abs_choice (round (x / (2 : ℚ) ^ (k - 52))) with h | h
        · rw [h] at he
          exact ⟨1, k + 1, by norm_num, by rw [he, hpow1]; push_cast; ring⟩
        · rw [h] at he
          have he' : round (x / (2 : ℚ) ^ (k - 52)) = - 2 ^ 53 := by omega
          exact ⟨-1, k + 1, by norm_num, by rw [he', hpow1]; push_cast; ring⟩
    refine ⟨_, hdouble, fun y hy => ?_⟩
    by_cases hyk : (2 : ℚ) ^ k ≤ |y|
    · obtain ⟨n, hn⟩ := double_grid hy hyk
      rw [hn]; exact hgrid n
    · have hyk := not_le.1 hyk
      have h1 : |x| - 2 ^ k ≤ |y - x| := by
        have := abs_sub_abs_le_abs_sub x y
        rw [abs_sub_comm] at this
        linarith
      have h2 : ∃ n : ℤ, |(n : ℚ) * 2 ^ (k - 52) - x| = |x| - 2 ^ k := by
        rcases le_total 0 x with hx0 | hx0
        · refine ⟨2 ^ 52, ?_⟩
          rw [abs_of_nonneg hx0] at hk1 ⊢
          rw [show (((2 ^ 52 : ℤ) : ℚ)) = 2 ^ 52 by norm_num, ← hpow, abs_sub_comm, abs_of_nonneg (by linarith)]
        · refine ⟨- 2 ^ 52, ?_⟩
          rw [abs_of_nonpos hx0] at hk1 ⊢
          rw [show (((- 2 ^ 52 : ℤ) : ℚ)) = - 2 ^ 52 by norm_num, neg_mul, ← hpow, abs_of_nonneg (by linarith)]
          ring
      obtain ⟨n, hn⟩ := h2
      have h3 := hgrid n
      rw [hn] at h3
      exact le_trans h3 h1

theorem nearest_exists : ∃ fl, Nearest fl := by
  choose fl hfl using exists_nearest
  exact ⟨fl, hfl⟩

end Fclaw.Tikz

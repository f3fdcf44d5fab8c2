import Verif.Elliptic.Rhs
import Mathlib.Algebra.Order.BigOperators.Group.Finset
import Mathlib.Algebra.Order.Ring.Rat
import Mathlib.Algebra.BigOperators.Ring.Finset
import Mathlib.Algebra.BigOperators.Field
import Mathlib.Tactic.Positivity
import Mathlib.Data.Rat.Defs
/-
The operator on a single patch is symmetric and negative definite.
-/
set_option autoImplicit false
set_option linter.unusedSimpArgs false
set_option linter.unusedVariables false
namespace Fclaw.Elliptic

open Fort

variable {I : Info} {op : Op}

/-! ### One row of cells -/

theorem Icc_succ (lo : ℤ) (n : Nat) (h : lo ≤ n + 1) : Finset.Icc lo ((n + 1 : Nat) : ℤ) = insert ((n + 1 : Nat) : ℤ) (Finset.Icc lo (n : ℤ)) := by
  ext k
  simp only [Finset.mem_insert, Finset.mem_Icc]
  push_cast
  omega

theorem sum_succ (lo : ℤ) (n : Nat) (h : lo ≤ n + 1) (f : ℤ → ℚ) :
    ∑ i ∈ Finset.Icc lo ((n + 1 : Nat) : ℤ), f i = (∑ i ∈ Finset.Icc lo (n : ℤ), f i) + f (n + 1) := by
  rw [Icc_succ lo n h, Finset.sum_insert, add_comm]
  · push_cast; rfl
  · rw [Finset.mem_Icc]; push_cast; omega

/-- Summation by parts. -/
theorem by_parts (n : Nat) (β U v : ℤ → ℚ) :
    ∑ i ∈ Finset.Icc 1 ((n + 1 : Nat) : ℤ), v i * (β (i + 1) * (U (i + 1) - U i) + β i * (U (i - 1) - U i)) =
      v (n + 1) * β (n + 2) * (U (n + 2) - U (n + 1)) - v 1 * β 1 * (U 1 - U 0) -
        ∑ i ∈ Finset.Icc 2 ((n + 1 : Nat) : ℤ), β i * (v i - v (i - 1)) * (U i - U (i - 1)) := by
  induction n with
  | zero =>
    rw [sum_succ 1 0 (by norm_num)]
    have : Finset.Icc 2 ((0 + 1 : Nat) : ℤ) = ∅ := by decide
    rw [this]
    simp
    ring
  | succ n ih =>
    rw [sum_succ 1 (n + 1) (by push_cast; omega), ih, sum_succ 2 (n + 1) (by push_cast; omega)]
    push_cast
    have e1 : (n : ℤ) + 1 + 1 = n + 2 := by ring
    have e2 : (n : ℤ) + 1 + 2 = n + 2 + 1 := by ring
    have e3 : (n : ℤ) + 2 - 1 = n + 1 := by ring
    rw [e1, e2, e3]
    ring

/-- The products that are left after summation by parts: differences, and the values at both ends. -/
def rowForm (n : Nat) (β : ℤ → ℚ) (sw se : ℚ) (v u : ℤ → ℚ) : ℚ :=
  (∑ i ∈ Finset.Icc 2 (n : ℤ), β i * (v i - v (i - 1)) * (u i - u (i - 1))) + (1 - sw) * β 1 * (v 1 * u 1) +
    (1 - se) * β (n + 1) * (v n * u n)

theorem rowForm_symm (n : Nat) (β : ℤ → ℚ) (sw se : ℚ) (v u : ℤ → ℚ) : rowForm n β sw se v u = rowForm n β sw se u v := by
  unfold rowForm
  rw [mul_comm (v 1), mul_comm (v n)]
  congr 2
  exact Finset.sum_congr rfl fun i _ => by ring

theorem row_eq (n : Nat) (hn : 1 ≤ n) (β : ℤ → ℚ) (sw se : ℚ) (v u : ℤ → ℚ) :
    ∑ i ∈ Finset.Icc 1 (n : ℤ), v i * (β (i + 1) * ((if i = n then se * u i else u (i + 1)) - u i) +
      β i * ((if i = 1 then sw * u i else u (i - 1)) - u i)) = -rowForm n β sw se v u := by
  obtain ⟨n, rfl⟩ : ∃ k, n = k + 1 := ⟨n - 1, by omega⟩
  set U : ℤ → ℚ := fun i => if i = 0 then sw * u 1 else if i = (n : ℤ) + 2 then se * u (n + 1) else u i with hU
  have h := by_parts n β U v
  have hin : ∀ i : ℤ, 1 ≤ i → i ≤ n + 1 → U i = u i := by
    intro i h1 h2
    simp only [hU]
    rw [if_neg (by omega), if_neg (by omega)]
  have e1 : ∑ i ∈ Finset.Icc 1 ((n + 1 : Nat) : ℤ), v i * (β (i + 1) * ((if i = ((n + 1 : Nat) : ℤ) then se * u i else u (i + 1)) - u i) +
      β i * ((if i = 1 then sw * u i else u (i - 1)) - u i)) =
      ∑ i ∈ Finset.Icc 1 ((n + 1 : Nat) : ℤ), v i * (β (i + 1) * (U (i + 1) - U i) + β i * (U (i - 1) - U i)) := by
    refine Finset.sum_congr rfl fun i hi => ?_
    rw [Finset.mem_Icc] at hi
    push_cast at hi ⊢
    rw [hin i hi.1 hi.2]
    congr 4
    · by_cases h : i = (n : ℤ) + 1
      · rw [if_pos h]
        simp only [hU]
        rw [if_neg (by omega), if_pos (by omega), h]
      · rw [if_neg h, hin (i + 1) (by omega) (by omega)]
    · by_cases h : i = 1
      · rw [if_pos h, h]
        simp [hU]
      · rw [if_neg h, hin (i - 1) (by omega) (by omega)]
  rw [e1, h]
  have e2 : ∑ i ∈ Finset.Icc 2 ((n + 1 : Nat) : ℤ), β i * (v i - v (i - 1)) * (U i - U (i - 1)) =
      ∑ i ∈ Finset.Icc 2 ((n + 1 : Nat) : ℤ), β i * (v i - v (i - 1)) * (u i - u (i - 1)) := by
    refine Finset.sum_congr rfl fun i hi => ?_
    rw [Finset.mem_Icc] at hi
    push_cast at hi
    rw [hin i (by omega) hi.2, hin (i - 1) (by omega) (by omega)]
  rw [e2, hin 1 (by omega) (by omega), hin (n + 1) (by omega) (by omega)]
  have u0 : U 0 = sw * u 1 := by simp [hU]
  have u2 : U (n + 2) = se * u (n + 1) := by
    simp only [hU]
    rw [if_neg (by omega)]; simp
  rw [u0, u2]
  unfold rowForm
  push_cast
  have e3 : (n : ℤ) + 1 + 1 = n + 2 := by ring
  rw [e3]
  ring

theorem rowForm_nonneg (n : Nat) (hn : 1 ≤ n) (β : ℤ → ℚ) (sw se : ℚ) (u : ℤ → ℚ) (hβ : ∀ i : ℤ, 1 ≤ i → i ≤ n + 1 → 0 < β i)
    (hw : sw ≤ 1) (he : se ≤ 1) : 0 ≤ rowForm n β sw se u u := by
  unfold rowForm
  have h1 : 0 ≤ ∑ i ∈ Finset.Icc 2 (n : ℤ), β i * (u i - u (i - 1)) * (u i - u (i - 1)) := by
    refine Finset.sum_nonneg fun i hi => ?_
    rw [Finset.mem_Icc] at hi
    rw [mul_assoc]
    exact mul_nonneg (hβ i (by omega) (by omega)).le (mul_self_nonneg _)
  have h2 : 0 ≤ (1 - sw) * β 1 * (u 1 * u 1) :=
    mul_nonneg (mul_nonneg (by linarith) (hβ 1 (by omega) (by omega)).le) (mul_self_nonneg _)
  have h3 : 0 ≤ (1 - se) * β (n + 1) * (u n * u n) :=
    mul_nonneg (mul_nonneg (by linarith) (hβ (n + 1) (by omega) (by omega)).le) (mul_self_nonneg _)
  linarith

theorem rowForm_zero (n : Nat) (hn : 1 ≤ n) (β : ℤ → ℚ) (sw se : ℚ) (u : ℤ → ℚ) (hβ : ∀ i : ℤ, 1 ≤ i → i ≤ n + 1 → 0 < β i)
    (hw : sw ≤ 1) (he : se ≤ 1) (hp : sw < 1 ∨ se < 1) (h0 : rowForm n β sw se u u = 0) :
    ∀ i : ℤ, 1 ≤ i → i ≤ n → u i = 0 := by
  unfold rowForm at h0
  have t1 : ∀ i ∈ Finset.Icc 2 (n : ℤ), 0 ≤ β i * (u i - u (i - 1)) * (u i - u (i - 1)) := by
    intro i hi
    rw [Finset.mem_Icc] at hi
    rw [mul_assoc]
    exact mul_nonneg (hβ i (by omega) (by omega)).le (mul_self_nonneg _)
  have h1 := Finset.sum_nonneg t1
  have h2 : 0 ≤ (1 - sw) * β 1 * (u 1 * u 1) :=
    mul_nonneg (mul_nonneg (by linarith) (hβ 1 (by omega) (by omega)).le) (mul_self_nonneg _)
  have h3 : 0 ≤ (1 - se) * β (n + 1) * (u n * u n) :=
    mul_nonneg (mul_nonneg (by linarith) (hβ (n + 1) (by omega) (by omega)).le) (mul_self_nonneg _)
  have s1 : ∑ i ∈ Finset.Icc 2 (n : ℤ), β i * (u i - u (i - 1)) * (u i - u (i - 1)) = 0 := by linarith
  have s2 : (1 - sw) * β 1 * (u 1 * u 1) = 0 := by linarith
  have s3 : (1 - se) * β (n + 1) * (u n * u n) = 0 := by linarith
  have hd : ∀ i : ℤ, 2 ≤ i → i ≤ n → u i = u (i - 1) := by
    intro i a b
    have := (Finset.sum_eq_zero_iff_of_nonneg t1).1 s1 i (Finset.mem_Icc.2 ⟨a, b⟩)
    rw [mul_assoc] at this
    rcases mul_eq_zero.1 this with h | h
    · exact absurd h (hβ i (by omega) (by omega)).ne'
    · have := mul_self_eq_zero.1 h
      linarith
  have hall : ∀ k : Nat, k + 1 ≤ n → u ((k : ℤ) + 1) = u 1 := by
    intro k
    induction k with
    | zero => intro _; simp
    | succ k ih =>
      intro hk
      rw [hd _ (by push_cast; omega) (by push_cast; omega), ← ih (by omega)]
      congr 1
      push_cast; ring
  have hall' : ∀ i : ℤ, 1 ≤ i → i ≤ n → u i = u 1 := by
    intro i a b
    have := hall (i - 1).toNat (by omega)
    rwa [show (((i - 1).toNat : Nat) : ℤ) + 1 = i by omega] at this
  have h10 : u 1 = 0 := by
    rcases hp with hp | hp
    · rcases mul_eq_zero.1 s2 with h | h
      · rcases mul_eq_zero.1 h with h | h
        · linarith
        · exact absurd h (hβ 1 (by omega) (by omega)).ne'
      · exact mul_self_eq_zero.1 h
    · rcases mul_eq_zero.1 s3 with h | h
      · rcases mul_eq_zero.1 h with h | h
        · linarith
        · exact absurd h (hβ (n + 1) (by omega) (by omega)).ne'
      · rw [← hall' n (by omega) le_rfl]; exact mul_self_eq_zero.1 h
  intro i a b
  rw [hall' i a b, h10]

/-! ### The patch -/

/-- The factor for the ghost value of side `k` when the patch is by itself. -/
def factor (I : Info) (op : Op) (k : Nat) : ℚ := if I.nbr k then -1 else op.sign k

theorem alone_eq (u : Grid ℚ) (k : Nat) (i j m : ℤ) : alone I op u k i j m = factor I op k * u (i, j, m) := by
  unfold alone factor
  split <;> ring

/-- The form that belongs to the operator on a single patch. -/
def form (I : Info) (op : Op) (m : ℤ) (v u : Grid ℚ) : ℚ :=
  (∑ j ∈ Finset.Icc 1 (I.d.my : ℤ), rowForm I.d.mx (fun i => op.coeff 0 i j) (factor I op 0) (factor I op 1)
      (fun i => v (i, j, m)) (fun i => u (i, j, m))) / I.dx ^ 2 +
  (∑ i ∈ Finset.Icc 1 (I.d.mx : ℤ), rowForm I.d.my (fun j => op.coeff 2 i j) (factor I op 2) (factor I op 3)
      (fun j => v (i, j, m)) (fun j => u (i, j, m))) / I.dy ^ 2 -
  op.lambda * ∑ j ∈ Finset.Icc 1 (I.d.my : ℤ), ∑ i ∈ Finset.Icc 1 (I.d.mx : ℤ), v (i, j, m) * u (i, j, m)

theorem coeff_one (i j : ℤ) : op.coeff 1 i j = op.coeff 0 (i + 1) j := by
  cases op <;> simp [Op.coeff, next]
  ring

theorem coeff_three (i j : ℤ) : op.coeff 3 i j = op.coeff 2 i (j + 1) := by
  cases op <;> simp [Op.coeff, next]
  ring

/-- Cells of the patch, one after the other. -/
theorem form_eq (hc : Cells I) (m : ℤ) (v u : Grid ℚ) :
    ∑ j ∈ Finset.Icc 1 (I.d.my : ℤ), ∑ i ∈ Finset.Icc 1 (I.d.mx : ℤ),
      v (i, j, m) * discrete I op (alone I op u) u i j m = -form I op m v u := by
  have e : ∀ i j : ℤ, v (i, j, m) * discrete I op (alone I op u) u i j m =
      v (i, j, m) * (op.coeff 0 (i + 1) j * ((if i = I.d.mx then factor I op 1 * u (i, j, m) else u (i + 1, j, m)) - u (i, j, m)) +
        op.coeff 0 i j * ((if i = 1 then factor I op 0 * u (i, j, m) else u (i - 1, j, m)) - u (i, j, m))) / I.dx ^ 2 +
      v (i, j, m) * (op.coeff 2 i (j + 1) * ((if j = I.d.my then factor I op 3 * u (i, j, m) else u (i, j + 1, m)) - u (i, j, m)) +
        op.coeff 2 i j * ((if j = 1 then factor I op 2 * u (i, j, m) else u (i, j - 1, m)) - u (i, j, m))) / I.dy ^ 2 +
      op.lambda * (v (i, j, m) * u (i, j, m)) := by
    intro i j
    unfold discrete
    simp only [Finset.sum_range_succ, Finset.sum_range_zero, across, alone_eq, AtSide, next, coeff_one, coeff_three]
    have h0 : I.h 0 = I.dx := rfl
    have h1 : I.h 1 = I.dx := rfl
    have h2 : I.h 2 = I.dy := rfl
    have h3 : I.h 3 = I.dy := rfl
    rw [h0, h1, h2, h3]
    ring
  simp only [e, Finset.sum_add_distrib]
  unfold form
  have r1 : ∀ j : ℤ, ∑ i ∈ Finset.Icc 1 (I.d.mx : ℤ),
      v (i, j, m) * (op.coeff 0 (i + 1) j * ((if i = I.d.mx then factor I op 1 * u (i, j, m) else u (i + 1, j, m)) - u (i, j, m)) +
        op.coeff 0 i j * ((if i = 1 then factor I op 0 * u (i, j, m) else u (i - 1, j, m)) - u (i, j, m))) / I.dx ^ 2 =
      -rowForm I.d.mx (fun i => op.coeff 0 i j) (factor I op 0) (factor I op 1)
        (fun i => v (i, j, m)) (fun i => u (i, j, m)) / I.dx ^ 2 := by
    intro j
    rw [← row_eq I.d.mx hc.mx (fun i => op.coeff 0 i j) (factor I op 0) (factor I op 1)
      (fun i => v (i, j, m)) (fun i => u (i, j, m)), Finset.sum_div]
  have r2 : ∀ i : ℤ, ∑ j ∈ Finset.Icc 1 (I.d.my : ℤ),
      v (i, j, m) * (op.coeff 2 i (j + 1) * ((if j = I.d.my then factor I op 3 * u (i, j, m) else u (i, j + 1, m)) - u (i, j, m)) +
        op.coeff 2 i j * ((if j = 1 then factor I op 2 * u (i, j, m) else u (i, j - 1, m)) - u (i, j, m))) / I.dy ^ 2 =
      -rowForm I.d.my (fun j => op.coeff 2 i j) (factor I op 2) (factor I op 3)
        (fun j => v (i, j, m)) (fun j => u (i, j, m)) / I.dy ^ 2 := by
    intro i
    rw [← row_eq I.d.my hc.my (fun j => op.coeff 2 i j) (factor I op 2) (factor I op 3)
      (fun j => v (i, j, m)) (fun j => u (i, j, m)), Finset.sum_div]
  rw [Finset.sum_comm (f := fun j i => v (i, j, m) * (op.coeff 2 i (j + 1) * ((if j = I.d.my then factor I op 3 * u (i, j, m) else u (i, j + 1, m)) - u (i, j, m)) +
        op.coeff 2 i j * ((if j = 1 then factor I op 2 * u (i, j, m) else u (i, j - 1, m)) - u (i, j, m))) / I.dy ^ 2)]
  simp only [r1, r2, ← Finset.sum_div, Finset.sum_neg_distrib, ← Finset.mul_sum]
  ring

theorem form_symm (m : ℤ) (v u : Grid ℚ) : form I op m v u = form I op m u v := by
  unfold form
  simp only [rowForm_symm _ _ _ _ (fun i => v (i, _, m)), rowForm_symm _ _ _ _ (fun j => v (_, j, m)), mul_comm (v _)]

theorem form_pos (hok : Ok I op) (hc : Cells I) (hd : Definite I op) (m : ℤ) (u : Grid ℚ) (h : form I op m u u ≤ 0) :
    ∀ i j : ℤ, Inside I i j → u (i, j, m) = 0 := by
  have hx := hc.mx
  have hy := hc.my
  have hf : ∀ k < 4, factor I op k ≤ 1 := by
    intro k hk
    unfold factor
    cases hn : I.nbr k with
    | true => norm_num
    | false =>
      rcases hd.sign k hk hn with h | h <;> simp [h]
  have b0 : ∀ j : ℤ, 1 ≤ j → j ≤ I.d.my → ∀ i : ℤ, 1 ≤ i → i ≤ I.d.mx + 1 → 0 < op.coeff 0 i j := by
    intro j j1 j2 i i1 i2
    by_cases hi : i ≤ I.d.mx
    · exact hd.coeff 0 (by omega) i j ⟨⟨i1, hi⟩, j1, j2⟩
    · have := hd.coeff 1 (by omega) (i - 1) j ⟨⟨by omega, by omega⟩, j1, j2⟩
      rwa [coeff_one, sub_add_cancel] at this
  have b2 : ∀ i : ℤ, 1 ≤ i → i ≤ I.d.mx → ∀ j : ℤ, 1 ≤ j → j ≤ I.d.my + 1 → 0 < op.coeff 2 i j := by
    intro i i1 i2 j j1 j2
    by_cases hj : j ≤ I.d.my
    · exact hd.coeff 2 (by omega) i j ⟨⟨i1, i2⟩, j1, hj⟩
    · have := hd.coeff 3 (by omega) i (j - 1) ⟨⟨i1, i2⟩, by omega, by omega⟩
      rwa [coeff_three, sub_add_cancel] at this
  have n1 : ∀ j ∈ Finset.Icc 1 (I.d.my : ℤ), 0 ≤ rowForm I.d.mx (fun i => op.coeff 0 i j) (factor I op 0) (factor I op 1)
      (fun i => u (i, j, m)) (fun i => u (i, j, m)) := by
    intro j hj
    rw [Finset.mem_Icc] at hj
    exact rowForm_nonneg _ hx _ _ _ _ (b0 j hj.1 hj.2) (hf 0 (by omega)) (hf 1 (by omega))
  have n2 : ∀ i ∈ Finset.Icc 1 (I.d.mx : ℤ), 0 ≤ rowForm I.d.my (fun j => op.coeff 2 i j) (factor I op 2) (factor I op 3)
      (fun j => u (i, j, m)) (fun j => u (i, j, m)) := by
    intro i hi
    rw [Finset.mem_Icc] at hi
    exact rowForm_nonneg _ hy _ _ _ _ (b2 i hi.1 hi.2) (hf 2 (by omega)) (hf 3 (by omega))
  have n3 : ∀ j ∈ Finset.Icc 1 (I.d.my : ℤ), 0 ≤ ∑ i ∈ Finset.Icc 1 (I.d.mx : ℤ), u (i, j, m) * u (i, j, m) :=
    fun j _ => Finset.sum_nonneg fun i _ => mul_self_nonneg _
  have s1 := Finset.sum_nonneg n1
  have s2 := Finset.sum_nonneg n2
  have s3 := Finset.sum_nonneg n3
  have px : 0 < I.dx ^ 2 := by have := hok.dx; positivity
  have py : 0 < I.dy ^ 2 := by have := hok.dy; positivity
  have d1 := div_nonneg s1 px.le
  have d2 := div_nonneg s2 py.le
  have d3 : 0 ≤ -op.lambda * ∑ j ∈ Finset.Icc 1 (I.d.my : ℤ), ∑ i ∈ Finset.Icc 1 (I.d.mx : ℤ), u (i, j, m) * u (i, j, m) :=
    mul_nonneg (by linarith [hok.lambda]) s3
  unfold form at h
  have z1 : (∑ j ∈ Finset.Icc 1 (I.d.my : ℤ), rowForm I.d.mx (fun i => op.coeff 0 i j) (factor I op 0) (factor I op 1)
      (fun i => u (i, j, m)) (fun i => u (i, j, m))) / I.dx ^ 2 = 0 := by linarith
  have z2 : (∑ i ∈ Finset.Icc 1 (I.d.mx : ℤ), rowForm I.d.my (fun j => op.coeff 2 i j) (factor I op 2) (factor I op 3)
      (fun j => u (i, j, m)) (fun j => u (i, j, m))) / I.dy ^ 2 = 0 := by linarith
  have z3 : -op.lambda * ∑ j ∈ Finset.Icc 1 (I.d.my : ℤ), ∑ i ∈ Finset.Icc 1 (I.d.mx : ℤ), u (i, j, m) * u (i, j, m) = 0 := by
    linarith
  have z1' := (div_eq_zero_iff.1 z1).resolve_right px.ne'
  have z2' := (div_eq_zero_iff.1 z2).resolve_right py.ne'
  intro i j hij
  have hi := Finset.mem_Icc.2 hij.1
  have hj := Finset.mem_Icc.2 hij.2
  have lt_of : ∀ k < 4, (I.nbr k = true ∨ op.sign k = -1) → factor I op k < 1 := by
    intro k hk h
    unfold factor
    cases hn : I.nbr k with
    | true => norm_num
    | false =>
      have : op.sign k = -1 := by rcases h with h | h; · simp [hn] at h
                                  · exact h
      rw [this]; norm_num
  rcases hd.pinned with hl | ⟨k, hk, hkk⟩
  · have s3' := (mul_eq_zero.1 z3).resolve_left (by linarith)
    have := (Finset.sum_eq_zero_iff_of_nonneg n3).1 s3' j hj
    have := (Finset.sum_eq_zero_iff_of_nonneg fun i _ => mul_self_nonneg _).1 this i hi
    exact mul_self_eq_zero.1 this
  · have hlt := lt_of k hk hkk
    by_cases hk2 : k < 2
    · have := (Finset.sum_eq_zero_iff_of_nonneg n1).1 z1' j hj
      refine rowForm_zero _ hx _ _ _ _ (b0 j hij.2.1 hij.2.2) (hf 0 (by omega)) (hf 1 (by omega)) ?_ this i hij.1.1 hij.1.2
      interval_cases k
      · exact Or.inl hlt
      · exact Or.inr hlt
    · have := (Finset.sum_eq_zero_iff_of_nonneg n2).1 z2' i hi
      refine rowForm_zero _ hy _ _ _ (fun j => u (i, j, m)) (b2 i hij.1.1 hij.1.2) (hf 2 (by omega)) (hf 3 (by omega)) ?_ this j hij.2.1 hij.2.2
      interval_cases k
      · exact Or.inl hlt
      · exact Or.inr hlt

end Fclaw.Elliptic

import Verif.Wave3.Slice
/-
What the three sweeps add to the fluxes.
-/
set_option autoImplicit false
set_option linter.unusedSimpArgs false
set_option linter.unusedVariables false
namespace Fclaw.Wave3

open Wave (Vec comps dot)

theorem sum3 (f : ℤ → ℚ) : ∑ s ∈ ({-1, 0, 1} : Finset ℤ), f s = f (-1) + f 0 + f 1 := by
  rw [Finset.sum_insert (by simp), Finset.sum_insert (by simp), Finset.sum_singleton]; ring

section
variable (z : Shape) (o : Method) (R : Solver) (ρ : Ratios) (q aux : QArr)

theorem xSweep_fm (hb : 2 ≤ z.mbc) (M : Fluxes) (i j k m : ℤ) (hi : 1 ≤ i) (hi' : i ≤ (z.mx : ℤ) + 1) (hj : 1 ≤ j) (hj' : j ≤ (z.my : ℤ)) (hk : 1 ≤ k) (hk' : k ≤ (z.mz : ℤ))
    (hm : 1 ≤ m) (hm' : m ≤ (z.meqn : ℤ)) : xSweep z o R ρ q aux M (.fm i j k m) = M (.fm i j k m) + flux3 z o R .x (xSlice z o ρ q aux j k) (.faddm i m) := by
  have hadds : Adds (fun l => ∑ k ∈ Finset.Icc 0 ((z.mz : ℤ) + 1), ∑ j ∈ Finset.Icc 0 ((z.my : ℤ) + 1),
    ∑ m ∈ Finset.Icc 1 (z.meqn : ℤ), ∑ i ∈ Finset.Icc (2 - (z.mbc : ℤ)) ((z.mx : ℤ) + z.mbc), sumAt l _) (xSweep z o R ρ q aux) :=
    loop_adds fun k _ _ => loop_adds fun j _ _ => loop_adds fun m _ _ => loop_adds fun i _ _ => addAll_adds _
  rw [hadds]
  simp only [sumAt, FL.fm.injEq, reduceCtorEq, if_false, ite_and, sum_at, sum_at_sub, sum_at_add, sum_if, add_zero, zero_add,
    Finset.sum_add_distrib, Finset.sum_const_zero, sum3, sub_neg_eq_add, sub_zero]
  simp (disch := omega) only [if_pos]
  

theorem xSweep_fp (hb : 2 ≤ z.mbc) (M : Fluxes) (i j k m : ℤ) (hi : 1 ≤ i) (hi' : i ≤ (z.mx : ℤ) + 1) (hj : 1 ≤ j) (hj' : j ≤ (z.my : ℤ)) (hk : 1 ≤ k) (hk' : k ≤ (z.mz : ℤ))
    (hm : 1 ≤ m) (hm' : m ≤ (z.meqn : ℤ)) : xSweep z o R ρ q aux M (.fp i j k m) = M (.fp i j k m) + flux3 z o R .x (xSlice z o ρ q aux j k) (.faddp i m) := by
  have hadds : Adds (fun l => ∑ k ∈ Finset.Icc 0 ((z.mz : ℤ) + 1), ∑ j ∈ Finset.Icc 0 ((z.my : ℤ) + 1),
    ∑ m ∈ Finset.Icc 1 (z.meqn : ℤ), ∑ i ∈ Finset.Icc (2 - (z.mbc : ℤ)) ((z.mx : ℤ) + z.mbc), sumAt l _) (xSweep z o R ρ q aux) :=
    loop_adds fun k _ _ => loop_adds fun j _ _ => loop_adds fun m _ _ => loop_adds fun i _ _ => addAll_adds _
  rw [hadds]
  simp only [sumAt, FL.fp.injEq, reduceCtorEq, if_false, ite_and, sum_at, sum_at_sub, sum_at_add, sum_if, add_zero, zero_add,
    Finset.sum_add_distrib, Finset.sum_const_zero, sum3, sub_neg_eq_add, sub_zero]
  simp (disch := omega) only [if_pos]
  

theorem xSweep_gm (hb : 2 ≤ z.mbc) (M : Fluxes) (i j k m : ℤ) (hi : 1 ≤ i) (hi' : i ≤ (z.mx : ℤ)) (hj : 1 ≤ j) (hj' : j ≤ (z.my : ℤ) + 1) (hk : 1 ≤ k) (hk' : k ≤ (z.mz : ℤ))
    (hm : 1 ≤ m) (hm' : m ≤ (z.meqn : ℤ)) : xSweep z o R ρ q aux M (.gm i j k m) = M (.gm i j k m) + ∑ s ∈ ({-1, 0, 1} : Finset ℤ),
      (flux3 z o R .x (xSlice z o ρ q aux j (k - s)) (.gadd i m 1 s) +
        flux3 z o R .x (xSlice z o ρ q aux (j - 1) (k - s)) (.gadd i m 2 s)) := by
  have hadds : Adds (fun l => ∑ k ∈ Finset.Icc 0 ((z.mz : ℤ) + 1), ∑ j ∈ Finset.Icc 0 ((z.my : ℤ) + 1),
    ∑ m ∈ Finset.Icc 1 (z.meqn : ℤ), ∑ i ∈ Finset.Icc (2 - (z.mbc : ℤ)) ((z.mx : ℤ) + z.mbc), sumAt l _) (xSweep z o R ρ q aux) :=
    loop_adds fun k _ _ => loop_adds fun j _ _ => loop_adds fun m _ _ => loop_adds fun i _ _ => addAll_adds _
  rw [hadds]
  simp only [sumAt, FL.gm.injEq, reduceCtorEq, if_false, ite_and, sum_at, sum_at_sub, sum_at_add, sum_if, add_zero, zero_add,
    Finset.sum_add_distrib, Finset.sum_const_zero, sum3, sub_neg_eq_add, sub_zero]
  simp (disch := omega) only [if_pos]
  ring

theorem xSweep_gp (hb : 2 ≤ z.mbc) (M : Fluxes) (i j k m : ℤ) (hi : 1 ≤ i) (hi' : i ≤ (z.mx : ℤ)) (hj : 1 ≤ j) (hj' : j ≤ (z.my : ℤ) + 1) (hk : 1 ≤ k) (hk' : k ≤ (z.mz : ℤ))
    (hm : 1 ≤ m) (hm' : m ≤ (z.meqn : ℤ)) : xSweep z o R ρ q aux M (.gp i j k m) = M (.gp i j k m) + ∑ s ∈ ({-1, 0, 1} : Finset ℤ),
      (flux3 z o R .x (xSlice z o ρ q aux j (k - s)) (.gadd i m 1 s) +
        flux3 z o R .x (xSlice z o ρ q aux (j - 1) (k - s)) (.gadd i m 2 s)) := by
  have hadds : Adds (fun l => ∑ k ∈ Finset.Icc 0 ((z.mz : ℤ) + 1), ∑ j ∈ Finset.Icc 0 ((z.my : ℤ) + 1),
    ∑ m ∈ Finset.Icc 1 (z.meqn : ℤ), ∑ i ∈ Finset.Icc (2 - (z.mbc : ℤ)) ((z.mx : ℤ) + z.mbc), sumAt l _) (xSweep z o R ρ q aux) :=
    loop_adds fun k _ _ => loop_adds fun j _ _ => loop_adds fun m _ _ => loop_adds fun i _ _ => addAll_adds _
  rw [hadds]
  simp only [sumAt, FL.gp.injEq, reduceCtorEq, if_false, ite_and, sum_at, sum_at_sub, sum_at_add, sum_if, add_zero, zero_add,
    Finset.sum_add_distrib, Finset.sum_const_zero, sum3, sub_neg_eq_add, sub_zero]
  simp (disch := omega) only [if_pos]
  ring

theorem xSweep_hm (hb : 2 ≤ z.mbc) (M : Fluxes) (i j k m : ℤ) (hi : 1 ≤ i) (hi' : i ≤ (z.mx : ℤ)) (hj : 1 ≤ j) (hj' : j ≤ (z.my : ℤ)) (hk : 1 ≤ k) (hk' : k ≤ (z.mz : ℤ) + 1)
    (hm : 1 ≤ m) (hm' : m ≤ (z.meqn : ℤ)) : xSweep z o R ρ q aux M (.hm i j k m) = M (.hm i j k m) + ∑ s ∈ ({-1, 0, 1} : Finset ℤ),
      (flux3 z o R .x (xSlice z o ρ q aux (j - s) k) (.hadd i m 1 s) +
        flux3 z o R .x (xSlice z o ρ q aux (j - s) (k - 1)) (.hadd i m 2 s)) := by
  have hadds : Adds (fun l => ∑ k ∈ Finset.Icc 0 ((z.mz : ℤ) + 1), ∑ j ∈ Finset.Icc 0 ((z.my : ℤ) + 1),
    ∑ m ∈ Finset.Icc 1 (z.meqn : ℤ), ∑ i ∈ Finset.Icc (2 - (z.mbc : ℤ)) ((z.mx : ℤ) + z.mbc), sumAt l _) (xSweep z o R ρ q aux) :=
    loop_adds fun k _ _ => loop_adds fun j _ _ => loop_adds fun m _ _ => loop_adds fun i _ _ => addAll_adds _
  rw [hadds]
  simp only [sumAt, FL.hm.injEq, reduceCtorEq, if_false, ite_and, sum_at, sum_at_sub, sum_at_add, sum_if, add_zero, zero_add,
    Finset.sum_add_distrib, Finset.sum_const_zero, sum3, sub_neg_eq_add, sub_zero]
  simp (disch := omega) only [if_pos]
  ring

theorem xSweep_hp (hb : 2 ≤ z.mbc) (M : Fluxes) (i j k m : ℤ) (hi : 1 ≤ i) (hi' : i ≤ (z.mx : ℤ)) (hj : 1 ≤ j) (hj' : j ≤ (z.my : ℤ)) (hk : 1 ≤ k) (hk' : k ≤ (z.mz : ℤ) + 1)
    (hm : 1 ≤ m) (hm' : m ≤ (z.meqn : ℤ)) : xSweep z o R ρ q aux M (.hp i j k m) = M (.hp i j k m) + ∑ s ∈ ({-1, 0, 1} : Finset ℤ),
      (flux3 z o R .x (xSlice z o ρ q aux (j - s) k) (.hadd i m 1 s) +
        flux3 z o R .x (xSlice z o ρ q aux (j - s) (k - 1)) (.hadd i m 2 s)) := by
  have hadds : Adds (fun l => ∑ k ∈ Finset.Icc 0 ((z.mz : ℤ) + 1), ∑ j ∈ Finset.Icc 0 ((z.my : ℤ) + 1),
    ∑ m ∈ Finset.Icc 1 (z.meqn : ℤ), ∑ i ∈ Finset.Icc (2 - (z.mbc : ℤ)) ((z.mx : ℤ) + z.mbc), sumAt l _) (xSweep z o R ρ q aux) :=
    loop_adds fun k _ _ => loop_adds fun j _ _ => loop_adds fun m _ _ => loop_adds fun i _ _ => addAll_adds _
  rw [hadds]
  simp only [sumAt, FL.hp.injEq, reduceCtorEq, if_false, ite_and, sum_at, sum_at_sub, sum_at_add, sum_if, add_zero, zero_add,
    Finset.sum_add_distrib, Finset.sum_const_zero, sum3, sub_neg_eq_add, sub_zero]
  simp (disch := omega) only [if_pos]
  ring

theorem ySweep_gm (hb : 2 ≤ z.mbc) (M : Fluxes) (i j k m : ℤ) (hi : 1 ≤ i) (hi' : i ≤ (z.mx : ℤ)) (hj : 1 ≤ j) (hj' : j ≤ (z.my : ℤ) + 1) (hk : 1 ≤ k) (hk' : k ≤ (z.mz : ℤ))
    (hm : 1 ≤ m) (hm' : m ≤ (z.meqn : ℤ)) : ySweep z o R ρ q aux M (.gm i j k m) = M (.gm i j k m) + flux3 z o R .y (ySlice z o ρ q aux i k) (.faddm j m) := by
  have hadds : Adds (fun l => ∑ k ∈ Finset.Icc 0 ((z.mz : ℤ) + 1), ∑ i ∈ Finset.Icc 0 ((z.mx : ℤ) + 1),
    ∑ m ∈ Finset.Icc 1 (z.meqn : ℤ), ∑ j ∈ Finset.Icc 1 ((z.my : ℤ) + 1), sumAt l _) (ySweep z o R ρ q aux) :=
    loop_adds fun k _ _ => loop_adds fun j _ _ => loop_adds fun m _ _ => loop_adds fun i _ _ => addAll_adds _
  rw [hadds]
  simp only [sumAt, FL.gm.injEq, reduceCtorEq, if_false, ite_and, sum_at, sum_at_sub, sum_at_add, sum_if, add_zero, zero_add,
    Finset.sum_add_distrib, Finset.sum_const_zero, sum3, sub_neg_eq_add, sub_zero]
  simp (disch := omega) only [if_pos]
  

theorem ySweep_gp (hb : 2 ≤ z.mbc) (M : Fluxes) (i j k m : ℤ) (hi : 1 ≤ i) (hi' : i ≤ (z.mx : ℤ)) (hj : 1 ≤ j) (hj' : j ≤ (z.my : ℤ) + 1) (hk : 1 ≤ k) (hk' : k ≤ (z.mz : ℤ))
    (hm : 1 ≤ m) (hm' : m ≤ (z.meqn : ℤ)) : ySweep z o R ρ q aux M (.gp i j k m) = M (.gp i j k m) + flux3 z o R .y (ySlice z o ρ q aux i k) (.faddp j m) := by
  have hadds : Adds (fun l => ∑ k ∈ Finset.Icc 0 ((z.mz : ℤ) + 1), ∑ i ∈ Finset.Icc 0 ((z.mx : ℤ) + 1),
    ∑ m ∈ Finset.Icc 1 (z.meqn : ℤ), ∑ j ∈ Finset.Icc 1 ((z.my : ℤ) + 1), sumAt l _) (ySweep z o R ρ q aux) :=
    loop_adds fun k _ _ => loop_adds fun j _ _ => loop_adds fun m _ _ => loop_adds fun i _ _ => addAll_adds _
  rw [hadds]
  simp only [sumAt, FL.gp.injEq, reduceCtorEq, if_false, ite_and, sum_at, sum_at_sub, sum_at_add, sum_if, add_zero, zero_add,
    Finset.sum_add_distrib, Finset.sum_const_zero, sum3, sub_neg_eq_add, sub_zero]
  simp (disch := omega) only [if_pos]
  

theorem ySweep_hm (hb : 2 ≤ z.mbc) (M : Fluxes) (i j k m : ℤ) (hi : 1 ≤ i) (hi' : i ≤ (z.mx : ℤ)) (hj : 1 ≤ j) (hj' : j ≤ (z.my : ℤ)) (hk : 1 ≤ k) (hk' : k ≤ (z.mz : ℤ) + 1)
    (hm : 1 ≤ m) (hm' : m ≤ (z.meqn : ℤ)) : ySweep z o R ρ q aux M (.hm i j k m) = M (.hm i j k m) + ∑ s ∈ ({-1, 0, 1} : Finset ℤ),
      (flux3 z o R .y (ySlice z o ρ q aux (i - s) k) (.gadd j m 1 s) +
        flux3 z o R .y (ySlice z o ρ q aux (i - s) (k - 1)) (.gadd j m 2 s)) := by
  have hadds : Adds (fun l => ∑ k ∈ Finset.Icc 0 ((z.mz : ℤ) + 1), ∑ i ∈ Finset.Icc 0 ((z.mx : ℤ) + 1),
    ∑ m ∈ Finset.Icc 1 (z.meqn : ℤ), ∑ j ∈ Finset.Icc 1 ((z.my : ℤ) + 1), sumAt l _) (ySweep z o R ρ q aux) :=
    loop_adds fun k _ _ => loop_adds fun j _ _ => loop_adds fun m _ _ => loop_adds fun i _ _ => addAll_adds _
  rw [hadds]
  simp only [sumAt, FL.hm.injEq, reduceCtorEq, if_false, ite_and, sum_at, sum_at_sub, sum_at_add, sum_if, add_zero, zero_add,
    Finset.sum_add_distrib, Finset.sum_const_zero, sum3, sub_neg_eq_add, sub_zero]
  simp (disch := omega) only [if_pos]
  ring

theorem ySweep_hp (hb : 2 ≤ z.mbc) (M : Fluxes) (i j k m : ℤ) (hi : 1 ≤ i) (hi' : i ≤ (z.mx : ℤ)) (hj : 1 ≤ j) (hj' : j ≤ (z.my : ℤ)) (hk : 1 ≤ k) (hk' : k ≤ (z.mz : ℤ) + 1)
    (hm : 1 ≤ m) (hm' : m ≤ (z.meqn : ℤ)) : ySweep z o R ρ q aux M (.hp i j k m) = M (.hp i j k m) + ∑ s ∈ ({-1, 0, 1} : Finset ℤ),
      (flux3 z o R .y (ySlice z o ρ q aux (i - s) k) (.gadd j m 1 s) +
        flux3 z o R .y (ySlice z o ρ q aux (i - s) (k - 1)) (.gadd j m 2 s)) := by
  have hadds : Adds (fun l => ∑ k ∈ Finset.Icc 0 ((z.mz : ℤ) + 1), ∑ i ∈ Finset.Icc 0 ((z.mx : ℤ) + 1),
    ∑ m ∈ Finset.Icc 1 (z.meqn : ℤ), ∑ j ∈ Finset.Icc 1 ((z.my : ℤ) + 1), sumAt l _) (ySweep z o R ρ q aux) :=
    loop_adds fun k _ _ => loop_adds fun j _ _ => loop_adds fun m _ _ => loop_adds fun i _ _ => addAll_adds _
  rw [hadds]
  simp only [sumAt, FL.hp.injEq, reduceCtorEq, if_false, ite_and, sum_at, sum_at_sub, sum_at_add, sum_if, add_zero, zero_add,
    Finset.sum_add_distrib, Finset.sum_const_zero, sum3, sub_neg_eq_add, sub_zero]
  simp (disch := omega) only [if_pos]
  ring

theorem ySweep_fm (hb : 2 ≤ z.mbc) (M : Fluxes) (i j k m : ℤ) (hi : 1 ≤ i) (hi' : i ≤ (z.mx : ℤ) + 1) (hj : 1 ≤ j) (hj' : j ≤ (z.my : ℤ)) (hk : 1 ≤ k) (hk' : k ≤ (z.mz : ℤ))
    (hm : 1 ≤ m) (hm' : m ≤ (z.meqn : ℤ)) : ySweep z o R ρ q aux M (.fm i j k m) = M (.fm i j k m) + ∑ s ∈ ({-1, 0, 1} : Finset ℤ),
      (flux3 z o R .y (ySlice z o ρ q aux i (k - s)) (.hadd j m 1 s) +
        flux3 z o R .y (ySlice z o ρ q aux (i - 1) (k - s)) (.hadd j m 2 s)) := by
  have hadds : Adds (fun l => ∑ k ∈ Finset.Icc 0 ((z.mz : ℤ) + 1), ∑ i ∈ Finset.Icc 0 ((z.mx : ℤ) + 1),
    ∑ m ∈ Finset.Icc 1 (z.meqn : ℤ), ∑ j ∈ Finset.Icc 1 ((z.my : ℤ) + 1), sumAt l _) (ySweep z o R ρ q aux) :=
    loop_adds fun k _ _ => loop_adds fun j _ _ => loop_adds fun m _ _ => loop_adds fun i _ _ => addAll_adds _
  rw [hadds]
  simp only [sumAt, FL.fm.injEq, reduceCtorEq, if_false, ite_and, sum_at, sum_at_sub, sum_at_add, sum_if, add_zero, zero_add,
    Finset.sum_add_distrib, Finset.sum_const_zero, sum3, sub_neg_eq_add, sub_zero]
  simp (disch := omega) only [if_pos]
  ring

theorem ySweep_fp (hb : 2 ≤ z.mbc) (M : Fluxes) (i j k m : ℤ) (hi : 1 ≤ i) (hi' : i ≤ (z.mx : ℤ) + 1) (hj : 1 ≤ j) (hj' : j ≤ (z.my : ℤ)) (hk : 1 ≤ k) (hk' : k ≤ (z.mz : ℤ))
    (hm : 1 ≤ m) (hm' : m ≤ (z.meqn : ℤ)) : ySweep z o R ρ q aux M (.fp i j k m) = M (.fp i j k m) + ∑ s ∈ ({-1, 0, 1} : Finset ℤ),
      (flux3 z o R .y (ySlice z o ρ q aux i (k - s)) (.hadd j m 1 s) +
        flux3 z o R .y (ySlice z o ρ q aux (i - 1) (k - s)) (.hadd j m 2 s)) := by
  have hadds : Adds (fun l => ∑ k ∈ Finset.Icc 0 ((z.mz : ℤ) + 1), ∑ i ∈ Finset.Icc 0 ((z.mx : ℤ) + 1),
    ∑ m ∈ Finset.Icc 1 (z.meqn : ℤ), ∑ j ∈ Finset.Icc 1 ((z.my : ℤ) + 1), sumAt l _) (ySweep z o R ρ q aux) :=
    loop_adds fun k _ _ => loop_adds fun j _ _ => loop_adds fun m _ _ => loop_adds fun i _ _ => addAll_adds _
  rw [hadds]
  simp only [sumAt, FL.fp.injEq, reduceCtorEq, if_false, ite_and, sum_at, sum_at_sub, sum_at_add, sum_if, add_zero, zero_add,
    Finset.sum_add_distrib, Finset.sum_const_zero, sum3, sub_neg_eq_add, sub_zero]
  simp (disch := omega) only [if_pos]
  ring

theorem zSweep_hm (hb : 2 ≤ z.mbc) (M : Fluxes) (i j k m : ℤ) (hi : 1 ≤ i) (hi' : i ≤ (z.mx : ℤ)) (hj : 1 ≤ j) (hj' : j ≤ (z.my : ℤ)) (hk : 1 ≤ k) (hk' : k ≤ (z.mz : ℤ) + 1)
    (hm : 1 ≤ m) (hm' : m ≤ (z.meqn : ℤ)) : zSweep z o R ρ q aux M (.hm i j k m) = M (.hm i j k m) + flux3 z o R .z (zSlice z o ρ q aux i j) (.faddm k m) := by
  have hadds : Adds (fun l => ∑ j ∈ Finset.Icc 0 ((z.my : ℤ) + 1), ∑ i ∈ Finset.Icc 0 ((z.mx : ℤ) + 1),
    ∑ m ∈ Finset.Icc 1 (z.meqn : ℤ), ∑ k ∈ Finset.Icc 1 ((z.mz : ℤ) + 1), sumAt l _) (zSweep z o R ρ q aux) :=
    loop_adds fun k _ _ => loop_adds fun j _ _ => loop_adds fun m _ _ => loop_adds fun i _ _ => addAll_adds _
  rw [hadds]
  simp only [sumAt, FL.hm.injEq, reduceCtorEq, if_false, ite_and, sum_at, sum_at_sub, sum_at_add, sum_if, add_zero, zero_add,
    Finset.sum_add_distrib, Finset.sum_const_zero, sum3, sub_neg_eq_add, sub_zero]
  simp (disch := omega) only [if_pos]
  

theorem zSweep_hp (hb : 2 ≤ z.mbc) (M : Fluxes) (i j k m : ℤ) (hi : 1 ≤ i) (hi' : i ≤ (z.mx : ℤ)) (hj : 1 ≤ j) (hj' : j ≤ (z.my : ℤ)) (hk : 1 ≤ k) (hk' : k ≤ (z.mz : ℤ) + 1)
    (hm : 1 ≤ m) (hm' : m ≤ (z.meqn : ℤ)) : zSweep z o R ρ q aux M (.hp i j k m) = M (.hp i j k m) + flux3 z o R .z (zSlice z o ρ q aux i j) (.faddp k m) := by
  have hadds : Adds (fun l => ∑ j ∈ Finset.Icc 0 ((z.my : ℤ) + 1), ∑ i ∈ Finset.Icc 0 ((z.mx : ℤ) + 1),
    ∑ m ∈ Finset.Icc 1 (z.meqn : ℤ), ∑ k ∈ Finset.Icc 1 ((z.mz : ℤ) + 1), sumAt l _) (zSweep z o R ρ q aux) :=
    loop_adds fun k _ _ => loop_adds fun j _ _ => loop_adds fun m _ _ => loop_adds fun i _ _ => addAll_adds _
  rw [hadds]
  simp only [sumAt, FL.hp.injEq, reduceCtorEq, if_false, ite_and, sum_at, sum_at_sub, sum_at_add, sum_if, add_zero, zero_add,
    Finset.sum_add_distrib, Finset.sum_const_zero, sum3, sub_neg_eq_add, sub_zero]
  simp (disch := omega) only [if_pos]
  

theorem zSweep_fm (hb : 2 ≤ z.mbc) (M : Fluxes) (i j k m : ℤ) (hi : 1 ≤ i) (hi' : i ≤ (z.mx : ℤ) + 1) (hj : 1 ≤ j) (hj' : j ≤ (z.my : ℤ)) (hk : 1 ≤ k) (hk' : k ≤ (z.mz : ℤ))
    (hm : 1 ≤ m) (hm' : m ≤ (z.meqn : ℤ)) : zSweep z o R ρ q aux M (.fm i j k m) = M (.fm i j k m) + ∑ s ∈ ({-1, 0, 1} : Finset ℤ),
      (flux3 z o R .z (zSlice z o ρ q aux i (j - s)) (.gadd k m 1 s) +
        flux3 z o R .z (zSlice z o ρ q aux (i - 1) (j - s)) (.gadd k m 2 s)) := by
  have hadds : Adds (fun l => ∑ j ∈ Finset.Icc 0 ((z.my : ℤ) + 1), ∑ i ∈ Finset.Icc 0 ((z.mx : ℤ) + 1),
    ∑ m ∈ Finset.Icc 1 (z.meqn : ℤ), ∑ k ∈ Finset.Icc 1 ((z.mz : ℤ) + 1), sumAt l _) (zSweep z o R ρ q aux) :=
    loop_adds fun k _ _ => loop_adds fun j _ _ => loop_adds fun m _ _ => loop_adds fun i _ _ => addAll_adds _
  rw [hadds]
  simp only [sumAt, FL.fm.injEq, reduceCtorEq, if_false, ite_and, sum_at, sum_at_sub, sum_at_add, sum_if, add_zero, zero_add,
    Finset.sum_add_distrib, Finset.sum_const_zero, sum3, sub_neg_eq_add, sub_zero]
  simp (disch := omega) only [if_pos]
  ring

theorem zSweep_fp (hb : 2 ≤ z.mbc) (M : Fluxes) (i j k m : ℤ) (hi : 1 ≤ i) (hi' : i ≤ (z.mx : ℤ) + 1) (hj : 1 ≤ j) (hj' : j ≤ (z.my : ℤ)) (hk : 1 ≤ k) (hk' : k ≤ (z.mz : ℤ))
    (hm : 1 ≤ m) (hm' : m ≤ (z.meqn : ℤ)) : zSweep z o R ρ q aux M (.fp i j k m) = M (.fp i j k m) + ∑ s ∈ ({-1, 0, 1} : Finset ℤ),
      (flux3 z o R .z (zSlice z o ρ q aux i (j - s)) (.gadd k m 1 s) +
        flux3 z o R .z (zSlice z o ρ q aux (i - 1) (j - s)) (.gadd k m 2 s)) := by
  have hadds : Adds (fun l => ∑ j ∈ Finset.Icc 0 ((z.my : ℤ) + 1), ∑ i ∈ Finset.Icc 0 ((z.mx : ℤ) + 1),
    ∑ m ∈ Finset.Icc 1 (z.meqn : ℤ), ∑ k ∈ Finset.Icc 1 ((z.mz : ℤ) + 1), sumAt l _) (zSweep z o R ρ q aux) :=
    loop_adds fun k _ _ => loop_adds fun j _ _ => loop_adds fun m _ _ => loop_adds fun i _ _ => addAll_adds _
  rw [hadds]
  simp only [sumAt, FL.fp.injEq, reduceCtorEq, if_false, ite_and, sum_at, sum_at_sub, sum_at_add, sum_if, add_zero, zero_add,
    Finset.sum_add_distrib, Finset.sum_const_zero, sum3, sub_neg_eq_add, sub_zero]
  simp (disch := omega) only [if_pos]
  ring

theorem zSweep_gm (hb : 2 ≤ z.mbc) (M : Fluxes) (i j k m : ℤ) (hi : 1 ≤ i) (hi' : i ≤ (z.mx : ℤ)) (hj : 1 ≤ j) (hj' : j ≤ (z.my : ℤ) + 1) (hk : 1 ≤ k) (hk' : k ≤ (z.mz : ℤ))
    (hm : 1 ≤ m) (hm' : m ≤ (z.meqn : ℤ)) : zSweep z o R ρ q aux M (.gm i j k m) = M (.gm i j k m) + ∑ s ∈ ({-1, 0, 1} : Finset ℤ),
      (flux3 z o R .z (zSlice z o ρ q aux (i - s) j) (.hadd k m 1 s) +
        flux3 z o R .z (zSlice z o ρ q aux (i - s) (j - 1)) (.hadd k m 2 s)) := by
  have hadds : Adds (fun l => ∑ j ∈ Finset.Icc 0 ((z.my : ℤ) + 1), ∑ i ∈ Finset.Icc 0 ((z.mx : ℤ) + 1),
    ∑ m ∈ Finset.Icc 1 (z.meqn : ℤ), ∑ k ∈ Finset.Icc 1 ((z.mz : ℤ) + 1), sumAt l _) (zSweep z o R ρ q aux) :=
    loop_adds fun k _ _ => loop_adds fun j _ _ => loop_adds fun m _ _ => loop_adds fun i _ _ => addAll_adds _
  rw [hadds]
  simp only [sumAt, FL.gm.injEq, reduceCtorEq, if_false, ite_and, sum_at, sum_at_sub, sum_at_add, sum_if, add_zero, zero_add,
    Finset.sum_add_distrib, Finset.sum_const_zero, sum3, sub_neg_eq_add, sub_zero]
  simp (disch := omega) only [if_pos]
  ring

theorem zSweep_gp (hb : 2 ≤ z.mbc) (M : Fluxes) (i j k m : ℤ) (hi : 1 ≤ i) (hi' : i ≤ (z.mx : ℤ)) (hj : 1 ≤ j) (hj' : j ≤ (z.my : ℤ) + 1) (hk : 1 ≤ k) (hk' : k ≤ (z.mz : ℤ))
    (hm : 1 ≤ m) (hm' : m ≤ (z.meqn : ℤ)) : zSweep z o R ρ q aux M (.gp i j k m) = M (.gp i j k m) + ∑ s ∈ ({-1, 0, 1} : Finset ℤ),
      (flux3 z o R .z (zSlice z o ρ q aux (i - s) j) (.hadd k m 1 s) +
        flux3 z o R .z (zSlice z o ρ q aux (i - s) (j - 1)) (.hadd k m 2 s)) := by
  have hadds : Adds (fun l => ∑ j ∈ Finset.Icc 0 ((z.my : ℤ) + 1), ∑ i ∈ Finset.Icc 0 ((z.mx : ℤ) + 1),
    ∑ m ∈ Finset.Icc 1 (z.meqn : ℤ), ∑ k ∈ Finset.Icc 1 ((z.mz : ℤ) + 1), sumAt l _) (zSweep z o R ρ q aux) :=
    loop_adds fun k _ _ => loop_adds fun j _ _ => loop_adds fun m _ _ => loop_adds fun i _ _ => addAll_adds _
  rw [hadds]
  simp only [sumAt, FL.gp.injEq, reduceCtorEq, if_false, ite_and, sum_at, sum_at_sub, sum_at_add, sum_if, add_zero, zero_add,
    Finset.sum_add_distrib, Finset.sum_const_zero, sum3, sub_neg_eq_add, sub_zero]
  simp (disch := omega) only [if_pos]
  ring

end

end Fclaw.Wave3

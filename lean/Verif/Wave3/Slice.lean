import Verif.Wave3.Flux
/-
What `flux3` computes.
-/
set_option autoImplicit false
set_option linter.unusedSimpArgs false
set_option linter.unusedVariables false
namespace Fclaw.Wave3

open Wave (Vec comps dot)

section
variable {z : Shape} {o : Method} {R : Solver} {S : Scheme} {F : Field} {d : Dir} {b c : ℤ} {L : Slice}

theorem godunov_adds : Adds (fun l => ∑ i ∈ Finset.Icc 1 (L.n + 1), ∑ m ∈ Finset.Icc 1 (z.meqn : ℤ),
    sumAt l [(.faddp i m, -apdq z R d L i m), (.faddm i m, amdq z R d L i m)]) (godunov z R d L) :=
  loop_adds fun i _ _ => loop_adds fun m _ _ => addAll_adds _

theorem second_adds : Adds (fun l => ∑ i ∈ Finset.Icc 1 (L.n + 1), ∑ m ∈ Finset.Icc 1 (z.meqn : ℤ),
    sumAt l [(.faddm i m, cqxx z o R d L i m), (.faddp i m, cqxx z o R d L i m)]) (second z o R d L) :=
  loop_adds fun i _ _ => loop_adds fun m _ _ => addAll_adds _

/-- Before transverse propagation. -/
theorem normal_eq (l : AL) : (if o.order = 1 then godunov z R d L fun _ => 0
      else second z o R d L (godunov z R d L fun _ => 0)) l =
    (∑ i ∈ Finset.Icc 1 (L.n + 1), ∑ m ∈ Finset.Icc 1 (z.meqn : ℤ),
      sumAt l [(.faddp i m, -apdq z R d L i m), (.faddm i m, amdq z R d L i m)]) +
    if o.order = 1 then 0 else ∑ i ∈ Finset.Icc 1 (L.n + 1), ∑ m ∈ Finset.Icc 1 (z.meqn : ℤ),
      sumAt l [(.faddm i m, cqxx z o R d L i m), (.faddp i m, cqxx z o R d L i m)] := by
  by_cases h : o.order = 1
  · rw [if_pos h, if_pos h, godunov_adds]; ring
  · rw [if_neg h, if_neg h, second_adds, godunov_adds]; ring

theorem addG_other (M : Acc) (l : AL) (h : ∀ i m s k, l ≠ .gadd i m s k) : addG z o R d L M l = M l := by
  have : Adds (fun l => ∑ i ∈ Finset.Icc 1 (L.n + 1), ∑ m ∈ Finset.Icc 1 (z.meqn : ℤ), _) (addG z o R d L) :=
    loop_adds fun i _ _ => loop_adds fun m _ _ => addAll_adds _
  rw [this M l]
  beta_reduce
  rw [Finset.sum_eq_zero, add_zero]
  intro i _
  refine Finset.sum_eq_zero fun m _ => ?_
  simp only [sumAt_append, sumAt_ite, sumAt, if_neg (h _ _ _ _), add_zero, ite_self]

theorem addH_other (M : Acc) (l : AL) (h : ∀ i m s k, l ≠ .hadd i m s k) : addH z o R d L M l = M l := by
  have : Adds (fun l => ∑ i ∈ Finset.Icc 1 (L.n + 1), ∑ m ∈ Finset.Icc 1 (z.meqn : ℤ), _) (addH z o R d L) :=
    loop_adds fun i _ _ => loop_adds fun m _ _ => addAll_adds _
  rw [this M l]
  beta_reduce
  rw [Finset.sum_eq_zero, add_zero]
  intro i _
  refine Finset.sum_eq_zero fun m _ => ?_
  simp only [sumAt_append, sumAt_ite, sumAt, if_neg (h _ _ _ _), add_zero, ite_self]

theorem flux3_faddm (hS : Same z o R S) (h : Fits z S F d b c L) (hu : Usable z o) (i m : ℤ) (hi : 1 ≤ i) (hi' : i ≤ L.n + 1)
    (hm : 1 ≤ m) (hm' : m ≤ (z.meqn : ℤ)) :
    flux3 z o R d L (.faddm i m) = left S F d i b c m + secondOrder S F d i b c m := by
  have e : flux3 z o R d L (.faddm i m) = (if o.order = 1 then godunov z R d L fun _ => 0
      else second z o R d L (godunov z R d L fun _ => 0)) (.faddm i m) := by
    unfold flux3
    by_cases h3 : m3 o ≤ 0
    · rw [if_pos h3]
    · rw [if_neg h3, addH_other _ _ (by intros; simp), addG_other _ _ (by intros; simp)]
  rw [e, normal_eq]
  simp only [sumAt, AL.faddm.injEq, reduceCtorEq, if_false, ite_and, sum_at, sum_if, add_zero, zero_add]
  simp (disch := omega) only [if_pos]
  rw [amdq_eq hS h, cqxx_eq hS h hu i m hi hi' hm hm']
  unfold secondOrder
  rw [hS.order]

theorem flux3_faddp (hS : Same z o R S) (h : Fits z S F d b c L) (hu : Usable z o) (i m : ℤ) (hi : 1 ≤ i) (hi' : i ≤ L.n + 1)
    (hm : 1 ≤ m) (hm' : m ≤ (z.meqn : ℤ)) :
    flux3 z o R d L (.faddp i m) = -right S F d i b c m + secondOrder S F d i b c m := by
  have e : flux3 z o R d L (.faddp i m) = (if o.order = 1 then godunov z R d L fun _ => 0
      else second z o R d L (godunov z R d L fun _ => 0)) (.faddp i m) := by
    unfold flux3
    by_cases h3 : m3 o ≤ 0
    · rw [if_pos h3]
    · rw [if_neg h3, addH_other _ _ (by intros; simp), addG_other _ _ (by intros; simp)]
  rw [e, normal_eq]
  simp only [sumAt, AL.faddp.injEq, reduceCtorEq, if_false, ite_and, sum_at, sum_if, add_zero, zero_add]
  simp (disch := omega) only [if_pos]
  rw [apdq_eq hS h, cqxx_eq hS h hu i m hi hi' hm hm']
  unfold secondOrder
  rw [hS.order]

/-- Zero for all but the two arrays. -/
theorem normal_zero (l : AL) (h1 : ∀ i m, l ≠ .faddm i m) (h2 : ∀ i m, l ≠ .faddp i m) :
    (if o.order = 1 then godunov z R d L fun _ => 0 else second z o R d L (godunov z R d L fun _ => 0)) l = 0 := by
  rw [normal_eq]
  simp only [sumAt, if_neg (h1 _ _), if_neg (h2 _ _), add_zero, Finset.sum_const_zero, ite_self]

theorem flux3_none (hS : Same z o R S) (h3 : ¬0 < m3 o) (i m s k : ℤ) :
    flux3 z o R d L (.gadd i m s k) = 0 ∧ flux3 z o R d L (.hadd i m s k) = 0 := by
  unfold flux3
  rw [if_pos (by omega)]
  exact ⟨normal_zero _ (by intros; simp) (by intros; simp), normal_zero _ (by intros; simp) (by intros; simp)⟩

theorem flux3_gadd (hS : Same z o R S) (h : Fits z S F d b c L) (hu : Usable z o) (h3 : 0 < m3 o) (i m : ℤ) (hi : 1 ≤ i)
    (hi' : i ≤ L.n) (hm : 1 ≤ m) (hm' : m ≤ (z.meqn : ℤ)) (up : Bool) (s : ℤ) (hs : s = -1 ∨ s = 0 ∨ s = 1) :
    flux3 z o R d L (.gadd i m (if up then 2 else 1) s) = spill S F d i b c 1 up s m := by
  obtain ⟨a1, a2, a3, a4, -⟩ := waveParts hS h i
  obtain ⟨b1, b2, b3, b4, -⟩ := waveParts hS h (i + 1)
  obtain ⟨-, -, c3, c4, -⟩ := corrParts hS h hu i hi (by omega)
  obtain ⟨d1, d2, -⟩ := corrParts hS h hu (i + 1) (by omega) (by omega)
  obtain ⟨-, -, -, -, t5, t6, t7, t8⟩ := twiceG hS h i
  obtain ⟨u1, u2, u3, u4, -⟩ := twiceG hS h (i + 1)
  have e : flux3 z o R d L (.gadd i m (if up then 2 else 1) s) =
      addG z o R d L (if o.order = 1 then godunov z R d L fun _ => 0
        else second z o R d L (godunov z R d L fun _ => 0)) (.gadd i m (if up then 2 else 1) s) := by
    unfold flux3
    rw [if_neg (by omega), addH_other _ _ (by intros; simp)]
  have hadds : Adds (fun l => ∑ i ∈ Finset.Icc 1 (L.n + 1), ∑ m ∈ Finset.Icc 1 (z.meqn : ℤ), _) (addG z o R d L) :=
    loop_adds fun i _ _ => loop_adds fun m _ _ => addAll_adds _
  rw [e, hadds, normal_zero _ (by intros; simp) (by intros; simp)]
  unfold spill spill1 spill2 weightL weightR weightR0
  rw [hS.double h3, hS.quirks]
  have hm2 : (2 ≤ m3 o) = (S.single = 2) := by
    rw [propext hS.single2]
    have := hu.trans
    have := hu.order
    refine propext ⟨fun hh => ?_, fun hh => by omega⟩
    unfold m3 at hh ⊢
    split at hh <;> rename_i h0
    · omega
    · rw [if_neg h0]; omega
  simp only [← hm2]
  rcases hs with rfl | rfl | rfl <;> cases up <;>
    simp only [sumAt_append, sumAt_ite, sumAt, AL.gadd.injEq, ite_and, sum_at, sum_at_sub, sum_if, add_zero, zero_add,
      Finset.sum_add_distrib, if_true, if_false, reduceCtorEq, Bool.false_eq_true, Finset.sum_const_zero, ite_self,
      add_sub_cancel_right, show ((1 : ℤ) = 2) = False by simp, show ((2 : ℤ) = 1) = False by simp,
      show ((-1 : ℤ) = 0) = False by simp, show ((-1 : ℤ) = 1) = False by simp, show ((1 : ℤ) = 0) = False by simp,
      show ((0 : ℤ) = 1) = False by simp, show ((0 : ℤ) = -1) = False by simp, show ((1 : ℤ) = -1) = False by simp,
      Bool.true_and, Bool.and_true, Bool.and_false, decide_true] <;>
    simp (disch := omega) only [if_pos] <;>
    simp only [a1, a2, a3, a4, b1, b2, b3, b4, c3, c4, d1, d2, t5, t6, t7, t8, u1, u2, u3, u4, h.dt1, h.dt2, h.dt3,
      if_true, if_false, Nat.reduceSub] <;>
    split_ifs <;> ring

theorem flux3_hadd (hS : Same z o R S) (h : Fits z S F d b c L) (hu : Usable z o) (h3 : 0 < m3 o) (i m : ℤ) (hi : 1 ≤ i)
    (hi' : i ≤ L.n) (hm : 1 ≤ m) (hm' : m ≤ (z.meqn : ℤ)) (up : Bool) (s : ℤ) (hs : s = -1 ∨ s = 0 ∨ s = 1) :
    flux3 z o R d L (.hadd i m (if up then 2 else 1) s) = spill S F d i b c 2 up s m := by
  obtain ⟨-, -, -, -, a1, a2, a3, a4⟩ := waveParts hS h i
  obtain ⟨-, -, -, -, b1, b2, b3, b4⟩ := waveParts hS h (i + 1)
  obtain ⟨-, -, -, -, -, -, c3, c4⟩ := corrParts hS h hu i hi (by omega)
  obtain ⟨-, -, -, -, d1, d2, -⟩ := corrParts hS h hu (i + 1) (by omega) (by omega)
  obtain ⟨-, -, -, -, t5, t6, t7, t8⟩ := twiceH hS h hu h3 i hi (by omega)
  obtain ⟨u1, u2, u3, u4, -⟩ := twiceH hS h hu h3 (i + 1) (by omega) (by omega)
  have e : flux3 z o R d L (.hadd i m (if up then 2 else 1) s) =
      addH z o R d L (addG z o R d L (if o.order = 1 then godunov z R d L fun _ => 0
        else second z o R d L (godunov z R d L fun _ => 0))) (.hadd i m (if up then 2 else 1) s) := by
    unfold flux3
    rw [if_neg (by omega)]
  have hadds : Adds (fun l => ∑ i ∈ Finset.Icc 1 (L.n + 1), ∑ m ∈ Finset.Icc 1 (z.meqn : ℤ), _) (addH z o R d L) :=
    loop_adds fun i _ _ => loop_adds fun m _ _ => addAll_adds _
  rw [e, hadds, addG_other _ _ (by intros; simp), normal_zero _ (by intros; simp) (by intros; simp)]
  unfold spill spill1 spill2 weightL weightR weightR0
  rw [hS.double h3, hS.quirks]
  have hm2 : (2 ≤ m3 o) = (S.single = 2) := by
    rw [propext hS.single2]
    have := hu.trans
    have := hu.order
    refine propext ⟨fun hh => ?_, fun hh => by omega⟩
    unfold m3 at hh ⊢
    split at hh <;> rename_i h0
    · omega
    · rw [if_neg h0]; omega
  simp only [← hm2]
  rcases hs with rfl | rfl | rfl <;> cases up <;>
    simp only [sumAt_append, sumAt_ite, sumAt, AL.hadd.injEq, ite_and, sum_at, sum_at_sub, sum_if, add_zero, zero_add,
      Finset.sum_add_distrib, if_true, if_false, reduceCtorEq, Bool.false_eq_true, Finset.sum_const_zero, ite_self,
      add_sub_cancel_right, show ((1 : ℤ) = 2) = False by simp, show ((2 : ℤ) = 1) = False by simp,
      show ((-1 : ℤ) = 0) = False by simp, show ((-1 : ℤ) = 1) = False by simp, show ((1 : ℤ) = 0) = False by simp,
      show ((0 : ℤ) = 1) = False by simp, show ((0 : ℤ) = -1) = False by simp, show ((1 : ℤ) = -1) = False by simp,
      show ((2 : Nat) = 1) = False by simp, decide_false,
      Bool.true_and, Bool.and_true, Bool.and_false, decide_true] <;>
    simp (disch := omega) only [if_pos] <;>
    simp only [a1, a2, a3, a4, b1, b2, b3, b4, c3, c4, d1, d2, t5, t6, t7, t8, u1, u2, u3, u4, h.dt1, h.dt2, h.dt3,
      if_true, if_false, Nat.reduceSub] <;>
    split_ifs <;> ring

end

end Fclaw.Wave3

import Verif.Elliptic.Solve
import Verif.Elliptic.Bc
/-
C87: the elliptic solver. The operators handed to the multigrid library compute the discrete operator, fit together as the
library expects, and the equation on every patch has exactly one solution; and what becomes of inhomogeneous boundary
conditions.
-/
set_option autoImplicit false
set_option linter.unusedSimpArgs false
set_option linter.unusedVariables false
namespace Fclaw.Elliptic

open Fort

variable {I : Info} {op : Op}

/-- C87: applied to a patch, each of the three operators stops without an error or an access out of bounds, and puts into
every cell the sum over the four sides of coefficient times difference over size², plus `lambda` times the value. Across a
side with a neighbour it takes the values from the ghost cells, at the boundary the operator's multiple of the value inside.
The ghost cells of the result and the cells of the argument do not change. -/
theorem C87_apply (hok : Ok I op) (hc : Cells I) (u f : Grid ℚ) :
    ∃ u' f', applySinglePatch I op u f = some (u', f') ∧
      (∀ i j m, Inside I i j → Field I m → f' (i, j, m) = discrete I op (outer I op u) u i j m) ∧
      (∀ i j m, ¬ (Inside I i j ∧ Field I m) → f' (i, j, m) = f (i, j, m)) ∧
      (∀ i j m, Inside I i j → Field I m → u' (i, j, m) = u (i, j, m)) := by
  obtain ⟨u', f', h1, h2, h3, h4⟩ := applySinglePatch_spec hok hc u f
  exact ⟨u', f', h1, h2, fun i j m h => h3 (i, j, m) h, fun i j m h hf => h4 (i, j, m) ⟨h, hf⟩⟩

/-- C87: the same for the patch by itself, with the value zero on the sides where there is a neighbour. Ghost cells do not
matter. -/
theorem C87_internal (hok : Ok I op) (hc : Cells I) (u f : Grid ℚ) :
    ∃ u' f', applyInternal I op u f = some (u', f') ∧
      (∀ i j m, Inside I i j → Field I m → f' (i, j, m) = discrete I op (alone I op u) u i j m) ∧
      (∀ i j m, ¬ (Inside I i j ∧ Field I m) → f' (i, j, m) = f (i, j, m)) ∧
      (∀ i j m, Inside I i j → Field I m → u' (i, j, m) = u (i, j, m)) := by
  obtain ⟨u', f', h1, h2, h3, h4⟩ := applyInternal_spec hok hc u f
  exact ⟨u', f', h1, h2, fun i j m h => h3 (i, j, m) h, fun i j m h hf => h4 (i, j, m) ⟨h, hf⟩⟩

/-- What the three functions have to do with each other. -/
theorem contract (u : Grid ℚ) (i j m : ℤ) :
    discrete I op (alone I op u) u i j m = discrete I op (outer I op u) u i j m +
      ∑ k ∈ Finset.range 4, (if I.nbr k = true ∧ AtSide I k i j then faceTerm I op u k i j m else 0) := by
  unfold discrete
  rw [add_right_comm, ← Finset.sum_add_distrib]
  congr 1
  refine Finset.sum_congr rfl fun k _ => ?_
  unfold across outer alone faceTerm
  by_cases ha : AtSide I k i j
  · cases hn : I.nbr k with
    | false => simp [ha]
    | true =>
      simp only [ha, if_true, and_self]
      ring
  · simp [ha]

/-- C87: the three functions of an operator fit together. If `u` and the right-hand side `f` are given, the operator applied
to `u` misses `f` in every cell by as much as the operator for the patch by itself misses the modified right-hand side. -/
theorem C87_contract (hok : Ok I op) (hc : Cells I) (u f f0 : Grid ℚ) :
    ∃ u1 Au u2 Bu g, applySinglePatch I op u f0 = some (u1, Au) ∧ applyInternal I op u f0 = some (u2, Bu) ∧
      modifyRhs I op u f = some g ∧
      (∀ i j m, Inside I i j → Field I m → Au (i, j, m) - f (i, j, m) = Bu (i, j, m) - g (i, j, m)) ∧
      (∀ i j m, ¬ (Inside I i j ∧ Field I m) → g (i, j, m) = f (i, j, m)) := by
  obtain ⟨u1, Au, e1, a1, -, -⟩ := applySinglePatch_spec hok hc u f0
  obtain ⟨u2, Bu, e2, a2, -, -⟩ := applyInternal_spec hok hc u f0
  refine ⟨u1, Au, u2, Bu, _, e1, e2, modifyRhs_adds hok hc u f, ?_, ?_⟩
  · intro i j m h hf
    dsimp only
    rw [if_pos ⟨h, hf⟩, a1 i j m h hf, a2 i j m h hf, contract]
    ring
  · intro i j m h
    dsimp only
    rw [if_neg h, add_zero]

/-- C87: the operator for a patch by itself is symmetric … -/
theorem C87_symmetric (hok : Ok I op) (hc : Cells I) (u v f0 : Grid ℚ) :
    ∃ u' v' Bu Bv, applyInternal I op u f0 = some (u', Bu) ∧ applyInternal I op v f0 = some (v', Bv) ∧
      ∀ m, Field I m →
        ∑ j ∈ Finset.Icc 1 (I.d.my : ℤ), ∑ i ∈ Finset.Icc 1 (I.d.mx : ℤ), v (i, j, m) * Bu (i, j, m) =
        ∑ j ∈ Finset.Icc 1 (I.d.my : ℤ), ∑ i ∈ Finset.Icc 1 (I.d.mx : ℤ), u (i, j, m) * Bv (i, j, m) := by
  obtain ⟨u', Bu, e1, a1, -, -⟩ := applyInternal_spec hok hc u f0
  obtain ⟨v', Bv, e2, a2, -, -⟩ := applyInternal_spec hok hc v f0
  refine ⟨u', v', Bu, Bv, e1, e2, fun m hm => ?_⟩
  have h1 : ∑ j ∈ Finset.Icc 1 (I.d.my : ℤ), ∑ i ∈ Finset.Icc 1 (I.d.mx : ℤ), v (i, j, m) * Bu (i, j, m) = -form I op m v u := by
    rw [← form_eq hc]
    refine Finset.sum_congr rfl fun j hj => Finset.sum_congr rfl fun i hi => ?_
    rw [Finset.mem_Icc] at hi hj
    rw [a1 i j m ⟨hi, hj⟩ hm]
  have h2 : ∑ j ∈ Finset.Icc 1 (I.d.my : ℤ), ∑ i ∈ Finset.Icc 1 (I.d.mx : ℤ), u (i, j, m) * Bv (i, j, m) = -form I op m u v := by
    rw [← form_eq hc]
    refine Finset.sum_congr rfl fun j hj => Finset.sum_congr rfl fun i hi => ?_
    rw [Finset.mem_Icc] at hi hj
    rw [a2 i j m ⟨hi, hj⟩ hm]
  rw [h1, h2, form_symm]

/-- … and negative definite, if coefficients are positive and the values are pinned somewhere. -/
theorem C87_definite (hok : Ok I op) (hc : Cells I) (hd : Definite I op) (u f0 : Grid ℚ) :
    ∃ u' Bu, applyInternal I op u f0 = some (u', Bu) ∧ ∀ m, Field I m →
      (∃ i j, Inside I i j ∧ u (i, j, m) ≠ 0) →
      ∑ j ∈ Finset.Icc 1 (I.d.my : ℤ), ∑ i ∈ Finset.Icc 1 (I.d.mx : ℤ), u (i, j, m) * Bu (i, j, m) < 0 := by
  obtain ⟨u', Bu, e1, a1, -, -⟩ := applyInternal_spec hok hc u f0
  refine ⟨u', Bu, e1, fun m hm ⟨i, j, hij, hne⟩ => ?_⟩
  have h1 : ∑ j ∈ Finset.Icc 1 (I.d.my : ℤ), ∑ i ∈ Finset.Icc 1 (I.d.mx : ℤ), u (i, j, m) * Bu (i, j, m) = -form I op m u u := by
    rw [← form_eq hc]
    refine Finset.sum_congr rfl fun j hj => Finset.sum_congr rfl fun i hi => ?_
    rw [Finset.mem_Icc] at hi hj
    rw [a1 i j m ⟨hi, hj⟩ hm]
  rw [h1]
  by_contra hcon
  exact hne (form_pos hok hc hd m u (by linarith) i j hij)

/-- C87: for every right-hand side the equation on a patch by itself has a solution, and in the cells of the patch only one. -/
theorem C87_solve (hok : Ok I op) (hc : Cells I) (hd : Definite I op) (g f0 : Grid ℚ) :
    (∃ u u' Bu, applyInternal I op u f0 = some (u', Bu) ∧ ∀ i j m, Inside I i j → Field I m → Bu (i, j, m) = g (i, j, m)) ∧
    ∀ u u' Bu v v' Bv, applyInternal I op u f0 = some (u', Bu) → applyInternal I op v f0 = some (v', Bv) →
      (∀ i j m, Inside I i j → Field I m → Bu (i, j, m) = g (i, j, m)) →
      (∀ i j m, Inside I i j → Field I m → Bv (i, j, m) = g (i, j, m)) →
      ∀ i j m, Inside I i j → Field I m → u (i, j, m) = v (i, j, m) := by
  refine ⟨?_, ?_⟩
  · obtain ⟨u, hu⟩ := single_exists hok hc hd g
    obtain ⟨u', Bu, e1, a1, -, -⟩ := applyInternal_spec hok hc u f0
    refine ⟨u, u', Bu, e1, fun i j m h hf => ?_⟩
    rw [a1 i j m h hf]
    exact hu (i, j, m) ⟨h, hf⟩
  · intro u u' Bu v v' Bv e1 e2 h1 h2 i j m hij hm
    obtain ⟨_, _, e1', a1, -, -⟩ := applyInternal_spec hok hc u f0
    obtain ⟨_, _, e2', a2, -, -⟩ := applyInternal_spec hok hc v f0
    rw [e1] at e1'
    rw [e2] at e2'
    obtain ⟨rfl, rfl⟩ := Prod.mk.inj (Option.some.inj e1')
    obtain ⟨rfl, rfl⟩ := Prod.mk.inj (Option.some.inj e2')
    refine single_unique hok hc hd m u v (fun i j h => ?_) i j hij
    show discrete I op (alone I op u) u i j m = discrete I op (alone I op v) v i j m
    rw [← a1 i j m h hm, ← a2 i j m h hm, h1 i j m h hm, h2 i j m h hm]

/-- C87: solving on a single patch changes nothing exactly if the equation is already met: if `w` solves the equation on the
patch by itself with the right-hand side modified according to `u`, then `w` is `u` in all cells of the patch if and only if
the operator applied to `u` is `f` in all of them. -/
theorem C87_fixpoint (hok : Ok I op) (hc : Cells I) (hd : Definite I op) (u f f0 w w' Bw g u1 Au : Grid ℚ)
    (hg : modifyRhs I op u f = some g) (hw : applyInternal I op w f0 = some (w', Bw))
    (hs : ∀ i j m, Inside I i j → Field I m → Bw (i, j, m) = g (i, j, m))
    (hu : applySinglePatch I op u f0 = some (u1, Au)) :
    (∀ i j m, Inside I i j → Field I m → w (i, j, m) = u (i, j, m)) ↔
    ∀ i j m, Inside I i j → Field I m → Au (i, j, m) = f (i, j, m) := by
  obtain ⟨_, _, u2, Bu, _, e1, e2, e3, h, -⟩ := C87_contract hok hc u f f0
  rw [hu] at e1
  rw [hg] at e3
  obtain ⟨rfl, rfl⟩ := Prod.mk.inj (Option.some.inj e1)
  obtain rfl := Option.some.inj e3
  obtain ⟨_, _, e2', a2, -, -⟩ := applyInternal_spec hok hc u f0
  rw [e2] at e2'
  obtain ⟨rfl, rfl⟩ := Prod.mk.inj (Option.some.inj e2')
  obtain ⟨_, _, ew, aw, -, -⟩ := applyInternal_spec hok hc w f0
  rw [hw] at ew
  obtain ⟨rfl, rfl⟩ := Prod.mk.inj (Option.some.inj ew)
  constructor
  · intro hwu i j m hij hm
    have : Bw (i, j, m) = Bu (i, j, m) := by
      rw [aw i j m hij hm, a2 i j m hij hm]
      unfold discrete across alone
      simp only [hwu i j m hij hm]
      congr 1
      refine Finset.sum_congr rfl fun k hk => ?_
      rw [Finset.mem_range] at hk
      congr 3
      by_cases ha : AtSide I k i j
      · rw [if_pos ha, if_pos ha]
      · rw [if_neg ha, if_neg ha, hwu _ _ _ ?_ hm]
        unfold Inside at hij ⊢
        interval_cases k <;> simp only [AtSide, next] at ha ⊢ <;> omega
    have h1 := h i j m hij hm
    have h2 := hs i j m hij hm
    linarith
  · intro hA i j m hij hm
    refine (C87_solve hok hc hd g f0).2 w w' Bw u u2 Bu hw e2 hs (fun i j m hij hm => ?_) i j m hij hm
    have h1 := h i j m hij hm
    have h2 := hA i j m hij hm
    linarith

/-! ### Inhomogeneous boundary conditions -/

/-- C87: what the routine for inhomogeneous boundary conditions does to the right-hand side, whatever the types (1 or 2) of
the conditions: what belongs to a boundary side is subtracted, but once for this side and once more for every boundary side
that follows. -/
theorem C87_bc (hok : Ok I op) (hc : Cells I) (hf : Field I 1) (bctype : Nat → ℤ) (g : Nat → ℤ → ℚ)
    (hb : ∀ k < 4, I.nbr k = false → bctype k = 1 ∨ bctype k = 2) (rhs : Grid ℚ) :
    ∃ rhs', applyBc I (fun k => !I.nbr k) bctype g rhs = some rhs' ∧
      (∀ i j, Inside I i j → rhs' (i, j, 1) = rhs (i, j, 1) -
        ∑ k ∈ Finset.range 4, (if I.nbr k = false then times I k * share I bctype g k i j else 0)) ∧
      ∀ i j m, ¬ (Inside I i j ∧ m = 1) → rhs' (i, j, m) = rhs (i, j, m) := by
  refine ⟨_, applyBc_eq hok.mbc hok.dx hok.dy hc hf bctype g hb rhs, ?_, ?_⟩
  · intro i j h
    dsimp only
    rw [if_pos ⟨h, rfl⟩]
  · intro i j m h
    dsimp only
    rw [if_neg h, sub_zero]

/-- C87, restricted: inhomogeneous boundary conditions. Let the ghost values `G` of a solution `u` meet the boundary
conditions on the sides without a neighbour. Then the discrete equation with these ghost values and the right-hand side `rhs`
is the equation that is solved, with the operator and the modified right-hand side. This holds if the operator's factors fit
the types of the boundary conditions, and if on every boundary side where the boundary values are not all zero the
coefficient is 1 and no other boundary side follows. -/
theorem C87_bc_partial (hok : Ok I op) (hc : Cells I) (hf : Field I 1) (bctype : Nat → ℤ) (g : Nat → ℤ → ℚ)
    (hfit : Fits I op bctype)
    (hg : ∀ k < 4, I.nbr k = false →
      (times I k = 1 ∧ ∀ i j, Inside I i j → AtSide I k i j → op.coeff k i j = 1) ∨ ∀ t, g k t = 0)
    (u f0 rhs : Grid ℚ) (G : Ghosts) (hG : MeetsAll I bctype g u G) :
    ∃ rhs' u' Au, applyBc I (fun k => !I.nbr k) bctype g rhs = some rhs' ∧ applySinglePatch I op u f0 = some (u', Au) ∧
      ∀ i j, Inside I i j → (Au (i, j, 1) = rhs' (i, j, 1) ↔ discrete I op G u i j 1 = rhs (i, j, 1)) := by
  obtain ⟨rhs', e1, h1, -⟩ := C87_bc hok hc hf bctype g (fun k hk hn => by rcases hfit k hk hn with h | h <;> simp [h.1]) rhs
  obtain ⟨u', Au, e2, a2, -, -⟩ := applySinglePatch_spec hok hc u f0
  refine ⟨rhs', u', Au, e1, e2, fun i j hij => ?_⟩
  have key : discrete I op G u i j 1 = discrete I op (outer I op u) u i j 1 +
      ∑ k ∈ Finset.range 4, (if I.nbr k = false then times I k * share I bctype g k i j else 0) := by
    unfold discrete
    rw [add_right_comm, ← Finset.sum_add_distrib]
    congr 1
    refine Finset.sum_congr rfl fun k hk => ?_
    rw [Finset.mem_range] at hk
    unfold across share
    by_cases ha : AtSide I k i j
    · rw [if_pos ha, if_pos ha, if_pos ha]
      have hm := hG k hk i j hij ha
      unfold outer
      cases hn : I.nbr k with
      | true =>
        rw [hn] at hm
        simp only [if_true] at hm ⊢
        rw [hm]; simp
      | false =>
        rw [hn] at hm
        simp only [Bool.false_eq_true, if_false, if_true] at hm ⊢
        have hk0 : I.h k ≠ 0 := by unfold Info.h; split; exacts [hok.dx, hok.dy]
        have e : G k i j 1 = op.sign k * u (i, j, 1) + lift (bctype k) (I.h k) (g k (place k i j)) := by
          rcases hfit k hk hn with ⟨hb, hs⟩ | ⟨hb, hs⟩
          · rcases hm with ⟨-, hm⟩ | ⟨hb', -⟩
            · unfold lift; rw [if_pos hb, hs, ← hm]; ring
            · rw [hb] at hb'; exact absurd hb' (by decide)
          · rcases hm with ⟨hb', -⟩ | ⟨-, hm⟩
            · rw [hb] at hb'; exact absurd hb' (by decide)
            · unfold lift; rw [if_neg (by rw [hb]; decide), hs, ← hm]; field_simp; ring
        rw [e]
        rcases hg k hk hn with ⟨ht, hco⟩ | hz
        · rw [ht, hco i j hij ha]; ring
        · rw [hz]
          have : lift (bctype k) (I.h k) 0 = 0 := by unfold lift; split <;> ring
          rw [this]; ring
    · rw [if_neg ha, if_neg ha, if_neg ha]; simp
  rw [a2 i j 1 hij hf, h1 i j hij, key]
  constructor <;> intro h <;> linarith

/-- What goes wrong, 1: two boundary sides, as at every corner of the domain. Laplace's equation on a single cell with the
boundary value 1 on all sides: the solution is 1, but what satisfies the equation that is solved is 5/2. -/
theorem C87_corner_counterexample :
    ∃ (I : Info) (u rhs f0 : Grid ℚ) (G : Ghosts), Ok I .fivePoint ∧ Cells I ∧ Fits I .fivePoint (fun _ => 1) ∧
      MeetsAll I (fun _ => 1) (fun _ _ => 1) u G ∧
      (∀ i j, Inside I i j → u (i, j, 1) = 1 ∧ discrete I .fivePoint G u i j 1 = rhs (i, j, 1)) ∧
      ∃ rhs' u' Au, applyBc I (fun k => !I.nbr k) (fun _ => 1) (fun _ _ => 1) rhs = some rhs' ∧
        applySinglePatch I .fivePoint u f0 = some (u', Au) ∧ Au (1, 1, 1) ≠ rhs' (1, 1, 1) ∧
        ∀ v v' Av, applySinglePatch I .fivePoint v f0 = some (v', Av) → Av (1, 1, 1) = rhs' (1, 1, 1) → v (1, 1, 1) = 5 / 2 := by
  have hok : Ok ⟨⟨1, 1, 1, 1⟩, 1, 1, fun _ => false⟩ .fivePoint := ⟨le_rfl, one_ne_zero, one_ne_zero, le_rfl⟩
  have hc : Cells ⟨⟨1, 1, 1, 1⟩, 1, 1, fun _ => false⟩ := ⟨le_rfl, le_rfl⟩
  have hf : Field ⟨⟨1, 1, 1, 1⟩, 1, 1, fun _ => false⟩ 1 := by simp [Field]
  have hin : Inside ⟨⟨1, 1, 1, 1⟩, 1, 1, fun _ => false⟩ 1 1 := by simp [Inside]
  have hs : ∀ k < 4, AtSide ⟨⟨1, 1, 1, 1⟩, 1, 1, fun _ => false⟩ k 1 1 := by
    intro k hk; interval_cases k <;> simp [AtSide]
  have hone : ∀ i j, Inside ⟨⟨1, 1, 1, 1⟩, 1, 1, fun _ => false⟩ i j → i = 1 ∧ j = 1 := by
    intro i j h; simp only [Inside] at h; push_cast at h; omega
  have hdisc : ∀ v : Grid ℚ, discrete ⟨⟨1, 1, 1, 1⟩, 1, 1, fun _ => false⟩ .fivePoint
      (outer ⟨⟨1, 1, 1, 1⟩, 1, 1, fun _ => false⟩ .fivePoint v) v 1 1 1 = -8 * v (1, 1, 1) := by
    intro v
    simp only [discrete, Finset.sum_range_succ, Finset.sum_range_zero, across, hs 0 (by omega), hs 1 (by omega),
      hs 2 (by omega), hs 3 (by omega), outer, Op.sign, Op.coeff, Op.lambda, Info.h, if_true]
    norm_num
    ring
  obtain ⟨rhs', e1, h1, -⟩ := C87_bc hok hc hf (fun _ => 1) (fun _ _ => 1) (fun _ _ _ => Or.inl rfl) fun _ => 0
  have hr : rhs' (1, 1, 1) = -20 := by
    rw [h1 1 1 hin]
    simp only [Finset.sum_range_succ, Finset.sum_range_zero, share, hs 0 (by omega), hs 1 (by omega), hs 2 (by omega),
      hs 3 (by omega), if_true, times, lift, Info.h]
    norm_num
  obtain ⟨u', Au, e2, a2, -, -⟩ := applySinglePatch_spec hok hc (fun _ => 1) fun _ => 0
  refine ⟨⟨⟨1, 1, 1, 1⟩, 1, 1, fun _ => false⟩, fun _ => 1, fun _ => 0, fun _ => 0, fun _ _ _ _ => 1, hok, hc, ?_, ?_, ?_,
    rhs', u', Au, e1, e2, ?_, ?_⟩
  · exact fun k _ _ => Or.inl ⟨rfl, rfl⟩
  · intro k hk i j h ha
    simp [Meets]
  · intro i j h
    refine ⟨rfl, ?_⟩
    simp [discrete, across, Op.lambda]
  · rw [a2 1 1 1 hin hf, hr, hdisc]
    norm_num
  · intro v v' Av ev hv
    obtain ⟨_, _, ev', av, -, -⟩ := applySinglePatch_spec hok hc v fun _ => 0
    rw [ev] at ev'
    obtain ⟨rfl, rfl⟩ := Prod.mk.inj (Option.some.inj ev')
    rw [av 1 1 1 hin hf, hr, hdisc] at hv
    linarith

/-- A patch with one cell that has neighbours on all sides but the west. -/
def oneSide : Info := ⟨⟨1, 1, 1, 1⟩, 1, 1, fun k => decide (k ≠ 0)⟩

theorem oneSide_all (k : Nat) (hk : k < 4) : AtSide oneSide k 1 1 := by interval_cases k <;> simp [AtSide, oneSide]

/-- What goes wrong, 2: Neumann conditions with the five-point operator (the same with variable coefficients). A constant
solution with derivative zero at the boundary does not satisfy the equation that is solved. -/
theorem C87_neumann_counterexample :
    ∃ (I : Info) (u rhs f0 : Grid ℚ) (G : Ghosts), Ok I .fivePoint ∧ Cells I ∧
      MeetsAll I (fun _ => 2) (fun _ _ => 0) u G ∧ times I 0 = 1 ∧
      (∀ i j, Inside I i j → discrete I .fivePoint G u i j 1 = rhs (i, j, 1)) ∧
      ∃ rhs' u' Au, applyBc I (fun k => !I.nbr k) (fun _ => 2) (fun _ _ => 0) rhs = some rhs' ∧
        applySinglePatch I .fivePoint u f0 = some (u', Au) ∧ Inside I 1 1 ∧ Au (1, 1, 1) ≠ rhs' (1, 1, 1) := by
  have hok : Ok oneSide .fivePoint := ⟨le_rfl, one_ne_zero, one_ne_zero, le_rfl⟩
  have hc : Cells oneSide := ⟨le_rfl, le_rfl⟩
  have hf : Field oneSide 1 := by simp [Field, oneSide]
  have hin : Inside oneSide 1 1 := by simp [Inside, oneSide]
  obtain ⟨rhs', e1, h1, -⟩ := C87_bc hok hc hf (fun _ => 2) (fun _ _ => 0) (fun _ _ _ => Or.inr rfl) fun _ => 0
  obtain ⟨u', Au, e2, a2, -, -⟩ := applySinglePatch_spec hok hc (fun _ => 1) fun _ => 0
  refine ⟨oneSide, fun _ => 1, fun _ => 0, fun _ => 0, fun _ _ _ _ => 1, hok, hc, ?_, ?_, ?_, rhs', u', Au, e1, e2, hin, ?_⟩
  · intro k hk i j h ha
    simp [Meets]
  · simp [times, oneSide, Finset.sum_range_succ]
  · intro i j h
    simp [discrete, across, Op.lambda]
  · rw [a2 1 1 1 hin hf, h1 1 1 hin]
    simp only [Finset.sum_range_succ, Finset.sum_range_zero, share, oneSide_all 0 (by omega), oneSide_all 1 (by omega),
      oneSide_all 2 (by omega), oneSide_all 3 (by omega), if_true, times, lift, discrete, across, outer, Op.sign, Op.coeff,
      Op.lambda]
    norm_num [oneSide, Info.h]

/-- What goes wrong, 3: the operator with variable coefficients, where the coefficient at the boundary is not 1. A constant
solution with this value at the boundary does not satisfy the equation that is solved. -/
theorem C87_beta_counterexample :
    ∃ (I : Info) (beta u rhs f0 : Grid ℚ) (G : Ghosts), Ok I (.varPoisson beta) ∧ Cells I ∧ Fits I (.varPoisson beta) (fun _ => 1) ∧
      MeetsAll I (fun _ => 1) (fun _ _ => 1) u G ∧ times I 0 = 1 ∧
      (∀ i j, Inside I i j → discrete I (.varPoisson beta) G u i j 1 = rhs (i, j, 1)) ∧
      ∃ rhs' u' Au, applyBc I (fun k => !I.nbr k) (fun _ => 1) (fun _ _ => 1) rhs = some rhs' ∧
        applySinglePatch I (.varPoisson beta) u f0 = some (u', Au) ∧ Inside I 1 1 ∧ Au (1, 1, 1) ≠ rhs' (1, 1, 1) := by
  have hok : Ok oneSide (.varPoisson fun _ => 2) := ⟨le_rfl, one_ne_zero, one_ne_zero, le_rfl⟩
  have hc : Cells oneSide := ⟨le_rfl, le_rfl⟩
  have hf : Field oneSide 1 := by simp [Field, oneSide]
  have hin : Inside oneSide 1 1 := by simp [Inside, oneSide]
  obtain ⟨rhs', e1, h1, -⟩ := C87_bc hok hc hf (fun _ => 1) (fun _ _ => 1) (fun _ _ _ => Or.inl rfl) fun _ => 0
  obtain ⟨u', Au, e2, a2, -, -⟩ := applySinglePatch_spec hok hc (fun _ => 1) fun _ => 0
  refine ⟨oneSide, fun _ => 2, fun _ => 1, fun _ => 0, fun _ => 0, fun _ _ _ _ => 1, hok, hc, ?_, ?_, ?_, ?_,
    rhs', u', Au, e1, e2, hin, ?_⟩
  · exact fun k _ _ => Or.inl ⟨rfl, rfl⟩
  · intro k hk i j h ha
    simp [Meets]
  · simp [times, oneSide, Finset.sum_range_succ]
  · intro i j h
    simp [discrete, across, Op.lambda]
  · rw [a2 1 1 1 hin hf, h1 1 1 hin]
    simp only [Finset.sum_range_succ, Finset.sum_range_zero, share, oneSide_all 0 (by omega), oneSide_all 1 (by omega),
      oneSide_all 2 (by omega), oneSide_all 3 (by omega), if_true, times, lift, discrete, across, outer, Op.sign, Op.coeff,
      Op.lambda]
    norm_num [oneSide, Info.h]

/-! ### The hypotheses can be met -/

/-- An ordinary patch at the west side of the domain. -/
def west : Info := ⟨⟨16, 12, 2, 1⟩, 1 / 16, 1 / 12, fun k => decide (k ≠ 0)⟩

example : Ok west .fivePoint ∧ Cells west ∧ Definite west .fivePoint :=
  ⟨⟨by decide, by norm_num [west], by norm_num [west], le_rfl⟩, ⟨by decide, by decide⟩,
    fun _ _ _ _ _ => one_pos, fun _ _ _ => Or.inl rfl, Or.inr ⟨1, by decide, Or.inl rfl⟩⟩

/-- One step of the heat equation with insulated boundary. -/
example : Ok west (.heat (-10) fun _ => 2) ∧ Cells west ∧ Definite west (.heat (-10) fun _ => 2) :=
  ⟨⟨by decide, by norm_num [west], by norm_num [west], by norm_num [Op.lambda]⟩, ⟨by decide, by decide⟩,
    fun _ _ _ _ _ => one_pos, fun _ _ _ => Or.inr (by norm_num [Op.sign]), Or.inl (by norm_num [Op.lambda])⟩

/-- A coefficient that is not constant. -/
example : Ok west (.varPoisson fun c => 1 + (c.1 : ℚ) ^ 2) ∧ Definite west (.varPoisson fun c => 1 + (c.1 : ℚ) ^ 2) :=
  ⟨⟨by decide, by norm_num [west], by norm_num [west], le_rfl⟩,
    fun k _ i j _ => by simp only [Op.coeff]; positivity, fun _ _ _ => Or.inl rfl, Or.inr ⟨1, by decide, Or.inl rfl⟩⟩

/-- Inhomogeneous boundary conditions on that side: Dirichlet with five points, Neumann for the heat equation. -/
example : Fits west .fivePoint (fun _ => 1) ∧ Fits west (.heat (-10) fun _ => 2) (fun _ => 2) ∧ times west 0 = 1 ∧
    (∀ i j, Op.coeff .fivePoint 0 i j = 1) ∧
    MeetsAll west (fun _ => 1) (fun _ t => t) (fun c => c.1)
      (fun k i j _ => if k = 0 then 2 * (j : ℚ) - 1 else ((next k i j).1 : ℚ)) := by
  refine ⟨fun _ _ _ => Or.inl ⟨rfl, rfl⟩, fun _ _ _ => Or.inr ⟨rfl, by norm_num [Op.sign]⟩, ?_, fun _ _ => rfl, ?_⟩
  · simp [times, west, Finset.sum_range_succ]
  · intro k hk i j h ha
    interval_cases k <;> simp [west, Meets, place, AtSide] at ha ⊢
    subst ha
    norm_num

/-- With an insulated boundary all around and `lambda = 0` constants are mapped to zero: the condition about `lambda` and
the sides in `Definite` is needed. -/
example : ∃ I : Info, Ok I (.heat 0 fun _ => 2) ∧ Cells I ∧ ∃ u' Bu, applyInternal I (.heat 0 fun _ => 2) (fun _ => 1) (fun _ => 0)
    = some (u', Bu) ∧ ∀ i j m, Inside I i j → Field I m → Bu (i, j, m) = 0 := by
  have hok : Ok ⟨⟨4, 4, 1, 1⟩, 1, 1, fun _ => false⟩ (.heat 0 fun _ => 2) := ⟨le_rfl, one_ne_zero, one_ne_zero, le_rfl⟩
  have hc : Cells ⟨⟨4, 4, 1, 1⟩, 1, 1, fun _ => false⟩ := ⟨by decide, by decide⟩
  obtain ⟨u', Bu, e, a, -, -⟩ := applyInternal_spec hok hc (fun _ => 1) fun _ => 0
  refine ⟨_, hok, hc, u', Bu, e, fun i j m h hf => ?_⟩
  rw [a i j m h hf]
  have : ∀ k, across ⟨⟨4, 4, 1, 1⟩, 1, 1, fun _ => false⟩ (alone ⟨⟨4, 4, 1, 1⟩, 1, 1, fun _ => false⟩ (.heat 0 fun _ => 2)
      fun _ => 1) (fun _ => 1) k i j m = 1 := by
    intro k
    unfold across alone
    split <;> norm_num [Op.sign]
  simp [discrete, this, Op.lambda]

end Fclaw.Elliptic

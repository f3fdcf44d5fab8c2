import Verif.Transfer.Spec
import Mathlib.Tactic.Ring
import Mathlib.Tactic.Linarith
import Mathlib.Tactic.FieldSimp
import Mathlib.Tactic.IntervalCases
/-
Helpers for C37-C40.
-/
set_option autoImplicit false
set_option linter.unusedSimpArgs false
set_option linter.unusedVariables false
namespace Fclaw.Transfer

open Fort CopyGhost

/-! ### Sets of cells -/

theorem mem_fineCells (d : Dims) (g i j : ℤ) :
    (g, i, j) ∈ fineCells d ↔ (0 ≤ g ∧ g ≤ 3) ∧ (1 ≤ i ∧ i ≤ d.mx) ∧ 1 ≤ j ∧ j ≤ d.my := by
  simp [fineCells]

theorem mem_coarseCells (d : Dims) (i j : ℤ) :
    (i, j) ∈ coarseCells d ↔ (1 ≤ i ∧ i ≤ d.mx) ∧ 1 ≤ j ∧ j ≤ d.my := by
  simp [coarseCells]

theorem parent_mem (d : Dims) (hE : Even2 d) (c : ℤ × ℤ × ℤ) (hc : c ∈ fineCells d) : parent d c ∈ coarseCells d := by
  obtain ⟨g, i, j⟩ := c
  obtain ⟨e1, e2, e3, e4⟩ := hE
  rw [mem_fineCells] at hc
  unfold parent
  rw [mem_coarseCells]
  dsimp only
  obtain ⟨⟨h1, h2⟩, h3, h4⟩ := hc
  interval_cases g <;> simp only [Int.reduceMod, Int.reduceDiv, zero_mul, one_mul, Int.zero_emod, Int.zero_ediv] <;> omega

/-- The total mass is the mass in the coarse cells. -/
theorem total_massIn (d : Dims) (hE : Even2 d) (kf : ℤ → Area) (qf : ℤ → Grid ℚ) (mq : ℤ) :
    ∑ C ∈ coarseCells d, massIn d kf qf mq C = ∑ c ∈ fineCells d, fineMass kf qf mq c := by
  unfold massIn
  exact Finset.sum_fiberwise_of_maps_to (fun c hc => parent_mem d hE c hc) _

/-- The four fine cells of coarse cell `(i, j)` of quadrant `g`. -/
theorem fibre (d : Dims) (hE : Even2 d) (g i j : ℤ) (hg : 0 ≤ g ∧ g ≤ 3) (hi : 1 ≤ i ∧ i ≤ (d.mx : ℤ) / 2)
    (hj : 1 ≤ j ∧ j ≤ (d.my : ℤ) / 2) :
    (fineCells d).filter (fun c => parent d c = (g % 2 * ((d.mx : ℤ) / 2) + i, g / 2 * ((d.my : ℤ) / 2) + j)) =
      {(g, 2 * i - 1, 2 * j - 1), (g, 2 * i, 2 * j - 1), (g, 2 * i - 1, 2 * j), (g, 2 * i, 2 * j)} := by
  obtain ⟨e1, e2, e3, e4⟩ := hE
  ext ⟨g', i', j'⟩
  rw [Finset.mem_filter, mem_fineCells]
  simp only [Finset.mem_insert, Finset.mem_singleton, Prod.mk.injEq, parent]
  obtain ⟨g0, g1⟩ := hg
  constructor
  · rintro ⟨⟨⟨h1, h2⟩, h3, h4⟩, h5, h6⟩
    interval_cases g <;> interval_cases g' <;>
      simp only [Int.reduceMod, Int.reduceDiv, zero_mul, one_mul, Int.zero_emod, Int.zero_ediv, true_and] at * <;> omega
  · intro h
    have hgg : g' = g := by rcases h with h | h | h | h <;> exact h.1
    subst hgg
    simp only [true_and] at h
    generalize g' % 2 * ((d.mx : ℤ) / 2) = u
    generalize g' / 2 * ((d.my : ℤ) / 2) = v
    omega

theorem massIn_eq (d : Dims) (hE : Even2 d) (kf : ℤ → Area) (qf : ℤ → Grid ℚ) (mq : ℤ) (g i j : ℤ)
    (hg : 0 ≤ g ∧ g ≤ 3) (hi : 1 ≤ i ∧ i ≤ (d.mx : ℤ) / 2) (hj : 1 ≤ j ∧ j ≤ (d.my : ℤ) / 2) :
    massIn d kf qf mq (g % 2 * ((d.mx : ℤ) / 2) + i, g / 2 * ((d.my : ℤ) / 2) + j) =
      kf g (2 * i - 1, 2 * j - 1) * qf g (2 * i - 1, 2 * j - 1, mq) +
      (kf g (2 * i, 2 * j - 1) * qf g (2 * i, 2 * j - 1, mq) +
      (kf g (2 * i - 1, 2 * j) * qf g (2 * i - 1, 2 * j, mq) +
      kf g (2 * i, 2 * j) * qf g (2 * i, 2 * j, mq))) := by
  unfold massIn
  rw [fibre d hE g i j hg hi hj]
  rw [Finset.sum_insert, Finset.sum_insert, Finset.sum_insert, Finset.sum_singleton]
  · rfl
  all_goals
    simp only [Finset.mem_insert, Finset.mem_singleton, Prod.mk.injEq, true_and]
    omega

/-- Every coarse cell is in a quadrant. -/
theorem quadrant (d : Dims) (hE : Even2 d) (C : ℤ × ℤ) (hC : C ∈ coarseCells d) :
    ∃ g i j : ℤ, (0 ≤ g ∧ g ≤ 3) ∧ (1 ≤ i ∧ i ≤ (d.mx : ℤ) / 2) ∧ (1 ≤ j ∧ j ≤ (d.my : ℤ) / 2) ∧
      C = (g % 2 * ((d.mx : ℤ) / 2) + i, g / 2 * ((d.my : ℤ) / 2) + j) := by
  obtain ⟨I, J⟩ := C
  obtain ⟨e1, e2, e3, e4⟩ := hE
  rw [mem_coarseCells] at hC
  by_cases hI : I ≤ (d.mx : ℤ) / 2 <;> by_cases hJ : J ≤ (d.my : ℤ) / 2
  · refine ⟨0, I, J, by omega, by omega, by omega, ?_⟩
    simp only [Prod.mk.injEq, Int.reduceMod, Int.reduceDiv, zero_mul, one_mul, Int.zero_emod, Int.zero_ediv]; omega
  · refine ⟨2, I, J - (d.my : ℤ) / 2, by omega, by omega, by omega, ?_⟩
    simp only [Prod.mk.injEq, Int.reduceMod, Int.reduceDiv, zero_mul, one_mul, Int.zero_emod, Int.zero_ediv]; omega
  · refine ⟨1, I - (d.mx : ℤ) / 2, J, by omega, by omega, by omega, ?_⟩
    simp only [Prod.mk.injEq, Int.reduceMod, Int.reduceDiv, zero_mul, one_mul, Int.zero_emod, Int.zero_ediv]; omega
  · refine ⟨3, I - (d.mx : ℤ) / 2, J - (d.my : ℤ) / 2, by omega, by omega, by omega, ?_⟩
    simp only [Prod.mk.injEq, Int.reduceMod, Int.reduceDiv, zero_mul, one_mul, Int.zero_emod, Int.zero_ediv]; omega

/-! ### Averaging -/

theorem rd_interior {d : Dims} (q : Grid ℚ) {i j mq : ℤ} (hi : 1 ≤ i ∧ i ≤ d.mx) (hj : 1 ≤ j ∧ j ≤ d.my)
    (hm : comp d mq) : rd d q (i, j, mq) = some (q (i, j, mq)) := by
  have : inBox d (i, j, mq) = true := by
    rw [inBox_iff]
    unfold comp at hm
    omega
  simp [rd, this]

theorem rdArea_interior {d : Dims} (a : Area) {i j : ℤ} (hi : 1 ≤ i ∧ i ≤ d.mx) (hj : 1 ≤ j ∧ j ≤ d.my) :
    rdArea d a i j = some (a (i, j)) := by
  unfold rdArea
  rw [if_pos]
  omega

/-- The result of averaging for one cell: all that matters of it. -/
theorem averageCell_spec (d : Dims) (hE : Even2 d) (kc : Area) (kf : ℤ → Area) (manifold : ℤ)
    (hA : Areas d manifold kc kf) (qf : ℤ → Grid ℚ) (g i j mq : ℤ)
    (hg : 0 ≤ g ∧ g ≤ 3) (hi : 1 ≤ i ∧ i ≤ (d.mx : ℤ) / 2) (hj : 1 ≤ j ∧ j ≤ (d.my : ℤ) / 2) (hm : comp d mq) :
    averageCell d (qf g) kc (kf g) manifold (i + g % 2 * ((d.mx : ℤ) / 2)) (j + g / 2 * ((d.my : ℤ) / 2)) i j mq =
      some (massIn d kf qf mq (g % 2 * ((d.mx : ℤ) / 2) + i, g / 2 * ((d.my : ℤ) / 2) + j) /
        kc (g % 2 * ((d.mx : ℤ) / 2) + i, g / 2 * ((d.my : ℤ) / 2) + j)) := by
  obtain ⟨A1, A2, A3⟩ := hA
  rw [massIn_eq d hE kf qf mq g i j hg hi hj]
  have hC : (g % 2 * ((d.mx : ℤ) / 2) + i, g / 2 * ((d.my : ℤ) / 2) + j) ∈ coarseCells d := by
    have := parent_mem d hE (g, 2 * i, 2 * j) (by rw [mem_fineCells]; omega)
    unfold parent at this
    dsimp only at this
    rw [show (2 * i + 1) / 2 = i by omega, show (2 * j + 1) / 2 = j by omega] at this
    exact this
  have hk := A1 _ hC
  obtain ⟨c1, c2⟩ := (mem_coarseCells d _ _).1 hC
  have f0 : fineI i 0 = 2 * i - 1 := by unfold fineI; omega
  have f1 : fineI i 1 = 2 * i := by unfold fineI; omega
  have f2 : fineI i 2 = 2 * i - 1 := by unfold fineI; omega
  have f3 : fineI i 3 = 2 * i := by unfold fineI; omega
  have g0 : fineJ j 0 = 2 * j - 1 := by unfold fineJ; omega
  have g1 : fineJ j 1 = 2 * j - 1 := by unfold fineJ; omega
  have g2 : fineJ j 2 = 2 * j := by unfold fineJ; omega
  have g3 : fineJ j 3 = 2 * j := by unfold fineJ; omega
  have a0 : 1 ≤ 2 * i - 1 ∧ 2 * i - 1 ≤ (d.mx : ℤ) := by omega
  have a1 : 1 ≤ 2 * i ∧ 2 * i ≤ (d.mx : ℤ) := by omega
  have b0 : 1 ≤ 2 * j - 1 ∧ 2 * j - 1 ≤ (d.my : ℤ) := by omega
  have b1 : 1 ≤ 2 * j ∧ 2 * j ≤ (d.my : ℤ) := by omega
  have hcc : rdArea d kc (i + g % 2 * ((d.mx : ℤ) / 2)) (j + g / 2 * ((d.my : ℤ) / 2)) =
      some (kc (g % 2 * ((d.mx : ℤ) / 2) + i, g / 2 * ((d.my : ℤ) / 2) + j)) := by
    rw [show i + g % 2 * ((d.mx : ℤ) / 2) = g % 2 * ((d.mx : ℤ) / 2) + i by ring,
      show j + g / 2 * ((d.my : ℤ) / 2) = g / 2 * ((d.my : ℤ) / 2) + j by ring]
    exact rdArea_interior kc c1 c2
  unfold averageCell
  rw [doLoop_zero_three, doLoop_zero_three]
  simp only [f0, f1, f2, f3, g0, g1, g2, g3, rd_interior _ a0 b0 hm, rd_interior _ a1 b0 hm, rd_interior _ a0 b1 hm,
    rd_interior _ a1 b1 hm, rdArea_interior _ a0 b0, rdArea_interior _ a1 b0, rdArea_interior _ a0 b1,
    rdArea_interior _ a1 b1, Option.bind_some, hcc]
  rcases A3 with h | ⟨h, κ, k1, k2⟩
  · rw [if_pos h]
    unfold divide
    rw [if_neg (ne_of_gt hk)]
    congr 1
    ring
  · rw [if_neg (by omega)]
    have m0 := k2 (g, 2 * i - 1, 2 * j - 1) ((mem_fineCells ..).2 ⟨hg, a0, b0⟩)
    have m1 := k2 (g, 2 * i, 2 * j - 1) ((mem_fineCells ..).2 ⟨hg, a1, b0⟩)
    have m2 := k2 (g, 2 * i - 1, 2 * j) ((mem_fineCells ..).2 ⟨hg, a0, b1⟩)
    have m3 := k2 (g, 2 * i, 2 * j) ((mem_fineCells ..).2 ⟨hg, a1, b1⟩)
    have m4 := k1 _ hC
    dsimp only at m0 m1 m2 m3
    rw [m0, m1, m2, m3, m4]
    rw [m4] at hk
    have : κ ≠ 0 := by intro h0; rw [h0] at hk; simp at hk
    congr 1
    field_simp
    ring

theorem ig_eq (g : ℤ) (n : Nat) (hg : 0 ≤ g ∧ g ≤ 3) (hn : n % 2 = 0) : g % 2 * (n : ℤ) / 2 = g % 2 * ((n : ℤ) / 2) := by
  obtain ⟨g0, g1⟩ := hg
  interval_cases g <;> simp only [Int.reduceMod, zero_mul, one_mul, Int.zero_ediv, Int.zero_emod]

theorem jg_eq (g : ℤ) (n : Nat) (hg : 0 ≤ g ∧ g ≤ 3) (hn : n % 2 = 0) :
    (g - g % 2) / 2 * (n : ℤ) / 2 = g / 2 * ((n : ℤ) / 2) := by
  obtain ⟨g0, g1⟩ := hg
  interval_cases g <;> simp only [Int.reduceMod, Int.reduceSub, Int.reduceDiv, zero_mul, one_mul, Int.zero_ediv, Int.zero_emod, sub_zero, Int.sub_zero]

/-- The cells of quadrant `g`. -/
def inQuadrant (d : Dims) (g : ℤ) (c : Cell) : Prop :=
  comp d c.2.2 ∧ ∃ i j : ℤ, (1 ≤ i ∧ i ≤ (d.mx : ℤ) / 2) ∧ (1 ≤ j ∧ j ≤ (d.my : ℤ) / 2) ∧
    (c.1, c.2.1) = (g % 2 * ((d.mx : ℤ) / 2) + i, g / 2 * ((d.my : ℤ) / 2) + j)

theorem average2coarse_writes (d : Dims) (hE : Even2 d) (hsq : d.mx = d.my) (kc : Area) (kf : ℤ → Area) (manifold : ℤ)
    (hA : Areas d manifold kc kf) (qf : ℤ → Grid ℚ) (g : ℤ) (hg : 0 ≤ g ∧ g ≤ 3) :
    Writes (inQuadrant d g) (fun c => massIn d kf qf c.2.2 (c.1, c.2.1) / kc (c.1, c.2.1))
      (average2coarse d kc (kf g) g manifold (qf g)) := by
  have e1 := ig_eq g d.mx hg hE.2.2.1
  have e2 : (g - g % 2) / 2 * (d.mx : ℤ) / 2 = g / 2 * ((d.my : ℤ) / 2) := by
    rw [jg_eq g d.mx hg hE.2.2.1, hsq]
  unfold average2coarse
  dsimp only
  rw [e1, e2]
  refine (Writes.doLoop (fun mq c => ∃ j, 1 ≤ j ∧ j ≤ (d.my : ℤ) / 2 ∧ ∃ i, 1 ≤ i ∧ i ≤ (d.mx : ℤ) / 2 ∧
      c = (i + g % 2 * ((d.mx : ℤ) / 2), j + g / 2 * ((d.my : ℤ) / 2), mq)) _ _ _ _ ?_).congr ?_
  · intro mq m1 m2
    refine Writes.doLoop (fun j c => ∃ i, 1 ≤ i ∧ i ≤ (d.mx : ℤ) / 2 ∧
      c = (i + g % 2 * ((d.mx : ℤ) / 2), j + g / 2 * ((d.my : ℤ) / 2), mq)) _ _ _ _ ?_
    intro j j1 j2
    refine Writes.doLoop (fun i c => c = (i + g % 2 * ((d.mx : ℤ) / 2), j + g / 2 * ((d.my : ℤ) / 2), mq)) _ _ _ _ ?_
    intro i i1 i2
    have hC : (g % 2 * ((d.mx : ℤ) / 2) + i, g / 2 * ((d.my : ℤ) / 2) + j) ∈ coarseCells d := by
      have := parent_mem d hE (g, 2 * i, 2 * j) (by rw [mem_fineCells]; omega)
      unfold parent at this
      dsimp only at this
      rw [show (2 * i + 1) / 2 = i by omega, show (2 * j + 1) / 2 = j by omega] at this
      exact this
    obtain ⟨c1, c2⟩ := (mem_coarseCells d _ _).1 hC
    refine Writes.assign d _ _ _ ?_ ?_
    · rw [inBox_iff]
      generalize g % 2 * ((d.mx : ℤ) / 2) = u at *
      generalize g / 2 * ((d.my : ℤ) / 2) = v at *
      omega
    · rw [averageCell_spec d hE kc kf manifold hA qf g i j mq hg ⟨i1, i2⟩ ⟨j1, j2⟩ ⟨m1, m2⟩]
      dsimp only
      rw [show i + g % 2 * ((d.mx : ℤ) / 2) = g % 2 * ((d.mx : ℤ) / 2) + i by ring,
        show j + g / 2 * ((d.my : ℤ) / 2) = g / 2 * ((d.my : ℤ) / 2) + j by ring]
  · rintro ⟨I, J, mq⟩
    unfold inQuadrant comp
    simp only [Prod.mk.injEq]
    constructor
    · rintro ⟨k, k1, k2, j, j1, j2, i, i1, i2, h1, h2, rfl⟩
      exact ⟨⟨k1, k2⟩, i, j, ⟨i1, i2⟩, ⟨j1, j2⟩, by rw [h1]; ring, by rw [h2]; ring⟩
    · rintro ⟨⟨k1, k2⟩, i, j, ⟨i1, i2⟩, ⟨j1, j2⟩, h1, h2⟩
      exact ⟨mq, k1, k2, j, j1, j2, i, i1, i2, by rw [h1]; ring, by rw [h2]; ring, rfl⟩

/-- Averaging all four children: every interior cell gets the mass in it divided by its area. -/
theorem coarsen_writes (d : Dims) (hE : Even2 d) (hsq : d.mx = d.my) (kc : Area) (kf : ℤ → Area) (manifold : ℤ)
    (hA : Areas d manifold kc kf) (qf : ℤ → Grid ℚ) :
    Writes (fun c => (c.1, c.2.1) ∈ coarseCells d ∧ comp d c.2.2)
      (fun c => massIn d kf qf c.2.2 (c.1, c.2.1) / kc (c.1, c.2.1)) (coarsen d kc kf manifold qf) := by
  unfold coarsen
  refine (Writes.doLoop (inQuadrant d) _ _ _ _ fun g g0 g1 =>
    average2coarse_writes d hE hsq kc kf manifold hA qf g ⟨g0, g1⟩).congr ?_
  intro c
  constructor
  · rintro ⟨g, g0, g1, hm, i, j, hi, hj, h⟩
    refine ⟨?_, hm⟩
    rw [h]
    have := parent_mem d hE (g, 2 * i, 2 * j) (by rw [mem_fineCells]; omega)
    unfold parent at this
    dsimp only at this
    rw [show (2 * i + 1) / 2 = i by omega, show (2 * j + 1) / 2 = j by omega] at this
    exact this
  · rintro ⟨hC, hm⟩
    obtain ⟨g, i, j, hg, hi, hj, h⟩ := quadrant d hE _ hC
    exact ⟨g, hg.1, hg.2, hm, i, j, hi, hj, h⟩

/-! ### Interpolation -/

theorem sign1_nonneg {x : ℚ} (h : 0 ≤ x) : sign1 x = 1 := by unfold sign1; rw [if_neg (not_lt.2 h)]
theorem sign1_neg {x : ℚ} (h : x < 0) : sign1 x = -1 := by unfold sign1; rw [if_pos h]

/-- The limited difference lies between 0 and twice each one-sided difference. -/
theorem slopes_bound (sl sr : ℚ) :
    (0 ≤ computeSlopes sl sr ∧ computeSlopes sl sr ≤ 2 * sl ∧ computeSlopes sl sr ≤ 2 * sr) ∨
    (computeSlopes sl sr ≤ 0 ∧ 2 * sl ≤ computeSlopes sl sr ∧ 2 * sr ≤ computeSlopes sl sr) ∨
    computeSlopes sl sr = 0 := by
  unfold computeSlopes
  dsimp only
  by_cases hp : sl * sr < 0
  · right; right
    rw [sign1_neg hp]
    simp
  · rw [sign1_nonneg (not_lt.1 hp)]
    have hp' := not_lt.1 hp
    have hm1 : min (min (2 * |sl|) (2 * |sr|)) |(sl + sr) / 2| ≤ 2 * |sl| := (min_le_left _ _).trans (min_le_left _ _)
    have hm2 : min (min (2 * |sl|) (2 * |sr|)) |(sl + sr) / 2| ≤ 2 * |sr| := (min_le_left _ _).trans (min_le_right _ _)
    have hm0 : 0 ≤ min (min (2 * |sl|) (2 * |sr|)) |(sl + sr) / 2| :=
      le_min (le_min (by positivity) (by positivity)) (abs_nonneg _)
    generalize min (min (2 * |sl|) (2 * |sr|)) |(sl + sr) / 2| = μ at *
    have hmax : max (0 : ℚ) 1 = 1 := by norm_num
    rw [hmax, mul_one]
    by_cases hs : 0 ≤ (sl + sr) / 2
    · rw [sign1_nonneg hs, mul_one]
      by_cases hl : 0 ≤ sl
      · by_cases hr : 0 ≤ sr
        · left
          rw [abs_of_nonneg hl] at hm1; rw [abs_of_nonneg hr] at hm2
          exact ⟨hm0, hm1, hm2⟩
        · right; right
          have : sl = 0 := by nlinarith
          rw [this] at hm1; simp at hm1; linarith
      · by_cases hr : 0 < sr
        · exfalso; nlinarith
        · exfalso; linarith
    · rw [sign1_neg (not_le.1 hs)]
      by_cases hl : sl ≤ 0
      · by_cases hr : sr ≤ 0
        · right; left
          rw [abs_of_nonpos hl] at hm1; rw [abs_of_nonpos hr] at hm2
          exact ⟨by linarith, by linarith, by linarith⟩
        · right; right
          have : sl = 0 := by nlinarith
          rw [this] at hm1; simp at hm1; linarith
      · by_cases hr : sr < 0
        · exfalso; nlinarith
        · exfalso; linarith

theorem slopes_linear (s : ℚ) : computeSlopes s s = s := by
  unfold computeSlopes
  dsimp only
  rw [show (s + s) / 2 = s by ring, sign1_nonneg (mul_self_nonneg s)]
  have hmax : max (0 : ℚ) 1 = 1 := by norm_num
  have hmin : min (min (2 * |s|) (2 * |s|)) |s| = |s| := by
    rw [min_self]; exact min_eq_right (by linarith [abs_nonneg s])
  rw [hmax, hmin, mul_one]
  by_cases h : s < 0
  · rw [sign1_neg h, abs_of_neg h]; ring
  · rw [sign1_nonneg (not_lt.1 h), abs_of_nonneg (not_lt.1 h)]; ring

/-- The interpolated value in a fine cell `(i', j')` of child `g`. -/
def interpValue (d : Dims) (q : Grid ℚ) (g : ℤ) (c : Cell) : ℚ :=
  let i := (c.1 + 1) / 2
  let j := (c.2.1 + 1) / 2
  let I := i + g % 2 * ((d.mx : ℤ) / 2)
  let J := j + g / 2 * ((d.my : ℤ) / 2)
  let mq := c.2.2
  let qc := q (I, J, mq)
  qc + shift (c.1 - (i - 1) * 2) * computeSlopes (qc - q (I - 1, J, mq)) (q (I + 1, J, mq) - qc) +
    shift (c.2.1 - (j - 1) * 2) * computeSlopes (qc - q (I, J - 1, mq)) (q (I, J + 1, mq) - qc)

/-- The fine cells that are set. -/
def interpCells (d : Dims) (g : ℤ) (c : Cell) : Prop :=
  comp d c.2.2 ∧ (1 - 2 * (g % 2) ≤ c.1 ∧ c.1 ≤ d.mx + 2 * (1 - g % 2)) ∧
    (1 - 2 * (g / 2) ≤ c.2.1 ∧ c.2.1 ≤ d.my + 2 * (1 - g / 2))

theorem interpolate_writes (d : Dims) (hE : Even2 d) (hb : 2 ≤ d.mbc) (g : ℤ) (hg : 0 ≤ g ∧ g ≤ 3) (q : Grid ℚ) :
    Writes (interpCells d g) (interpValue d q g) (interpolate d g q) := by
  have e1 := ig_eq g d.mx hg hE.2.2.1
  have e2 := jg_eq g d.my hg hE.2.2.2
  have e3 : (g - g % 2) / 2 = g / 2 := by omega
  have hE' := hE
  obtain ⟨E1, E2, E3, E4⟩ := hE
  have hbox : ∀ i j mq : ℤ, (1 - g % 2 ≤ i ∧ i ≤ (d.mx : ℤ) / 2 + (1 - g % 2)) →
      (1 - g / 2 ≤ j ∧ j ≤ (d.my : ℤ) / 2 + (1 - g / 2)) → comp d mq →
      ∀ di dj : ℤ, -1 ≤ di → di ≤ 1 → -1 ≤ dj → dj ≤ 1 →
      inBox d (i + g % 2 * ((d.mx : ℤ) / 2) + di, j + g / 2 * ((d.my : ℤ) / 2) + dj, mq) = true := by
    intro i j mq hi hj hm di dj h1 h2 h3 h4
    rw [inBox_iff]
    unfold comp at hm
    obtain ⟨g0, g1⟩ := hg
    interval_cases g <;>
      simp only [Int.reduceMod, Int.reduceDiv, zero_mul, one_mul, Int.zero_emod, Int.zero_ediv] at * <;> omega
  unfold interpolate
  dsimp only
  rw [e2, e3, e1]
  refine (Writes.doLoop (fun mq c => ∃ j, 1 - g / 2 ≤ j ∧ j ≤ (d.my : ℤ) / 2 + (1 - g / 2) ∧
      ∃ i, 1 - g % 2 ≤ i ∧ i ≤ (d.mx : ℤ) / 2 + (1 - g % 2) ∧ ∃ ii, 1 ≤ ii ∧ ii ≤ 2 ∧ ∃ jj, 1 ≤ jj ∧ jj ≤ 2 ∧
      c = ((i - 1) * 2 + ii, (j - 1) * 2 + jj, mq)) _ _ _ _ ?_).congr ?_
  · intro mq m1 m2
    refine Writes.doLoop (fun j c =>
      ∃ i, 1 - g % 2 ≤ i ∧ i ≤ (d.mx : ℤ) / 2 + (1 - g % 2) ∧ ∃ ii, 1 ≤ ii ∧ ii ≤ 2 ∧ ∃ jj, 1 ≤ jj ∧ jj ≤ 2 ∧
      c = ((i - 1) * 2 + ii, (j - 1) * 2 + jj, mq)) _ _ _ _ ?_
    intro j j1 j2
    refine Writes.doLoop (fun i c => ∃ ii, 1 ≤ ii ∧ ii ≤ 2 ∧ ∃ jj, 1 ≤ jj ∧ jj ≤ 2 ∧
      c = ((i - 1) * 2 + ii, (j - 1) * 2 + jj, mq)) _ _ _ _ ?_
    intro i i1 i2
    have B := hbox i j mq ⟨i1, i2⟩ ⟨j1, j2⟩ ⟨m1, m2⟩
    have b0 := B 0 0 (by omega) (by omega) (by omega) (by omega)
    have b1 := B (-1) 0 (by omega) (by omega) (by omega) (by omega)
    have b2 := B 1 0 (by omega) (by omega) (by omega) (by omega)
    have b3 := B 0 (-1) (by omega) (by omega) (by omega) (by omega)
    have b4 := B 0 1 (by omega) (by omega) (by omega) (by omega)
    simp only [add_zero] at b0 b1 b2 b3 b4
    rw [← sub_eq_add_neg] at b1 b3
    have hs : slopes d q (i + g % 2 * ((d.mx : ℤ) / 2)) (j + g / 2 * ((d.my : ℤ) / 2)) mq =
        some (q (i + g % 2 * ((d.mx : ℤ) / 2), j + g / 2 * ((d.my : ℤ) / 2), mq),
          computeSlopes
            (q (i + g % 2 * ((d.mx : ℤ) / 2), j + g / 2 * ((d.my : ℤ) / 2), mq) - q (i + g % 2 * ((d.mx : ℤ) / 2) - 1, j + g / 2 * ((d.my : ℤ) / 2), mq))
            (q (i + g % 2 * ((d.mx : ℤ) / 2) + 1, j + g / 2 * ((d.my : ℤ) / 2), mq) - q (i + g % 2 * ((d.mx : ℤ) / 2), j + g / 2 * ((d.my : ℤ) / 2), mq)),
          computeSlopes
            (q (i + g % 2 * ((d.mx : ℤ) / 2), j + g / 2 * ((d.my : ℤ) / 2), mq) - q (i + g % 2 * ((d.mx : ℤ) / 2), j + g / 2 * ((d.my : ℤ) / 2) - 1, mq))
            (q (i + g % 2 * ((d.mx : ℤ) / 2), j + g / 2 * ((d.my : ℤ) / 2) + 1, mq) - q (i + g % 2 * ((d.mx : ℤ) / 2), j + g / 2 * ((d.my : ℤ) / 2), mq))) := by
      simp only [slopes, rd, b0, b1, b2, b3, b4, if_true, Option.bind_some]
    rw [hs]
    simp only [Option.bind_some]
    refine Writes.doLoop (fun ii c => ∃ jj, 1 ≤ jj ∧ jj ≤ 2 ∧ c = ((i - 1) * 2 + ii, (j - 1) * 2 + jj, mq)) _ _ _ _ ?_
    intro ii h1 h2
    refine Writes.doLoop (fun jj c => c = ((i - 1) * 2 + ii, (j - 1) * 2 + jj, mq)) _ _ _ _ ?_
    intro jj h3 h4
    refine Writes.wr d _ _ _ ?_ ?_
    · rw [inBox_iff]; omega
    · unfold interpValue
      dsimp only
      rw [show ((i - 1) * 2 + ii + 1) / 2 = i by omega, show ((j - 1) * 2 + jj + 1) / 2 = j by omega,
        show (i - 1) * 2 + ii - (i - 1) * 2 = ii by ring, show (j - 1) * 2 + jj - (j - 1) * 2 = jj by ring]
  · rintro ⟨I, J, mq⟩
    unfold interpCells comp
    simp only [Prod.mk.injEq]
    constructor
    · rintro ⟨k, k1, k2, j, j1, j2, i, i1, i2, ii, a1, a2, jj, a3, a4, rfl, rfl, rfl⟩
      omega
    · rintro ⟨⟨k1, k2⟩, ⟨i1, i2⟩, ⟨j1, j2⟩⟩
      refine ⟨mq, k1, k2, (J + 1) / 2, by omega, by omega, (I + 1) / 2, by omega, by omega, I - ((I + 1) / 2 - 1) * 2,
        by omega, by omega, J - ((J + 1) / 2 - 1) * 2, by omega, by omega, by omega, by omega, rfl⟩

end Fclaw.Transfer

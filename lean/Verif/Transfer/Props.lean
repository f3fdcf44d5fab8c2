/-
C37: coarsening conserves mass: true for square grids (`C37_partial`), false otherwise.
C38: refinement conserves mass.
C39: interpolation creates no new extrema and is exact for linear data.
C40: refining and then coarsening gives back the original.
-/
import Verif.Transfer.Fix

set_option autoImplicit false
set_option linter.unusedSimpArgs false
namespace Fclaw.Transfer

open Fort CopyGhost

/-- C37 for square grids. Averaging four children onto their parent succeeds; the mass in every cell of the
parent, in every component, is the mass of the fine cells in it, hence the total mass is the same; the
values do not depend on what the parent held before; ghost cells keep their values.

Missing: grids with `mx ≠ my`, for which this is false (`C37_counterexample`). -/
theorem C37_partial (d : Dims) (hE : Even2 d) (hsq : d.mx = d.my) (kc : Area) (kf : ℤ → Area) (manifold : ℤ)
    (hA : Areas d manifold kc kf) (qf : ℤ → Grid ℚ) (q : Grid ℚ) :
    ∃ q', coarsen d kc kf manifold qf q = some q' ∧
      (∀ mq, comp d mq → ∀ C ∈ coarseCells d, coarseMass kc q' mq C = massIn d kf qf mq C) ∧
      (∀ mq, comp d mq → ∑ C ∈ coarseCells d, coarseMass kc q' mq C = ∑ c ∈ fineCells d, fineMass kf qf mq c) ∧
      (∀ i j mq, (i, j) ∉ coarseCells d → q' (i, j, mq) = q (i, j, mq)) := by
  obtain ⟨q', e, a, b⟩ := coarsen_writes d hE hsq kc kf manifold hA qf q
  have cell : ∀ mq, comp d mq → ∀ C ∈ coarseCells d, coarseMass kc q' mq C = massIn d kf qf mq C := by
    intro mq hm C hC
    unfold coarseMass
    rw [a (C.1, C.2, mq) ⟨hC, hm⟩]
    have := ne_of_gt (hA.1 C hC)
    dsimp only
    field_simp
  refine ⟨q', e, cell, ?_, ?_⟩
  · intro mq hm
    rw [← total_massIn d hE]
    exact Finset.sum_congr rfl fun C hC => cell mq hm C hC
  · intro i j mq h
    exact b (i, j, mq) fun hc => h hc.1

/-- C37 is false for `my ≠ mx`, which the option check accepts: with 4 by 8 cells, all fine values 1, the
last two rows of the parent are never set, and mass is lost. -/
theorem C37_counterexample :
    let d : Dims := ⟨4, 8, 2, 1⟩
    Even2 d ∧ Areas d 0 (fun _ => 4) (fun _ _ => 1) ∧
    ∃ q', coarsen d (fun _ => 4) (fun _ _ => 1) 0 (fun _ _ => 1) (fun _ => 0) = some q' ∧
      q' (1, 7, 1) = 0 ∧ massIn d (fun _ _ => 1) (fun _ _ => 1) 1 (1, 7) = 4 := by
  intro d
  have hE : Even2 d := ⟨by decide, by decide, by decide, by decide⟩
  refine ⟨hE, ⟨fun _ _ => by norm_num, fun _ _ => by norm_num, Or.inr ⟨rfl, 1, fun _ _ => by norm_num, fun _ _ => rfl⟩⟩, ?_⟩
  have h : ((coarsen d (fun _ => 4) (fun _ _ => 1) 0 (fun _ _ => 1) (fun _ => 0)).map fun q => q (1, 7, 1)) = some 0 := by
    decide +kernel
  cases e : coarsen d (fun _ => 4) (fun _ _ => 1) 0 (fun _ _ => 1) (fun _ => 0) with
  | none => rw [e] at h; simp at h
  | some q' =>
    rw [e] at h
    refine ⟨q', rfl, by simpa using h, ?_⟩
    have := massIn_eq d hE (fun _ _ => 1) (fun _ _ => 1) 1 2 1 3 (by decide) (by decide) (by decide)
    have h2 : ((2 : ℤ) % 2 * ((d.mx : ℤ) / 2) + 1, (2 : ℤ) / 2 * ((d.my : ℤ) / 2) + 3) = (1, 7) := by decide
    rw [h2] at this
    rw [this]; norm_num

/-- C38: interpolating a patch to its four children succeeds. Every interior cell of every child is set, to a
value that does not depend on what the children held before. The mass of the fine cells in each coarse cell is
the mass of that cell, in every component; hence the total mass is the same. -/
theorem C38 (d : Dims) (hE : Even2 d) (hb : 2 ≤ d.mbc) (kc : Area) (kf : ℤ → Area) (manifold : ℤ)
    (hA : Areas d manifold kc kf) (q : Grid ℚ) :
    ∃ w : ℤ → Grid ℚ, ∀ qf, ∃ fs, refine d kc kf manifold q qf = some fs ∧
      (∀ mq, comp d mq → ∀ c ∈ fineCells d, fs c.1 (c.2.1, c.2.2, mq) = w c.1 (c.2.1, c.2.2, mq)) ∧
      (∀ mq, comp d mq → ∀ C ∈ coarseCells d, massIn d kf fs mq C = coarseMass kc q mq C) ∧
      (∀ mq, comp d mq → ∑ c ∈ fineCells d, fineMass kf fs mq c = ∑ C ∈ coarseCells d, coarseMass kc q mq C) := by
  refine ⟨refined d kc kf manifold q, fun qf => ?_⟩
  obtain ⟨fs, e, a⟩ := refine_sets d hE hb kc kf manifold hA q qf
  have set : ∀ mq, comp d mq → ∀ g i j : ℤ, (g, i, j) ∈ fineCells d →
      fs g (i, j, mq) = refined d kc kf manifold q g (i, j, mq) := by
    intro mq hm g i j hc
    rw [mem_fineCells] at hc
    exact a g hc.1 (i, j, mq) ⟨hm, hc.2⟩
  have cell : ∀ mq, comp d mq → ∀ C ∈ coarseCells d, massIn d kf fs mq C = coarseMass kc q mq C := by
    intro mq hm C hC
    obtain ⟨g, i, j, hg, hi, hj, rfl⟩ := quadrant d hE C hC
    rw [massIn_eq d hE kf fs mq g i j hg hi hj]
    have m0 : (g, 2 * i - 1, 2 * j - 1) ∈ fineCells d := (mem_fineCells ..).2 ⟨hg, by omega, by omega⟩
    have m1 : (g, 2 * i, 2 * j - 1) ∈ fineCells d := (mem_fineCells ..).2 ⟨hg, by omega, by omega⟩
    have m2 : (g, 2 * i - 1, 2 * j) ∈ fineCells d := (mem_fineCells ..).2 ⟨hg, by omega, by omega⟩
    have m3 : (g, 2 * i, 2 * j) ∈ fineCells d := (mem_fineCells ..).2 ⟨hg, by omega, by omega⟩
    rw [set mq hm _ _ _ m0, set mq hm _ _ _ m1, set mq hm _ _ _ m2, set mq hm _ _ _ m3]
    have s1 : shift 1 = -1 / 4 := by unfold shift; norm_num
    have s2 : shift 2 = 1 / 4 := by unfold shift; norm_num
    have i0 : (2 * i - 1 + 1) / 2 = i := by omega
    have i1 : (2 * i + 1) / 2 = i := by omega
    have i2 : 2 * i - 1 - (i - 1) * 2 = 1 := by ring
    have i3 : 2 * i - (i - 1) * 2 = 2 := by ring
    have j0 : (2 * j - 1 + 1) / 2 = j := by omega
    have j1 : (2 * j + 1) / 2 = j := by omega
    have j2 : 2 * j - 1 - (j - 1) * 2 = 1 := by ring
    have j3 : 2 * j - (j - 1) * 2 = 2 := by ring
    unfold coarseMass refined
    obtain ⟨A1, A2, A3⟩ := hA
    have k0 := A2 _ m0
    have k1 := A2 _ m1
    have k2 := A2 _ m2
    have k3 := A2 _ m3
    dsimp only at k0 k1 k2 k3
    by_cases hman : manifold = 0
    · obtain ⟨κ, K1, K2⟩ := (A3.resolve_left (by omega)).2
      have x0 := K2 _ m0
      have x1 := K2 _ m1
      have x2 := K2 _ m2
      have x3 := K2 _ m3
      dsimp only at x0 x1 x2 x3
      rw [K1 _ hC, x0, x1, x2, x3]
      simp only [hman, if_true]
      unfold interpValue
      dsimp only
      simp only [i0, i1, i2, i3, j0, j1, j2, j3, s1, s2]
      rw [add_comm i (g % 2 * ((d.mx : ℤ) / 2)), add_comm j (g / 2 * ((d.my : ℤ) / 2))]
      ring
    · rw [if_neg hman]
      unfold corrected
      dsimp only
      simp only [i0, i1, j0, j1]
      rw [add_comm i (g % 2 * ((d.mx : ℤ) / 2)), add_comm j (g / 2 * ((d.my : ℤ) / 2))]
      unfold sum4
      generalize interpValue d q g (2 * i - 1, 2 * j - 1, mq) = v0
      generalize interpValue d q g (2 * i, 2 * j - 1, mq) = v1
      generalize interpValue d q g (2 * i - 1, 2 * j, mq) = v2
      generalize interpValue d q g (2 * i, 2 * j, mq) = v3
      generalize kf g (2 * i - 1, 2 * j - 1) = a0 at *
      generalize kf g (2 * i, 2 * j - 1) = a1 at *
      generalize kf g (2 * i - 1, 2 * j) = a2 at *
      generalize kf g (2 * i, 2 * j) = a3 at *
      have n0 := ne_of_gt k0
      have n1 := ne_of_gt k1
      have n2 := ne_of_gt k2
      have n3 := ne_of_gt k3
      field_simp
      ring
  refine ⟨fs, e, fun mq hm c hc => set mq hm c.1 c.2.1 c.2.2 hc, cell, ?_⟩
  intro mq hm
  rw [← total_massIn d hE]
  exact Finset.sum_congr rfl fun C hC => cell mq hm C hC

/-- With a single layer of ghost cells, which the option check accepts, interpolation writes outside of the
array. -/
theorem C38_one_layer_counterexample :
    refine ⟨8, 8, 1, 1⟩ (fun _ => 4) (fun _ _ => 1) 0 (fun _ => 0) (fun _ _ => 0) = none := by decide +kernel

/-- C39: on a Cartesian grid, each value in an interior cell of a child lies between the smallest and the
largest value in the coarse cell that it is part of and that cell's four face neighbours. -/
theorem C39_no_new_extrema (d : Dims) (hE : Even2 d) (hb : 2 ≤ d.mbc) (kc : Area) (kf : ℤ → Area)
    (hA : Areas d 0 kc kf) (q : Grid ℚ) (qf fs : ℤ → Grid ℚ) (h : refine d kc kf 0 q qf = some fs)
    (mq : ℤ) (hm : comp d mq) (c : ℤ × ℤ × ℤ) (hc : c ∈ fineCells d) (lo hi : ℚ)
    (hlo : ∀ C ∈ cross (parent d c), lo ≤ q (C.1, C.2, mq)) (hhi : ∀ C ∈ cross (parent d c), q (C.1, C.2, mq) ≤ hi) :
    lo ≤ fs c.1 (c.2.1, c.2.2, mq) ∧ fs c.1 (c.2.1, c.2.2, mq) ≤ hi := by
  obtain ⟨fs', e, a⟩ := refine_sets d hE hb kc kf 0 hA q qf
  rw [h] at e; cases e
  obtain ⟨g, i, j⟩ := c
  have hc' := (mem_fineCells ..).1 hc
  dsimp only
  rw [a g hc'.1 (i, j, mq) ⟨hm, hc'.2⟩]
  unfold refined
  simp only [if_true]
  unfold interpValue
  dsimp only
  simp only [cross, parent, List.forall_mem_cons, List.not_mem_nil, false_imp_iff, implies_true, and_true] at hlo hhi
  rw [add_comm _ (g % 2 * ((d.mx : ℤ) / 2)), add_comm _ (g / 2 * ((d.my : ℤ) / 2))]
  generalize hI : g % 2 * ((d.mx : ℤ) / 2) + (i + 1) / 2 = I at *
  generalize hJ : g / 2 * ((d.my : ℤ) / 2) + (j + 1) / 2 = J at *
  obtain ⟨l0, l1, l2, l3, l4⟩ := hlo
  obtain ⟨u0, u1, u2, u3, u4⟩ := hhi
  generalize q (I, J, mq) = qc at *
  generalize q (I - 1, J, mq) = ql at *
  generalize q (I + 1, J, mq) = qr at *
  generalize q (I, J - 1, mq) = qb at *
  generalize q (I, J + 1, mq) = qt at *
  have s1 : shift 1 = -1 / 4 := by unfold shift; norm_num
  have s2 : shift 2 = 1 / 4 := by unfold shift; norm_num
  have bx := slopes_bound (qc - ql) (qr - qc)
  have by' := slopes_bound (qc - qb) (qt - qc)
  generalize computeSlopes (qc - ql) (qr - qc) = gx at *
  generalize computeSlopes (qc - qb) (qt - qc) = gy at *
  have hi2 : i - ((i + 1) / 2 - 1) * 2 = 1 ∨ i - ((i + 1) / 2 - 1) * 2 = 2 := by omega
  have hj2 : j - ((j + 1) / 2 - 1) * 2 = 1 ∨ j - ((j + 1) / 2 - 1) * 2 = 2 := by omega
  rcases hi2 with hi2 | hi2 <;> rcases hj2 with hj2 | hj2 <;> rw [hi2, hj2] <;> simp only [s1, s2] <;>
    rcases bx with ⟨x0, x1, x2⟩ | ⟨x0, x1, x2⟩ | x0 <;> rcases by' with ⟨y0, y1, y2⟩ | ⟨y0, y1, y2⟩ | y0 <;>
    constructor <;> linarith

/-- C39: data that is linear around a coarse cell (in particular constant data) is reproduced exactly. -/
theorem C39_linear (d : Dims) (hE : Even2 d) (hb : 2 ≤ d.mbc) (kc : Area) (kf : ℤ → Area)
    (hA : Areas d 0 kc kf) (q : Grid ℚ) (qf fs : ℤ → Grid ℚ) (h : refine d kc kf 0 q qf = some fs)
    (mq : ℤ) (hm : comp d mq) (c : ℤ × ℤ × ℤ) (hc : c ∈ fineCells d) (α β γ : ℚ)
    (hq : ∀ C ∈ cross (parent d c), q (C.1, C.2, mq) = α + β * C.1 + γ * C.2) :
    fs c.1 (c.2.1, c.2.2, mq) = α + β * centreX d c + γ * centreY d c := by
  obtain ⟨fs', e, a⟩ := refine_sets d hE hb kc kf 0 hA q qf
  rw [h] at e; cases e
  obtain ⟨g, i, j⟩ := c
  have hc' := (mem_fineCells ..).1 hc
  dsimp only
  rw [a g hc'.1 (i, j, mq) ⟨hm, hc'.2⟩]
  unfold refined
  simp only [if_true]
  unfold interpValue centreX centreY
  dsimp only
  simp only [cross, parent, List.forall_mem_cons, List.not_mem_nil, false_imp_iff, implies_true, and_true] at hq
  rw [add_comm _ (g % 2 * ((d.mx : ℤ) / 2)), add_comm _ (g / 2 * ((d.my : ℤ) / 2))]
  obtain ⟨q0, q1, q2, q3, q4⟩ := hq
  rw [q0, q1, q2, q3, q4]
  generalize g % 2 * ((d.mx : ℤ) / 2) = u at *
  generalize g / 2 * ((d.my : ℤ) / 2) = v at *
  push_cast
  have hx : ∀ I J : ℚ, computeSlopes (α + β * I + γ * J - (α + β * (I - 1) + γ * J))
      (α + β * (I + 1) + γ * J - (α + β * I + γ * J)) = β := by
    intro I J
    rw [show α + β * I + γ * J - (α + β * (I - 1) + γ * J) = β by ring,
      show α + β * (I + 1) + γ * J - (α + β * I + γ * J) = β by ring, slopes_linear]
  have hy : ∀ I J : ℚ, computeSlopes (α + β * I + γ * J - (α + β * I + γ * (J - 1)))
      (α + β * I + γ * (J + 1) - (α + β * I + γ * J)) = γ := by
    intro I J
    rw [show α + β * I + γ * J - (α + β * I + γ * (J - 1)) = γ by ring,
      show α + β * I + γ * (J + 1) - (α + β * I + γ * J) = γ by ring, slopes_linear]
  rw [hx, hy]
  have s1 : shift 1 = -1 / 4 := by unfold shift; norm_num
  have s2 : shift 2 = 1 / 4 := by unfold shift; norm_num
  have hi2 : i - ((i + 1) / 2 - 1) * 2 = 1 ∧ i = 2 * ((i + 1) / 2) - 1 ∨
      i - ((i + 1) / 2 - 1) * 2 = 2 ∧ i = 2 * ((i + 1) / 2) := by omega
  have hj2 : j - ((j + 1) / 2 - 1) * 2 = 1 ∧ j = 2 * ((j + 1) / 2) - 1 ∨
      j - ((j + 1) / 2 - 1) * 2 = 2 ∧ j = 2 * ((j + 1) / 2) := by omega
  generalize (i + 1) / 2 = i0 at *
  generalize (j + 1) / 2 = j0 at *
  rcases hi2 with ⟨hi2, rfl⟩ | ⟨hi2, rfl⟩ <;> rcases hj2 with ⟨hj2, rfl⟩ | ⟨hj2, rfl⟩ <;>
    rw [hi2, hj2] <;> simp only [s1, s2] <;> push_cast <;> ring

/-- C40: interpolating a patch to its children and averaging the children onto a patch gives back all interior
values, whatever that patch and the children held before. -/
theorem C40 (d : Dims) (hE : Even2 d) (hsq : d.mx = d.my) (hb : 2 ≤ d.mbc) (kc : Area) (kf : ℤ → Area) (manifold : ℤ)
    (hA : Areas d manifold kc kf) (q q0 : Grid ℚ) (qf : ℤ → Grid ℚ) :
    ∃ fs q', refine d kc kf manifold q qf = some fs ∧ coarsen d kc kf manifold fs q0 = some q' ∧
      ∀ i j mq, (i, j) ∈ coarseCells d → comp d mq → q' (i, j, mq) = q (i, j, mq) := by
  obtain ⟨w, H⟩ := C38 d hE hb kc kf manifold hA q
  obtain ⟨fs, e, _, cell, _⟩ := H qf
  obtain ⟨q', e', cell', _, _⟩ := C37_partial d hE hsq kc kf manifold hA fs q0
  refine ⟨fs, q', e, e', ?_⟩
  intro i j mq hC hm
  have h1 := cell' mq hm (i, j) hC
  rw [cell mq hm (i, j) hC] at h1
  unfold coarseMass at h1
  have := ne_of_gt (hA.1 (i, j) hC)
  exact mul_left_cancel₀ this h1

/-! ### Examples -/

example : Even2 ⟨8, 8, 2, 3⟩ ∧ Areas ⟨8, 8, 2, 3⟩ 0 (fun _ => 1 / 16) (fun _ _ => 1 / 64) := by
  refine ⟨⟨by decide, by decide, by decide, by decide⟩, fun _ _ => by norm_num, fun _ _ => by norm_num,
    Or.inr ⟨rfl, 1 / 64, fun _ _ => by norm_num, fun _ _ => rfl⟩⟩

/-- Varying areas. -/
example : Areas ⟨4, 6, 2, 1⟩ 1 (fun C => 4 * (C.1 ^ 2 + 1)) (fun g C => C.1 ^ 2 + C.2 ^ 2 + g ^ 2 + 1) := by
  refine ⟨fun C _ => by positivity, fun c _ => by positivity, Or.inl rfl⟩

/-- A step: the fine values next to it. -/
example : ((refine ⟨4, 4, 2, 1⟩ (fun _ => 4) (fun _ _ => 1) 0 (fun c => if c.1 ≤ 1 then 0 else c.1) (fun _ _ => 0)).map
    fun fs => [fs 0 (1, 1, 1), fs 0 (2, 1, 1), fs 0 (3, 1, 1), fs 0 (4, 1, 1), fs 1 (1, 1, 1), fs 1 (2, 1, 1)]) =
    some [0, 0, 13 / 8, 19 / 8, 11 / 4, 13 / 4] := by decide +kernel

end Fclaw.Transfer

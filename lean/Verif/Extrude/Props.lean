/-
C84: on extruded meshes every layer of cells is treated as a mesh of two dimensions.
-/
import Verif.Extrude.Steps
import Verif.Transfer.Props
set_option autoImplicit false
set_option linter.unusedSimpArgs false
set_option linter.unusedVariables false
namespace Fclaw.Extrude

open Fort CopyGhost

/-- C84: take any history of operations on patches with layers. Either it succeeds; then every layer of every patch is
what the operations in two dimensions make of that layer alone. Or it fails; then the operations in two dimensions fail for
some layer. The layers of ghost cells below and above take part in exchanges with other processes, and in nothing else; nothing
outside of the arrays changes. -/
theorem C84_layers (D : Dims3) (hz : 1 ≤ D.mz) (hm : 1 ≤ D.meqn) (ops : List Op) (h : ∀ op ∈ ops, op.Fits D)
    (P : Nat → Patch3) :
    (∃ P', run (step3 D) ops P = some P' ∧
      ∀ k, run (step2 D.toDims) (seen D k ops) (fun a => (P a).slice k) = some fun a => (P' a).slice k) ∨
    (run (step3 D) ops P = none ∧ ∃ k, run (step2 D.toDims) (seen D k ops) (fun a => (P a).slice k) = none) :=
  run_sep D hz hm ops h P

/-- What happens to a layer does not depend on the other layers. -/
theorem C84_independent (D : Dims3) (hz : 1 ≤ D.mz) (hm : 1 ≤ D.meqn) (ops : List Op) (h : ∀ op ∈ ops, op.Fits D)
    (P Q P' Q' : Nat → Patch3) (k : ℤ) (hk : ∀ a, (P a).slice k = (Q a).slice k)
    (hP : run (step3 D) ops P = some P') (hQ : run (step3 D) ops Q = some Q') (a : Nat) :
    (P' a).slice k = (Q' a).slice k := by
  rcases C84_layers D hz hm ops h P with ⟨R, e, r⟩ | ⟨e, _⟩
  · rcases C84_layers D hz hm ops h Q with ⟨R', e', r'⟩ | ⟨e', _⟩
    · rw [hP] at e; cases e
      rw [hQ] at e'; cases e'
      have h1 := r k
      have h2 := r' k
      rw [show (fun a => (P a).slice k) = fun a => (Q a).slice k from funext hk, h2, Option.some.injEq] at h1
      exact (congrFun h1 a).symm
    · rw [hQ] at e'; cases e'
  · rw [hP] at e; cases e

/-! ### Mass -/

theorem doLoop_same {σ : Type} {lo hi : ℤ} {f g : ℤ → σ → Option σ} (h : ∀ k, lo ≤ k → k ≤ hi → ∀ s, f k s = g k s) (s : σ) :
    doLoop lo hi f s = doLoop lo hi g s :=
  GhostPack.loop_congr _ _ _ _ fun k hk s => by rw [mem_range] at hk; exact h k hk.1 hk.2 s

/-- The areas of the cells of the children that a cell of the parent consists of. -/
theorem areaIn_eq (d : Dims) (hE : Transfer.Even2 d) (kf : ℤ → Transfer.Area) (g i j : ℤ) (hg : 0 ≤ g ∧ g ≤ 3)
    (hi : 1 ≤ i ∧ i ≤ (d.mx : ℤ) / 2) (hj : 1 ≤ j ∧ j ≤ (d.my : ℤ) / 2) :
    (∑ f ∈ Transfer.fineCells d with
        Transfer.parent d f = (g % 2 * ((d.mx : ℤ) / 2) + i, g / 2 * ((d.my : ℤ) / 2) + j), kf f.1 (f.2.1, f.2.2)) =
      kf g (2 * i - 1, 2 * j - 1) + kf g (2 * i, 2 * j - 1) + kf g (2 * i - 1, 2 * j) + kf g (2 * i, 2 * j) := by
  have := Transfer.massIn_eq d hE kf (fun _ _ => 1) 1 g i j hg hi hj
  unfold Transfer.massIn Transfer.fineMass at this
  simp only [mul_one] at this
  rw [this]
  ring

/-- Coarsening with the sums is coarsening in two dimensions, if the areas add up. -/
theorem coarsenSums_eq (d : Dims) (hE : Transfer.Even2 d) (hsq : d.mx = d.my) (kc : Transfer.Area) (kf : ℤ → Transfer.Area)
    (manifold : ℤ) (hk : ∀ C ∈ Transfer.coarseCells d, kc C =
      ∑ f ∈ Transfer.fineCells d with Transfer.parent d f = C, kf f.1 (f.2.1, f.2.2))
    (qf : ℤ → Grid ℚ) (q : Grid ℚ) : coarsenSums d kf manifold qf q = Transfer.coarsen d kc kf manifold qf q := by
  unfold coarsenSums Transfer.coarsen
  refine doLoop_same (fun g g0 g1 q => ?_) q
  unfold Transfer.average2coarse
  dsimp only
  have e1 : g % 2 * (d.mx : ℤ) / 2 = g % 2 * ((d.mx : ℤ) / 2) := Transfer.ig_eq g d.mx ⟨g0, g1⟩ hE.2.2.1
  have e2 : (g - g % 2) / 2 * (d.mx : ℤ) / 2 = g / 2 * ((d.my : ℤ) / 2) := by
    rw [Transfer.jg_eq g d.mx ⟨g0, g1⟩ hE.2.2.1, hsq]
  refine doLoop_same (fun mq _ _ q => doLoop_same (fun j j0 j1 q => doLoop_same (fun i i0 i1 q => ?_) q) q) q
  congr 1
  unfold Transfer.averageCell
  split
  · congr 1
    funext sum
    have hC : (g % 2 * ((d.mx : ℤ) / 2) + i, g / 2 * ((d.my : ℤ) / 2) + j) ∈ Transfer.coarseCells d := by
      have := Transfer.parent_mem d hE (g, 2 * i, 2 * j) (by rw [Transfer.mem_fineCells]; omega)
      unfold Transfer.parent at this
      dsimp only at this
      rw [show (2 * i + 1) / 2 = i by omega, show (2 * j + 1) / 2 = j by omega] at this
      exact this
    obtain ⟨c1, c2⟩ := (Transfer.mem_coarseCells d _ _).1 hC
    rw [Transfer.rdArea_interior _ (by omega) (by omega), Transfer.rdArea_interior _ (by omega) (by omega)]
    have : sums d (kf g) g (i + g % 2 * (d.mx : ℤ) / 2, j + (g - g % 2) / 2 * (d.mx : ℤ) / 2) =
        kc (i + g % 2 * (d.mx : ℤ) / 2, j + (g - g % 2) / 2 * (d.mx : ℤ) / 2) := by
      rw [e1, e2, add_comm i, add_comm j, hk _ hC, areaIn_eq d hE kf g i j ⟨g0, g1⟩ ⟨i0, i1⟩ ⟨j0, j1⟩]
      unfold sums
      dsimp only
      rw [e1, e2, add_sub_cancel_left, add_sub_cancel_left]
    rw [this]
  · rfl

/-- Replacing a patch by its children keeps the mass of every component, for all volumes. -/
theorem C84_refine_mass (D : Dims3) (hE : Transfer.Even2 D.toDims) (hb : 2 ≤ D.mbc) (vc : Vol) (vf : ℤ → Vol) (manifold : ℤ)
    (hA : ∀ k : ℤ, 1 ≤ k → k ≤ D.mz → Transfer.Areas D.toDims manifold (fun c => vc (c.1, c.2, k))
      fun g c => vf g (c.1, c.2, k)) (q : Grid3 ℚ) (qf : ℤ → Grid3 ℚ) :
    ∃ fs, refine3 D vc vf manifold q qf = some fs ∧
      ∀ mq, comp D.toDims mq → fineMass3 D vf fs mq = coarseMass3 D vc q mq := by
  rcases refine3_sep (D := D) vc vf manifold q qf with ⟨fs, e, h⟩ | ⟨_, k, h⟩
  · refine ⟨fs, e, fun mq hm => ?_⟩
    refine Finset.sum_congr rfl fun k hk => ?_
    rw [Finset.mem_Icc] at hk
    have h' := h k
    rw [rng_apply, if_pos hk] at h'
    obtain ⟨w, H⟩ := Transfer.C38 D.toDims hE hb _ _ manifold (hA k hk.1 hk.2) (layer q k)
    obtain ⟨fs', e', _, _, m⟩ := H (fun g => layer (qf g) k)
    have : some fs' = some (fun g => layer (fs g) k) := e'.symm.trans h'
    rw [Option.some.injEq] at this
    have m' := m mq hm
    rw [this] at m'
    exact m'
  · rw [rng_apply] at h
    split at h
    · next hk =>
      obtain ⟨w, H⟩ := Transfer.C38 D.toDims hE hb _ _ manifold (hA k hk.1 hk.2) (layer q k)
      obtain ⟨fs', e', _⟩ := H (fun g => layer (qf g) k)
      have : some fs' = none := e'.symm.trans h
      cases this
    · cases h

theorem areas_of_volumes (D : Dims3) (hE : Transfer.Even2 D.toDims) (manifold : ℤ) (v : ℤ → Vol) (h : Volumes D manifold v)
    (k : ℤ) (h1 : 1 ≤ k) (h2 : k ≤ D.mz) :
    Transfer.Areas D.toDims manifold (fun c => volIn D v (c.1, c.2, k)) fun g c => v g (c.1, c.2, k) := by
  obtain ⟨hp, hm⟩ := h k h1 h2
  have hsum : ∀ C ∈ Transfer.coarseCells D.toDims, ∃ g i j : ℤ, (0 ≤ g ∧ g ≤ 3) ∧ (1 ≤ i ∧ i ≤ (D.mx : ℤ) / 2) ∧
      (1 ≤ j ∧ j ≤ (D.my : ℤ) / 2) ∧ volIn D v (C.1, C.2, k) = v g (2 * i - 1, 2 * j - 1, k) + v g (2 * i, 2 * j - 1, k) +
        v g (2 * i - 1, 2 * j, k) + v g (2 * i, 2 * j, k) := by
    intro C hC
    obtain ⟨g, i, j, hg, hi, hj, rfl⟩ := Transfer.quadrant D.toDims hE C hC
    exact ⟨g, i, j, hg, hi, hj, areaIn_eq D.toDims hE (fun g c => v g (c.1, c.2, k)) g i j hg hi hj⟩
  have hE' := hE
  obtain ⟨E1, E2, E3, E4⟩ := hE'
  have mem : ∀ g i j : ℤ, (0 ≤ g ∧ g ≤ 3) → (1 ≤ i ∧ i ≤ (D.mx : ℤ) / 2) → (1 ≤ j ∧ j ≤ (D.my : ℤ) / 2) →
      (g, 2 * i - 1, 2 * j - 1) ∈ Transfer.fineCells D.toDims ∧ (g, 2 * i, 2 * j - 1) ∈ Transfer.fineCells D.toDims ∧
      (g, 2 * i - 1, 2 * j) ∈ Transfer.fineCells D.toDims ∧ (g, 2 * i, 2 * j) ∈ Transfer.fineCells D.toDims := by
    intro g i j hg hi hj
    simp only [Transfer.mem_fineCells]
    omega
  refine ⟨fun C hC => ?_, hp, ?_⟩
  · obtain ⟨g, i, j, hg, hi, hj, e⟩ := hsum C hC
    obtain ⟨m1, m2, m3, m4⟩ := mem g i j hg hi hj
    show 0 < volIn D v (C.1, C.2, k)
    rw [e]
    have a1 := hp _ m1
    have a2 := hp _ m2
    have a3 := hp _ m3
    have a4 := hp _ m4
    dsimp only at a1 a2 a3 a4
    positivity
  · rcases hm with hm | ⟨hm, κ, hκ⟩
    · exact Or.inl hm
    · refine Or.inr ⟨hm, κ, fun C hC => ?_, hκ⟩
      obtain ⟨g, i, j, hg, hi, hj, e⟩ := hsum C hC
      obtain ⟨m1, m2, m3, m4⟩ := mem g i j hg hi hj
      show volIn D v (C.1, C.2, k) = 4 * κ
      have a1 := hκ _ m1
      have a2 := hκ _ m2
      have a3 := hκ _ m3
      have a4 := hκ _ m4
      dsimp only at a1 a2 a3 a4
      rw [e, a1, a2, a3, a4]
      ring

/-- Replacing four children by their parent keeps the mass of every component, if the volume of a cell is the volume of the
four cells that it consists of. The volumes of the parent itself are not used. -/
theorem C84_coarsen_mass (D : Dims3) (hE : Transfer.Even2 D.toDims) (hsq : D.mx = D.my) (vf : ℤ → Vol) (manifold : ℤ)
    (hA : Volumes D manifold vf) (qf : ℤ → Grid3 ℚ) (q : Grid3 ℚ) :
    ∃ q', coarsen3 D vf manifold qf q = some q' ∧
      ∀ mq, comp D.toDims mq → coarseMass3 D (volIn D vf) q' mq = fineMass3 D vf qf mq := by
  have key : ∀ k : ℤ, 1 ≤ k → k ≤ D.mz → ∃ g, coarsenSums D.toDims (fun g => areas (vf g) k) manifold
      (fun g => layer (qf g) k) (layer q k) = some g ∧ ∀ mq, comp D.toDims mq →
        ∑ C ∈ Transfer.coarseCells D.toDims, volIn D vf (C.1, C.2, k) * g (C.1, C.2, mq) =
          ∑ c ∈ Transfer.fineCells D.toDims, vf c.1 (c.2.1, c.2.2, k) * qf c.1 (c.2.1, c.2.2, k, mq) := by
    intro k h1 h2
    obtain ⟨g, e, _, m, _⟩ := Transfer.C37_partial D.toDims hE hsq _ _ manifold (areas_of_volumes D hE manifold vf hA k h1 h2)
      (fun g => layer (qf g) k) (layer q k)
    refine ⟨g, ?_, m⟩
    rw [← e]
    exact coarsenSums_eq D.toDims hE hsq _ _ manifold (fun C _ => rfl) _ _
  rcases coarsen3_sep (D := D) vf manifold qf q with ⟨q', e, h⟩ | ⟨_, k, h⟩
  · refine ⟨q', e, fun mq hm => ?_⟩
    refine Finset.sum_congr rfl fun k hk => ?_
    rw [Finset.mem_Icc] at hk
    have h' := h k
    rw [rng_apply, if_pos hk] at h'
    obtain ⟨g, e', m⟩ := key k hk.1 hk.2
    have : some g = some (layer q' k) := e'.symm.trans h'
    rw [Option.some.injEq] at this
    have m' := m mq hm
    rw [this] at m'
    exact m'
  · rw [rng_apply] at h
    split at h
    · next hk =>
      obtain ⟨g, e', _⟩ := key k hk.1 hk.2
      have : some g = none := e'.symm.trans h
      cases this
    · cases h

/-- Refining and coarsening again gives the patch back in all layers, if the volume of each of its cells is the volume of the
four cells that it consists of. -/
theorem C84_roundtrip_partial (D : Dims3) (hE : Transfer.Even2 D.toDims) (hsq : D.mx = D.my) (hb : 2 ≤ D.mbc) (vf : ℤ → Vol)
    (manifold : ℤ) (hA : Volumes D manifold vf) (q q0 : Grid3 ℚ) (qf : ℤ → Grid3 ℚ) :
    ∃ fs q', refine3 D (volIn D vf) vf manifold q qf = some fs ∧ coarsen3 D vf manifold fs q0 = some q' ∧
      ∀ i j k mq, (i, j) ∈ Transfer.coarseCells D.toDims → 1 ≤ k → k ≤ (D.mz : ℤ) → comp D.toDims mq →
        q' (i, j, k, mq) = q (i, j, k, mq) := by
  obtain ⟨fs, e, _⟩ := C84_refine_mass D hE hb (volIn D vf) vf manifold
    (fun k h1 h2 => areas_of_volumes D hE manifold vf hA k h1 h2) q qf
  obtain ⟨q', e', _⟩ := C84_coarsen_mass D hE hsq vf manifold hA fs q0
  refine ⟨fs, q', e, e', fun i j k mq hC h1 h2 hm => ?_⟩
  have hr : refine3 D (volIn D vf) vf manifold q qf = some fs := e
  obtain ⟨fs2, q2, r1, r2, r3⟩ := Transfer.C40 D.toDims hE hsq hb _ _ manifold (areas_of_volumes D hE manifold vf hA k h1 h2)
    (layer q k) (layer q0 k) (fun g => layer (qf g) k)
  rcases refine3_sep (D := D) (volIn D vf) vf manifold q qf with ⟨x, ex, hx⟩ | ⟨ex, _⟩
  · rw [hr] at ex; cases ex
    have hx' := hx k
    rw [rng_apply, if_pos ⟨h1, h2⟩] at hx'
    have a : some fs2 = some (fun g => layer (fs g) k) := r1.symm.trans hx'
    rw [Option.some.injEq] at a
    rcases coarsen3_sep (D := D) vf manifold fs q0 with ⟨y, ey, hy⟩ | ⟨ey, _⟩
    · rw [e'] at ey; cases ey
      have hy' := hy k
      rw [rng_apply, if_pos ⟨h1, h2⟩] at hy'
      have b := coarsenSums_eq D.toDims hE hsq _ (fun g => areas (vf g) k) manifold (fun C _ => rfl)
        (fun g => layer (fs g) k) (layer q0 k)
      have c : some q2 = some (layer q' k) := by
        rw [← r2, a]
        exact b.symm.trans hy'
      rw [Option.some.injEq] at c
      have := r3 i j mq hC hm
      rw [c] at this
      exact this
    · rw [e'] at ey; cases ey
  · rw [hr] at ex; cases ex

/-- In two dimensions this is true for all areas (C40). With layers it is not: a cell of volume 5 that consists of four cells
of volume 1 holds 1 before and 5/4 after. -/
theorem C84_roundtrip_counterexample :
    let D : Dims3 := ⟨⟨4, 4, 2, 1⟩, 1⟩
    (∀ k : ℤ, 1 ≤ k → k ≤ D.mz → Transfer.Areas D.toDims 1 (fun _ => 5) fun _ _ => 1) ∧
    ((refine3 D (fun _ => 5) (fun _ _ => 1) 1 (fun _ => 1) (fun _ _ => 0)).bind fun fs =>
      (coarsen3 D (fun _ _ => 1) 1 fs (fun _ => 0)).map fun q => q (1, 1, 1, 1)) = some (5 / 4) ∧
    ((Transfer.refine D.toDims (fun _ => 5) (fun _ _ => 1) 1 (fun _ => 1) (fun _ _ => 0)).bind fun fs =>
      (Transfer.coarsen D.toDims (fun _ => 5) (fun _ _ => 1) 1 fs (fun _ => 0)).map fun q => q (1, 1, 1)) = some 1 := by
  intro D
  refine ⟨fun k _ _ => ⟨fun _ _ => by norm_num, fun _ _ => by norm_num, Or.inl rfl⟩, ?_, ?_⟩
  · decide +kernel
  · decide +kernel

/-! ### The hypotheses can be met -/

/-- A history: exchange a patch with another process, fill ghost cells, refine, coarsen. -/
example : let D : Dims3 := ⟨⟨8, 8, 2, 1⟩, 3⟩
    1 ≤ D.mz ∧ 1 ≤ D.meqn ∧ ∀ op ∈ ([.exchange 0 1 ⟨2, true, true, false⟩ (fun _ => 0), .pillowCopy 0 1 2,
      .refine 0 (fun g => g.toNat + 2) 1, .coarsen 0 (fun g => g.toNat + 2) 1] : List Op), op.Fits D := by
  intro D
  refine ⟨by decide, by decide, ?_⟩
  intro op hop
  simp only [List.mem_cons, List.not_mem_nil, or_false] at hop
  rcases hop with rfl | rfl | rfl | rfl
  · exact ⟨rfl, rfl, by decide, by decide, by decide⟩
  · exact show (0 : Nat) ≠ 1 by decide
  · trivial
  · trivial

/-- Layers are different from one another after refinement if they were before. -/
example :
    ((step3 ⟨⟨4, 4, 2, 1⟩, 2⟩ (.refine 0 (fun g => g.toNat + 1) 0)
      (fun a => ⟨fun c => if a = 0 then c.1 + 10 * c.2.2.1 else 0, fun _ => 1⟩)).map fun P =>
        ((P 2).q (1, 1, 1, 1), (P 2).q (1, 1, 2, 1), (P 2).q (1, 1, 0, 1))) = some (13 - 1 / 4, 23 - 1 / 4, 0) := by
  decide +kernel

example : Volumes ⟨⟨4, 4, 2, 1⟩, 2⟩ 1 fun g c => 1 + (c.2.2 : ℚ) ^ 2 := by
  intro k h1 h2
  refine ⟨fun c _ => ?_, Or.inl rfl⟩
  dsimp only
  positivity

end Fclaw.Extrude

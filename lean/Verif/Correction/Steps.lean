/-
The wave-propagation update as a balance of the gains through the four faces.
-/
import Verif.Correction.Spec
import Mathlib.Algebra.BigOperators.Ring.Finset
import Mathlib.Algebra.BigOperators.Group.Finset.Sigma
import Mathlib.Tactic.FieldSimp
import Mathlib.Tactic.Ring
import Mathlib.Tactic.Linarith
import Mathlib.Tactic.LinearCombination

set_option autoImplicit false
set_option linter.unusedSimpArgs false
set_option linter.unusedVariables false
namespace Fclaw.Correction

open Fort Transform CopyGhost

theorem mem_upTo (n : Nat) (t : ℤ) : t ∈ upTo n ↔ 1 ≤ t ∧ t ≤ n := by unfold upTo; rw [Finset.mem_Icc]

theorem upTo_succ (n : Nat) : upTo (n + 1) = insert ((n : ℤ) + 1) (upTo n) := by
  ext t
  rw [Finset.mem_insert, mem_upTo, mem_upTo]
  push_cast
  omega

theorem sum_upTo_succ (n : Nat) (g : ℤ → ℚ) : ∑ t ∈ upTo (n + 1), g t = ∑ t ∈ upTo n, g t + g (n + 1) := by
  rw [upTo_succ, Finset.sum_insert (by rw [mem_upTo]; omega), add_comm]

theorem upTo_zero : upTo 0 = ∅ := by
  ext t
  rw [mem_upTo]
  simp only [Nat.cast_zero, Finset.notMem_empty, iff_false]
  omega

theorem telescope (n : Nat) (g : ℤ → ℚ) : ∑ t ∈ upTo n, (g (t + 1) - g t) = g (n + 1) - g 1 := by
  induction n with
  | zero => rw [upTo_zero]; simp
  | succ n ih =>
    rw [sum_upTo_succ, ih]
    push_cast
    ring

/-- One row (or column): `φl`, `φr` the fluxes of the cells through their lower and upper edges, `fm`, `fp`
the fluctuations at the edges, times the length in the other direction. -/
theorem row (n : Nat) (hn : 1 ≤ n) (fm fp φl φr : ℤ → ℚ)
    (h : ∀ i, 1 ≤ i → i ≤ (n : ℤ) + 1 → fm i - fp i = φl i - φr (i - 1)) :
    ∑ i ∈ upTo n, (fm (i + 1) - fp i) = ∑ i ∈ upTo n, (φl i - φr i) + (φr n + fm (n + 1)) - (φl 1 + fp 1) := by
  have e : ∀ i ∈ upTo n, fm (i + 1) - fp i = (fm (i + 1) - fm i) + (φr i - φr (i - 1)) + (φl i - φr i) := by
    intro i hi
    rw [mem_upTo] at hi
    have := h i hi.1 (by omega)
    linarith
  rw [Finset.sum_congr rfl e, Finset.sum_add_distrib, Finset.sum_add_distrib, telescope n fm]
  have t2 := telescope n (fun i => φr (i - 1))
  simp only [add_sub_cancel_right] at t2
  rw [t2]
  have h1 := h 1 (by omega) (by omega)
  have e11 : (1 : ℤ) - 1 = 0 := by ring
  rw [e11] at h1 ⊢
  linarith

variable {d : Dims}

theorem gain_step (G : Geom d) (rpn : Rpn) (q aux : Grid ℚ) (w : Waves) (r : Regs) (dt : ℚ)
    (φ : Nat → ℤ → ℤ → ℤ → ℚ) (m : ℤ)
    (hx : ∀ j : ℤ, 1 ≤ j → j ≤ d.my →
      φ 0 1 j m = r.el 0 j * rpn 0 0 (vec q 1 j) (vec aux 1 j) (vec aux 1 j) m ∧
      φ 1 0 j m = r.el 0 j * rpn 0 1 (vec q 0 j) (vec aux 0 j) (vec aux 1 j) m ∧
      φ 1 d.mx j m = r.el 1 j * rpn 0 1 (vec q d.mx j) (vec aux d.mx j) (vec aux (d.mx + 1) j) m ∧
      φ 0 (d.mx + 1) j m = r.el 1 j * rpn 0 0 (vec q (d.mx + 1) j) (vec aux (d.mx + 1) j) (vec aux (d.mx + 1) j) m)
    (hy : ∀ i : ℤ, 1 ≤ i → i ≤ d.mx →
      φ 2 i 1 m = r.el 2 i * rpn 1 2 (vec q i 1) (vec aux i 1) (vec aux i 1) m ∧
      φ 3 i 0 m = r.el 2 i * rpn 1 3 (vec q i 0) (vec aux i 0) (vec aux i 1) m ∧
      φ 3 i d.my m = r.el 3 i * rpn 1 3 (vec q i d.my) (vec aux i d.my) (vec aux i (d.my + 1)) m ∧
      φ 2 i (d.my + 1) m = r.el 3 i * rpn 1 2 (vec q i (d.my + 1)) (vec aux i (d.my + 1)) (vec aux i (d.my + 1)) m) :
    let r' := (step d rpn G.dx G.dy dt G.capa aux w q r).2
    (∀ j ∈ upTo d.my, gain r' 0 j m = gain r 0 j m + dt * (φ 0 1 j m + G.dy * w.fp (1, j, m)) ∧
      gain r' 1 j m = gain r 1 j m - dt * (φ 1 d.mx j m + G.dy * w.fm (d.mx + 1, j, m))) ∧
    (∀ i ∈ upTo d.mx, gain r' 2 i m = gain r 2 i m + dt * (φ 2 i 1 m + G.dx * w.gp (i, 1, m)) ∧
      gain r' 3 i m = gain r 3 i m - dt * (φ 3 i d.my m + G.dx * w.gm (i, d.my + 1, m))) := by
  intro r'
  constructor
  · intro j hj
    rw [mem_upTo] at hj
    obtain ⟨h1, h2, h3, h4⟩ := hx j hj.1 hj.2
    rw [h1, h3]
    constructor <;>
    · simp [r', gain, plus, minus, step, accumulateWaves, storeFlux]
      ring
  · intro i hi
    rw [mem_upTo] at hi
    obtain ⟨h1, h2, h3, h4⟩ := hy i hi.1 hi.2
    rw [h1, h3]
    constructor <;>
    · simp [r', gain, plus, minus, step, accumulateWaves, storeFlux]
      ring

/-- The sum over all faces. -/
def totalGain (d : Dims) (r : Regs) (m : ℤ) : ℚ := ∑ f ∈ Finset.range 4, gainFace d r f m

theorem totalGain_eq (r : Regs) (m : ℤ) : totalGain d r m =
    ∑ j ∈ upTo d.my, (gain r 0 j m + gain r 1 j m) + ∑ i ∈ upTo d.mx, (gain r 2 i m + gain r 3 i m) := by
  unfold totalGain gainFace
  rw [Finset.sum_range_succ, Finset.sum_range_succ, Finset.sum_range_succ, Finset.sum_range_succ, Finset.sum_range_zero,
    Finset.sum_add_distrib, Finset.sum_add_distrib]
  simp only [len, Nat.reduceDiv, if_true, show ¬ (1 : Nat) = 0 by omega, if_false]
  ring

theorem sized_pos (hd : Sized d) : 1 ≤ d.mx ∧ 1 ≤ d.my := ⟨by have := hd.mx2; omega, by have := hd.my2; omega⟩

/-- One step. -/
theorem mass_step (hx1 : 1 ≤ d.mx) (hy1 : 1 ≤ d.my) (G : Geom d) (rpn : Rpn) (q aux : Grid ℚ) (w : Waves) (r : Regs) (dt : ℚ)
    (hc : Conservative d G rpn q aux w r.el) (m : ℤ) (hm : comp d m) :
    mass d G.area (step d rpn G.dx G.dy dt G.capa aux w q r).1 m - mass d G.area q m =
    totalGain d (step d rpn G.dx G.dy dt G.capa aux w q r).2 m - totalGain d r m := by
  obtain ⟨φ, h⟩ := hc.fluxes
  obtain ⟨ex, ey, cl, hx, hy⟩ := h m hm
  obtain ⟨gx, gy⟩ := gain_step G rpn q aux w r dt φ m hx hy
  have hdx := ne_of_gt G.dxpos
  have hdy := ne_of_gt G.dypos
  rw [totalGain_eq, totalGain_eq]
  -- cells
  have cell : ∀ i ∈ upTo d.mx, ∀ j ∈ upTo d.my,
      G.area i j * (step d rpn G.dx G.dy dt G.capa aux w q r).1 (i, j, m) = G.area i j * q (i, j, m) -
        dt * ((G.dy * w.fm (i + 1, j, m) - G.dy * w.fp (i, j, m)) + (G.dx * w.gm (i, j + 1, m) - G.dx * w.gp (i, j, m))) := by
    intro i hi j hj
    have ha := ne_of_gt (G.areapos i hi j hj)
    rw [mem_upTo] at hi hj
    simp only [step, updateQ]
    rw [if_pos ⟨hi.1, hi.2, hj.1, hj.2⟩]
    unfold Geom.capa
    field_simp
  have e1 : mass d G.area (step d rpn G.dx G.dy dt G.capa aux w q r).1 m - mass d G.area q m =
      -(dt * (∑ j ∈ upTo d.my, ∑ i ∈ upTo d.mx, (G.dy * w.fm (i + 1, j, m) - G.dy * w.fp (i, j, m)) +
        ∑ i ∈ upTo d.mx, ∑ j ∈ upTo d.my, (G.dx * w.gm (i, j + 1, m) - G.dx * w.gp (i, j, m)))) := by
    unfold mass
    rw [Finset.sum_comm (s := upTo d.my) (t := upTo d.mx), ← Finset.sum_add_distrib, ← Finset.sum_sub_distrib,
      Finset.mul_sum, ← Finset.sum_neg_distrib]
    refine Finset.sum_congr rfl fun i hi => ?_
    rw [← Finset.sum_add_distrib, ← Finset.sum_sub_distrib, Finset.mul_sum, ← Finset.sum_neg_distrib]
    refine Finset.sum_congr rfl fun j hj => ?_
    rw [cell i hi j hj]
    ring
  have rx : ∀ j ∈ upTo d.my, ∑ i ∈ upTo d.mx, (G.dy * w.fm (i + 1, j, m) - G.dy * w.fp (i, j, m)) =
      ∑ i ∈ upTo d.mx, (φ 0 i j m - φ 1 i j m) + (φ 1 d.mx j m + G.dy * w.fm (d.mx + 1, j, m)) -
        (φ 0 1 j m + G.dy * w.fp (1, j, m)) := by
    intro j hj
    rw [mem_upTo] at hj
    refine row d.mx hx1 (fun i => G.dy * w.fm (i, j, m)) (fun i => G.dy * w.fp (i, j, m)) (fun i => φ 0 i j m)
      (fun i => φ 1 i j m) fun i h1 h2 => ?_
    have := ex i j h1 h2 hj.1 hj.2
    linarith
  have ry : ∀ i ∈ upTo d.mx, ∑ j ∈ upTo d.my, (G.dx * w.gm (i, j + 1, m) - G.dx * w.gp (i, j, m)) =
      ∑ j ∈ upTo d.my, (φ 2 i j m - φ 3 i j m) + (φ 3 i d.my m + G.dx * w.gm (i, d.my + 1, m)) -
        (φ 2 i 1 m + G.dx * w.gp (i, 1, m)) := by
    intro i hi
    rw [mem_upTo] at hi
    refine row d.my hy1 (fun j => G.dx * w.gm (i, j, m)) (fun j => G.dx * w.gp (i, j, m)) (fun j => φ 2 i j m)
      (fun j => φ 3 i j m) fun j h1 h2 => ?_
    have := ey i j hi.1 hi.2 h1 h2
    linarith
  rw [e1, Finset.sum_congr rfl rx, Finset.sum_congr rfl ry]
  have gx' : ∀ j ∈ upTo d.my, gain (step d rpn G.dx G.dy dt G.capa aux w q r).2 0 j m +
      gain (step d rpn G.dx G.dy dt G.capa aux w q r).2 1 j m = (gain r 0 j m + gain r 1 j m) +
        dt * ((φ 0 1 j m + G.dy * w.fp (1, j, m)) - (φ 1 d.mx j m + G.dy * w.fm (d.mx + 1, j, m))) := by
    intro j hj
    rw [(gx j hj).1, (gx j hj).2]
    ring
  have gy' : ∀ i ∈ upTo d.mx, gain (step d rpn G.dx G.dy dt G.capa aux w q r).2 2 i m +
      gain (step d rpn G.dx G.dy dt G.capa aux w q r).2 3 i m = (gain r 2 i m + gain r 3 i m) +
        dt * ((φ 2 i 1 m + G.dx * w.gp (i, 1, m)) - (φ 3 i d.my m + G.dx * w.gm (i, d.my + 1, m))) := by
    intro i hi
    rw [(gy i hi).1, (gy i hi).2]
    ring
  rw [Finset.sum_congr rfl gx', Finset.sum_congr rfl gy']
  have closed : ∑ j ∈ upTo d.my, ∑ i ∈ upTo d.mx, (φ 0 i j m - φ 1 i j m) + ∑ i ∈ upTo d.mx, ∑ j ∈ upTo d.my, (φ 2 i j m - φ 3 i j m) = 0 := by
    rw [Finset.sum_comm (s := upTo d.my) (t := upTo d.mx), ← Finset.sum_add_distrib]
    refine Finset.sum_eq_zero fun i hi => ?_
    rw [← Finset.sum_add_distrib]
    refine Finset.sum_eq_zero fun j hj => ?_
    rw [mem_upTo] at hi hj
    have := cl i j hi.1 hi.2 hj.1 hj.2
    linarith
  simp only [Finset.sum_add_distrib, Finset.sum_sub_distrib, ← Finset.mul_sum] at closed ⊢
  linear_combination (-dt) * closed

/-- Registers stay balanced. -/
theorem balanced_step (G : Geom d) (rpn : Rpn) (q aux : Grid ℚ) (w : Waves) (r : Regs) (dt : ℚ)
    (hx1 : 1 ≤ d.mx) (hy1 : 1 ≤ d.my)
    (hc : Conservative d G rpn q aux w r.el) (hb : Balanced d r) :
    Balanced d (step d rpn G.dx G.dy dt G.capa aux w q r).2 := by
  obtain ⟨φ, h⟩ := hc.fluxes
  intro f hf t ht m hm
  obtain ⟨ex, ey, cl, hx, hy⟩ := h m hm
  have hb' := hb f hf t ht m hm
  rw [mem_upTo] at ht
  have e10 : (1 : ℤ) - 1 = 0 := by ring
  match f, hf with
  | 0, _ =>
    simp only [len, Nat.zero_div, if_true] at ht
    obtain ⟨h1, h2, h3, h4⟩ := hx t ht.1 ht.2
    have := ex 1 t (by omega) (by omega) ht.1 ht.2
    rw [e10, h1, h2] at this
    simp [plus, minus, step, accumulateWaves, storeFlux] at hb' ⊢
    linear_combination hb' + dt * this
  | 1, _ =>
    simp only [len, Nat.reduceDiv, if_true] at ht
    obtain ⟨h1, h2, h3, h4⟩ := hx t ht.1 ht.2
    have := ex (d.mx + 1) t (by omega) (by omega) ht.1 ht.2
    rw [add_sub_cancel_right, h3, h4] at this
    simp [plus, minus, step, accumulateWaves, storeFlux] at hb' ⊢
    linear_combination hb' + dt * this
  | 2, _ =>
    simp [len] at ht
    obtain ⟨h1, h2, h3, h4⟩ := hy t ht.1 ht.2
    have := ey t 1 ht.1 ht.2 (by omega) (by omega)
    rw [e10, h1, h2] at this
    simp [plus, minus, step, accumulateWaves, storeFlux] at hb' ⊢
    linear_combination hb' + dt * this
  | 3, _ =>
    simp [len] at ht
    obtain ⟨h1, h2, h3, h4⟩ := hy t ht.1 ht.2
    have := ey t (d.my + 1) ht.1 ht.2 (by omega) (by omega)
    rw [add_sub_cancel_right, h3, h4] at this
    simp [plus, minus, step, accumulateWaves, storeFlux] at hb' ⊢
    linear_combination hb' + dt * this

theorem mass_congr (area : ℤ → ℤ → ℚ) (q q' : Grid ℚ) (m : ℤ)
    (h : ∀ i j m, interior d i j → q' (i, j, m) = q (i, j, m)) : mass d area q' m = mass d area q m := by
  unfold mass
  refine Finset.sum_congr rfl fun i hi => Finset.sum_congr rfl fun j hj => ?_
  rw [mem_upTo] at hi hj
  rw [h i j m ⟨hi.1, hi.2, hj.1, hj.2⟩]

end Fclaw.Correction

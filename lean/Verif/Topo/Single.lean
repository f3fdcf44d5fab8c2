import Verif.Topo.Measure
import Verif.Fort.Loops
/-
The integral of one file over a rectangle.
-/
set_option autoImplicit false
namespace Fclaw.Topo

open MeasureTheory Fort

/-- The element of area as a function of `y`. -/
noncomputable def World.el (w : World) (y : ℝ) : ℝ :=
  if w.coord = 2 then
    (w.earthRadius * (Real.pi / 180)) * (w.earthRadius * (Real.pi / 180) * Real.cos (y * (Real.pi / 180)))
  else 1

theorem element_el (w : World) (p : ℝ × ℝ) : w.element p = w.el p.2 := rfl

theorem el_continuous (w : World) : Continuous w.el := by
  unfold World.el
  split <;> fun_prop

theorem element_continuous (w : World) : Continuous w.element := by
  have : w.element = fun p => w.el p.2 := rfl
  rw [this]
  exact (el_continuous w).comp continuous_snd

theorem bilinear_continuous (T : File) (i j : ℤ) : Continuous (T.bilinear i j) := by
  unfold File.bilinear
  fun_prop

theorem pi_ne : (Real.pi / 180 : ℝ) ≠ 0 := by
  have := Real.pi_pos
  positivity

theorem bilinear_form (T : File) (hx : T.dx ≠ 0) (hy : T.dy ≠ 0) (i j : ℤ) (p : ℝ × ℝ) :
    T.bilinear i j p =
      (T.node i j + (T.node (i + 1) j - T.node i j) / T.dx * (p.1 - (T.xlow + i * T.dx)))
      + ((T.node i (j + 1) - T.node i j) / T.dy
        + (T.node (i + 1) (j + 1) - T.node (i + 1) j - T.node i (j + 1) + T.node i j) / (T.dx * T.dy)
          * (p.1 - (T.xlow + i * T.dx))) * (p.2 - (T.ylow + j * T.dy)) := by
  unfold File.bilinear
  field_simp
  ring

theorem sum_el_one (c d : ℝ) (h : c ≤ d) : ∫ _ in Set.Ioc c d, (1 : ℝ) = d - c := by
  have := integral_affine c d 0 1 0 h
  simpa using this

theorem sum_el_moment (c d y1 : ℝ) (h : c ≤ d) :
    ∫ y in Set.Ioc c d, (y - y1) * 1 = 1 / 2 * ((d - y1) ^ 2 - (c - y1) ^ 2) := by
  have := integral_affine c d y1 0 1 h
  simpa using this

/-- What is added for one cell of the grid of nodes. -/
noncomputable def piece (w : World) (R : Rect) (T : File) (ii jj : ℤ) : ℝ :=
  if w.coord = 1 then
    bilinearintegral R (T.xlow + ((ii : ℝ) - 1) * T.dx) (T.xlow + (ii : ℝ) * T.dx)
      (T.ylow + ((jj : ℝ) - 1) * T.dy) (T.ylow + (jj : ℝ) * T.dy) T.dx T.dy
      (T.node (ii - 1) (jj - 1)) (T.node (ii - 1) jj) (T.node ii (jj - 1)) (T.node ii jj)
  else
    bilinearintegralS w R (T.xlow + ((ii : ℝ) - 1) * T.dx) (T.xlow + (ii : ℝ) * T.dx)
      (T.ylow + ((jj : ℝ) - 1) * T.dy) (T.ylow + (jj : ℝ) * T.dy) T.dx T.dy
      (T.node (ii - 1) (jj - 1)) (T.node (ii - 1) jj) (T.node ii (jj - 1)) (T.node ii jj)

/-- The part of a rectangle in one cell of the grid of nodes. -/
def part (R : Rect) (T : File) (ii jj : ℤ) : Set (ℝ × ℝ) :=
  Set.Ioc (max R.xlo (T.xlow + ((ii : ℝ) - 1) * T.dx)) (min R.xhi (T.xlow + (ii : ℝ) * T.dx)) ×ˢ
  Set.Ioc (max R.ylo (T.ylow + ((jj : ℝ) - 1) * T.dy)) (min R.yhi (T.ylow + (jj : ℝ) * T.dy))

theorem piece_eq (w : World) (hw : w.coord = 1 ∨ w.coord = 2) (R : Rect) (T : File) (hT : T.Valid)
    (ii jj : ℤ)
    (hx : max R.xlo (T.xlow + ((ii : ℝ) - 1) * T.dx) ≤ min R.xhi (T.xlow + (ii : ℝ) * T.dx))
    (hy : max R.ylo (T.ylow + ((jj : ℝ) - 1) * T.dy) ≤ min R.yhi (T.ylow + (jj : ℝ) * T.dy)) :
    piece w R T ii jj = ∫ p in part R T ii jj, T.bilinear (ii - 1) (jj - 1) p * w.element p := by
  have hdx := hT.dx.ne'
  have hdy := hT.dy.ne'
  unfold part
  have e1 : (fun p => T.bilinear (ii - 1) (jj - 1) p * w.element p) = fun p =>
      ((T.node (ii - 1) (jj - 1) + (T.node ii (jj - 1) - T.node (ii - 1) (jj - 1)) / T.dx
          * (p.1 - (T.xlow + ((ii : ℝ) - 1) * T.dx)))
      + ((T.node (ii - 1) jj - T.node (ii - 1) (jj - 1)) / T.dy
        + (T.node ii jj - T.node ii (jj - 1) - T.node (ii - 1) jj + T.node (ii - 1) (jj - 1)) / (T.dx * T.dy)
          * (p.1 - (T.xlow + ((ii : ℝ) - 1) * T.dx))) * (p.2 - (T.ylow + ((jj : ℝ) - 1) * T.dy))) * w.el p.2 := by
    funext p
    rw [bilinear_form T hdx hdy, element_el]
    simp only [sub_add_cancel, Int.cast_sub, Int.cast_one]
  rw [e1, integral_bilinear _ _ _ _ _ _ _ _ _ _ _ (el_continuous w) hx]
  unfold piece
  rcases hw with hw | hw
  · have e2 : w.el = fun _ => 1 := by
      funext y; unfold World.el; rw [if_neg (by omega)]
    rw [e2, if_pos hw]
    rw [sum_el_one _ _ hy, sum_el_moment _ _ _ hy]
    unfold bilinearintegral
    field_simp
    ring
  · have e2 : w.el = fun y => (w.earthRadius * (Real.pi / 180)) ^ 2 * Real.cos (y * (Real.pi / 180)) := by
      funext y; unfold World.el; rw [if_pos hw]; ring
    have hk := pi_ne
    rw [e2, if_neg (by omega)]
    rw [integral_weight_cos _ _ _ _ hk hy, integral_moment_cos _ _ _ _ _ hk hy]
    unfold bilinearintegralS deg2rad
    have e3 : rad2deg = 1 / (Real.pi / 180) := by
      unfold rad2deg; have := Real.pi_ne_zero; field_simp
    rw [e3]
    generalize Real.pi / 180 = k at hk ⊢
    field_simp
    ring

/-! ### The loops -/

theorem loop_sum (l : List ℤ) (body : ℤ → ℝ → Option ℝ) (f : ℤ → ℝ)
    (h : ∀ k ∈ l, ∀ s, body k s = some (s + f k)) :
    ∀ s, loop l body s = some (s + (l.map f).sum) := by
  induction l with
  | nil => intro s; simp [loop]
  | cons k l ih =>
    intro s
    simp only [loop]
    rw [h k (by simp) s]
    simp only [Option.bind_some]
    rw [ih (fun k' hk' => h k' (by simp [hk']))]
    simp only [List.map_cons, List.sum_cons]
    ring_nf

theorem doLoop_sum (lo hi : ℤ) (body : ℤ → ℝ → Option ℝ) (f : ℤ → ℝ)
    (h : ∀ k, lo ≤ k → k ≤ hi → ∀ s, body k s = some (s + f k)) (s : ℝ) :
    doLoop lo hi body s = some (s + ∑ k ∈ Finset.Icc lo hi, f k) := by
  unfold doLoop
  rw [loop_sum _ _ f (fun k hk => h k ((mem_range _ _ _).mp hk).1 ((mem_range _ _ _).mp hk).2), range_sum]

/-- A rectangle inside the extent of a file. -/
structure Inside (R : Rect) (T : File) : Prop where
  xlo : T.xlow ≤ R.xlo
  xlt : R.xlo < R.xhi
  xhi : R.xhi ≤ T.xhi
  ylo : T.ylow ≤ R.ylo
  ylt : R.ylo < R.yhi
  yhi : R.yhi ≤ T.yhi

/-- First and last cell of the grid of nodes, in one direction. -/
theorem first_le {lo low dx : ℝ} (hdx : 0 < dx) (h : low ≤ lo) :
    max (idint ((lo - low) / dx) + 1) 1 = ⌊(lo - low) / dx⌋ + 1 ∧ 0 ≤ ⌊(lo - low) / dx⌋ := by
  have h0 : 0 ≤ (lo - low) / dx := div_nonneg (by linarith) hdx.le
  have h1 : 0 ≤ ⌊(lo - low) / dx⌋ := Int.floor_nonneg.mpr h0
  unfold idint
  rw [if_pos h0]
  exact ⟨by omega, h1⟩

theorem last_eq {hi top low dx : ℝ} {m : ℕ} (hdx : 0 < dx) (h : hi ≤ top)
    (ht : top = low + ((m : ℝ) - 1) * dx) :
    min (m : ℤ) (⌈(hi - low) / dx⌉ + 1) - 1 = ⌈(hi - low) / dx⌉ := by
  have h1 : (hi - low) / dx ≤ ((m : ℤ) - 1 : ℤ) := by
    push_cast
    rw [div_le_iff₀ hdx]
    linarith
  have h2 := Int.ceil_le.mpr h1
  omega

theorem cut_eq (lo hi low high : ℝ) (h1 : low ≤ lo) (h2 : hi ≤ high) :
    ¬ (lo - low < 0 ∨ hi - high > 0) := by
  push Not
  constructor <;> linarith

theorem topointegral_sum (w : World) (hw : w.coord = 1 ∨ w.coord = 2) (R : Rect) (T : File)
    (hT : T.Valid) (hR : Inside R T) :
    topointegral w R T = some (∑ jj ∈ Finset.Icc (⌊(R.ylo - T.ylow) / T.dy⌋ + 1) ⌈(R.yhi - T.ylow) / T.dy⌉,
      ∑ ii ∈ Finset.Icc (⌊(R.xlo - T.xlow) / T.dx⌋ + 1) ⌈(R.xhi - T.xlow) / T.dx⌉, piece w R T ii jj) := by
  unfold topointegral
  have cx := cut_eq R.xlo R.xhi T.xlow (T.xlow + ((T.mx : ℝ) - 1) * T.dx) hR.xlo (hT.xhi ▸ hR.xhi)
  have cy := cut_eq R.ylo R.yhi T.ylow (T.ylow + ((T.my : ℝ) - 1) * T.dy) hR.ylo (hT.yhi ▸ hR.yhi)
  simp only [if_neg cx, if_neg cy]
  obtain ⟨fx, fx0⟩ := first_le hT.dx hR.xlo
  obtain ⟨fy, fy0⟩ := first_le hT.dy hR.ylo
  have lx := last_eq hT.dx hR.xhi hT.xhi
  have ly := last_eq hT.dy hR.yhi hT.yhi
  have lx' : ⌈(R.xhi - T.xlow) / T.dx⌉ ≤ (T.mx : ℤ) - 1 := by omega
  have ly' : ⌈(R.yhi - T.ylow) / T.dy⌉ ≤ (T.my : ℤ) - 1 := by omega
  rw [fx, fy, lx, ly]
  rw [doLoop_sum _ _ _ (fun jj => ∑ ii ∈ Finset.Icc (⌊(R.xlo - T.xlow) / T.dx⌋ + 1)
    ⌈(R.xhi - T.xlow) / T.dx⌉, piece w R T ii jj)]
  · rw [zero_add]
  · intro jj hj1 hj2 s
    beta_reduce
    refine doLoop_sum _ _ _ _ ?_ s
    intro ii hi1 hi2 s
    have r1 : T.rd ii ((T.my : ℤ) - jj + 1) = some (T.node (ii - 1) (jj - 1)) := by
      unfold File.rd File.node
      rw [if_pos ⟨by omega, by omega, by omega, by omega⟩]
      congr 3 <;> omega
    have r2 : T.rd ii ((T.my : ℤ) - jj + 1 - 1) = some (T.node (ii - 1) jj) := by
      unfold File.rd File.node
      rw [if_pos ⟨by omega, by omega, by omega, by omega⟩]
      congr 3 <;> omega
    have r3 : T.rd (ii + 1) ((T.my : ℤ) - jj + 1) = some (T.node ii (jj - 1)) := by
      unfold File.rd File.node
      rw [if_pos ⟨by omega, by omega, by omega, by omega⟩]
      congr 3; omega
    have r4 : T.rd (ii + 1) ((T.my : ℤ) - jj + 1 - 1) = some (T.node ii jj) := by
      unfold File.rd File.node
      rw [if_pos ⟨by omega, by omega, by omega, by omega⟩]
      congr 3; omega
    simp only [r1, r2, r3, r4, Option.bind_some]
    unfold piece
    rcases hw with hw | hw
    · rw [if_pos hw, if_pos hw]
    · rw [if_neg (by omega : ¬ w.coord = 1), if_pos hw, if_neg (by omega : ¬ w.coord = 1)]

/-! ### The parts of a rectangle -/

theorem part_nonempty {lo hi low dx : ℝ} (hdx : 0 < dx) (hlt : lo < hi) (ii : ℤ)
    (h1 : ⌊(lo - low) / dx⌋ + 1 ≤ ii) (h2 : ii ≤ ⌈(hi - low) / dx⌉) :
    max lo (low + ((ii : ℝ) - 1) * dx) ≤ min hi (low + (ii : ℝ) * dx) := by
  have a1 : (lo - low) / dx < ii := by
    have := Int.lt_floor_add_one ((lo - low) / dx)
    have h : ((⌊(lo - low) / dx⌋ + 1 : ℤ) : ℝ) ≤ ii := by exact_mod_cast h1
    push_cast at h
    linarith
  have a2 : ((ii : ℝ) - 1) < (hi - low) / dx := by
    have := Int.ceil_lt_add_one ((hi - low) / dx)
    have h : (ii : ℝ) ≤ (⌈(hi - low) / dx⌉ : ℤ) := by exact_mod_cast h2
    linarith
  rw [div_lt_iff₀ hdx] at a1
  rw [lt_div_iff₀ hdx] at a2
  refine max_le (le_min hlt.le (by linarith)) (le_min (by linarith) ?_)
  nlinarith

theorem mem_slice {x low dx : ℝ} (hdx : 0 < dx) (ii : ℤ) :
    x ∈ Set.Ioc (low + ((ii : ℝ) - 1) * dx) (low + (ii : ℝ) * dx) ↔ ⌈(x - low) / dx⌉ = ii := by
  rw [Set.mem_Ioc, Int.ceil_eq_iff, lt_div_iff₀ hdx, div_le_iff₀ hdx]
  constructor
  · rintro ⟨h1, h2⟩; exact ⟨by linarith, by linarith⟩
  · rintro ⟨h1, h2⟩; exact ⟨by linarith, by linarith⟩

theorem mem_part (R : Rect) (T : File) (hT : T.Valid) (ii jj : ℤ) (p : ℝ × ℝ) :
    p ∈ part R T ii jj ↔ p ∈ Set.Ioc R.xlo R.xhi ×ˢ Set.Ioc R.ylo R.yhi ∧
      ⌈(p.1 - T.xlow) / T.dx⌉ = ii ∧ ⌈(p.2 - T.ylow) / T.dy⌉ = jj := by
  rw [← mem_slice hT.dx, ← mem_slice hT.dy]
  unfold part
  simp only [Set.mem_prod, Set.mem_Ioc, max_lt_iff, le_min_iff]
  tauto

theorem parts_union (R : Rect) (T : File) (hT : T.Valid) :
    (Set.Ioc R.xlo R.xhi ×ˢ Set.Ioc R.ylo R.yhi : Set (ℝ × ℝ)) =
      ⋃ c ∈ (Finset.Icc (⌊(R.ylo - T.ylow) / T.dy⌋ + 1) ⌈(R.yhi - T.ylow) / T.dy⌉ ×ˢ
        Finset.Icc (⌊(R.xlo - T.xlow) / T.dx⌋ + 1) ⌈(R.xhi - T.xlow) / T.dx⌉), part R T c.2 c.1 := by
  ext p
  simp only [Set.mem_iUnion, Finset.mem_product, Finset.mem_Icc, exists_prop, mem_part R T hT]
  constructor
  · intro h
    refine ⟨(⌈(p.2 - T.ylow) / T.dy⌉, ⌈(p.1 - T.xlow) / T.dx⌉), ⟨⟨?_, ?_⟩, ?_, ?_⟩, h, rfl, rfl⟩
    · have : R.ylo < p.2 := h.2.1
      have h1 : (R.ylo - T.ylow) / T.dy < (p.2 - T.ylow) / T.dy := by
        apply div_lt_div_of_pos_right _ hT.dy; linarith
      have h2 := Int.floor_le ((R.ylo - T.ylow) / T.dy)
      have h3 : ((⌊(R.ylo - T.ylow) / T.dy⌋ : ℤ) : ℝ) < (p.2 - T.ylow) / T.dy := lt_of_le_of_lt h2 h1
      have := Int.lt_ceil.mpr h3
      show _ ≤ ⌈(p.2 - T.ylow) / T.dy⌉
      omega
    · have : p.2 ≤ R.yhi := h.2.2
      apply Int.ceil_le_ceil
      apply div_le_div_of_nonneg_right _ hT.dy.le; linarith
    · have : R.xlo < p.1 := h.1.1
      have h1 : (R.xlo - T.xlow) / T.dx < (p.1 - T.xlow) / T.dx := by
        apply div_lt_div_of_pos_right _ hT.dx; linarith
      have h2 := Int.floor_le ((R.xlo - T.xlow) / T.dx)
      have h3 : ((⌊(R.xlo - T.xlow) / T.dx⌋ : ℤ) : ℝ) < (p.1 - T.xlow) / T.dx := lt_of_le_of_lt h2 h1
      have := Int.lt_ceil.mpr h3
      show _ ≤ ⌈(p.1 - T.xlow) / T.dx⌉
      omega
    · have : p.1 ≤ R.xhi := h.1.2
      apply Int.ceil_le_ceil
      apply div_le_div_of_nonneg_right _ hT.dx.le; linarith
  · rintro ⟨c, _, h, _⟩
    exact h

theorem part_measurable (R : Rect) (T : File) (ii jj : ℤ) : MeasurableSet (part R T ii jj) :=
  measurableSet_Ioc.prod measurableSet_Ioc

theorem part_disjoint (R : Rect) (T : File) (hT : T.Valid) (s : Set (ℤ × ℤ)) :
    s.Pairwise (Function.onFun Disjoint fun c : ℤ × ℤ => part R T c.2 c.1) := by
  intro c _ c' _ hne
  rw [Function.onFun, Set.disjoint_left]
  intro p h1 h2
  rw [mem_part R T hT] at h1 h2
  apply hne
  rw [Prod.ext_iff]
  exact ⟨h1.2.2.symm.trans h2.2.2, h1.2.1.symm.trans h2.2.1⟩

theorem height_part (R : Rect) (T : File) (hT : T.Valid) (ii jj : ℤ) (hi : 1 ≤ ii) (hj : 1 ≤ jj)
    (p : ℝ × ℝ) (hp : p ∈ part R T ii jj) : T.height p = T.bilinear (ii - 1) (jj - 1) p := by
  rw [mem_part R T hT] at hp
  unfold File.height
  rw [hp.2.1, hp.2.2, max_eq_right (by omega), max_eq_right (by omega)]

theorem part_integrable (w : World) (R : Rect) (T : File) (hT : T.Valid) (ii jj : ℤ) (hi : 1 ≤ ii)
    (hj : 1 ≤ jj) : IntegrableOn (fun p => T.height p * w.element p) (part R T ii jj) := by
  have h : IntegrableOn (fun p => T.bilinear (ii - 1) (jj - 1) p * w.element p) (part R T ii jj) :=
    continuous_integrableOn_Ioc ((bilinear_continuous T _ _).mul (element_continuous w)) _ _ _ _
  refine h.congr_fun ?_ (part_measurable R T ii jj)
  intro p hp
  beta_reduce
  rw [height_part R T hT ii jj hi hj p hp]

theorem height_integrable (w : World) (R : Rect) (T : File) (hT : T.Valid) (hx : T.xlow ≤ R.xlo)
    (hy : T.ylow ≤ R.ylo) : IntegrableOn (fun p => T.height p * w.element p) R.set := by
  unfold Rect.set
  rw [← integrableOn_congr_set_ae (rect_ae _ _ _ _), parts_union R T hT, integrableOn_finset_iUnion]
  intro c hc
  rw [Finset.mem_product, Finset.mem_Icc, Finset.mem_Icc] at hc
  have f1 := (first_le hT.dx hx).2
  have f2 := (first_le hT.dy hy).2
  exact part_integrable w R T hT _ _ (by omega) (by omega)

/-- `topointegral` is the integral of the height that the file gives. -/
theorem topointegral_eq (w : World) (hw : w.coord = 1 ∨ w.coord = 2) (R : Rect) (T : File)
    (hT : T.Valid) (hR : Inside R T) :
    topointegral w R T = some (∫ p in R.set, T.height p * w.element p) := by
  rw [topointegral_sum w hw R T hT hR]
  congr 1
  unfold Rect.set
  rw [← setIntegral_congr_set (rect_ae _ _ _ _), parts_union R T hT,
    integral_biUnion_finset _ (fun c _ => part_measurable R T _ _) (part_disjoint R T hT _), Finset.sum_product]
  · apply Finset.sum_congr rfl
    intro jj hj
    apply Finset.sum_congr rfl
    intro ii hi
    rw [Finset.mem_Icc] at hi hj
    have f1 := (first_le hT.dx hR.xlo).2
    have f2 := (first_le hT.dy hR.ylo).2
    rw [piece_eq w hw R T hT ii jj (part_nonempty hT.dx hR.xlt ii hi.1 hi.2)
      (part_nonempty hT.dy hR.ylt jj hj.1 hj.2)]
    apply setIntegral_congr_fun (part_measurable R T ii jj)
    intro p hp
    beta_reduce
    rw [height_part R T hT ii jj (by omega) (by omega) p hp]
  · intro c hc
    rw [Finset.mem_product, Finset.mem_Icc, Finset.mem_Icc] at hc
    have f1 := (first_le hT.dx hR.xlo).2
    have f2 := (first_le hT.dy hR.ylo).2
    exact part_integrable w R T hT _ _ (by omega) (by omega)

end Fclaw.Topo

import Verif.Topo.Setaux
/-
C90: the height of the ground that GeoClaw gives to a cell is the average, over the area of the cell, of the
surface that the finest data describe.
-/
set_option autoImplicit false
namespace Fclaw.Topo

open MeasureTheory Fort
open scoped Classical

/-! ### About the specification -/

theorem bilinear_shift_x (T : File) (i j : ℤ) (p : ℝ × ℝ) (h : (p.1 - T.xlow) / T.dx = (i : ℝ)) :
    T.bilinear (i - 1) j p = T.bilinear i j p := by
  unfold File.bilinear
  rw [h, sub_add_cancel]
  push_cast
  ring

theorem bilinear_shift_y (T : File) (i j : ℤ) (p : ℝ × ℝ) (h : (p.2 - T.ylow) / T.dy = (j : ℝ)) :
    T.bilinear i (j - 1) p = T.bilinear i j p := by
  unfold File.bilinear
  rw [h, sub_add_cancel]
  push_cast
  ring

/-- `File.height` is the interpolation of the four nodes around a point, whichever cell of the grid of nodes
is taken for a point that belongs to several. -/
theorem File.height_eq (T : File) (hT : T.Valid) (i j : ℤ) (hi : 0 ≤ i) (hj : 0 ≤ j) (p : ℝ × ℝ)
    (hx : T.xlow + (i : ℝ) * T.dx ≤ p.1 ∧ p.1 ≤ T.xlow + ((i : ℝ) + 1) * T.dx)
    (hy : T.ylow + (j : ℝ) * T.dy ≤ p.2 ∧ p.2 ≤ T.ylow + ((j : ℝ) + 1) * T.dy) :
    T.height p = T.bilinear i j p := by
  have ax1 : (i : ℝ) ≤ (p.1 - T.xlow) / T.dx := by rw [le_div_iff₀ hT.dx]; linarith [hx.1]
  have ax2 : (p.1 - T.xlow) / T.dx ≤ (i : ℝ) + 1 := by rw [div_le_iff₀ hT.dx]; linarith [hx.2]
  have ay1 : (j : ℝ) ≤ (p.2 - T.ylow) / T.dy := by rw [le_div_iff₀ hT.dy]; linarith [hy.1]
  have ay2 : (p.2 - T.ylow) / T.dy ≤ (j : ℝ) + 1 := by rw [div_le_iff₀ hT.dy]; linarith [hy.2]
  have cx1 : i ≤ ⌈(p.1 - T.xlow) / T.dx⌉ := by
    have := Int.ceil_le_ceil ax1; rwa [Int.ceil_intCast] at this
  have cx2 : ⌈(p.1 - T.xlow) / T.dx⌉ ≤ i + 1 := by
    apply Int.ceil_le.mpr; push_cast; exact ax2
  have cy1 : j ≤ ⌈(p.2 - T.ylow) / T.dy⌉ := by
    have := Int.ceil_le_ceil ay1; rwa [Int.ceil_intCast] at this
  have cy2 : ⌈(p.2 - T.ylow) / T.dy⌉ ≤ j + 1 := by
    apply Int.ceil_le.mpr; push_cast; exact ay2
  have stepx : ∀ J, T.bilinear (max 0 (⌈(p.1 - T.xlow) / T.dx⌉ - 1)) J p = T.bilinear i J p := by
    intro J
    by_cases h : ⌈(p.1 - T.xlow) / T.dx⌉ = i + 1
    · rw [h]; congr 1; omega
    · have h' : ⌈(p.1 - T.xlow) / T.dx⌉ = i := by omega
      rw [h']
      by_cases h0 : i = 0
      · subst h0; rfl
      · rw [max_eq_right (by omega), bilinear_shift_x]
        refine le_antisymm ?_ ax1
        have := Int.le_ceil ((p.1 - T.xlow) / T.dx)
        rwa [h'] at this
  have stepy : ∀ I, T.bilinear I (max 0 (⌈(p.2 - T.ylow) / T.dy⌉ - 1)) p = T.bilinear I j p := by
    intro I
    by_cases h : ⌈(p.2 - T.ylow) / T.dy⌉ = j + 1
    · rw [h]; congr 1; omega
    · have h' : ⌈(p.2 - T.ylow) / T.dy⌉ = j := by omega
      rw [h']
      by_cases h0 : j = 0
      · subst h0; rfl
      · rw [max_eq_right (by omega), bilinear_shift_y]
        refine le_antisymm ?_ ay1
        have := Int.le_ceil ((p.2 - T.ylow) / T.dy)
        rwa [h'] at this
  unfold File.height
  rw [stepx, stepy]

/-- A description of the ground exists, and where there are data there is only one. -/
theorem ground_exists (F : Files) : (∃ S, F.IsGround S) ∧
    ∀ S S', F.IsGround S → F.IsGround S' → ∀ p ∈ F.covered, S p = S' p :=
  ⟨⟨_, surf_ground F⟩, fun S S' h h' p hp => ground_unique F S S' h h' p hp⟩

/-- The area of a cell on the sphere is positive, away from the part of the plane beyond the poles. -/
theorem area_pos (w : World) (hw : w.coord = 1 ∨ w.coord = 2) (hr : 0 < w.earthRadius) (R : Rect)
    (hx : R.xlo < R.xhi) (hy : R.ylo < R.yhi) (h1 : -90 ≤ R.ylo) (h2 : R.yhi ≤ 90) : 0 < w.area R.set := by
  rw [area_rect w hw R hx.le hy.le]
  have hpi := Real.pi_pos
  split
  · have hs : Real.sin (R.ylo * deg2rad) < Real.sin (R.yhi * deg2rad) := by
      unfold deg2rad
      apply Real.sin_lt_sin_of_lt_of_le_pi_div_two
      · nlinarith
      · nlinarith
      · nlinarith
    have hk : 0 < deg2rad := by unfold deg2rad; positivity
    have : 0 < R.xhi - R.xlo := by linarith
    have : 0 < Real.sin (R.yhi * deg2rad) - Real.sin (R.ylo * deg2rad) := by linarith
    positivity
  · exact mul_pos (by linarith) (by linarith)

/-! ### One cell -/

/-- The integral over a rectangle that the data cover: it is found, without an access outside of the
arrays, and it is the volume under the surface that the finest data describe. -/
theorem C90_volume (w : World) (hw : w.coord = 1 ∨ w.coord = 2) (F : Files) (hF : F.Valid) (R : Rect)
    (hx : R.xlo < R.xhi) (hy : R.ylo < R.yhi) (hc : R.set ⊆ F.covered) (S : ℝ × ℝ → ℝ) (hS : F.IsGround S) :
    cellgridintegrate w F.ordered R = some (w.volume R.set S) :=
  cell_ground w hw F hF R hx hy hc S hS

/-- In general, points without data count as height zero; and the program stops if and only if the data
cover no part of the rectangle. -/
theorem C90_stop (w : World) (hw : w.coord = 1 ∨ w.coord = 2) (F : Files) (hF : F.Valid) (R : Rect)
    (S : ℝ × ℝ → ℝ) (hS : F.IsGround S) (h0 : ∀ p, p ∉ F.covered → S p = 0) :
    cellgridintegrate w F.ordered R =
      if planeArea (R.set ∩ F.covered) = 0 then none else some (w.volume R.set S) := by
  have hfin : volume (R.set ∩ F.covered) ≠ ⊤ :=
    ne_top_of_le_ne_top (rect_finite R) (measure_mono Set.inter_subset_left)
  have hz : planeArea (R.set ∩ F.covered) = 0 ↔ volume (R.set ∩ F.covered) = 0 := by
    unfold planeArea
    rw [ENNReal.toReal_eq_zero_iff]
    exact ⟨fun h => h.resolve_right hfin, Or.inl⟩
  by_cases h : volume (R.set ∩ F.covered) = 0
  · rw [if_pos (hz.mpr h)]
    exact cell_none w _ R (by rw [union_covered]; exact h)
  · rw [if_neg (fun h' => h (hz.mp h')), cell_eq w hw _ (ordered_valid F hF) R (by rw [union_covered]; exact h)]
    have hsurf : surf F.ordered = S := by
      funext p
      by_cases hp : p ∈ F.covered
      · exact ground_unique F _ _ (surf_ground F) hS p hp
      · rw [h0 p hp]
        have hnot : ∀ L : List File, p ∉ union L → surf L p = 0 := by
          intro L
          induction L with
          | nil => intro _; rfl
          | cons T Ts ih =>
            intro hL
            unfold union at hL
            rw [Set.mem_union, not_or] at hL
            rw [surf_out _ _ _ hL.1]
            exact ih hL.2
        exact hnot _ (by rw [union_covered]; exact hp)
    unfold vol World.volume
    rw [hsurf]

/-! ### A patch -/

/-- What `setaux` leaves behind in a patch of a domain that the data cover. -/
theorem C90_partial (w : World) (F : Files) (D : Domain) (P : Patch) (N M I0 J0 : ℤ) (S : ℝ × ℝ → ℝ)
    (hP : Placed D P N M I0 J0) (hA : Accepts w P) (hmint : 1 ≤ P.mint) (hF : F.Valid)
    (hC : D.set ⊆ F.covered) (hS : F.IsGround S) (aux : Grid ℝ) :
    ∃ aux', setaux w F D P aux = some aux' ∧
      ∀ i j, P.HasCell i j →
        (P.MustSet i j →
          -- the average over the cell, for a cell outside of the domain that over the nearest cell inside
          aux' (i, j, 1) = w.average (domainCell D P.dx P.dy (nearest N (I0 + i)) (nearest M (J0 + j))).set S ∧
          (w.coord = 2 →
            aux' (i, j, 2) * (P.dx * P.dy) = w.area (domainCell D P.dx P.dy (I0 + i) (J0 + j)).set ∧
            aux' (i, j, 3) = (domainCell D P.dx P.dy (I0 + i) (J0 + j)).ylo * (Real.pi / 180)) ∧
          (w.coord = 1 → 2 ≤ P.d.meqn → aux' (i, j, 2) = 1) ∧
          (w.coord = 1 → aux' (i, j, 3) = aux (i, j, 3)) ∧
          ∀ m, 4 ≤ m → aux' (i, j, m) = aux (i, j, m)) ∧
        (¬ P.MustSet i j → ∀ m, aux' (i, j, m) = aux (i, j, m)) := by
  have hm : 1 ≤ P.d.meqn := by
    rcases hA with h | h
    · exact h.2.2
    · have := h.2.2; omega
  unfold setaux
  rw [setauxCheck_eq w P hA]
  simp only [Option.bind_some]
  rw [bath_eq w F D P N M I0 J0 S hP hA hF hC hS]
  simp only [Option.bind_some]
  rw [rows_eq hP hm]
  simp only [Option.bind_some]
  rw [cols_eq hP hm]
  refine ⟨_, rfl, ?_⟩
  intro i j hc
  have hdx := hP.dx
  have hdy := hP.dy
  refine ⟨?_, ?_⟩
  · intro hset
    refine ⟨?_, ?_, ?_, ?_, ?_⟩
    · by_cases hin : InDom N M I0 J0 (i, j, 1)
      · have hin' := hin
        obtain ⟨d1, d2, d3, d4⟩ := hin
        simp only at d1 d2 d3 d4
        have n1 : nearest N (I0 + i) = I0 + i := by unfold nearest; omega
        have n2 : nearest M (J0 + j) = J0 + j := by unfold nearest; omega
        rw [n1, n2]
        simp only
        rw [if_neg (by omega), if_neg (by omega), if_pos ⟨hc, hset, rfl, rfl, Or.inr ⟨rfl, hin'⟩⟩]
        unfold cellVal
        simp only [if_true]
      · have hsrc : P.HasCell (source N M I0 J0 (i, j, 1)).1 (source N M I0 J0 (i, j, 1)).2.1 :=
          source_hasCell hP i j hc
        have hsrcm := source_mustSet hP hmint i j hset hin
        have hsd := source_inDom hP (i, j, 1)
        have hval : (if P.HasCell (source N M I0 J0 (i, j, 1)).1 (source N M I0 J0 (i, j, 1)).2.1 ∧
              cellWrites w P N M I0 J0 ((source N M I0 J0 (i, j, 1)).2.1, (source N M I0 J0 (i, j, 1)).1)
                (source N M I0 J0 (i, j, 1))
            then cellVal w D P I0 J0 S (source N M I0 J0 (i, j, 1)) else
              (if w.coord = 1 ∧ P.HasCell (source N M I0 J0 (i, j, 1)).1 (source N M I0 J0 (i, j, 1)).2.1 ∧
                P.MustSet (source N M I0 J0 (i, j, 1)).1 (source N M I0 J0 (i, j, 1)).2.1 ∧
                (source N M I0 J0 (i, j, 1)).2.2 = 2 ∧ 2 ≤ P.d.meqn then 1
              else aux (source N M I0 J0 (i, j, 1))))
            = w.average (domainCell D P.dx P.dy (nearest N (I0 + i)) (nearest M (J0 + j))).set S := by
          rw [if_pos ⟨hsrc, hsrcm, rfl, rfl, Or.inr ⟨rfl, hsd⟩⟩]
          unfold cellVal source
          simp only [if_true, add_sub_cancel]
        obtain ⟨s1, s2, s3, s4⟩ := hsd
        by_cases hx : I0 + i ≤ 0 ∨ N < I0 + i
        · simp only
          rw [if_pos ⟨hc, hset, trivial, hx⟩, if_neg (by omega)]
          exact hval
        · have hy : J0 + j ≤ 0 ∨ M < J0 + j := by
            unfold InDom at hin
            simp only at hin
            omega
          simp only
          rw [if_neg (by omega), if_pos ⟨hc, hset, trivial, hy⟩]
          exact hval
    · intro hw
      constructor
      · simp only
        rw [if_neg (by omega), if_neg (by omega), if_pos ⟨hc, hset, rfl, rfl, Or.inl ⟨hw, Or.inl rfl⟩⟩]
        unfold cellVal
        simp only
        rw [if_neg (by omega), if_pos trivial]
        field_simp
      · simp only
        rw [if_neg (by omega), if_neg (by omega), if_pos ⟨hc, hset, rfl, rfl, Or.inl ⟨hw, Or.inr rfl⟩⟩]
        unfold cellVal
        simp only
        rw [if_neg (by omega), if_neg (by omega)]
        rfl
    · intro hw hm2
      simp only
      rw [if_neg (by omega), if_neg (by omega), if_neg, if_pos ⟨hw, hc, hset, trivial, hm2⟩]
      rintro ⟨_, _, _, _, h | h⟩
      · omega
      · have := h.1; simp only at this; omega
    · intro hw
      simp only
      rw [if_neg (by omega), if_neg (by omega), if_neg, if_neg (by omega)]
      rintro ⟨_, _, _, _, h | h⟩
      · omega
      · have := h.1; simp only at this; omega
    · intro m hm4
      simp only
      rw [if_neg (by omega), if_neg (by omega), if_neg, if_neg (by omega)]
      rintro ⟨_, _, _, _, h | h⟩
      · simp only at h; omega
      · have := h.1; simp only at this; omega
  · intro hset m
    simp only
    rw [if_neg (fun h => hset h.2.1), if_neg (fun h => hset h.2.1), if_neg (fun h => hset h.2.1),
      if_neg (fun h => hset h.2.2.1)]

/-- A cell has the same height in every patch that contains it: as a cell of a patch, as a ghost cell of its
neighbours, and in copies of the patch on other processes. -/
theorem C90_same (w : World) (F : Files) (D : Domain) (P P' : Patch) (N M I0 J0 I0' J0' : ℤ)
    (hP : Placed D P N M I0 J0) (hP' : Placed D P' N M I0' J0') (hdx : P'.dx = P.dx) (hdy : P'.dy = P.dy)
    (hA : Accepts w P) (hA' : Accepts w P') (hmint : 1 ≤ P.mint) (hmint' : 1 ≤ P'.mint) (hF : F.Valid)
    (hC : D.set ⊆ F.covered) (a a' b b' : Grid ℝ) (h : setaux w F D P a = some b)
    (h' : setaux w F D P' a' = some b') (i j i' j' : ℤ) (hc : P.HasCell i j) (hc' : P'.HasCell i' j')
    (hs : P.MustSet i j) (hs' : P'.MustSet i' j') (hi : I0 + i = I0' + i') (hj : J0 + j = J0' + j') :
    b (i, j, 1) = b' (i', j', 1) := by
  obtain ⟨S, hS⟩ := (ground_exists F).1
  obtain ⟨c, e, hv⟩ := C90_partial w F D P N M I0 J0 S hP hA hmint hF hC hS a
  obtain ⟨c', e', hv'⟩ := C90_partial w F D P' N M I0' J0' S hP' hA' hmint' hF hC hS a'
  rw [h] at e; rw [h'] at e'
  injection e with e; injection e' with e'
  subst e; subst e'
  rw [((hv i j hc).1 hs).1, ((hv' i' j' hc').1 hs').1, hi, hj, hdx, hdy]

/-! ### Refinement -/

theorem rect_union4 (f : ℝ × ℝ → ℝ) (x0 x1 x2 y0 y1 y2 : ℝ) (hx1 : x0 ≤ x1) (hx2 : x1 ≤ x2)
    (hy1 : y0 ≤ y1) (hy2 : y1 ≤ y2) (hf : IntegrableOn f (Rect.set ⟨x0, x2, y0, y2⟩)) :
    ∫ p in Rect.set ⟨x0, x2, y0, y2⟩, f p =
      (∫ p in Rect.set ⟨x0, x1, y0, y1⟩, f p) + (∫ p in Rect.set ⟨x1, x2, y0, y1⟩, f p)
      + (∫ p in Rect.set ⟨x0, x1, y1, y2⟩, f p) + ∫ p in Rect.set ⟨x1, x2, y1, y2⟩, f p := by
  unfold Rect.set at *
  simp only at *
  have hf' := (integrableOn_congr_set_ae (rect_ae x0 x2 y0 y2)).mpr hf
  rw [← setIntegral_congr_set (rect_ae x0 x2 y0 y2), ← setIntegral_congr_set (rect_ae x0 x1 y0 y1),
    ← setIntegral_congr_set (rect_ae x1 x2 y0 y1), ← setIntegral_congr_set (rect_ae x0 x1 y1 y2),
    ← setIntegral_congr_set (rect_ae x1 x2 y1 y2)]
  have ux : Set.Ioc x0 x2 = Set.Ioc x0 x1 ∪ Set.Ioc x1 x2 := (Set.Ioc_union_Ioc_eq_Ioc hx1 hx2).symm
  have uy : Set.Ioc y0 y2 = Set.Ioc y0 y1 ∪ Set.Ioc y1 y2 := (Set.Ioc_union_Ioc_eq_Ioc hy1 hy2).symm
  have dx : Disjoint (Set.Ioc x0 x1) (Set.Ioc x1 x2) := Set.Ioc_disjoint_Ioc_of_le le_rfl
  have dy : Disjoint (Set.Ioc y0 y1) (Set.Ioc y1 y2) := Set.Ioc_disjoint_Ioc_of_le le_rfl
  have mx : ∀ a b c d : ℝ, MeasurableSet (Set.Ioc a b ×ˢ Set.Ioc c d : Set (ℝ × ℝ)) :=
    fun a b c d => measurableSet_Ioc.prod measurableSet_Ioc
  have i1 : IntegrableOn f (Set.Ioc x0 x2 ×ˢ Set.Ioc y0 y1) :=
    hf'.mono_set (Set.prod_mono le_rfl (Set.Ioc_subset_Ioc_right hy2))
  have i2 : IntegrableOn f (Set.Ioc x0 x2 ×ˢ Set.Ioc y1 y2) :=
    hf'.mono_set (Set.prod_mono le_rfl (Set.Ioc_subset_Ioc_left hy1))
  have hrow : ∀ c d : ℝ, IntegrableOn f (Set.Ioc x0 x2 ×ˢ Set.Ioc c d) →
      ∫ p in Set.Ioc x0 x2 ×ˢ Set.Ioc c d, f p =
        (∫ p in Set.Ioc x0 x1 ×ˢ Set.Ioc c d, f p) + ∫ p in Set.Ioc x1 x2 ×ˢ Set.Ioc c d, f p := by
    intro c d hi
    have e : (Set.Ioc x0 x2 ×ˢ Set.Ioc c d : Set (ℝ × ℝ))
        = Set.Ioc x0 x1 ×ˢ Set.Ioc c d ∪ Set.Ioc x1 x2 ×ˢ Set.Ioc c d := by rw [ux, Set.union_prod]
    rw [e, setIntegral_union (Set.disjoint_prod.mpr (Or.inl dx)) (mx _ _ _ _)]
    · exact hi.mono_set (by rw [e]; exact Set.subset_union_left)
    · exact hi.mono_set (by rw [e]; exact Set.subset_union_right)
  have e : (Set.Ioc x0 x2 ×ˢ Set.Ioc y0 y2 : Set (ℝ × ℝ))
      = Set.Ioc x0 x2 ×ˢ Set.Ioc y0 y1 ∪ Set.Ioc x0 x2 ×ˢ Set.Ioc y1 y2 := by rw [uy, Set.prod_union]
  rw [e, setIntegral_union (Set.disjoint_prod.mpr (Or.inr dy)) (mx _ _ _ _) i1 i2, hrow _ _ i1, hrow _ _ i2]
  ring

theorem ground_integrable (w : World) (F : Files) (hF : F.Valid) (R : Rect) (hc : R.set ⊆ F.covered)
    (S : ℝ × ℝ → ℝ) (hS : F.IsGround S) : IntegrableOn (fun p => S p * w.element p) R.set := by
  refine (surf_integrable w F.ordered (ordered_valid F hF) R).congr_fun ?_ (rect_measurable R)
  intro p hp
  beta_reduce
  rw [ground_unique F _ S (surf_ground F) hS p (hc hp)]

/-- Refinement keeps the ground: the height of a cell is the mean of the heights of the four cells of half
its size, weighted by their areas. Coarse patch `P`, fine patch `P'`; `(i', j')` is the lower left one of the
four fine cells. In Cartesian coordinates all weights are the same. -/
theorem C90_refine (w : World) (F : Files) (D : Domain) (P P' : Patch) (N M I0 J0 I0' J0' : ℤ)
    (hP : Placed D P N M I0 J0) (hP' : Placed D P' (2 * N) (2 * M) I0' J0') (hdx : P'.dx = P.dx / 2)
    (hdy : P'.dy = P.dy / 2) (hA : Accepts w P) (hA' : Accepts w P') (hmint : 1 ≤ P.mint)
    (hmint' : 1 ≤ P'.mint) (hF : F.Valid) (hC : D.set ⊆ F.covered)
    (hr : 0 < w.earthRadius) (hlat : w.coord = 2 → -90 ≤ D.ylo ∧ D.yhi ≤ 90)
    (a a' b b' : Grid ℝ) (h : setaux w F D P a = some b) (h' : setaux w F D P' a' = some b')
    (i j i' j' : ℤ) (hc : P.HasCell i j) (hs : P.MustSet i j)
    (hin : 1 ≤ I0 + i ∧ I0 + i ≤ N ∧ 1 ≤ J0 + j ∧ J0 + j ≤ M)
    (hc' : ∀ di ∈ [0, 1], ∀ dj ∈ [0, 1], P'.HasCell (i' + di) (j' + dj) ∧ P'.MustSet (i' + di) (j' + dj))
    (hi : I0' + i' = 2 * (I0 + i) - 1) (hj : J0' + j' = 2 * (J0 + j) - 1) :
    (w.coord = 1 → 4 * b (i, j, 1) = b' (i', j', 1) + b' (i' + 1, j', 1) + b' (i', j' + 1, 1)
      + b' (i' + 1, j' + 1, 1)) ∧
    (w.coord = 2 → 4 * (b (i, j, 2) * b (i, j, 1)) = b' (i', j', 2) * b' (i', j', 1)
      + b' (i' + 1, j', 2) * b' (i' + 1, j', 1) + b' (i', j' + 1, 2) * b' (i', j' + 1, 1)
      + b' (i' + 1, j' + 1, 2) * b' (i' + 1, j' + 1, 1)) := by
  have hw : w.coord = 1 ∨ w.coord = 2 := by
    rcases hA with h | h
    · exact Or.inl h.1
    · exact Or.inr h.1
  obtain ⟨S, hS⟩ := (ground_exists F).1
  obtain ⟨c, e, hv⟩ := C90_partial w F D P N M I0 J0 S hP hA hmint hF hC hS a
  obtain ⟨c', e', hv'⟩ := C90_partial w F D P' (2 * N) (2 * M) I0' J0' S hP' hA' hmint' hF hC hS a'
  rw [h] at e; rw [h'] at e'
  injection e with e; injection e' with e'
  subst e; subst e'
  obtain ⟨n1, n2, n3, n4⟩ := hin
  have pdx := hP.dx
  have pdy := hP.dy
  set X := D.xlo + (((I0 + i : ℤ) : ℝ) - 1) * P.dx with hX
  set Y := D.ylo + (((J0 + j : ℤ) : ℝ) - 1) * P.dy with hY
  have eC : domainCell D P.dx P.dy (I0 + i) (J0 + j) = ⟨X, X + P.dx, Y, Y + P.dy⟩ := by
    unfold domainCell
    rw [Rect.mk.injEq]
    refine ⟨rfl, ?_, rfl, ?_⟩
    · rw [hX]; ring
    · rw [hY]; ring
  -- positivity of areas
  have hsub : ∀ R : Rect, R.set ⊆ (domainCell D P.dx P.dy (I0 + i) (J0 + j)).set → R.set ⊆ F.covered :=
    fun R hR => hR.trans ((domainCell_subset pdx pdy hP.xhi hP.yhi n1 n2 n3 n4).trans hC)
  have hYlo : D.ylo ≤ Y := by
    have : (1 : ℝ) ≤ ((J0 + j : ℤ) : ℝ) := by exact_mod_cast n3
    rw [hY]; nlinarith
  have hYhi : Y + P.dy ≤ D.yhi := by
    have : ((J0 + j : ℤ) : ℝ) ≤ (M : ℝ) := by exact_mod_cast n4
    rw [hY, hP.yhi]; nlinarith
  have hpos : ∀ R : Rect, R.xlo < R.xhi → R.ylo < R.yhi → Y ≤ R.ylo → R.yhi ≤ Y + P.dy →
      w.average R.set S * w.area R.set = w.volume R.set S := by
    intro R r1 r2 r3 r4
    have hne : w.area R.set ≠ 0 := by
      rcases hw with h1 | h2
      · rw [area_rect w (Or.inl h1) R r1.le r2.le, if_neg (by omega)]
        exact mul_ne_zero (by linarith) (by linarith)
      · obtain ⟨l1, l2⟩ := hlat h2
        exact (area_pos w (Or.inr h2) hr R r1 r2 (by linarith) (by linarith)).ne'
    unfold World.average
    field_simp
  -- the four fine cells
  have fine : ∀ di ∈ [(0 : ℤ), 1], ∀ dj ∈ [(0 : ℤ), 1],
      b' (i' + di, j' + dj, 1) = w.average (Rect.set ⟨X + di * (P.dx / 2), X + (di + 1) * (P.dx / 2),
        Y + dj * (P.dy / 2), Y + (dj + 1) * (P.dy / 2)⟩) S ∧
      (w.coord = 2 → b' (i' + di, j' + dj, 2) * (P.dx / 2 * (P.dy / 2)) =
        w.area (Rect.set ⟨X + di * (P.dx / 2), X + (di + 1) * (P.dx / 2),
          Y + dj * (P.dy / 2), Y + (dj + 1) * (P.dy / 2)⟩)) := by
    intro di hdi dj hdj
    obtain ⟨q1, q2⟩ := hc' di hdi dj hdj
    have hdi' : 0 ≤ di ∧ di ≤ 1 := by simp at hdi; omega
    have hdj' : 0 ≤ dj ∧ dj ≤ 1 := by simp at hdj; omega
    have m1 : nearest (2 * N) (I0' + (i' + di)) = 2 * (I0 + i) - 1 + di := by unfold nearest; omega
    have m2 : nearest (2 * M) (J0' + (j' + dj)) = 2 * (J0 + j) - 1 + dj := by unfold nearest; omega
    have k1 : I0' + (i' + di) = 2 * (I0 + i) - 1 + di := by omega
    have k2 : J0' + (j' + dj) = 2 * (J0 + j) - 1 + dj := by omega
    have eR : domainCell D P'.dx P'.dy (2 * (I0 + i) - 1 + di) (2 * (J0 + j) - 1 + dj)
        = ⟨X + di * (P.dx / 2), X + (di + 1) * (P.dx / 2), Y + dj * (P.dy / 2), Y + (dj + 1) * (P.dy / 2)⟩ := by
      unfold domainCell
      rw [hdx, hdy, Rect.mk.injEq]
      push_cast
      refine ⟨?_, ?_, ?_, ?_⟩
      · rw [hX]; push_cast; ring
      · rw [hX]; push_cast; ring
      · rw [hY]; push_cast; ring
      · rw [hY]; push_cast; ring
    obtain ⟨v1, v2, _⟩ := (hv' (i' + di) (j' + dj) q1).1 q2
    rw [m1, m2, eR] at v1
    refine ⟨v1, ?_⟩
    intro h2
    have := (v2 h2).1
    rw [k1, k2, eR, hdx, hdy] at this
    exact this
  have f00 := fine 0 (by simp) 0 (by simp)
  have f10 := fine 1 (by simp) 0 (by simp)
  have f01 := fine 0 (by simp) 1 (by simp)
  have f11 := fine 1 (by simp) 1 (by simp)
  have ex0 : X + ((0 : ℤ) : ℝ) * (P.dx / 2) = X := by push_cast; ring
  have ex1 : X + (((0 : ℤ) : ℝ) + 1) * (P.dx / 2) = X + P.dx / 2 := by push_cast; ring
  have ex1' : X + ((1 : ℤ) : ℝ) * (P.dx / 2) = X + P.dx / 2 := by push_cast; ring
  have ex2 : X + (((1 : ℤ) : ℝ) + 1) * (P.dx / 2) = X + P.dx := by push_cast; ring
  have ey0 : Y + ((0 : ℤ) : ℝ) * (P.dy / 2) = Y := by push_cast; ring
  have ey1 : Y + (((0 : ℤ) : ℝ) + 1) * (P.dy / 2) = Y + P.dy / 2 := by push_cast; ring
  have ey1' : Y + ((1 : ℤ) : ℝ) * (P.dy / 2) = Y + P.dy / 2 := by push_cast; ring
  have ey2 : Y + (((1 : ℤ) : ℝ) + 1) * (P.dy / 2) = Y + P.dy := by push_cast; ring
  rw [ex0, ex1, ey0, ey1, add_zero, add_zero] at f00
  rw [ex1', ex2, ey0, ey1, add_zero] at f10
  rw [ex0, ex1, ey1', ey2, add_zero] at f01
  rw [ex1', ex2, ey1', ey2] at f11
  have nI : nearest N (I0 + i) = I0 + i := by unfold nearest; omega
  have nJ : nearest M (J0 + j) = J0 + j := by unfold nearest; omega
  obtain ⟨v1, v2, _⟩ := (hv i j hc).1 hs
  rw [nI, nJ, eC] at v1
  -- volumes add up
  have hcov : (Rect.set ⟨X, X + P.dx, Y, Y + P.dy⟩) ⊆ F.covered := hsub _ (by rw [eC])
  have hvol : w.volume (Rect.set ⟨X, X + P.dx, Y, Y + P.dy⟩) S
      = w.volume (Rect.set ⟨X, X + P.dx / 2, Y, Y + P.dy / 2⟩) S
      + w.volume (Rect.set ⟨X + P.dx / 2, X + P.dx, Y, Y + P.dy / 2⟩) S
      + w.volume (Rect.set ⟨X, X + P.dx / 2, Y + P.dy / 2, Y + P.dy⟩) S
      + w.volume (Rect.set ⟨X + P.dx / 2, X + P.dx, Y + P.dy / 2, Y + P.dy⟩) S := by
    unfold World.volume
    exact rect_union4 _ X (X + P.dx / 2) (X + P.dx) Y (Y + P.dy / 2) (Y + P.dy) (by linarith)
      (by linarith) (by linarith) (by linarith) (ground_integrable w F hF _ hcov S hS)
  rw [← hpos ⟨X, X + P.dx, Y, Y + P.dy⟩ (by simp only; linarith) (by simp only; linarith) le_rfl le_rfl,
    ← hpos ⟨X, X + P.dx / 2, Y, Y + P.dy / 2⟩ (by simp only; linarith) (by simp only; linarith) le_rfl
      (by simp only; linarith),
    ← hpos ⟨X + P.dx / 2, X + P.dx, Y, Y + P.dy / 2⟩ (by simp only; linarith) (by simp only; linarith) le_rfl
      (by simp only; linarith),
    ← hpos ⟨X, X + P.dx / 2, Y + P.dy / 2, Y + P.dy⟩ (by simp only; linarith) (by simp only; linarith)
      (by simp only; linarith) le_rfl,
    ← hpos ⟨X + P.dx / 2, X + P.dx, Y + P.dy / 2, Y + P.dy⟩ (by simp only; linarith) (by simp only; linarith)
      (by simp only; linarith) le_rfl, ← v1, ← f00.1, ← f10.1, ← f01.1, ← f11.1] at hvol
  constructor
  · intro h1
    have ar : ∀ R : Rect, R.xlo ≤ R.xhi → R.ylo ≤ R.yhi →
        w.area R.set = (R.xhi - R.xlo) * (R.yhi - R.ylo) := by
      intro R r1 r2
      rw [area_rect w hw R r1 r2, if_neg (by omega)]
    rw [ar ⟨X, X + P.dx, Y, Y + P.dy⟩ (by simp only; linarith) (by simp only; linarith),
      ar ⟨X, X + P.dx / 2, Y, Y + P.dy / 2⟩ (by simp only; linarith) (by simp only; linarith),
      ar ⟨X + P.dx / 2, X + P.dx, Y, Y + P.dy / 2⟩ (by simp only; linarith) (by simp only; linarith),
      ar ⟨X, X + P.dx / 2, Y + P.dy / 2, Y + P.dy⟩ (by simp only; linarith) (by simp only; linarith),
      ar ⟨X + P.dx / 2, X + P.dx, Y + P.dy / 2, Y + P.dy⟩ (by simp only; linarith) (by simp only; linarith)]
      at hvol
    simp only at hvol
    have hne : P.dx * P.dy ≠ 0 := (mul_pos pdx pdy).ne'
    apply mul_left_cancel₀ hne
    linear_combination 4 * hvol
  · intro h2
    have q := (v2 h2).1
    rw [eC] at q
    rw [← q, ← f00.2 h2, ← f10.2 h2, ← f01.2 h2, ← f11.2 h2] at hvol
    have hne : P.dx * P.dy ≠ 0 := (mul_pos pdx pdy).ne'
    apply mul_left_cancel₀ hne
    linear_combination 4 * hvol

/-! ### The check at the start -/

theorem ordered_ne (F : Files) (h : 1 ≤ F.n) : F.ordered ≠ [] := by
  intro h0
  have h1 : (1 : ℤ) ∈ F.nums := (mem_nums F 1).mpr ⟨le_rfl, by exact_mod_cast h⟩
  rw [ordered_nums, List.map_eq_nil_iff] at h0
  rw [h0] at h1
  simp at h1

/-- `topoarea` finds the area of the part of a rectangle that the files cover, however they overlap. -/
theorem C90_area (F : Files) (hn : 1 ≤ F.n) (R : Rect) :
    topoarea F.ordered R = some (planeArea (R.set ∩ F.covered)) := by
  rw [topoarea_eq _ (ordered_ne F hn), union_covered]
  rfl

/-- The program starts without a warning if the files cover the domain, and it stops if and only if more
than one per cent of the domain have no data. -/
theorem C90_start (F : Files) (hn : 1 ≤ F.n) (D : Domain) (hx : D.xlo < D.xhi) (hy : D.ylo < D.yhi) :
    ∃ s, startCheck F D = some s ∧
      (s = .stop ↔ planeArea D.set / 100 < planeArea (D.set \ F.covered)) ∧
      (D.set ⊆ F.covered → s = .go) ∧
      (s = .go → planeArea (D.set \ F.covered) ≤ planeArea D.set / 1000000000000) := by
  have hA : planeArea D.set = (D.yhi - D.ylo) * (D.xhi - D.xlo) := by
    rw [mul_comm]; exact rect_area D hx.le hy.le
  have hpos : 0 < planeArea D.set := by
    rw [hA]; exact mul_pos (by linarith) (by linarith)
  have hsum : planeArea (D.set ∩ F.covered) + planeArea (D.set \ F.covered) = planeArea D.set := by
    have hm : MeasurableSet F.covered := by rw [← union_covered]; exact union_measurable _
    exact measureReal_inter_add_sdiff (μ := volume) (s := D.set) hm (rect_finite D)
  have hnn : 0 ≤ planeArea (D.set \ F.covered) := ENNReal.toReal_nonneg
  have habs : |planeArea (D.set ∩ F.covered) - planeArea D.set| = planeArea (D.set \ F.covered) := by
    rw [abs_sub_comm, abs_of_nonneg] <;> linarith
  unfold startCheck
  rw [C90_area F hn D]
  simp only [Option.bind_some]
  rw [← hA, habs]
  by_cases h1 : planeArea (D.set \ F.covered) > 1 / 100 * planeArea D.set
  · rw [if_pos h1]
    refine ⟨.stop, rfl, ?_, ?_, ?_⟩
    · simp only [true_iff]; linarith
    · intro hsub
      rw [Set.sdiff_eq_empty.mpr hsub] at h1
      unfold planeArea at h1 hpos
      rw [measure_empty, ENNReal.toReal_zero] at h1
      linarith
    · intro h; simp at h
  · rw [if_neg h1]
    by_cases h2 : planeArea (D.set \ F.covered) > 1 / 1000000000000 * planeArea D.set
    · rw [if_pos h2]
      refine ⟨.warn, rfl, ?_, ?_, ?_⟩
      · constructor
        · intro h; simp at h
        · intro h; exact absurd (by linarith) h1
      · intro hsub
        rw [Set.sdiff_eq_empty.mpr hsub] at h2
        unfold planeArea at h2 hpos
        rw [measure_empty, ENNReal.toReal_zero] at h2
        linarith
      · intro h; simp at h
    · rw [if_neg h2]
      refine ⟨.go, rfl, ?_, fun _ => rfl, fun _ => by linarith⟩
      constructor
      · intro h; simp at h
      · intro h; exact absurd (by linarith) h1

/-! ### A hole in the data -/

theorem one_file (F : Files) (hn : F.n = 1) : F.ordered = [F.file 1] := by
  have h1 : F.IsFile 1 := ⟨le_rfl, by rw [hn]; rfl⟩
  have h2 := mtopoorder_file F h1
  unfold Files.IsFile at h2
  rw [hn] at h2
  have h3 : F.mtopoorder 1 = 1 := by push_cast at h2; omega
  unfold Files.ordered
  rw [hn]
  have h4 : range 1 ((1 : ℕ) : ℤ) = [1] := by decide
  rw [h4, List.map_cons, List.map_nil, h3]

/-- Data for the unit square: height one everywhere. -/
noncomputable def unitFiles : Files where
  n := 1
  file := fun _ => ⟨2, 2, 0, 1, 0, 1, 1, 1, fun _ => 1⟩

/-- A domain of 67 cells by one cell; half a per cent of it has no data. -/
noncomputable def wideDomain : Domain := ⟨0, 1005 / 1000, 0, 1⟩

theorem unit_height (p : ℝ × ℝ) : (unitFiles.file 1).height p = 1 := by
  unfold File.height File.bilinear File.node unitFiles
  simp only
  ring

theorem unit_covered : unitFiles.covered = (Rect.set ⟨0, 1, 0, 1⟩) := by
  rw [← union_covered, one_file unitFiles rfl]
  unfold union union
  rw [Set.union_empty]
  rfl

/-- The property does not hold where the data do not cover the domain, and the program may go on in this case
(with a warning): the data give the height one wherever there are data, but the last cell gets two thirds. -/
theorem C90_hole_counterexample :
    startCheck unitFiles wideDomain = some .warn ∧
    unitFiles.IsGround (fun _ => 1) ∧
    ∃ v, cellgridintegrate ⟨1, 0⟩ unitFiles.ordered (domainCell wideDomain (15 / 1000) 1 67 1) = some v ∧
      v / (15 / 1000 * 1) = 2 / 3 := by
  have hF : unitFiles.Valid := by
    intro a _
    unfold unitFiles
    constructor <;> norm_num
  refine ⟨?_, ?_, ?_⟩
  · unfold startCheck
    rw [C90_area unitFiles le_rfl, unit_covered]
    have e : wideDomain.set ∩ Rect.set ⟨0, 1, 0, 1⟩ = Rect.set ⟨0, 1, 0, 1⟩ := by
      apply Set.inter_eq_right.mpr
      rintro p ⟨⟨p1, p2⟩, p3, p4⟩
      unfold wideDomain
      simp only at p1 p2 p3 p4
      exact ⟨⟨p1, by simp only; linarith⟩, p3, p4⟩
    have ea : planeArea (Rect.set ⟨0, 1, 0, 1⟩) = 1 := by
      have := rect_area ⟨0, 1, 0, 1⟩ (by norm_num) (by norm_num)
      unfold planeArea
      rw [Measure.real] at this
      rw [this]; norm_num
    rw [e, ea]
    simp only [Option.bind_some]
    unfold wideDomain
    norm_num [abs_of_neg]
  · rintro p a ⟨h1, _, _⟩
    have : (unitFiles.file a) = unitFiles.file 1 := rfl
    rw [this, unit_height]
  · have hS := C90_stop ⟨1, 0⟩ (Or.inl rfl) unitFiles hF (domainCell wideDomain (15 / 1000) 1 67 1)
      (fun p => if p ∈ unitFiles.covered then 1 else 0)
      (by
        rintro p a ⟨h1, h2, _⟩
        have : (unitFiles.file a) = unitFiles.file 1 := rfl
        rw [this, unit_height]; exact if_pos ⟨a, h1, h2⟩)
      (fun p hp => if_neg hp)
    have eR : domainCell wideDomain (15 / 1000) 1 67 1 = ⟨99 / 100, 1005 / 1000, 0, 1⟩ := by
      unfold domainCell wideDomain
      norm_num
    have eI : Rect.set ⟨99 / 100, 1005 / 1000, 0, 1⟩ ∩ unitFiles.covered = Rect.set ⟨99 / 100, 1, 0, 1⟩ := by
      rw [unit_covered]
      unfold Rect.set
      rw [Set.prod_inter_prod, Set.Icc_inter_Icc, Set.Icc_inter_Icc]
      simp only
      norm_num
    have ea : planeArea (Rect.set ⟨99 / 100, 1, 0, 1⟩) = 1 / 100 := by
      have := rect_area ⟨99 / 100, 1, 0, 1⟩ (by norm_num) (by norm_num)
      unfold planeArea
      rw [Measure.real] at this
      rw [this]; norm_num
    rw [eR] at hS ⊢
    rw [eI, ea, if_neg (by norm_num)] at hS
    refine ⟨_, hS, ?_⟩
    have ev : World.volume ⟨1, 0⟩ (Rect.set ⟨99 / 100, 1005 / 1000, 0, 1⟩)
        (fun p => if p ∈ unitFiles.covered then 1 else 0) = 1 / 100 := by
      unfold World.volume
      have e1 : (fun p : ℝ × ℝ => (if p ∈ unitFiles.covered then (1 : ℝ) else 0) * World.element ⟨1, 0⟩ p)
          = unitFiles.covered.indicator (fun _ => (1 : ℝ)) := by
        funext p
        unfold World.element Set.indicator
        simp
      rw [e1, setIntegral_indicator (by rw [unit_covered]; exact rect_measurable _), eI, setIntegral_const]
      have : volume.real (Rect.set ⟨99 / 100, 1, 0, 1⟩) = 1 / 100 := ea
      rw [this]; norm_num
    rw [ev]
    norm_num

/-! ### The hypotheses can be met -/

/-- A coarse file for the square `[0,4] x [0,4]` and a fine one for `[1,2] x [1,2]`. -/
noncomputable def twoFiles : Files where
  n := 2
  file := fun a => if a = 1 then ⟨2, 2, 0, 4, 0, 4, 4, 4, fun c => c.1 + 2 * c.2⟩
    else ⟨3, 3, 1, 2, 1, 2, 1 / 2, 1 / 2, fun c => c.1 * c.2⟩

noncomputable def squareDomain : Domain := ⟨0, 4, 0, 4⟩

/-- A patch with two by two cells and two layers of ghost cells in the lower right corner. -/
noncomputable def cornerPatch (maux : ℕ) (mcapa : ℤ) (ghost : Bool) : Patch where
  d := ⟨2, 2, 2, maux⟩
  xlow := 2
  ylow := 0
  dx := 1
  dy := 1
  isGhost := ghost
  nghost := 2
  mint := 4
  mcapa := mcapa

theorem two_valid : twoFiles.Valid := by
  intro a _
  unfold twoFiles
  by_cases h : a = 1
  · simp only [if_pos h]; constructor <;> norm_num
  · simp only [if_neg h]; constructor <;> norm_num

theorem two_covers : squareDomain.set ⊆ twoFiles.covered := by
  intro p hp
  exact ⟨1, ⟨le_rfl, by unfold twoFiles; norm_num⟩, hp⟩

theorem corner_placed (maux : ℕ) (mcapa : ℤ) (ghost : Bool) :
    Placed squareDomain (cornerPatch maux mcapa ghost) 4 4 2 0 := by
  unfold squareDomain cornerPatch
  constructor <;> norm_num

/-- At some points the fine file counts. -/
example : twoFiles.IsFinest (3 / 2, 3 / 2) 2 := by
  refine ⟨⟨by norm_num, by unfold twoFiles; norm_num⟩, ?_, ?_⟩
  · unfold twoFiles File.extent
    norm_num [Set.mem_prod, Set.mem_Icc]
  · intro b hb hne _
    left
    have : b = 1 := by
      unfold Files.IsFile twoFiles at hb
      simp only at hb
      push_cast at hb
      omega
    subst this
    unfold twoFiles
    norm_num

/-- At others it does not. -/
example : twoFiles.IsFinest (3, 1) 1 := by
  refine ⟨⟨by norm_num, by unfold twoFiles; norm_num⟩, ?_, ?_⟩
  · unfold twoFiles File.extent
    norm_num [Set.mem_prod, Set.mem_Icc]
  · intro b hb hne hin
    exfalso
    have : b ≠ 1 := hne
    unfold twoFiles File.extent at hin
    simp only [if_neg this] at hin
    norm_num [Set.mem_prod, Set.mem_Icc] at hin

/-- `C90_partial` for this patch, in both systems of coordinates, also as a ghost patch. -/
example (S : ℝ × ℝ → ℝ) (hS : twoFiles.IsGround S) (g : Bool) (aux : Grid ℝ) :=
  C90_partial ⟨1, 0⟩ twoFiles squareDomain (cornerPatch 1 0 g) 4 4 2 0 S (corner_placed 1 0 g)
    (Or.inl ⟨rfl, le_rfl, le_rfl⟩) (by unfold cornerPatch; norm_num) two_valid two_covers hS aux
example (S : ℝ × ℝ → ℝ) (hS : twoFiles.IsGround S) (g : Bool) (aux : Grid ℝ) :=
  C90_partial ⟨2, 6367500⟩ twoFiles squareDomain (cornerPatch 3 2 g) 4 4 2 0 S (corner_placed 3 2 g)
    (Or.inr ⟨rfl, rfl, le_rfl⟩) (by unfold cornerPatch; norm_num) two_valid two_covers hS aux

/-- The cell in the corner is set, the ghost cell next to it gets the value of that cell. -/
example : (cornerPatch 1 0 true).HasCell 3 0 ∧ (cornerPatch 1 0 true).MustSet 3 0 ∧
    nearest 4 (2 + 3) = 4 ∧ nearest 4 (0 + 0) = 1 := by
  refine ⟨?_, ?_, by decide, by decide⟩
  · unfold Patch.HasCell cornerPatch; norm_num
  · intro _; unfold cornerPatch; norm_num

/-- A patch of half the cell size that holds the four fine cells of cell `(1, 1)` of the patch above, for
`C90_refine`. -/
noncomputable def finePatch : Patch where
  d := ⟨4, 4, 2, 1⟩
  xlow := 2
  ylow := 0
  dx := 1 / 2
  dy := 1 / 2
  isGhost := false
  nghost := 2
  mint := 4
  mcapa := 0

example : Placed squareDomain finePatch (2 * 4) (2 * 4) 4 0 ∧
    (∀ di ∈ [(0 : ℤ), 1], ∀ dj ∈ [(0 : ℤ), 1],
      finePatch.HasCell (1 + di) (1 + dj) ∧ finePatch.MustSet (1 + di) (1 + dj)) ∧
    (4 : ℤ) + 1 = 2 * (2 + 1) - 1 ∧ (0 : ℤ) + 1 = 2 * (0 + 1) - 1 := by
  refine ⟨?_, ?_, by decide, by decide⟩
  · unfold squareDomain finePatch
    constructor <;> norm_num
  · intro di hi dj hj
    simp at hi hj
    constructor
    · unfold Patch.HasCell finePatch
      simp only
      omega
    · intro h
      simp [finePatch] at h

end Fclaw.Topo

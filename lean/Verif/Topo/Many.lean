import Verif.Topo.Single
/-
Several files: the surface that is integrated, and the order of the files.
-/
set_option autoImplicit false
namespace Fclaw.Topo

open MeasureTheory Fort
open scoped Classical

/-- The height according to the first file of a list with data at a point; zero if there is none. -/
noncomputable def surf : List File → ℝ × ℝ → ℝ
  | [], _ => 0
  | T :: Ts, p => if p ∈ T.extent then T.height p else surf Ts p

/-- The points for which a file of a list has data. -/
def union : List File → Set (ℝ × ℝ)
  | [] => ∅
  | T :: Ts => T.extent ∪ union Ts

theorem rect_measurable (R : Rect) : MeasurableSet R.set := measurableSet_Icc.prod measurableSet_Icc

theorem extent_measurable (T : File) : MeasurableSet T.extent := measurableSet_Icc.prod measurableSet_Icc

theorem union_measurable (L : List File) : MeasurableSet (union L) := by
  induction L with
  | nil => exact MeasurableSet.empty
  | cons T Ts ih => exact (extent_measurable T).union ih

theorem meet_set (R : Rect) (T : File) : (intersection R T.rect).rect.set = R.set ∩ T.extent := by
  have e : (intersection R T.rect).rect = ⟨max R.xlo T.xlow, min R.xhi T.xhi, max R.ylo T.ylow, min R.yhi T.yhi⟩ := by
    unfold intersection File.rect
    simp only
    split <;> rfl
  rw [e]
  unfold Rect.set File.extent
  rw [Set.prod_inter_prod, Set.Icc_inter_Icc, Set.Icc_inter_Icc]

theorem rect_volume (R : Rect) :
    volume R.set = ENNReal.ofReal (R.xhi - R.xlo) * ENNReal.ofReal (R.yhi - R.ylo) := by
  unfold Rect.set
  rw [Measure.volume_eq_prod, Measure.prod_prod, Real.volume_Icc, Real.volume_Icc]

theorem rect_finite (R : Rect) : volume R.set ≠ ⊤ := by
  rw [rect_volume]
  exact ENNReal.mul_ne_top ENNReal.ofReal_ne_top ENNReal.ofReal_ne_top

theorem rect_area (R : Rect) (hx : R.xlo ≤ R.xhi) (hy : R.ylo ≤ R.yhi) :
    volume.real R.set = (R.xhi - R.xlo) * (R.yhi - R.ylo) := by
  rw [Measure.real, rect_volume, ENNReal.toReal_mul, ENNReal.toReal_ofReal (by linarith),
    ENNReal.toReal_ofReal (by linarith)]

/-- What `intersection` says. -/
theorem meet_cases (R : Rect) (T : File) :
    ((intersection R T.rect).indicator = 1 ∧ 0 < (intersection R T.rect).area ∧
      Inside (intersection R T.rect).rect T ∧ (intersection R T.rect).area = volume.real (R.set ∩ T.extent)) ∨
    ((intersection R T.rect).indicator ≠ 1 ∧ (intersection R T.rect).area = 0 ∧
      volume (R.set ∩ T.extent) = 0) := by
  by_cases h : min R.xhi T.xhi > max R.xlo T.xlow ∧ min R.yhi T.yhi > max R.ylo T.ylow
  · left
    have e : intersection R T.rect = ⟨1, (min R.xhi T.xhi - max R.xlo T.xlow) * (min R.yhi T.yhi - max R.ylo T.ylow),
        ⟨max R.xlo T.xlow, min R.xhi T.xhi, max R.ylo T.ylow, min R.yhi T.yhi⟩⟩ := by
      unfold intersection File.rect
      simp only
      rw [if_pos h]
    refine ⟨by rw [e], ?_, ?_, ?_⟩
    · rw [e]
      exact mul_pos (by linarith [h.1]) (by linarith [h.2])
    · rw [e]
      exact ⟨le_max_right _ _, h.1, min_le_right _ _, le_max_right _ _, h.2, min_le_right _ _⟩
    · rw [← meet_set, rect_area]
      · rw [e]
      · rw [e]; exact h.1.le
      · rw [e]; exact h.2.le
  · right
    have e : intersection R T.rect = ⟨0, 0,
        ⟨max R.xlo T.xlow, min R.xhi T.xhi, max R.ylo T.ylow, min R.yhi T.yhi⟩⟩ := by
      unfold intersection File.rect
      simp only
      rw [if_neg h]
    refine ⟨by rw [e]; simp, by rw [e], ?_⟩
    rw [← meet_set, rect_volume, e]
    simp only
    rw [not_and_or] at h
    rcases h with h | h
    · rw [ENNReal.ofReal_of_nonpos (by linarith), zero_mul]
    · rw [ENNReal.ofReal_of_nonpos (p := min R.yhi T.yhi - max R.ylo T.ylow) (by linarith), mul_zero]

theorem surf_in (T : File) (Ts : List File) (p : ℝ × ℝ) (hp : p ∈ T.extent) :
    surf (T :: Ts) p = T.height p := by
  unfold surf; rw [if_pos hp]

theorem surf_out (T : File) (Ts : List File) (p : ℝ × ℝ) (hp : p ∉ T.extent) :
    surf (T :: Ts) p = surf Ts p := by
  conv_lhs => unfold surf
  rw [if_neg hp]

theorem height_integrable_meet (w : World) (R : Rect) (T : File) (hT : T.Valid) :
    IntegrableOn (fun p => T.height p * w.element p) (R.set ∩ T.extent) := by
  rw [← meet_set]
  have e : (intersection R T.rect).rect = ⟨max R.xlo T.xlow, min R.xhi T.xhi, max R.ylo T.ylow, min R.yhi T.yhi⟩ := by
    unfold intersection File.rect
    simp only
    split <;> rfl
  apply height_integrable w _ T hT
  · rw [e]; exact le_max_right _ _
  · rw [e]; exact le_max_right _ _

theorem surf_integrable (w : World) (L : List File) (hL : ∀ T ∈ L, T.Valid) (R : Rect) :
    IntegrableOn (fun p => surf L p * w.element p) R.set := by
  induction L with
  | nil =>
    simp only [surf, zero_mul]
    exact integrableOn_zero
  | cons T Ts ih =>
    have h1 := height_integrable_meet w R T (hL T (by simp))
    have h2 := ih fun T' h' => hL T' (by simp [h'])
    rw [← Set.inter_union_sdiff R.set T.extent]
    apply IntegrableOn.union
    · refine h1.congr_fun ?_ ((rect_measurable R).inter (extent_measurable T))
      intro p hp
      beta_reduce
      rw [surf_in _ _ _ hp.2]
    · refine (h2.mono_set Set.sdiff_subset).congr_fun ?_ ((rect_measurable R).diff (extent_measurable T))
      intro p hp
      beta_reduce
      rw [surf_out _ _ _ hp.2]

/-- The integral over a rectangle. -/
noncomputable def vol (w : World) (L : List File) (A : Set (ℝ × ℝ)) : ℝ := ∫ p in A, surf L p * w.element p

theorem vol_cons (w : World) (T : File) (Ts : List File) (hL : ∀ T' ∈ T :: Ts, T'.Valid) (R : Rect) :
    vol w (T :: Ts) R.set = vol w Ts R.set - vol w Ts (R.set ∩ T.extent)
      + ∫ p in R.set ∩ T.extent, T.height p * w.element p := by
  unfold vol
  have h1 := integral_inter_add_sdiff (extent_measurable T) (surf_integrable w (T :: Ts) hL R)
  have h2 := integral_inter_add_sdiff (extent_measurable T)
    (surf_integrable w Ts (fun T' h' => hL T' (by simp [h'])) R)
  have h3 : ∫ p in R.set ∩ T.extent, surf (T :: Ts) p * w.element p
      = ∫ p in R.set ∩ T.extent, T.height p * w.element p := by
    apply setIntegral_congr_fun ((rect_measurable R).inter (extent_measurable T))
    intro p hp
    beta_reduce
    rw [surf_in _ _ _ hp.2]
  have h4 : ∫ p in R.set \ T.extent, surf (T :: Ts) p * w.element p
      = ∫ p in R.set \ T.extent, surf Ts p * w.element p := by
    apply setIntegral_congr_fun ((rect_measurable R).diff (extent_measurable T))
    intro p hp
    beta_reduce
    rw [surf_out _ _ _ hp.2]
  rw [h3, h4] at h1
  linarith

theorem vol_cons_null (w : World) (T : File) (Ts : List File) (hL : ∀ T' ∈ T :: Ts, T'.Valid) (R : Rect)
    (h : volume (R.set ∩ T.extent) = 0) : vol w (T :: Ts) R.set = vol w Ts R.set := by
  rw [vol_cons w T Ts hL R, setIntegral_measure_zero _ h]
  unfold vol
  rw [setIntegral_measure_zero _ h]
  ring

theorem rectintegral_eq (w : World) (hw : w.coord = 1 ∨ w.coord = 2) (L : List File) (hne : L ≠ [])
    (hL : ∀ T ∈ L, T.Valid) : ∀ R, rectintegral w L R = some (vol w L R.set) := by
  induction L with
  | nil => exact absurd rfl hne
  | cons T Ts ih =>
    intro R
    cases Ts with
    | nil =>
      unfold rectintegral
      simp only
      rcases meet_cases R T with ⟨h1, _, h3, _⟩ | ⟨h1, _, h3⟩
      · rw [if_pos h1, topointegral_eq w hw _ T (hL T (by simp)) h3, meet_set, vol_cons w T [] hL R]
        congr 1
        unfold vol
        simp [surf]
      · rw [if_neg h1, vol_cons_null w T [] hL R h3]
        unfold vol
        simp [surf]
    | cons T' Ts =>
      have ih := ih (by simp) (fun T'' h => hL T'' (by simp [h]))
      unfold rectintegral
      simp only
      rw [ih R]
      simp only [Option.bind_some]
      rcases meet_cases R T with ⟨_, h2, h3, _⟩ | ⟨_, h2, h3⟩
      · rw [if_pos h2, ih, topointegral_eq w hw _ T (hL T (by simp)) h3, meet_set,
          vol_cons w T (T' :: Ts) hL R]
        simp only [Option.bind_some]
      · rw [if_neg (by rw [h2]; exact lt_irrefl _), vol_cons_null w T (T' :: Ts) hL R h3]

theorem topoarea_eq (L : List File) (hne : L ≠ []) :
    ∀ R : Rect, topoarea L R = some (volume.real (R.set ∩ union L)) := by
  induction L with
  | nil => exact absurd rfl hne
  | cons T Ts ih =>
    intro R
    have fin : ∀ A, volume (R.set ∩ A) ≠ ⊤ := fun A =>
      ne_top_of_le_ne_top (rect_finite R) (measure_mono Set.inter_subset_left)
    cases Ts with
    | nil =>
      unfold topoarea
      congr 1
      have e : union [T] = T.extent := by unfold union union; rw [Set.union_empty]
      rw [e]
      rcases meet_cases R T with ⟨_, _, _, h⟩ | ⟨_, h2, h3⟩
      · exact h
      · rw [h2, Measure.real, h3, ENNReal.toReal_zero]
    | cons T' Ts =>
      have ih := ih (by simp)
      unfold topoarea
      simp only
      rw [ih R]
      simp only [Option.bind_some]
      set U := union (T' :: Ts) with hU
      have e : union (T :: T' :: Ts) = T.extent ∪ U := rfl
      rw [e]
      have a1 := measureReal_inter_add_sdiff (μ := volume) (s := R.set ∩ (T.extent ∪ U))
        (extent_measurable T) (fin _)
      have a2 := measureReal_inter_add_sdiff (μ := volume) (s := R.set ∩ U) (extent_measurable T) (fin _)
      have b1 : R.set ∩ (T.extent ∪ U) ∩ T.extent = R.set ∩ T.extent := by
        ext p; simp only [Set.mem_inter_iff, Set.mem_union]; tauto
      have b2 : (R.set ∩ (T.extent ∪ U)) \ T.extent = (R.set ∩ U) \ T.extent := by
        ext p; simp only [Set.mem_inter_iff, Set.mem_union, Set.mem_sdiff]; tauto
      have b3 : R.set ∩ U ∩ T.extent = R.set ∩ T.extent ∩ U := by
        ext p; simp only [Set.mem_inter_iff]; tauto
      rw [b1, b2] at a1
      rw [b3] at a2
      rcases meet_cases R T with ⟨_, h2, h3, h4⟩ | ⟨_, h2, h3⟩
      · rw [if_pos h2, ih, meet_set, h4]
        simp only [Option.bind_some]
        congr 1
        linarith
      · rw [if_neg (by rw [h2]; exact lt_irrefl _)]
        congr 1
        have z1 : volume.real (R.set ∩ T.extent) = 0 := by rw [Measure.real, h3, ENNReal.toReal_zero]
        have z2 : volume.real (R.set ∩ T.extent ∩ U) = 0 := by
          rw [Measure.real, measure_mono_null Set.inter_subset_left h3, ENNReal.toReal_zero]
        linarith

theorem contained (R : Rect) (T : File) (h1 : 0 < (intersection R T.rect).area)
    (h : (intersection R T.rect).area = (R.xhi - R.xlo) * (R.yhi - R.ylo)) :
    R.set ⊆ T.extent := by
  rcases meet_cases R T with ⟨_, _, h3, h4⟩ | ⟨_, h2, _⟩
  · have e : (intersection R T.rect).rect = ⟨max R.xlo T.xlow, min R.xhi T.xhi, max R.ylo T.ylow, min R.yhi T.yhi⟩ := by
      unfold intersection File.rect
      simp only
      split <;> rfl
    have e2 : (intersection R T.rect).area
        = (min R.xhi T.xhi - max R.xlo T.xlow) * (min R.yhi T.yhi - max R.ylo T.ylow) := by
      rw [h4, ← meet_set, rect_area _ h3.xlt.le h3.ylt.le, e]
    have c1 := h3.xlt
    have c2 := h3.ylt
    rw [e] at c1 c2
    simp only at c1 c2
    have x1 := le_max_left R.xlo T.xlow
    have x2 := min_le_left R.xhi T.xhi
    have y1 := le_max_left R.ylo T.ylow
    have y2 := min_le_left R.yhi T.yhi
    have x3 := le_max_right R.xlo T.xlow
    have x4 := min_le_right R.xhi T.xhi
    have y3 := le_max_right R.ylo T.ylow
    have y4 := min_le_right R.yhi T.yhi
    rw [h] at e2
    generalize max R.xlo T.xlow = a at *
    generalize min R.xhi T.xhi = b at *
    generalize max R.ylo T.ylow = c at *
    generalize min R.yhi T.yhi = d at *
    have hx : R.xhi - R.xlo = b - a := by
      by_contra hne
      have hlt : b - a < R.xhi - R.xlo := lt_of_le_of_ne (by linarith) (Ne.symm hne)
      nlinarith
    have hy : R.yhi - R.ylo = d - c := by
      by_contra hne
      have hlt : d - c < R.yhi - R.ylo := lt_of_le_of_ne (by linarith) (Ne.symm hne)
      nlinarith
    intro p hp
    obtain ⟨⟨p1, p2⟩, p3, p4⟩ := hp
    exact ⟨⟨by linarith, by linarith⟩, by linarith, by linarith⟩
  · rw [h2] at h1; exact absurd h1 (lt_irrefl _)

theorem cell_eq (w : World) (hw : w.coord = 1 ∨ w.coord = 2) (L : List File)
    (hL : ∀ T ∈ L, T.Valid) (R : Rect) (h : volume (R.set ∩ union L) ≠ 0) :
    cellgridintegrate w L R = some (vol w L R.set) := by
  induction L with
  | nil => exact absurd (by simp [union]) h
  | cons T Ts ih =>
    unfold cellgridintegrate
    simp only
    rcases meet_cases R T with ⟨h1, h2, h3, _⟩ | ⟨h1, h2, h3⟩
    · rw [if_pos h1]
      by_cases hc : (intersection R T.rect).area = (R.xhi - R.xlo) * (R.yhi - R.ylo)
      · rw [if_pos hc, topointegral_eq w hw _ T (hL T (by simp)) h3, meet_set]
        have hs := contained R T h2 hc
        simp only [Option.bind_some, zero_add]
        congr 1
        rw [Set.inter_eq_left.mpr hs]
        unfold vol
        apply setIntegral_congr_fun (rect_measurable R)
        intro p hp
        beta_reduce
        rw [surf_in _ _ _ (hs hp)]
      · rw [if_neg hc]
        exact rectintegral_eq w hw (T :: Ts) (by simp) hL R
    · rw [if_neg h1, vol_cons_null w T Ts hL R h3]
      refine ih (fun T' h' => hL T' (by simp [h'])) ?_
      intro h0
      apply h
      unfold union
      rw [Set.inter_union_distrib_left]
      exact measure_union_null h3 h0

theorem cell_none (w : World) (L : List File) (R : Rect) (h : volume (R.set ∩ union L) = 0) :
    cellgridintegrate w L R = none := by
  induction L with
  | nil => rfl
  | cons T Ts ih =>
    unfold cellgridintegrate
    simp only
    have hT : volume (R.set ∩ T.extent) = 0 :=
      measure_mono_null (Set.inter_subset_inter_right _ Set.subset_union_left) h
    have hs : volume (R.set ∩ union Ts) = 0 :=
      measure_mono_null (Set.inter_subset_inter_right _ Set.subset_union_right) h
    rcases meet_cases R T with ⟨_, h2, _, h4⟩ | ⟨h1, _, _⟩
    · rw [h4, Measure.real, hT, ENNReal.toReal_zero] at h2
      exact absurd h2 (lt_irrefl _)
    · rw [if_neg h1]
      exact ih hs

/-! ### The order of the files -/

/-- File `a` comes before file `b`. -/
def Files.Fin (F : Files) (a b : ℤ) : Prop := F.area a < F.area b ∨ (F.area a = F.area b ∧ b < a)

theorem fin_irrefl (F : Files) (a : ℤ) : ¬ F.Fin a a := by
  rintro (h | h)
  · exact lt_irrefl _ h
  · omega

theorem fin_trans (F : Files) {a b c : ℤ} (h1 : F.Fin a b) (h2 : F.Fin b c) : F.Fin a c := by
  rcases h1 with h1 | ⟨h1, h1'⟩ <;> rcases h2 with h2 | ⟨h2, h2'⟩
  · exact Or.inl (h1.trans h2)
  · exact Or.inl (h2 ▸ h1)
  · exact Or.inl (h1 ▸ h2)
  · exact Or.inr ⟨h1.trans h2, by omega⟩

theorem fin_total (F : Files) {a b : ℤ} (h : a ≠ b) : F.Fin a b ∨ F.Fin b a := by
  rcases lt_trichotomy (F.area a) (F.area b) with h1 | h1 | h1
  · exact Or.inl (Or.inl h1)
  · rcases lt_or_gt_of_ne h with h2 | h2
    · exact Or.inr (Or.inr ⟨h1.symm, h2⟩)
    · exact Or.inl (Or.inr ⟨h1, h2⟩)
  · exact Or.inr (Or.inl h1)

theorem foldl_count (l : List ℤ) (f : ℤ → ℤ → ℤ) (g : ℤ → ℤ) (h : ∀ c j, f c j = c + g j) :
    ∀ c, l.foldl f c = c + (l.map g).sum := by
  induction l with
  | nil => intro c; simp
  | cons k l ih =>
    intro c
    rw [List.foldl_cons, ih, h, List.map_cons, List.sum_cons]
    ring

theorem finerThan_eq (F : Files) (i : ℤ) :
    F.finerThan i = ((Finset.Icc (1 : ℤ) F.n).filter fun j => F.Fin i j).card := by
  unfold Files.finerThan
  rw [foldl_count _ _ (fun j => if F.Fin i j then 1 else 0), zero_add, range_sum, Finset.sum_boole]
  intro c j
  simp only
  unfold Files.Fin
  by_cases hj : j = i
  · rw [if_neg (by simpa using hj)]
    subst hj
    simp
  · rw [if_pos hj]
    by_cases h1 : F.area i < F.area j
    · rw [if_pos h1, if_neg (fun h => h1.ne h.1), if_pos (Or.inl h1)]
    · rw [if_neg h1]
      by_cases h2 : F.area i = F.area j ∧ j < i
      · rw [if_pos h2, if_pos (Or.inr h2)]
      · rw [if_neg h2, if_neg (by tauto), add_zero]

theorem rank_lt (F : Files) {a b : ℤ} (hb : F.IsFile b) (h : F.Fin a b) : F.rank a < F.rank b := by
  unfold Files.rank
  rw [finerThan_eq, finerThan_eq]
  have : ((Finset.Icc (1 : ℤ) F.n).filter fun j => F.Fin b j).card
      < ((Finset.Icc (1 : ℤ) F.n).filter fun j => F.Fin a j).card := by
    apply Finset.card_lt_card
    rw [Finset.ssubset_iff_of_subset]
    · refine ⟨b, ?_, ?_⟩
      · rw [Finset.mem_filter, Finset.mem_Icc]; exact ⟨hb, h⟩
      · rw [Finset.mem_filter]; exact fun h' => fin_irrefl F b h'.2
    · intro j hj
      rw [Finset.mem_filter] at hj ⊢
      exact ⟨hj.1, fin_trans F h hj.2⟩
  omega

theorem rank_range (F : Files) {a : ℤ} (ha : F.IsFile a) : F.IsFile (F.rank a) := by
  unfold Files.IsFile Files.rank
  rw [finerThan_eq]
  have : ((Finset.Icc (1 : ℤ) F.n).filter fun j => F.Fin a j).card < (Finset.Icc (1 : ℤ) F.n).card := by
    apply Finset.card_lt_card
    rw [Finset.ssubset_iff_of_subset (Finset.filter_subset _ _)]
    refine ⟨a, by rw [Finset.mem_Icc]; exact ha, ?_⟩
    rw [Finset.mem_filter]; exact fun h' => fin_irrefl F a h'.2
  rw [Int.card_Icc] at this
  have := ha.1
  omega

theorem rank_inj (F : Files) {a b : ℤ} (ha : F.IsFile a) (hb : F.IsFile b) (h : F.rank a = F.rank b) :
    a = b := by
  by_contra hne
  rcases fin_total F hne with h1 | h1
  · have := rank_lt F hb h1; omega
  · have := rank_lt F ha h1; omega

theorem rank_surj (F : Files) {r : ℤ} (hr : F.IsFile r) : ∃ a, F.IsFile a ∧ F.rank a = r := by
  have h := Finset.surjOn_of_injOn_of_card_le (s := Finset.Icc (1 : ℤ) F.n) (t := Finset.Icc (1 : ℤ) F.n)
    F.rank (fun a ha => by
      rw [Finset.mem_coe, Finset.mem_Icc] at ha ⊢; exact rank_range F ha)
    (fun a ha b hb e => by
      rw [Finset.mem_coe, Finset.mem_Icc] at ha hb; exact rank_inj F ha hb e) le_rfl
  obtain ⟨a, ha, e⟩ := h (by rw [Finset.mem_coe, Finset.mem_Icc]; exact hr : r ∈ (Finset.Icc (1 : ℤ) F.n : Set ℤ))
  rw [Finset.mem_coe, Finset.mem_Icc] at ha
  exact ⟨a, ha, e⟩

theorem foldl_keys (l : List ℤ) (key : ℤ → ℤ) (hinj : ∀ a ∈ l, ∀ b ∈ l, key a = key b → a = b) :
    ∀ f0 : ℤ → ℤ, ∀ a ∈ l, l.foldl (fun order i => fun r => if r = key i then i else order r) f0 (key a) = a := by
  induction l using List.reverseRecOn with
  | nil => intro _ a ha; simp at ha
  | append_singleton l k ih =>
    intro f0 a ha
    rw [List.foldl_append]
    simp only [List.foldl_cons, List.foldl_nil]
    split
    · next h => exact (hinj a ha k (by simp) h).symm
    · next h =>
      rw [List.mem_append, List.mem_singleton] at ha
      rcases ha with ha | ha
      · exact ih (fun a ha b hb => hinj a (by simp [ha]) b (by simp [hb])) f0 a ha
      · exact absurd (by rw [ha]) h

theorem mtopoorder_rank (F : Files) {a : ℤ} (ha : F.IsFile a) : F.mtopoorder (F.rank a) = a := by
  unfold Files.mtopoorder
  apply foldl_keys
  · intro a ha b hb
    rw [mem_range] at ha hb
    exact rank_inj F ha hb
  · rw [mem_range]; exact ha

theorem mtopoorder_file (F : Files) {r : ℤ} (hr : F.IsFile r) : F.IsFile (F.mtopoorder r) := by
  obtain ⟨a, ha, rfl⟩ := rank_surj F hr
  rw [mtopoorder_rank F ha]; exact ha

theorem mtopoorder_sorted (F : Files) {r s : ℤ} (hr : F.IsFile r) (hs : F.IsFile s) (h : r < s) :
    F.Fin (F.mtopoorder r) (F.mtopoorder s) := by
  obtain ⟨a, ha, rfl⟩ := rank_surj F hr
  obtain ⟨b, hb, rfl⟩ := rank_surj F hs
  rw [mtopoorder_rank F ha, mtopoorder_rank F hb]
  have hne : a ≠ b := by rintro rfl; exact lt_irrefl _ h
  rcases fin_total F hne with h1 | h1
  · exact h1
  · have := rank_lt F ha h1; omega

theorem range_pairwise (lo hi : ℤ) : (range lo hi).Pairwise (· < ·) := by
  unfold range
  rw [List.pairwise_map]
  exact List.pairwise_lt_range.imp fun h => by omega

/-- The numbers of the files in the order in which they are used. -/
noncomputable def Files.nums (F : Files) : List ℤ := (range 1 F.n).map F.mtopoorder

theorem ordered_nums (F : Files) : F.ordered = F.nums.map F.file := by
  unfold Files.ordered Files.nums
  rw [List.map_map]; rfl

theorem nums_pairwise (F : Files) : F.nums.Pairwise F.Fin := by
  unfold Files.nums
  rw [List.pairwise_map]
  refine List.Pairwise.imp_of_mem ?_ (range_pairwise 1 F.n)
  intro a b ha hb h
  rw [mem_range] at ha hb
  exact mtopoorder_sorted F ha hb h

theorem mem_nums (F : Files) (a : ℤ) : a ∈ F.nums ↔ F.IsFile a := by
  unfold Files.nums
  rw [List.mem_map]
  constructor
  · rintro ⟨r, hr, rfl⟩
    rw [mem_range] at hr
    exact mtopoorder_file F hr
  · intro ha
    exact ⟨F.rank a, by rw [mem_range]; exact rank_range F ha, mtopoorder_rank F ha⟩

theorem surf_first (F : Files) (l : List ℤ) (hp : l.Pairwise F.Fin) (p : ℝ × ℝ) (a : ℤ) (ha : a ∈ l)
    (hpa : p ∈ (F.file a).extent)
    (h : ∀ b ∈ l, b ≠ a → p ∈ (F.file b).extent → F.Fin a b) :
    surf (l.map F.file) p = (F.file a).height p := by
  induction l with
  | nil => simp at ha
  | cons b l ih =>
    rw [List.map_cons]
    rw [List.pairwise_cons] at hp
    by_cases hb : b = a
    · subst hb; exact surf_in _ _ _ hpa
    · have ha' : a ∈ l := by
        rw [List.mem_cons] at ha
        rcases ha with ha | ha
        · exact absurd ha.symm hb
        · exact ha
      have hout : p ∉ (F.file b).extent := by
        intro hin
        exact fin_irrefl F a (fin_trans F (h b (by simp) hb hin) (hp.1 a ha'))
      rw [surf_out _ _ _ hout]
      exact ih hp.2 ha' fun b' hb' => h b' (by simp [hb'])

theorem surf_ground (F : Files) : F.IsGround (surf F.ordered) := by
  intro p a ⟨h1, h2, h3⟩
  rw [ordered_nums]
  refine surf_first F F.nums (nums_pairwise F) p a ((mem_nums F a).mpr h1) h2 ?_
  intro b hb hne hin
  exact h3 b ((mem_nums F b).mp hb) hne hin

theorem mem_union (L : List File) (p : ℝ × ℝ) : p ∈ union L ↔ ∃ T ∈ L, p ∈ T.extent := by
  induction L with
  | nil => simp [union]
  | cons T Ts ih => unfold union; rw [Set.mem_union, ih]; simp

theorem union_covered (F : Files) : union F.ordered = F.covered := by
  ext p
  rw [mem_union, ordered_nums]
  unfold Files.covered
  rw [Set.mem_ofPred_eq]
  constructor
  · rintro ⟨T, hT, hp⟩
    rw [List.mem_map] at hT
    obtain ⟨a, ha, rfl⟩ := hT
    exact ⟨a, (mem_nums F a).mp ha, hp⟩
  · rintro ⟨a, ha, hp⟩
    exact ⟨F.file a, List.mem_map.mpr ⟨a, (mem_nums F a).mpr ha, rfl⟩, hp⟩

/-- Where there are data, one file is the finest. -/
theorem exists_finest (F : Files) (p : ℝ × ℝ) (hp : p ∈ F.covered) : ∃ a, F.IsFinest p a := by
  obtain ⟨a0, h0, hp0⟩ := hp
  let s := (Finset.Icc (1 : ℤ) F.n).filter fun a => p ∈ (F.file a).extent
  have hs : s.Nonempty := ⟨a0, by rw [Finset.mem_filter, Finset.mem_Icc]; exact ⟨h0, hp0⟩⟩
  obtain ⟨a, ha, hmin⟩ := Finset.exists_min_image s F.rank hs
  rw [Finset.mem_filter, Finset.mem_Icc] at ha
  refine ⟨a, ha.1, ha.2, ?_⟩
  intro b hb hne hin
  rcases fin_total F (Ne.symm hne) with h | h
  · exact h
  · have h1 := rank_lt F ha.1 h
    have h2 := hmin b (by rw [Finset.mem_filter, Finset.mem_Icc]; exact ⟨hb, hin⟩)
    omega

theorem ground_unique (F : Files) (S S' : ℝ × ℝ → ℝ) (h : F.IsGround S) (h' : F.IsGround S') (p : ℝ × ℝ)
    (hp : p ∈ F.covered) : S p = S' p := by
  obtain ⟨a, ha⟩ := exists_finest F p hp
  rw [h p a ha, h' p a ha]

theorem ordered_valid (F : Files) (hF : F.Valid) : ∀ T ∈ F.ordered, T.Valid := by
  intro T hT
  rw [ordered_nums, List.mem_map] at hT
  obtain ⟨a, ha, rfl⟩ := hT
  exact hF a ((mem_nums F a).mp ha)

end Fclaw.Topo

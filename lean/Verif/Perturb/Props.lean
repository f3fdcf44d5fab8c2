import Verif.Perturb.Lemmas
/-
C105: The water of a GeoClaw run starts at rest at sea level, with the disturbance that a file gives.
-/
set_option autoImplicit false
set_option linter.unusedSimpArgs false
set_option linter.unusedVariables false
namespace Fclaw.Perturb

open Fort Fclaw.Topo MeasureTheory

noncomputable section

/-- The disturbance is the function that the file describes: a file with one line for each node, from north to south and from west to east, is
read as a grid with these nodes and with the values of the lines. -/
theorem C105_file (R : TopoRead.Raster) (hR : R.Valid) (w : ℤ → ℝ) : ∃ T, readQinit R.xyz w = some T ∧ R.Gives R.z T :=
  read_eq R hR w

/-- Without a disturbance: water at rest in every cell, ghost cells included. -/
theorem C105_rest (G : Settings) (P : Topo.Patch) (meqn : ℕ) (aux q : Grid ℝ) (h : G.qinitType ≤ 0) : ∃ q', qinit G P meqn aux q = some q' ∧
    ∀ i j m : ℤ, P.HasCell i j → 1 ≤ m → m ≤ meqn → q' (i, j, m) = rest G.seaLevel (aux (i, j, 1)) m := by
  refine ⟨flat G P meqn aux q, ?_, ?_⟩
  · unfold qinit
    simp only
    rw [if_neg (by omega)]
  · intro i j m hc h1 h2
    unfold flat rest
    rw [if_pos (inBox_q P meqn i j m hc h1 h2)]

theorem mean_average (G : Settings) (P : Topo.Patch) (meqn : ℕ) (aux : Grid ℝ) (hF : Fits G P meqn) (i j : ℤ) (h : ¬ Apart (cell P i j) G.file)
    (hw : G.world.coord = 1 ∨ (cell P i j).set ⊆ G.file.extent ∧ Capacity G.world P aux i j) :
    mean G P aux i j = G.world.average ((cell P i j).set ∩ G.file.extent) G.file.height := by
  have hin := clip_inside P G.file hF.file hF.dx hF.dy i j h
  have hs : (clip P G.file i j).set = (cell P i j).set ∩ G.file.extent := meet_set _ _
  rw [← hs]
  unfold mean World.average World.volume
  simp only
  congr 1
  by_cases h1 : G.world.coord = 1
  · rw [if_neg (by rw [h1]; decide), area_rect _ (Or.inl h1) _ hin.xlt.le hin.ylt.le, if_neg (by rw [h1]; decide)]
  · obtain ⟨hsub, hcap⟩ := hw.resolve_left h1
    have h2 : G.world.coord = 2 := (hF.coord.resolve_left h1).1
    have hcap := hcap h2
    have c1 : (cell P i j).xlo ≤ (cell P i j).xhi := by have := hF.dx; unfold cell; simp only; nlinarith
    have c2 : (cell P i j).ylo ≤ (cell P i j).yhi := by have := hF.dy; unfold cell; simp only; nlinarith
    have k1 := hsub (show ((cell P i j).xlo, (cell P i j).ylo) ∈ (cell P i j).set from ⟨⟨le_refl _, c1⟩, ⟨le_refl _, c2⟩⟩)
    have k2 := hsub (show ((cell P i j).xhi, (cell P i j).yhi) ∈ (cell P i j).set from ⟨⟨c1, le_refl _⟩, ⟨c2, le_refl _⟩⟩)
    have e : clip P G.file i j = cell P i j := by
      rw [clip_eq, max_eq_left k1.1.1, max_eq_left k1.2.1, min_eq_left k2.1.2, min_eq_left k2.2.2]
    rw [if_pos h2, e, ← hcap]
    unfold cell
    simp only
    ring

/-- With a disturbance: a cell that has at most its boundary in common with the area of the file is at rest. In any other cell the mean of the
disturbance is added to the depth (kind 1) or to one of the momenta (kinds 2, 3), where the ground is not above sea level, or it is the height
of the surface (kind 4). The mean is that over the points of the cell for which there are data. Nothing else is changed.

Partial: in a cell that is only partly in the area of the file this mean is used for the whole cell, so that the volume that is added is not that
of the disturbance: see `C105_volume_counterexample`. On a sphere this holds for cells inside of the area. Nothing keeps the depth from being negative: see
`C105_negative_counterexample`. -/
theorem C105_partial (G : Settings) (P : Topo.Patch) (meqn : ℕ) (aux q : Grid ℝ) (hF : Fits G P meqn) : ∃ q', qinit G P meqn aux q = some q' ∧
    (∀ i j m : ℤ, P.HasCell i j → 1 ≤ m → m ≤ meqn →
      (Apart (cell P i j) G.file → q' (i, j, m) = rest G.seaLevel (aux (i, j, 1)) m) ∧
      (¬ Apart (cell P i j) G.file → (G.world.coord = 1 ∨ (cell P i j).set ⊆ G.file.extent ∧ Capacity G.world P aux i j) →
        q' (i, j, m) = disturbed G.qinitType G.seaLevel (aux (i, j, 1))
          (G.world.average ((cell P i j).set ∩ G.file.extent) G.file.height) m)) ∧
    ∀ c : Cell, ¬ P.HasCell c.1 c.2.1 → q' c = q c := by
  obtain ⟨q', e, h1, h2⟩ := add_acts G P meqn aux hF (flat G P meqn aux q)
  refine ⟨q', ?_, ?_, ?_⟩
  · unfold qinit
    simp only
    rw [if_pos (by have := hF.kind; omega), e]
  · intro i j m hc hm1 hm2
    have hf : flat G P meqn aux q (i, j, m) = rest G.seaLevel (aux (i, j, 1)) m := by
      unfold flat rest
      rw [if_pos (inBox_q P meqn i j m hc hm1 hm2)]
    have hu := h1 (i, j, m) hc
    unfold upd at hu
    constructor
    · intro ha
      rw [hu, if_pos ha, hf]
    · intro ha hw
      rw [hu, if_neg ha, hf]
      simp only
      rw [mean_average G P meqn aux hF i j ha hw]
      unfold disturbed
      by_cases h4 : G.qinitType = 4
      · rw [if_pos h4, if_pos h4]
        by_cases hm : m = 1
        · rw [if_pos hm, if_pos hm, max_comm]
        · rw [if_neg hm, if_neg hm]
          unfold rest
          rw [if_neg hm]
      · rw [if_neg h4, if_neg h4]
        split
        · rfl
        · rw [add_zero]
  · intro c hc
    rw [h2 c hc]
    unfold flat
    rw [if_neg]
    intro hb
    rw [inBox_iff] at hb
    exact hc ⟨hb.1.1, hb.1.2, hb.2.1.1, hb.2.1.2⟩

/-! ### An example -/

/-- The disturbance `h` for `0 ≤ x, y ≤ 1`. -/
def sample (kind : ℤ) (h : ℝ) : Settings := ⟨⟨1, 1⟩, 0, kind, ⟨2, 2, 0, 1, 0, 1, 1, 1, fun _ => h⟩⟩

/-- Two times two cells of size `s`, with one layer of ghost cells. -/
def samplePatch (s : ℝ) : Topo.Patch := ⟨⟨2, 2, 1, 1⟩, 0, 0, s, s, false, 0, 0, 0⟩

theorem sample_fits (kind : ℤ) (h s : ℝ) (hk : 1 ≤ kind ∧ kind ≤ 4) (hs : 0 < s) : Fits (sample kind h) (samplePatch s) 3 where
  file := ⟨by simp [sample], by simp [sample], by simp [sample], by simp [sample], by simp [sample]; norm_num, by simp [sample]; norm_num⟩
  dx := hs
  dy := hs
  kind := hk
  meqn := le_refl _
  maux := by simp [samplePatch]
  coord := Or.inl rfl

theorem sample_height (kind : ℤ) (h : ℝ) (p : ℝ × ℝ) : (sample kind h).file.height p = h := by
  unfold File.height File.bilinear File.node sample
  simp only
  ring

theorem sample_volume (kind : ℤ) (h : ℝ) (A : Set (ℝ × ℝ)) :
    (sample kind h).world.volume A (sample kind h).file.height = h * (sample kind h).world.area A := by
  unfold World.volume World.area
  simp only [sample_height]
  rw [integral_const_mul]

theorem sample_area (kind : ℤ) (h : ℝ) (R : Rect) (hx : R.xlo ≤ R.xhi) (hy : R.ylo ≤ R.yhi) :
    (sample kind h).world.area R.set = (R.xhi - R.xlo) * (R.yhi - R.ylo) := by
  rw [area_rect _ (Or.inl rfl) R hx hy, if_neg (by simp [sample])]

/-- The first cell of the patch. -/
theorem sample_average (kind : ℤ) (h s : ℝ) (hs : 0 < s) : ¬ Apart (cell (samplePatch s) 1 1) (sample kind h).file ∧
    (sample kind h).world.average ((cell (samplePatch s) 1 1).set ∩ (sample kind h).file.extent) (sample kind h).file.height = h := by
  have ha : ¬ Apart (cell (samplePatch s) 1 1) (sample kind h).file := by
    unfold Apart cell samplePatch sample
    simp
    exact hs
  refine ⟨ha, ?_⟩
  have hF := sample_fits 1 h s ⟨by norm_num, by norm_num⟩ hs
  have hin := clip_inside (samplePatch s) (sample kind h).file hF.file hF.dx hF.dy 1 1 ha
  have hm : (clip (samplePatch s) (sample kind h).file 1 1).set = (cell (samplePatch s) 1 1).set ∩ (sample kind h).file.extent := meet_set _ _
  rw [← hm]
  unfold World.average
  rw [sample_volume, mul_div_assoc, div_self, mul_one]
  rw [sample_area _ _ _ hin.xlt.le hin.ylt.le]
  exact ne_of_gt (mul_pos (sub_pos.2 hin.xlt) (sub_pos.2 hin.ylt))

/-- `C105_partial` can be applied: the sea has the depth 10, a hump of height 2 is added to cells of size 1/2; the ghost cells outside stay at
rest. -/
example : ∃ q', qinit (sample 1 2) (samplePatch (1 / 2)) 3 (fun _ => -10) (fun _ => 0) = some q' ∧ q' (1, 1, 1) = 12 ∧ q' (1, 1, 2) = 0 ∧
    q' (0, 1, 1) = 10 := by
  obtain ⟨q', e, h, _⟩ := C105_partial (sample 1 2) (samplePatch (1 / 2)) 3 (fun _ => -10) (fun _ => 0)
    (sample_fits 1 2 (1 / 2) ⟨by norm_num, by norm_num⟩ (by norm_num))
  obtain ⟨ha, hv⟩ := sample_average 1 2 (1 / 2) (by norm_num)
  have hc : (samplePatch (1 / 2)).HasCell 1 1 := by unfold Topo.Patch.HasCell samplePatch; norm_num
  have hc0 : (samplePatch (1 / 2)).HasCell 0 1 := by unfold Topo.Patch.HasCell samplePatch; norm_num
  refine ⟨q', e, ?_, ?_, ?_⟩
  · rw [(h 1 1 1 hc (by norm_num) (by norm_num)).2 ha (Or.inl rfl), hv]
    simp [disturbed, rest, sample]
    norm_num
  · rw [(h 1 1 2 hc (by norm_num) (by norm_num)).2 ha (Or.inl rfl), hv]
    simp [disturbed, rest, sample]
  · rw [(h 0 1 1 hc0 (by norm_num) (by norm_num)).1 (by left; simp [cell, samplePatch, sample])]
    simp [rest, sample]

/-- Kind 4: the surface is at the height 3, over land too. -/
example : ∃ q', qinit (sample 4 3) (samplePatch (1 / 2)) 3 (fun _ => 1) (fun _ => 0) = some q' ∧ q' (1, 1, 1) = 2 := by
  obtain ⟨q', e, h, _⟩ := C105_partial (sample 4 3) (samplePatch (1 / 2)) 3 (fun _ => 1) (fun _ => 0)
    (sample_fits 4 3 (1 / 2) ⟨by norm_num, by norm_num⟩ (by norm_num))
  obtain ⟨ha, hv⟩ := sample_average 4 3 (1 / 2) (by norm_num)
  have hc : (samplePatch (1 / 2)).HasCell 1 1 := by unfold Topo.Patch.HasCell samplePatch; norm_num
  refine ⟨q', e, ?_⟩
  rw [(h 1 1 1 hc (by norm_num) (by norm_num)).2 ha (Or.inl rfl), hv]
  simp [disturbed, sample]
  norm_num

/-- The amount of water that a disturbance adds depends on the size of the cells: a hump of volume 1 in the middle of the sea, inside of
one cell with the area 4, adds the volume 4. -/
theorem C105_volume_counterexample : ∃ (G : Settings) (P : Topo.Patch) (aux q q' : Grid ℝ), Fits G P 3 ∧ G.qinitType = 1 ∧
    qinit G P 3 aux q = some q' ∧ (∀ c, aux c < G.seaLevel) ∧ P.HasCell 1 1 ∧ G.file.extent ⊆ (cell P 1 1).set ∧
    G.world.volume G.file.extent G.file.height = 1 ∧
    (q' (1, 1, 1) - rest G.seaLevel (aux (1, 1, 1)) 1) * G.world.area (cell P 1 1).set = 4 := by
  have hF := sample_fits 1 1 2 ⟨by norm_num, by norm_num⟩ (by norm_num)
  obtain ⟨q', e, h, _⟩ := C105_partial (sample 1 1) (samplePatch 2) 3 (fun _ => -10) (fun _ => 0) hF
  obtain ⟨ha, hv⟩ := sample_average 1 1 2 (by norm_num)
  have hc : (samplePatch 2).HasCell 1 1 := by unfold Topo.Patch.HasCell samplePatch; norm_num
  refine ⟨sample 1 1, samplePatch 2, fun _ => -10, fun _ => 0, q', hF, rfl, e, ?_, hc, ?_, ?_, ?_⟩
  · intro _; simp [sample]
  · rintro ⟨x, y⟩ ⟨⟨h1, h2⟩, h3, h4⟩
    simp only [sample] at h1 h2 h3 h4
    unfold cell samplePatch Rect.set
    constructor <;> constructor <;> simp only <;> norm_num <;> linarith
  · have : (sample 1 1).file.extent = (⟨0, 1, 0, 1⟩ : Rect).set := rfl
    rw [sample_volume, this, sample_area _ _ _ (by norm_num) (by norm_num)]
    norm_num
  · rw [(h 1 1 1 hc (by norm_num) (by norm_num)).2 ha (Or.inl rfl), hv,
      sample_area _ _ _ (by simp [cell, samplePatch]) (by simp [cell, samplePatch])]
    simp [disturbed, rest, sample, cell, samplePatch]
    norm_num

/-- A trough that is deeper than the sea leaves a negative depth. -/
theorem C105_negative_counterexample : ∃ (G : Settings) (P : Topo.Patch) (aux q q' : Grid ℝ), Fits G P 3 ∧ G.qinitType = 1 ∧
    qinit G P 3 aux q = some q' ∧ P.HasCell 1 1 ∧ (cell P 1 1).set ⊆ G.file.extent ∧ q' (1, 1, 1) < 0 := by
  have hF := sample_fits 1 (-2) (1 / 2) ⟨by norm_num, by norm_num⟩ (by norm_num)
  obtain ⟨q', e, h, _⟩ := C105_partial (sample 1 (-2)) (samplePatch (1 / 2)) 3 (fun _ => -1) (fun _ => 0) hF
  obtain ⟨ha, hv⟩ := sample_average 1 (-2) (1 / 2) (by norm_num)
  have hc : (samplePatch (1 / 2)).HasCell 1 1 := by unfold Topo.Patch.HasCell samplePatch; norm_num
  refine ⟨sample 1 (-2), samplePatch (1 / 2), fun _ => -1, fun _ => 0, q', hF, rfl, e, hc, ?_, ?_⟩
  · rintro ⟨x, y⟩ ⟨⟨h1, h2⟩, h3, h4⟩
    simp only [cell, samplePatch] at h1 h2 h3 h4
    norm_num at h1 h2 h3 h4
    unfold File.extent sample
    constructor <;> constructor <;> simp only <;> linarith
  · rw [(h 1 1 1 hc (by norm_num) (by norm_num)).2 ha (Or.inl rfl), hv]
    simp [disturbed, rest, sample]

end

end Fclaw.Perturb

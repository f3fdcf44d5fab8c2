import Verif.GeoTag.Lemmas
/-
C95: when GeoClaw refines and coarsens.
-/
set_option autoImplicit false
set_option linter.unusedSimpArgs false
namespace Fclaw.GeoTag

/-- **C95.** A region counts for a patch exactly if the time is in its interval and a point of the patch is in its
rectangle. -/
theorem C95_touch (r : Region) (B : Box) (t : ℝ) (hB : B.Proper) (hr : r.Proper) :
    intersects B.x0 B.y0 B.x1 B.y1 t r = true ↔ r.Touches t B :=
  intersects_iff B t r hB hr

/-- **C95 (partial).** Refinement. If the level of a patch is below the minimum level of all regions that it touches, it is
refined. If its level is at or above the maximum level of all of them, it is not. Otherwise it is refined exactly if
there is a wave in one of its cells where flagging is allowed. What is missing: the minimum level of *each* region should be
enforced. -/
theorem C95_refine_partial (P : Params) (p : Patch) (t : ℝ) (level initFlag : ℤ) (hp : p.box.Proper)
    (hr : ∀ r ∈ P.regions, r.Proper) (h0 : 0 ≤ level) :
    ((∃ r ∈ P.regions, r.Touches t p.box) → (∀ r ∈ P.regions, r.Touches t p.box → level < r.minLevel) →
      tag4refinement P p t level initFlag = 1) ∧
    ((∃ r ∈ P.regions, r.Touches t p.box) → (∀ r ∈ P.regions, r.Touches t p.box → r.maxLevel ≤ level) →
      tag4refinement P p t level initFlag = 0) ∧
    ((¬ ∃ r ∈ P.regions, r.Touches t p.box) ∨
      (∃ r ∈ P.regions, r.Touches t p.box ∧ r.minLevel ≤ level) ∧ (∃ r ∈ P.regions, r.Touches t p.box ∧ level < r.maxLevel) →
      (tag4refinement P p t level initFlag = 1 ↔ WaveIn P 1 t level p)) ∧
    (tag4refinement P p t level initFlag = 0 ∨ tag4refinement P p t level initFlag = 1) := by
  obtain ⟨a, b, c⟩ := regions_refine P.regions level p.box t hp hr h0
  have e : tag4refinement P p t level initFlag =
      (if testRegions P.regions level p.box.x0 p.box.y0 p.box.x1 p.box.y1 t 1 < 0 then
        (if flagged P p t level initFlag false then 1 else 0)
      else testRegions P.regions level p.box.x0 p.box.y0 p.box.x1 p.box.y1 t 1) := rfl
  have hf := flagged_iff P p t level initFlag false
  simp only [Bool.false_eq_true, and_false, not_false_eq_true, true_and, if_false] at hf
  refine ⟨?_, ?_, ?_, ?_⟩
  · intro h1 h2
    rw [e, a ⟨h1, h2⟩]; rfl
  · intro h1 h2
    rw [e, b ⟨h1, ?_, h2⟩]
    · rfl
    · obtain ⟨r, r1, r2⟩ := h1
      intro h
      have := h r r1 r2
      have := h2 r r1 r2
      have := (hr r r1).order
      omega
  · intro h
    rw [e, c]
    · rw [if_pos (by norm_num), ← hf]
      by_cases x : flagged P p t level initFlag false = true <;> simp [x]
    · rcases h with h | ⟨⟨r, r1, r2, r3⟩, ⟨s, s1, s2, s3⟩⟩
      · exact Or.inl h
      · refine Or.inr ⟨fun h => ?_, fun h => ?_⟩
        · have := h r r1 r2; omega
        · have := h s s1 s2; omega
  · by_cases h1 : ∃ r ∈ P.regions, r.Touches t p.box
    · by_cases h2 : ∀ r ∈ P.regions, r.Touches t p.box → level < r.minLevel
      · right; rw [e, a ⟨h1, h2⟩]; rfl
      · by_cases h3 : ∀ r ∈ P.regions, r.Touches t p.box → r.maxLevel ≤ level
        · left; rw [e, b ⟨h1, h2, h3⟩]; rfl
        · rw [e, c (Or.inr ⟨h2, h3⟩), if_pos (by norm_num)]
          by_cases x : flagged P p t level initFlag false = true <;> simp [x]
    · rw [e, c (Or.inl h1), if_pos (by norm_num)]
      by_cases x : flagged P p t level initFlag false = true <;> simp [x]

theorem parent_box (p : Fin 4 → Patch) (hf : Family p) :
    parentBox p = ⟨(p 0).xlower, (p 0).ylower, (p 1).xlower + (p 3).mx * (p 3).dx, (p 2).ylower + (p 3).my * (p 3).dy⟩ := by
  unfold parentBox
  rw [hf.x1, hf.y2, hf.mx 3, hf.my 3, hf.dx 3, hf.dy 3]
  congr 1 <;> ring

theorem parent_proper (p : Fin 4 → Patch) (hf : Family p) : (parentBox p).Proper := by
  have a := mul_nonneg (Nat.cast_nonneg (α := ℝ) (p 0).mx) hf.posx
  have b := mul_nonneg (Nat.cast_nonneg (α := ℝ) (p 0).my) hf.posy
  constructor
  · show (p 0).xlower ≤ (p 0).xlower + 2 * ((p 0).mx * (p 0).dx); linarith
  · show (p 0).ylower ≤ (p 0).ylower + 2 * ((p 0).my * (p 0).dy); linarith

/-- **C95 (partial).** Coarsening. Four siblings whose level is at or below the minimum level of all regions that their
parent touches are kept. Siblings whose level is above the maximum of all of them are coarsened. Otherwise, when the run
has started, they are coarsened exactly if, with tolerances half as large, there is no wave in any of their
cells where flagging is allowed. What is missing: the minimum level of each region, and the same during initialisation. -/
theorem C95_coarsen_partial (P : Params) (p : Fin 4 → Patch) (t : ℝ) (level : ℤ) (hf : Family p)
    (hr : ∀ r ∈ P.regions, r.Proper) (h0 : 0 < level) :
    (∀ initFlag, (∃ r ∈ P.regions, r.Touches t (parentBox p)) →
      (∀ r ∈ P.regions, r.Touches t (parentBox p) → level ≤ r.minLevel) → tag4coarsening P p t level initFlag = 0) ∧
    (∀ initFlag, (∃ r ∈ P.regions, r.Touches t (parentBox p)) →
      (∀ r ∈ P.regions, r.Touches t (parentBox p) → r.maxLevel < level) → tag4coarsening P p t level initFlag = 1) ∧
    ((¬ ∃ r ∈ P.regions, r.Touches t (parentBox p)) ∨
      (∃ r ∈ P.regions, r.Touches t (parentBox p) ∧ r.minLevel < level) ∧
      (∃ r ∈ P.regions, r.Touches t (parentBox p) ∧ level ≤ r.maxLevel) →
      (tag4coarsening P p t level 0 = 1 ↔ ∀ k, ¬ WaveIn P (1 / 2) t level (p k))) ∧
    (∀ initFlag, tag4coarsening P p t level initFlag = 0 ∨ tag4coarsening P p t level initFlag = 1) := by
  obtain ⟨a, b, c⟩ := regions_coarsen P.regions level (parentBox p) t (parent_proper p hf) hr h0
  have e : ∀ initFlag, tag4coarsening P p t level initFlag =
      (if testRegions P.regions level (parentBox p).x0 (parentBox p).y0 (parentBox p).x1 (parentBox p).y1 t 0 < 0 then
        fortTag4coarsening P p t level initFlag
      else testRegions P.regions level (parentBox p).x0 (parentBox p).y0 (parentBox p).x1 (parentBox p).y1 t 0) := by
    intro initFlag
    rw [parent_box p hf]; rfl
  have hF : ∀ initFlag, fortTag4coarsening P p t level initFlag = 0 ∨ fortTag4coarsening P p t level initFlag = 1 := by
    intro initFlag
    rw [fort_iff]
    split
    · exact Or.inl rfl
    · exact Or.inr rfl
  refine ⟨?_, ?_, ?_, ?_⟩
  · intro i h1 h2
    rw [e, a ⟨h1, h2⟩]; rfl
  · intro i h1 h2
    rw [e, b ⟨h1, ?_, h2⟩]
    · rfl
    · obtain ⟨r, r1, r2⟩ := h1
      intro h
      have := h r r1 r2
      have := h2 r r1 r2
      have := (hr r r1).order
      omega
  · intro h
    rw [e, c]
    · rw [if_pos (by norm_num), fort_iff]
      have fi : ∀ k, flagged P (p k) t level 0 true = true ↔ WaveIn P (1 / 2) t level (p k) := by
        intro k
        rw [flagged_iff]
        simp
      by_cases x : ∃ k, flagged P (p k) t level 0 true = true
      · rw [if_pos x]
        obtain ⟨k, hk⟩ := x
        exact ⟨fun h => absurd h (by norm_num), fun h => absurd ((fi k).mp hk) (h k)⟩
      · rw [if_neg x]
        exact ⟨fun _ k hk => x ⟨k, (fi k).mpr hk⟩, fun _ => rfl⟩
    · rcases h with h | ⟨⟨r, r1, r2, r3⟩, ⟨s, s1, s2, s3⟩⟩
      · exact Or.inl h
      · refine Or.inr ⟨fun h => ?_, fun h => ?_⟩
        · have := h r r1 r2; omega
        · have := h s s1 s2; omega
  · intro i
    by_cases h1 : ∃ r ∈ P.regions, r.Touches t (parentBox p)
    · by_cases h2 : ∀ r ∈ P.regions, r.Touches t (parentBox p) → level ≤ r.minLevel
      · left; rw [e, a ⟨h1, h2⟩]; rfl
      · by_cases h3 : ∀ r ∈ P.regions, r.Touches t (parentBox p) → r.maxLevel < level
        · right; rw [e, b ⟨h1, h2, h3⟩]; rfl
        · rw [e, c (Or.inr ⟨h2, h3⟩), if_pos (by norm_num)]
          exact hF i
    · rw [e, c (Or.inl h1), if_pos (by norm_num)]
      exact hF i

/-- **C95 (partial).** A patch that is refined is not in a family that is coarsened at the same time, provided that every region
that the parent touches is touched by the patch as well. -/
theorem C95_exclusive_partial (P : Params) (p : Fin 4 → Patch) (k : Fin 4) (t : ℝ) (level : ℤ) (hf : Family p)
    (hr : ∀ r ∈ P.regions, r.Proper) (hd : 0 ≤ P.dryTolerance) (h0 : 0 < level)
    (hsame : ∀ r ∈ P.regions, (r.Touches t (parentBox p) ↔ r.Touches t (p k).box))
    (h : tag4refinement P (p k) t level 0 = 1) : tag4coarsening P p t level 0 = 0 := by
  have hp : (p k).box.Proper := by
    have a := mul_nonneg (Nat.cast_nonneg (α := ℝ) (p k).mx) (by rw [hf.dx k]; exact hf.posx : 0 ≤ (p k).dx)
    have b := mul_nonneg (Nat.cast_nonneg (α := ℝ) (p k).my) (by rw [hf.dy k]; exact hf.posy : 0 ≤ (p k).dy)
    constructor
    · show (p k).xlower ≤ (p k).xlower + (p k).mx * (p k).dx; linarith
    · show (p k).ylower ≤ (p k).ylower + (p k).my * (p k).dy; linarith
  obtain ⟨a1, a2, a3, _⟩ := C95_refine_partial P (p k) t level 0 hp hr h0.le
  obtain ⟨b1, b2, b3, b4⟩ := C95_coarsen_partial P p t level hf hr h0
  by_contra hc
  have hc1 : tag4coarsening P p t level 0 = 1 := by
    rcases b4 0 with x | x
    · exact absurd x hc
    · exact x
  have wave : WaveIn P 1 t level (p k) → WaveIn P (1 / 2) t level (p k) := by
    rintro ⟨i, j, i1, i2, j1, j2, al, w⟩
    exact ⟨i, j, i1, i2, j1, j2, al, wave_half P level _ hd w⟩
  by_cases hs : ∃ r ∈ P.regions, r.Touches t (p k).box
  · obtain ⟨r, r1, r2⟩ := hs
    have hs' : ∃ r ∈ P.regions, r.Touches t (parentBox p) := ⟨r, r1, (hsame r r1).mpr r2⟩
    -- not all regions are below the level
    have n1 : ∃ s ∈ P.regions, s.Touches t (p k).box ∧ level < s.maxLevel := by
      by_contra hn
      push Not at hn
      have := a2 ⟨r, r1, r2⟩ hn
      omega
    have n2 : ∃ s ∈ P.regions, s.Touches t (p k).box ∧ s.minLevel < level := by
      by_contra hn
      push Not at hn
      exact hc (b1 0 hs' fun s s1 s2 => hn s s1 ((hsame s s1).mp s2))
    obtain ⟨s, s1, s2, s3⟩ := n1
    obtain ⟨u, u1, u2, u3⟩ := n2
    have w := (a3 (Or.inr ⟨⟨u, u1, u2, u3.le⟩, ⟨s, s1, s2, s3⟩⟩)).mp h
    exact (b3 (Or.inr ⟨⟨u, u1, (hsame u u1).mpr u2, u3⟩, ⟨s, s1, (hsame s s1).mpr s2, s3.le⟩⟩)).mp hc1 k (wave w)
  · have hs' : ¬ ∃ r ∈ P.regions, r.Touches t (parentBox p) := fun ⟨r, r1, r2⟩ => hs ⟨r, r1, (hsame r r1).mp r2⟩
    have w := (a3 (Or.inl hs)).mp h
    exact (b3 (Or.inl hs')).mp hc1 k (wave w)

/-- **C95 (partial).** Without regions, without tolerances for the speed, and if flagging is allowed everywhere: a patch that
has been refined is not coarsened again as long as every state in a cell of it is found in a cell of one of its
children. -/
theorem C95_stable_partial (P : Params) (p : Patch) (q : Fin 4 → Patch) (t t' : ℝ) (level : ℤ) (hp : p.box.Proper) (hf : Family q)
    (hR : P.regions = []) (hS : P.numSpeeds = 0) (hA : ∀ x y s l, P.allowflag x y s l = true) (hd : 0 ≤ P.dryTolerance)
    (h0 : 0 ≤ level)
    (hq : ∀ i j, 1 ≤ i → i ≤ p.mx → 1 ≤ j → j ≤ p.my →
      ∃ k i' j', 1 ≤ i' ∧ i' ≤ (q k).mx ∧ 1 ≤ j' ∧ j' ≤ (q k).my ∧ (q k).cell i' j' = p.cell i j)
    (h : tag4refinement P p t level 0 = 1) : tag4coarsening P q t' (level + 1) 0 = 0 := by
  have hr : ∀ r ∈ P.regions, r.Proper := by rw [hR]; simp
  have hn : ∀ s B, ¬ ∃ r ∈ P.regions, r.Touches s B := by rw [hR]; simp
  obtain ⟨_, _, a3, _⟩ := C95_refine_partial P p t level 0 hp hr h0
  obtain ⟨_, _, b3, b4⟩ := C95_coarsen_partial P q t' (level + 1) hf hr (by omega)
  obtain ⟨i, j, i1, i2, j1, j2, _, w⟩ := (a3 (Or.inl (hn _ _))).mp h
  obtain ⟨k, i', j', i1', i2', j1', j2', e⟩ := hq i j i1 i2 j1 j2
  rcases b4 0 with x | x
  · exact x
  · refine absurd ?_ ((b3 (Or.inl (hn _ _))).mp x k)
    refine ⟨i', j', i1', i2', j1', j2', hA _ _ _ _, ?_⟩
    rw [e]
    obtain ⟨w1, w2⟩ := wave_half P level _ hd w
    refine ⟨w1, ?_⟩
    rcases w2 with w2 | ⟨m, m1, m2, _⟩
    · exact Or.inl w2
    · omega

/-! ## Where it fails -/

/-- Parameters for the examples. -/
noncomputable def P0 : Params :=
  ⟨[], 0, 0, 1 / 2, 0, fun _ => 1, 5, fun _ _ _ _ => true⟩

/-- A patch with one cell. -/
noncomputable def one (x y : ℝ) (c : Cell) : Patch := ⟨1, 1, x, y, 1, 1, fun _ _ => c⟩

/-- Four siblings with one cell each. -/
noncomputable def four (c : Fin 4 → Cell) : Fin 4 → Patch :=
  ![one 0 0 (c 0), one 1 0 (c 1), one 0 1 (c 2), one 1 1 (c 3)]

theorem four_family (c : Fin 4 → Cell) : Family (four c) := by
  constructor
  · intro k; fin_cases k <;> rfl
  · intro k; fin_cases k <;> rfl
  · intro k; fin_cases k <;> rfl
  · intro k; fin_cases k <;> rfl
  all_goals simp [four, one]

theorem one_box (x y : ℝ) (c : Cell) : (one x y c).box.Proper := by
  constructor <;> simp [one, Patch.box]

theorem one_wave (P : Params) (f t x y : ℝ) (l : ℤ) (c : Cell) (hA : ∀ x y s l, P.allowflag x y s l = true) :
    WaveIn P f t l (one x y c) ↔ Wave P f l c := by
  constructor
  · rintro ⟨i, j, _, _, _, _, _, w⟩; exact w
  · intro w; exact ⟨1, 1, le_refl _, le_refl _, le_refl _, le_refl _, hA _ _ _ _, w⟩

def still : Cell := ⟨1, 0, 0, -1⟩
def wave : Cell := ⟨2, 0, 0, -1⟩
def current : Cell := ⟨1, 2, 0, -1⟩

theorem still_none (P : Params) (f : ℝ) (l : ℤ) (hw : 0 ≤ f * P.waveTolerance) (hs : P.numSpeeds = 0) (h0 : P.seaLevel = 0) :
    ¬ Wave P f l still := by
  rintro ⟨_, w | ⟨m, m1, m2, _⟩⟩
  · rw [h0] at w
    norm_num [still] at w
    linarith
  · omega

theorem wave_some (P : Params) (f : ℝ) (l : ℤ) (hd : P.dryTolerance < 2) (hw : f * P.waveTolerance < 1) (h0 : P.seaLevel = 0) :
    Wave P f l wave := by
  refine ⟨hd, Or.inl ?_⟩
  rw [h0]
  norm_num [wave]
  exact hw

/-- A region that contains the unit square and more, with levels from `a` to `b`, at all times from 0 to 10. -/
def world (a b : ℤ) : Region := ⟨a, b, -10, -10, 10, 10, 0, 10⟩

theorem world_proper (a b : ℤ) (h1 : 0 ≤ a) (h2 : a ≤ b) (h3 : b ≤ 100) : (world a b).Proper := by
  constructor <;> simp [world] <;> assumption

theorem world_touches (a b : ℤ) (x y : ℝ) (c : Cell) (hx : 0 ≤ x ∧ x ≤ 1) (hy : 0 ≤ y ∧ y ≤ 1) :
    (world a b).Touches 1 (one x y c).box := by
  refine ⟨by norm_num [world], by norm_num [world], x, y, ⟨le_refl _, ?_, le_refl _, ?_⟩, ?_, ?_, ?_, ?_⟩
  · simp [Patch.box, one]
  · simp [Patch.box, one]
  all_goals simp [world]; linarith [hx.1, hx.2, hy.1, hy.2]

/-- **C95 (counterexample).** Regions that overlap: a patch of level 1 lies in a region with minimum level 5, but it is not
refined, because it also lies in a region with levels from 1 to 3. -/
theorem C95_overlap_counterexample :
    ¬ ∀ (P : Params) (p : Patch) (t : ℝ) (level : ℤ), p.box.Proper → (∀ r ∈ P.regions, r.Proper) → 0 ≤ level →
      ∀ r ∈ P.regions, r.Touches t p.box → level < r.minLevel → tag4refinement P p t level 0 = 1 := by
  intro H
  let P : Params := { P0 with regions := [world 1 3, world 5 5] }
  have hr : ∀ r ∈ P.regions, r.Proper := by
    intro r h
    simp only [P, List.mem_cons, List.not_mem_nil, or_false] at h
    rcases h with rfl | rfl
    · exact world_proper 1 3 (by norm_num) (by norm_num) (by norm_num)
    · exact world_proper 5 5 (by norm_num) (by norm_num) (by norm_num)
  have h1 := H P (one 0 0 still) 1 1 (one_box _ _ _) hr (by norm_num) (world 5 5) (by simp [P])
    (world_touches 5 5 0 0 still (by norm_num) (by norm_num)) (by norm_num [world])
  obtain ⟨_, _, c, _⟩ := C95_refine_partial P (one 0 0 still) 1 1 0 (one_box _ _ _) hr (by norm_num)
  have h2 := (c (Or.inr ⟨⟨world 1 3, by simp [P], world_touches 1 3 0 0 still (by norm_num) (by norm_num), by norm_num [world]⟩,
    ⟨world 5 5, by simp [P], world_touches 5 5 0 0 still (by norm_num) (by norm_num), by norm_num [world]⟩⟩)).mp h1
  rw [one_wave _ _ _ _ _ _ _ (fun _ _ _ _ => rfl)] at h2
  exact still_none P 1 1 (by norm_num [P, P0]) rfl rfl h2

/-- **C95 (counterexample).** During initialisation, without regions, every family is coarsened, however large the
waves in it. -/
theorem C95_initial_counterexample :
    (∀ (P : Params) (p : Fin 4 → Patch) (t : ℝ) (level initFlag : ℤ), P.regions = [] → initFlag ≠ 0 →
      tag4coarsening P p t level initFlag = 1) ∧
    ¬ ∀ (P : Params) (p : Fin 4 → Patch) (t : ℝ) (level initFlag : ℤ), Family p → P.regions = [] → 0 < level →
      (∀ k, WaveIn P 1 t level (p k)) → tag4coarsening P p t level initFlag = 0 := by
  have a : ∀ (P : Params) (p : Fin 4 → Patch) (t : ℝ) (level initFlag : ℤ), P.regions = [] → initFlag ≠ 0 →
      tag4coarsening P p t level initFlag = 1 := by
    intro P p t level i hR hi
    unfold tag4coarsening testRegions
    rw [hR]
    simp only [List.any_nil, Bool.false_eq_true, not_false_eq_true, if_true, Int.reduceNeg, Int.reduceLT]
    rw [fort_iff, if_neg]
    rintro ⟨k, hk⟩
    rw [flagged_iff] at hk
    exact hk.1 ⟨hi, rfl⟩
  refine ⟨a, fun H => ?_⟩
  have h := H P0 (four fun _ => wave) 0 1 1 (four_family _) rfl (by norm_num) (by
    intro k
    fin_cases k <;> exact (one_wave P0 1 0 _ _ 1 wave (fun _ _ _ _ => rfl)).mpr
      (wave_some P0 1 1 (by norm_num [P0]) (by norm_num [P0]) rfl))
  rw [a P0 _ 0 1 1 rfl (by norm_num)] at h
  exact absurd h (by norm_num)

/-- **C95 (counterexample).** A tolerance for the speed that holds for level 1: in a uniform current a patch of level 1 is
refined, and its children, with the same current, are coarsened. -/
theorem C95_speed_counterexample :
    ∃ (P : Params) (p : Patch) (q : Fin 4 → Patch) (t : ℝ), Family q ∧ P.regions = [] ∧
      (∀ x y s l, P.allowflag x y s l = true) ∧ 0 ≤ P.dryTolerance ∧
      (∀ i j k i' j', (q k).cell i' j' = p.cell i j) ∧
      tag4refinement P p t 1 0 = 1 ∧ tag4coarsening P q t 2 0 = 1 := by
  let P : Params := { P0 with numSpeeds := 1 }
  have hn : ∀ s B, ¬ ∃ r ∈ P.regions, r.Touches s B := by intro s B; simp [P, P0]
  have hr : ∀ r ∈ P.regions, r.Proper := by simp [P, P0]
  refine ⟨P, one 0 0 current, four fun _ => current, 0, four_family _, rfl, fun _ _ _ _ => rfl, le_refl _, ?_, ?_, ?_⟩
  · intro i j k i' j'; fin_cases k <;> rfl
  · refine ((C95_refine_partial P (one 0 0 current) 0 1 0 (one_box _ _ _) hr (by norm_num)).2.2.1 (Or.inl (hn _ _))).mpr ?_
    rw [one_wave _ _ _ _ _ _ _ (fun _ _ _ _ => rfl)]
    refine ⟨by norm_num [P, P0, current], Or.inr ⟨1, le_refl _, le_refl _, by norm_num [P, P0], by norm_num, ?_⟩⟩
    show (1 : ℝ) * 1 < Real.sqrt (2 ^ 2 + 0 ^ 2) / 1
    rw [show (2 : ℝ) ^ 2 + 0 ^ 2 = 2 ^ 2 by norm_num, Real.sqrt_sq (by norm_num)]
    norm_num
  · refine ((C95_coarsen_partial P (four fun _ => current) 0 2 (four_family _) hr (by norm_num)).2.2.1 (Or.inl (hn _ _))).mpr ?_
    intro k hk
    have w : Wave P (1 / 2) 2 current := by
      fin_cases k <;> exact (one_wave P _ _ _ _ _ current (fun _ _ _ _ => rfl)).mp hk
    rcases w with ⟨_, w | ⟨m, m1, m2, m3, m4, _⟩⟩
    · norm_num [P, P0, current] at w
    · have : (m : ℕ) ≤ 1 := m2
      omega

/-- **C95 (counterexample).** An application that allows flagging on level 1 only (`allowflag`): a patch of level 1 with a wave is
refined, and its children, with the same wave, are coarsened. -/
theorem C95_allow_counterexample :
    ∃ (P : Params) (p : Patch) (q : Fin 4 → Patch) (t : ℝ), Family q ∧ P.regions = [] ∧
      (∀ x y s l, P.allowflag x y s l = decide (l ≤ 1)) ∧ 0 ≤ P.dryTolerance ∧
      (∀ i j k i' j', (q k).cell i' j' = p.cell i j) ∧
      tag4refinement P p t 1 0 = 1 ∧ tag4coarsening P q t 2 0 = 1 := by
  let P : Params := { P0 with allowflag := fun _ _ _ l => decide (l ≤ 1) }
  have hn : ∀ s B, ¬ ∃ r ∈ P.regions, r.Touches s B := by intro s B; simp [P, P0]
  have hr : ∀ r ∈ P.regions, r.Proper := by simp [P, P0]
  refine ⟨P, one 0 0 wave, four fun _ => wave, 0, four_family _, rfl, fun _ _ _ _ => rfl, le_refl _, ?_, ?_, ?_⟩
  · intro i j k i' j'; fin_cases k <;> rfl
  · refine ((C95_refine_partial P (one 0 0 wave) 0 1 0 (one_box _ _ _) hr (by norm_num)).2.2.1 (Or.inl (hn _ _))).mpr ?_
    exact ⟨1, 1, le_refl _, le_refl _, le_refl _, le_refl _, rfl,
      wave_some P 1 1 (by norm_num [P, P0]) (by norm_num [P, P0]) rfl⟩
  · refine ((C95_coarsen_partial P (four fun _ => wave) 0 2 (four_family _) hr (by norm_num)).2.2.1 (Or.inl (hn _ _))).mpr ?_
    rintro k ⟨i, j, _, _, _, _, hal, _⟩
    have : decide ((2 : ℤ) ≤ 1) = true := hal
    simp at this

/-- The part of the square of the examples right of 3/2. -/
noncomputable def corner (a b : ℤ) : Region := ⟨a, b, 3 / 2, -10, 10, 10, 0, 10⟩

theorem corner_proper (a b : ℤ) (h1 : 0 ≤ a) (h2 : a ≤ b) (h3 : b ≤ 100) : (corner a b).Proper := by
  constructor <;> simp [corner] <;> first | assumption | norm_num

/-- **C95 (counterexample).** A region with maximum level 1 touches the parent, but not the first of the siblings, which are of
level 2. The first of them has a wave: it is refined, and the family is coarsened, in the same step. -/
theorem C95_exclusive_counterexample :
    ∃ (P : Params) (p : Fin 4 → Patch) (t : ℝ), Family p ∧ (∀ r ∈ P.regions, r.Proper) ∧ 0 ≤ P.dryTolerance ∧
      (∀ x y s l, P.allowflag x y s l = true) ∧
      tag4refinement P (p 0) t 2 0 = 1 ∧ tag4coarsening P p t 2 0 = 1 := by
  let P : Params := { P0 with regions := [corner 0 1] }
  have hr : ∀ r ∈ P.regions, r.Proper := by
    intro r h
    simp only [P, List.mem_cons, List.not_mem_nil, or_false] at h
    subst h
    exact corner_proper 0 1 (by norm_num) (by norm_num) (by norm_num)
  refine ⟨P, four fun _ => wave, 1, four_family _, hr, le_refl _, fun _ _ _ _ => rfl, ?_, ?_⟩
  · refine ((C95_refine_partial P (one 0 0 wave) 1 2 0 (one_box _ _ _) hr (by norm_num)).2.2.1 (Or.inl ?_)).mpr ?_
    · rintro ⟨r, h, _, _, x, y, ⟨_, h2, _⟩, ⟨h3, _⟩⟩
      simp only [P, List.mem_cons, List.not_mem_nil, or_false] at h
      subst h
      norm_num [Patch.box, one, corner] at h2 h3
      linarith
    · exact (one_wave _ _ _ _ _ _ _ (fun _ _ _ _ => rfl)).mpr (wave_some P 1 2 (by norm_num [P, P0]) (by norm_num [P, P0]) rfl)
  · refine (C95_coarsen_partial P (four fun _ => wave) 1 2 (four_family _) hr (by norm_num)).2.1 0 ⟨corner 0 1, by simp [P], ?_⟩ ?_
    · refine ⟨by norm_num [corner], by norm_num [corner], 2, 0, ⟨?_, ?_, ?_, ?_⟩, ?_⟩
      all_goals simp [parentBox, four, one, corner]
      norm_num
    · intro r h _
      simp only [P, List.mem_cons, List.not_mem_nil, or_false] at h
      subst h
      norm_num [corner]

/-! ## The hypotheses can be met -/

/-- A wave in one of four siblings: it is refined, and the family is kept. -/
example : tag4refinement P0 (four (fun k => if k = 0 then wave else still) 0) 0 1 0 = 1 ∧
    tag4coarsening P0 (four (fun k => if k = 0 then wave else still)) 0 1 0 = 0 := by
  have hr : ∀ r ∈ P0.regions, r.Proper := by simp [P0]
  have hn : ∀ s B, ¬ ∃ r ∈ P0.regions, r.Touches s B := by intro s B; simp [P0]
  have h : tag4refinement P0 (four (fun k => if k = 0 then wave else still) 0) 0 1 0 = 1 :=
    ((C95_refine_partial P0 (one 0 0 wave) 0 1 0 (one_box _ _ _) hr (by norm_num)).2.2.1 (Or.inl (hn _ _))).mpr
      ((one_wave _ _ _ _ _ _ _ (fun _ _ _ _ => rfl)).mpr (wave_some P0 1 1 (by norm_num [P0]) (by norm_num [P0]) rfl))
  exact ⟨h, C95_exclusive_partial P0 _ 0 0 1 (four_family _) hr (le_refl _) (by norm_num) (by simp [P0]) h⟩

/-- Water at rest: no patch is refined, and families are coarsened. -/
example : tag4refinement P0 (one 0 0 still) 0 1 0 = 0 ∧ tag4coarsening P0 (four fun _ => still) 0 1 0 = 1 := by
  have hr : ∀ r ∈ P0.regions, r.Proper := by simp [P0]
  have hn : ∀ s B, ¬ ∃ r ∈ P0.regions, r.Touches s B := by intro s B; simp [P0]
  obtain ⟨_, _, c, d⟩ := C95_refine_partial P0 (one 0 0 still) 0 1 0 (one_box _ _ _) hr (by norm_num)
  constructor
  · rcases d with d | d
    · exact d
    · exact absurd ((one_wave _ _ _ _ _ _ _ (fun _ _ _ _ => rfl)).mp ((c (Or.inl (hn _ _))).mp d))
        (still_none P0 1 1 (by norm_num [P0]) rfl rfl)
  · refine ((C95_coarsen_partial P0 (four fun _ => still) 0 1 (four_family _) hr (by norm_num)).2.2.1 (Or.inl (hn _ _))).mpr ?_
    intro k hk
    refine still_none P0 (1 / 2) 1 (by norm_num [P0]) rfl rfl ?_
    fin_cases k <;> exact (one_wave P0 _ _ _ _ _ still (fun _ _ _ _ => rfl)).mp hk

/-- A single region with levels from 2 to 3: water at rest is refined from level 1, kept on level 2 (the family is not
coarsened), and a wave is not refined on level 3. -/
example (P : Params) (hP : P = { P0 with regions := [world 2 3] }) :
    tag4refinement P (one 0 0 still) 1 1 0 = 1 ∧ tag4refinement P (one 0 0 wave) 1 3 0 = 0 ∧
    tag4coarsening P (four fun _ => still) 1 2 0 = 0 := by
  subst hP
  have hr : ∀ r ∈ ({ P0 with regions := [world 2 3] } : Params).regions, r.Proper := by
    intro r h
    simp only [List.mem_cons, List.not_mem_nil, or_false] at h
    subst h
    exact world_proper 2 3 (by norm_num) (by norm_num) (by norm_num)
  refine ⟨?_, ?_, ?_⟩
  · refine (C95_refine_partial _ (one 0 0 still) 1 1 0 (one_box _ _ _) hr (by norm_num)).1
      ⟨world 2 3, by simp, world_touches 2 3 0 0 still (by norm_num) (by norm_num)⟩ ?_
    intro r h _
    simp only [List.mem_cons, List.not_mem_nil, or_false] at h
    subst h
    norm_num [world]
  · refine (C95_refine_partial _ (one 0 0 wave) 1 3 0 (one_box _ _ _) hr (by norm_num)).2.1
      ⟨world 2 3, by simp, world_touches 2 3 0 0 wave (by norm_num) (by norm_num)⟩ ?_
    intro r h _
    simp only [List.mem_cons, List.not_mem_nil, or_false] at h
    subst h
    norm_num [world]
  · refine (C95_coarsen_partial _ (four fun _ => still) 1 2 (four_family _) hr (by norm_num)).1 0
      ⟨world 2 3, by simp, ?_⟩ ?_
    · refine ⟨by norm_num [world], by norm_num [world], 0, 0, ⟨?_, ?_, ?_, ?_⟩, ?_⟩
      all_goals simp [parentBox, four, one, world]
    · intro r h _
      simp only [List.mem_cons, List.not_mem_nil, or_false] at h
      subst h
      norm_num [world]

/-- A patch with a wave and its children with the same states: no coarsening follows. -/
example : tag4coarsening P0 (four fun _ => wave) 1 (1 + 1) 0 = 0 := by
  have hr : ∀ r ∈ P0.regions, r.Proper := by simp [P0]
  have hn : ∀ s B, ¬ ∃ r ∈ P0.regions, r.Touches s B := by intro s B; simp [P0]
  refine C95_stable_partial P0 (one 0 0 wave) _ 0 1 1 (one_box _ _ _) (four_family _) rfl rfl (fun _ _ _ _ => rfl) (le_refl _)
    (by norm_num) ?_ ?_
  · intro i j _ _ _ _
    exact ⟨0, 1, 1, le_refl _, le_refl _, le_refl _, le_refl _, rfl⟩
  · exact ((C95_refine_partial P0 (one 0 0 wave) 0 1 0 (one_box _ _ _) hr (by norm_num)).2.2.1 (Or.inl (hn _ _))).mpr
      ((one_wave _ _ _ _ _ _ _ (fun _ _ _ _ => rfl)).mpr (wave_some P0 1 1 (by norm_num [P0]) (by norm_num [P0]) rfl))

/-- The world touches a box. -/
example : intersects 0 0 1 1 1 (world 2 3) = true :=
  (C95_touch (world 2 3) ⟨0, 0, 1, 1⟩ 1 ⟨by norm_num, by norm_num⟩ (world_proper 2 3 (by norm_num) (by norm_num) (by norm_num))).mpr
    ⟨by norm_num [world], by norm_num [world], 0, 0, by norm_num, by norm_num [world]⟩

end Fclaw.GeoTag

import Verif.Geo.Family
import Verif.CoarseFine.Props
/-
C82: GeoClaw's transfer of the water between patches of different size keeps water at rest, creates no
negative depths, and no velocities that were not there.
-/
set_option autoImplicit false
set_option linter.unusedSimpArgs false
set_option linter.unusedVariables false
namespace Fclaw.Geo

open Fort Transform CopyGhost Transfer CoarseFine

/-! ### What the large cell gets -/

/-- C82: the depth of the mean is not negative, … -/
theorem C82_merged_nonneg (tol : ℚ) (ht : 0 ≤ tol) (w : Nat → Nat → Water) (g : Nat → Nat → Ground) (G : Ground)
    (hh : ∀ x y : Nat, x < 2 → y < 2 → 0 ≤ (w x y).h) (hk : ∀ x y : Nat, x < 2 → y < 2 → 0 < (g x y).κ) (hG : 0 < G.κ) :
    0 ≤ (merged tol w g G).h :=
  merged_nonneg ht hh hk hG

/-- … there is no momentum without water, and velocities are between the least and the greatest one in the
four cells (or zero), … -/
theorem C82_merged_velocity (tol : ℚ) (ht : 0 ≤ tol) (w : Nat → Nat → Water) (g : Nat → Nat → Ground) (G : Ground)
    (hh : ∀ x y : Nat, x < 2 → y < 2 → 0 ≤ (w x y).h) (hk : ∀ x y : Nat, x < 2 → y < 2 → 0 < (g x y).κ) (hG : 0 < G.κ)
    (lo hi : ℚ) (hlo : lo ≤ 0) (hhi : 0 ≤ hi) :
    ((merged tol w g G).h = 0 → (merged tol w g G).hu = 0 ∧ (merged tol w g G).hv = 0) ∧
    ((∀ x y : Nat, x < 2 → y < 2 → lo * (w x y).h ≤ (w x y).hu ∧ (w x y).hu ≤ hi * (w x y).h) →
      lo * (merged tol w g G).h ≤ (merged tol w g G).hu ∧ (merged tol w g G).hu ≤ hi * (merged tol w g G).h) ∧
    ((∀ x y : Nat, x < 2 → y < 2 → lo * (w x y).h ≤ (w x y).hv ∧ (w x y).hv ≤ hi * (w x y).h) →
      lo * (merged tol w g G).h ≤ (merged tol w g G).hv ∧ (merged tol w g G).hv ≤ hi * (merged tol w g G).h) := by
  refine ⟨fun h => ?_, (merged_velocity ht hh hk hG hlo hhi).1, (merged_velocity ht hh hk hG hlo hhi).2⟩
  have e1 : (merged tol w g G).hu = (merged tol w g G).h * _ := rfl
  have e2 : (merged tol w g G).hv = (merged tol w g G).h * _ := rfl
  rw [e1, e2, h]
  simp

/-- … and water and momentum are conserved where all four cells are wet, if the ground is the mean of the
ground. -/
theorem C82_merged_conserves_partial (tol : ℚ) (ht : 0 ≤ tol) (w : Nat → Nat → Water) (g : Nat → Nat → Ground) (G : Ground)
    (hk : ∀ x y : Nat, x < 2 → y < 2 → 0 < (g x y).κ) (hG : 0 < G.κ) (hc : Consistent g G)
    (hw : ∀ x y : Nat, x < 2 → y < 2 → Wet tol (w x y) (g x y)) :
    4 * ((merged tol w g G).h * G.κ) = sum4 (fun x y => (w x y).h * (g x y).κ) ∧
    4 * ((merged tol w g G).hu * G.κ) = sum4 (fun x y => (w x y).hu * (g x y).κ) ∧
    4 * ((merged tol w g G).hv * G.κ) = sum4 (fun x y => (w x y).hv * (g x y).κ) :=
  merged_conserves ht hk hG hc hw

/-- C82, the general case: no more water than in the wet cells, taken for the whole. -/
theorem C82_merged_bound (tol : ℚ) (w : Nat → Nat → Water) (g : Nat → Nat → Ground) (G : Ground) (hG : 0 < G.κ)
    (hn : wetCells tol w g ≠ 0) :
    wetCells tol w g * ((merged tol w g G).h * G.κ) ≤ sum4 (fun x y => (w x y).h * (g x y).κ) :=
  (merged_le hG).resolve_right hn

/-- C82: water at rest stays at rest, where the ground is the mean of the ground; if only some of the four
cells are wet, for equal capacities or a surface at height zero. -/
theorem C82_merged_rest_partial (tol s : ℚ) (ht : 0 ≤ tol) (w : Nat → Nat → Water) (g : Nat → Nat → Ground) (G : Ground)
    (hk : ∀ x y : Nat, x < 2 → y < 2 → 0 < (g x y).κ) (hG : 0 < G.κ) (hc : Consistent g G)
    (hs : s = 0 ∨ (∀ x y : Nat, x < 2 → y < 2 → (g x y).κ = G.κ) ∨ ∀ x y : Nat, x < 2 → y < 2 → Wet tol (w x y) (g x y))
    (hr : ∀ x y : Nat, x < 2 → y < 2 → AtRest tol s (w x y) (g x y)) : AtRest tol s (merged tol w g G) G :=
  merged_rest ht hk hG hr hc hs

/-! ### Averaging -/

theorem water_of {q' : Grid ℚ} {i j : ℤ} {w : Water} (h : ∀ m : ℤ, 1 ≤ m → m ≤ 3 → q' (i, j, m) = w.comp m) :
    waterAt q' (i, j) = w := by
  unfold waterAt
  dsimp only
  rw [h 1 (by omega) (by omega), h 2 (by omega) (by omega), h 3 (by omega) (by omega)]
  rfl

/-- C82: averaging from a neighbour of half the size does not touch memory outside of the arrays nor divide by
zero, sets each ghost cell at its half of the face to the water of the four interior cells of the neighbour that lie
in the same place, and changes nothing else. -/
theorem C82_average_face (d : Dims) (hd : EvenDims d) (td : TData) (f g : Nat) (hf : f < 4) (hg : g < 2)
    (h : HalfFaceLink d td.transform f g td.this td.neighbor) (P : Params) (auxC auxF qfine qcoarse : Grid ℚ)
    (hs : Safe d P qfine auxF auxC (inHalfStrip d f g)) :
    ∃ q', averageFace d td P f auxC auxF qfine qcoarse = some q' ∧
      (∀ i j, inHalfStrip d f g i j → ∃ c : Nat → Nat → ℤ × ℤ,
        (∀ x y, x < 2 → y < 2 → interior d (c x y).1 (c x y).2 ∧
          HalfFaceSame d td.transform td.this td.neighbor i j x y (c x y).1 (c x y).2) ∧
        waterAt q' (i, j) = merged P.dryTolerance (fun x y => waterAt qfine (c x y)) (fun x y => groundAt P auxF (c x y))
          (groundAt P auxC (i, j))) ∧
      ∀ i j m, ¬ (inHalfStrip d f g i j ∧ 1 ≤ m ∧ m ≤ 3) → q' (i, j, m) = qcoarse (i, j, m) := by
  obtain ⟨hM, ho, hS⟩ := faceHalf_spec hd.proper td f g h
  obtain ⟨q', h1, h2, h3⟩ := averageFace_writes hd td hf hg ho hM hs qcoarse
  refine ⟨q', h1, ?_, fun i j m hn => h3 (i, j, m) hn⟩
  intro i j hi
  refine ⟨cells (faceOrient td.transform) d (faceHalfStep f g) i j, ?_, water_of fun m m1 m2 => h2 (i, j, m) ⟨hi, m1, m2⟩⟩
  intro x y hx hy
  exact ⟨half_interior hd hf hg ho hi hx hy, hS i j x y hx hy⟩

/-- C82, corners. -/
theorem C82_average_corner (d : Dims) (hd : EvenDims d) (td : TData) (k : Nat) (hk : k < 4) (h : HalfCornerLink d td k)
    (P : Params) (auxC auxF qfine qcoarse : Grid ℚ) (hs : Safe d P qfine auxF auxC (inCorner d k)) :
    ∃ q', averageCorner d td P k auxC auxF qfine qcoarse = some q' ∧
      (∀ i j, inCorner d k i j → ∃ c : Nat → Nat → ℤ × ℤ,
        (∀ x y, x < 2 → y < 2 → interior d (c x y).1 (c x y).2 ∧ HalfCornerSame d td i j x y (c x y).1 (c x y).2) ∧
        waterAt q' (i, j) = merged P.dryTolerance (fun x y => waterAt qfine (c x y)) (fun x y => groundAt P auxF (c x y))
          (groundAt P auxC (i, j))) ∧
      ∀ i j m, ¬ (inCorner d k i j ∧ 1 ≤ m ∧ m ≤ 3) → q' (i, j, m) = qcoarse (i, j, m) := by
  obtain ⟨hM, ho, hS⟩ := cornerHalf_spec hd.proper td k h
  obtain ⟨q', h1, h2, h3⟩ := averageCorner_writes hd td hk ho hM hs qcoarse
  refine ⟨q', h1, ?_, fun i j m hn => h3 (i, j, m) hn⟩
  intro i j hi
  refine ⟨cells (cornerOrient td) d (cornerHalfStep k) i j, ?_, water_of fun m m1 m2 => h2 (i, j, m) ⟨hi, m1, m2⟩⟩
  intro x y hx hy
  exact ⟨corner_interior hd hk ho hi hx hy, hS i j x y hx hy⟩

/-- C82, on regridding: each cell of the patch gets the water of the four cells of the child that covers it. -/
theorem C82_coarsen (d : Dims) (hE : Even2 d) (P : Params) (auxC : Grid ℚ) (auxF qfine : ℤ → Grid ℚ) (qcoarse : Grid ℚ)
    (hs : ∀ g, 0 ≤ g → g ≤ 3 → Safe d P (qfine g) (auxF g) auxC (interior d)) :
    ∃ q', coarsen d P auxC auxF qfine qcoarse = some q' ∧
      (∀ i j, interior d i j → waterAt q' (i, j) =
        merged P.dryTolerance (fun x y => waterAt (qfine (subPatch d (i, j))) (subCell d (i, j) x y))
          (fun x y => groundAt P (auxF (subPatch d (i, j))) (subCell d (i, j) x y)) (groundAt P auxC (i, j))) ∧
      ∀ i j m, ¬ (interior d i j ∧ 1 ≤ m ∧ m ≤ 3) → q' (i, j, m) = qcoarse (i, j, m) := by
  obtain ⟨q', h1, h2, h3⟩ := coarsen_writes hE hs qcoarse
  exact ⟨q', h1, fun i j hi => water_of fun m m1 m2 => h2 (i, j, m) ⟨hi, m1, m2⟩, fun i j m hn => h3 (i, j, m) hn⟩

/-- C82: averaging over a face keeps a lake at rest (and leaves no negative depth): the neighbour holds water at rest,
the ground is known in the same way on both patches, and there is no capacity function or the surface is at height zero. -/
theorem C82_rest_average_face (d : Dims) (hd : EvenDims d) (td : TData) (f g : Nat) (hf : f < 4) (hg : g < 2)
    (h : HalfFaceLink d td.transform f g td.this td.neighbor) (P : Params) (auxC auxF qfine qcoarse : Grid ℚ)
    (hs : Safe d P qfine auxF auxC (inHalfStrip d f g)) (s : ℚ) (hcap : P.mcapa = 0 ∨ s = 0)
    (hground : ∀ i j, inHalfStrip d f g i j → ∀ c : Nat → Nat → ℤ × ℤ,
      (∀ x y, x < 2 → y < 2 → HalfFaceSame d td.transform td.this td.neighbor i j x y (c x y).1 (c x y).2) →
      Consistent (fun x y => groundAt P auxF (c x y)) (groundAt P auxC (i, j)))
    (hrest : ∀ i j, interior d i j → AtRest P.dryTolerance s (waterAt qfine (i, j)) (groundAt P auxF (i, j))) :
    ∃ q', averageFace d td P f auxC auxF qfine qcoarse = some q' ∧
      ∀ i j, inHalfStrip d f g i j → AtRest P.dryTolerance s (waterAt q' (i, j)) (groundAt P auxC (i, j)) := by
  obtain ⟨q', h1, h2, _⟩ := C82_average_face d hd td f g hf hg h P auxC auxF qfine qcoarse hs
  refine ⟨q', h1, fun i j hi => ?_⟩
  obtain ⟨c, hc, e⟩ := h2 i j hi
  rw [e]
  refine merged_rest hs.tol (fun x y hx hy => hs.fine.capacity _ _ (hc x y hx hy).1) (hs.coarse i j hi)
    (fun x y hx hy => hrest _ _ (hc x y hx hy).1) (hground i j hi c fun x y hx hy => (hc x y hx hy).2) ?_
  rcases hcap with hm | hz
  · right; left
    intro x y hx hy
    unfold groundAt
    simp [hm]
  · exact Or.inl hz

/-- C82: the same for corners, … -/
theorem C82_rest_average_corner (d : Dims) (hd : EvenDims d) (td : TData) (k : Nat) (hk : k < 4) (h : HalfCornerLink d td k)
    (P : Params) (auxC auxF qfine qcoarse : Grid ℚ) (hs : Safe d P qfine auxF auxC (inCorner d k)) (s : ℚ)
    (hcap : P.mcapa = 0 ∨ s = 0)
    (hground : ∀ i j, inCorner d k i j → ∀ c : Nat → Nat → ℤ × ℤ,
      (∀ x y, x < 2 → y < 2 → HalfCornerSame d td i j x y (c x y).1 (c x y).2) →
      Consistent (fun x y => groundAt P auxF (c x y)) (groundAt P auxC (i, j)))
    (hrest : ∀ i j, interior d i j → AtRest P.dryTolerance s (waterAt qfine (i, j)) (groundAt P auxF (i, j))) :
    ∃ q', averageCorner d td P k auxC auxF qfine qcoarse = some q' ∧
      ∀ i j, inCorner d k i j → AtRest P.dryTolerance s (waterAt q' (i, j)) (groundAt P auxC (i, j)) := by
  obtain ⟨q', h1, h2, _⟩ := C82_average_corner d hd td k hk h P auxC auxF qfine qcoarse hs
  refine ⟨q', h1, fun i j hi => ?_⟩
  obtain ⟨c, hc, e⟩ := h2 i j hi
  rw [e]
  refine merged_rest hs.tol (fun x y hx hy => hs.fine.capacity _ _ (hc x y hx hy).1) (hs.coarse i j hi)
    (fun x y hx hy => hrest _ _ (hc x y hx hy).1) (hground i j hi c fun x y hx hy => (hc x y hx hy).2) ?_
  rcases hcap with hm | hz
  · right; left
    intro x y hx hy
    unfold groundAt
    simp [hm]
  · exact Or.inl hz

/-- … and on regridding. -/
theorem C82_rest_coarsen (d : Dims) (hE : Even2 d) (P : Params) (auxC : Grid ℚ) (auxF qfine : ℤ → Grid ℚ) (qcoarse : Grid ℚ)
    (hs : ∀ g, 0 ≤ g → g ≤ 3 → Safe d P (qfine g) (auxF g) auxC (interior d)) (s : ℚ) (hcap : P.mcapa = 0 ∨ s = 0)
    (hground : ∀ i j, interior d i j →
      Consistent (fun x y => groundAt P (auxF (subPatch d (i, j))) (subCell d (i, j) x y)) (groundAt P auxC (i, j)))
    (hrest : ∀ g i j, 0 ≤ g → g ≤ 3 → interior d i j →
      AtRest P.dryTolerance s (waterAt (qfine g) (i, j)) (groundAt P (auxF g) (i, j))) :
    ∃ q', coarsen d P auxC auxF qfine qcoarse = some q' ∧
      ∀ i j, interior d i j → AtRest P.dryTolerance s (waterAt q' (i, j)) (groundAt P auxC (i, j)) := by
  obtain ⟨q', h1, h2, _⟩ := C82_coarsen d hE P auxC auxF qfine qcoarse hs
  refine ⟨q', h1, fun i j hi => ?_⟩
  rw [h2 i j hi]
  obtain ⟨g0, g1⟩ := subPatch_range d (i, j)
  have S := hs _ g0 g1
  refine merged_rest S.tol (fun x y hx hy => S.fine.capacity _ _ (subCell_interior hE hi hx hy)) (S.coarse i j hi)
    (fun x y hx hy => hrest _ _ _ g0 g1 (subCell_interior hE hi hx hy)) (hground i j hi) ?_
  rcases hcap with hm | hz
  · right; left
    intro x y hx hy
    unfold groundAt
    simp [hm]
  · exact Or.inl hz

/-! ### Interpolation -/

/-- C82, partial: interpolation to a neighbour of half the size does not touch memory outside of the arrays, sets the
depth in each of its ghost cells at the common face, and at its corner in the middle of the face, to what is between the
ground there and the surface as reconstructed from the heights of the water in the coarse cells (none if the ground is
higher), the momenta to their reconstructions, and changes nothing else. Missing: other numbers of ghost layers than two, and
patches with different numbers of cells in the two directions at the left and right faces. -/
theorem C82_interpolate_face_partial (d : Dims) (hd : EvenDims d) (hb : d.mbc = 2) (td : TData) (f g : Nat) (hf : f < 4)
    (hg : g < 2) (hsq : f / 2 = 0 → d.mx = d.my) (h : HalfFaceLink d td.transform f g td.this td.neighbor) (P : Params)
    (hz : Sizes d P) (qcoarse auxC auxF qfine : Grid ℚ) :
    ∃ q', interpolateFace d td P f qcoarse auxC auxF qfine = some q' ∧
      (∀ i' j', inStrip d (touching td.transform f) i' j' ∨ inCorner d (hanging td.transform f g) i' j' →
        ∃ i j x y, interior d i j ∧ x < 2 ∧ y < 2 ∧ HalfFaceSame d td.transform td.this td.neighbor i j x y i' j' ∧
          q' (i', j', 1) = max (refinedDepth P qcoarse auxC i j x y (auxF (i', j', 1))) 0 ∧
          ∀ m : ℤ, 2 ≤ m → m ≤ d.meqn → q' (i', j', m) = reconstruct qcoarse i j m x y) ∧
      ∀ i' j' m, ¬ ((inStrip d (touching td.transform f) i' j' ∨ inCorner d (hanging td.transform f g) i' j') ∧
        comp d m) → q' (i', j', m) = qfine (i', j', m) := by
  have hb2 : d.mbc % 2 = 0 := by omega
  have hmq := hz.meqn
  obtain ⟨hM, ho, hS⟩ := faceHalf_spec hd.proper td f g h
  rw [touch_eq hf h, hang_eq hf hg h]
  obtain ⟨q', h1, h2, h3⟩ := interpolateFace_writes hz hd hb td hf hg hsq ho hM qcoarse auxC auxF qfine
  refine ⟨q', h1, ?_, fun i j m hn => h3 (i, j, m) hn⟩
  intro i' j' hi
  obtain ⟨hl, _⟩ := ghost_layer hd hb2 hf hg ho hi
  refine ⟨_, _, _, _, hl.1, partOf_lt (Orient.inv (faceOrient td.transform) d (faceHalfStep f g) i' j').1,
    partOf_lt (Orient.inv (faceOrient td.transform) d (faceHalfStep f g) i' j').2, ?_, ?_, ?_⟩
  · have := hS (cellOf (Orient.inv (faceOrient td.transform) d (faceHalfStep f g) i' j').1)
      (cellOf (Orient.inv (faceOrient td.transform) d (faceHalfStep f g) i' j').2) _ _
      (partOf_lt (Orient.inv (faceOrient td.transform) d (faceHalfStep f g) i' j').1)
      (partOf_lt (Orient.inv (faceOrient td.transform) d (faceHalfStep f g) i' j').2)
    rw [quarter_of, quarter_of, map_inv ho] at this
    exact this
  · rw [h2 (i', j', 1) ⟨hi, by dsimp only; omega, by dsimp only; omega⟩]
    exact if_pos rfl
  · intro m m1 m2
    rw [h2 (i', j', m) ⟨hi, by dsimp only; omega, by dsimp only; omega⟩]
    exact if_neg (by dsimp only; omega)

/-- C82, corners, partial: two ghost layers. -/
theorem C82_interpolate_corner_partial (d : Dims) (hd : EvenDims d) (hb : d.mbc = 2) (td : TData) (k : Nat) (hk : k < 4)
    (h : HalfCornerLink d td k) (P : Params) (hz : Sizes d P) (qcoarse auxC auxF qfine : Grid ℚ) :
    ∃ q', interpolateCorner d td P k qcoarse auxC auxF qfine = some q' ∧
      (∀ i' j', inCorner d (touchingCorner td k) i' j' →
        ∃ i j x y, interior d i j ∧ x < 2 ∧ y < 2 ∧ HalfCornerSame d td i j x y i' j' ∧
          q' (i', j', 1) = max (refinedDepth P qcoarse auxC i j x y (auxF (i', j', 1))) 0 ∧
          ∀ m : ℤ, 2 ≤ m → m ≤ d.meqn → q' (i', j', m) = reconstruct qcoarse i j m x y) ∧
      ∀ i' j' m, ¬ (inCorner d (touchingCorner td k) i' j' ∧ comp d m) → q' (i', j', m) = qfine (i', j', m) := by
  have hb2 : d.mbc % 2 = 0 := by omega
  have hmq := hz.meqn
  obtain ⟨hM, ho, hS⟩ := cornerHalf_spec hd.proper td k h
  rw [corner_eq hk h]
  have hM' : ∃ s', Maps d s' (cornerOrient td) (clawFaceHalf d td) := by
    obtain ⟨hf, hk', hbi, h⟩ := h
    by_cases hb : 0 ≤ td.blockIface
    · refine ⟨cornerHalfStep k, fun i j => ?_⟩
      have := hM i j
      unfold clawCornerHalf at this
      rw [if_pos hb] at this
      exact this
    · rw [if_neg hb] at h
      obtain ⟨hv, h4, _⟩ := h
      have : cornerOrient td = straight := by unfold cornerOrient; rw [if_neg hb]
      rw [this]
      exact intra_maps hd.proper td hf h4 hv
  obtain ⟨s', hM'⟩ := hM'
  obtain ⟨q', h1, h2, h3⟩ := interpolateCorner_writes hz hd hb td hk ho hM hM' qcoarse auxC auxF qfine
  refine ⟨q', h1, ?_, fun i j m hn => h3 (i, j, m) hn⟩
  intro i' j' hi
  have hl := ghost_inner hd hb2 hk ho hi
  refine ⟨_, _, _, _, hl.1, partOf_lt (Orient.inv (cornerOrient td) d (cornerHalfStep k) i' j').1,
    partOf_lt (Orient.inv (cornerOrient td) d (cornerHalfStep k) i' j').2, ?_, ?_, ?_⟩
  · have := hS (cellOf (Orient.inv (cornerOrient td) d (cornerHalfStep k) i' j').1)
      (cellOf (Orient.inv (cornerOrient td) d (cornerHalfStep k) i' j').2) _ _
      (partOf_lt (Orient.inv (cornerOrient td) d (cornerHalfStep k) i' j').1)
      (partOf_lt (Orient.inv (cornerOrient td) d (cornerHalfStep k) i' j').2)
    rw [quarter_of, quarter_of, map_inv ho] at this
    exact this
  · rw [h2 (i', j', 1) ⟨hi, by dsimp only; omega, by dsimp only; omega⟩]
    exact if_pos rfl
  · intro m m1 m2
    rw [h2 (i', j', m) ⟨hi, by dsimp only; omega, by dsimp only; omega⟩]
    exact if_neg (by dsimp only; omega)

/-- C82, on regridding: each cell of the children, and those of their ghost cells that lie within a sibling, gets as
depth what is between the ground there and the reconstructed surface — a negative number if the ground is higher —, and
reconstructed momenta. -/
theorem C82_refine (d : Dims) (hE : Even2 d) (hb : 2 ≤ d.mbc) (P : Params) (hz : Sizes d P) (qcoarse auxC : Grid ℚ)
    (auxF qfine : ℤ → Grid ℚ) :
    ∃ q', refine d P auxC auxF qcoarse qfine = some q' ∧ ∀ g, 0 ≤ g → g ≤ 3 →
      (∀ i j, window d g i j →
        q' g (i, j, 1) = refinedDepth P qcoarse auxC (parent d (g, i, j)).1 (parent d (g, i, j)).2 (half i) (half j)
          (auxF g (i, j, 1)) ∧
        ∀ m : ℤ, 2 ≤ m → m ≤ d.meqn →
          q' g (i, j, m) = reconstruct qcoarse (parent d (g, i, j)).1 (parent d (g, i, j)).2 m (half i) (half j)) ∧
      ∀ i j m, ¬ (window d g i j ∧ comp d m) → q' g (i, j, m) = qfine g (i, j, m) := by
  have hmq := hz.meqn
  obtain ⟨q', h1, h2⟩ := refine_spec hz hE hb qcoarse auxC auxF qfine
  refine ⟨q', h1, fun g g0 g1 => ⟨fun i j hi => ⟨?_, fun m m1 m2 => ?_⟩, fun i j m hn => (h2 g g0 g1).2 (i, j, m) hn⟩⟩
  · rw [(h2 g g0 g1).1 (i, j, 1) ⟨hi, by dsimp only; omega, by dsimp only; omega⟩]
    unfold childValue
    exact if_pos rfl
  · rw [(h2 g g0 g1).1 (i, j, m) ⟨hi, by dsimp only; omega, by dsimp only; omega⟩]
    unfold childValue
    exact if_neg (by dsimp only; omega)

/-! ### Water at rest, refined -/

theorem limited_zero : limited 0 0 = 0 := by simp [limited]

theorem reconstruct_const {q : Grid ℚ} {i j m : ℤ} {v : ℚ} (x y : Nat)
    (h : ∀ a b : ℤ, -1 ≤ a → a ≤ 1 → -1 ≤ b → b ≤ 1 → q (i + a, j + b, m) = v) : reconstruct q i j m x y = v := by
  have h0 := h 0 0 (by omega) (by omega) (by omega) (by omega)
  have h1 := h (-1) 0 (by omega) (by omega) (by omega) (by omega)
  have h2 := h 1 0 (by omega) (by omega) (by omega) (by omega)
  have h3 := h 0 (-1) (by omega) (by omega) (by omega) (by omega)
  have h4 := h 0 1 (by omega) (by omega) (by omega) (by omega)
  simp only [add_zero, ← sub_eq_add_neg] at h0 h1 h2 h3 h4
  unfold reconstruct
  rw [h0, h1, h2, h3, h4]
  dsimp only
  rw [sub_self, limited_zero]
  ring

/-- The surface of water at rest at the sea level is there everywhere. -/
theorem surface_rest {P : Params} (ht : 0 < P.dryTolerance) {q aux : Grid ℚ} {i j : ℤ} (m : ℤ)
    (h : AtRest P.dryTolerance P.seaLevel (waterAt q (i, j)) (groundAt P aux (i, j))) :
    surface P q aux (i, j, m) = P.seaLevel := by
  obtain ⟨_, _, h⟩ := h
  unfold surface
  dsimp only
  unfold waterAt groundAt at h
  dsimp only at h
  split_ifs with hd
  · rfl
  · rcases h with h | ⟨h, _⟩
    · rcases le_total (P.seaLevel - aux (i, j, 1)) 0 with h0 | h0
      · rw [max_eq_right h0] at h; rw [h] at hd; exact absurd ht hd
      · rw [max_eq_left h0] at h; rw [h]; ring
    · rw [h] at hd; exact absurd ht hd

theorem refined_rest {d : Dims} (hb : 1 ≤ d.mbc) {P : Params} (ht : 0 < P.dryTolerance) {q aux : Grid ℚ}
    (hrest : ∀ i j, inPatch d i j → AtRest P.dryTolerance P.seaLevel (waterAt q (i, j)) (groundAt P aux (i, j)))
    {i j : ℤ} (hi : interior d i j) (x y : Nat) (b : ℚ) :
    refinedDepth P q aux i j x y b = P.seaLevel - b ∧ reconstruct q i j 2 x y = 0 ∧ reconstruct q i j 3 x y = 0 := by
  have near : ∀ a b : ℤ, -1 ≤ a → a ≤ 1 → -1 ≤ b → b ≤ 1 → inPatch d (i + a) (j + b) := by
    intro a b h1 h2 h3 h4
    obtain ⟨_, _, _, _⟩ := hi
    unfold inPatch; omega
  refine ⟨?_, ?_, ?_⟩
  · unfold refinedDepth
    rw [reconstruct_const x y fun a b h1 h2 h3 h4 => surface_rest ht 1 (hrest _ _ (near a b h1 h2 h3 h4))]
  · exact reconstruct_const x y fun a b h1 h2 h3 h4 => (hrest _ _ (near a b h1 h2 h3 h4)).1
  · exact reconstruct_const x y fun a b h1 h2 h3 h4 => (hrest _ _ (near a b h1 h2 h3 h4)).2.1

/-- C82: interpolation of a lake at rest at the sea level gives a lake at rest in the ghost cells, whatever the ground there. -/
theorem C82_rest_interpolate_face_partial (d : Dims) (hd : EvenDims d) (hb : d.mbc = 2) (td : TData) (f g : Nat) (hf : f < 4)
    (hg : g < 2) (hsq : f / 2 = 0 → d.mx = d.my) (h : HalfFaceLink d td.transform f g td.this td.neighbor) (P : Params)
    (hz : Sizes d P) (ht : 0 < P.dryTolerance) (qcoarse auxC auxF qfine : Grid ℚ)
    (hrest : ∀ i j, inPatch d i j → AtRest P.dryTolerance P.seaLevel (waterAt qcoarse (i, j)) (groundAt P auxC (i, j))) :
    ∃ q', interpolateFace d td P f qcoarse auxC auxF qfine = some q' ∧
      ∀ i' j', inStrip d (touching td.transform f) i' j' ∨ inCorner d (hanging td.transform f g) i' j' →
        waterAt q' (i', j') = ⟨max (P.seaLevel - auxF (i', j', 1)) 0, 0, 0⟩ := by
  obtain ⟨q', h1, h2, _⟩ := C82_interpolate_face_partial d hd hb td f g hf hg hsq h P hz qcoarse auxC auxF qfine
  refine ⟨q', h1, fun i' j' hi => ?_⟩
  obtain ⟨i, j, x, y, hin, _, _, _, e1, e2⟩ := h2 i' j' hi
  obtain ⟨r1, r2, r3⟩ := refined_rest (by omega) ht hrest hin x y (auxF (i', j', 1))
  have := hz.meqn
  unfold waterAt
  dsimp only
  rw [e1, r1, e2 2 (by omega) (by omega), e2 3 (by omega) (by omega), r2, r3]

/-- C82: the same for corners. -/
theorem C82_rest_interpolate_corner_partial (d : Dims) (hd : EvenDims d) (hb : d.mbc = 2) (td : TData) (k : Nat) (hk : k < 4)
    (h : HalfCornerLink d td k) (P : Params) (hz : Sizes d P) (ht : 0 < P.dryTolerance) (qcoarse auxC auxF qfine : Grid ℚ)
    (hrest : ∀ i j, inPatch d i j → AtRest P.dryTolerance P.seaLevel (waterAt qcoarse (i, j)) (groundAt P auxC (i, j))) :
    ∃ q', interpolateCorner d td P k qcoarse auxC auxF qfine = some q' ∧
      ∀ i' j', inCorner d (touchingCorner td k) i' j' →
        waterAt q' (i', j') = ⟨max (P.seaLevel - auxF (i', j', 1)) 0, 0, 0⟩ := by
  obtain ⟨q', h1, h2, _⟩ := C82_interpolate_corner_partial d hd hb td k hk h P hz qcoarse auxC auxF qfine
  refine ⟨q', h1, fun i' j' hi => ?_⟩
  obtain ⟨i, j, x, y, hin, _, _, _, e1, e2⟩ := h2 i' j' hi
  obtain ⟨r1, r2, r3⟩ := refined_rest (by omega) ht hrest hin x y (auxF (i', j', 1))
  have := hz.meqn
  unfold waterAt
  dsimp only
  rw [e1, r1, e2 2 (by omega) (by omega), e2 3 (by omega) (by omega), r2, r3]

theorem window_parent {d : Dims} (hE : Even2 d) {g i j : ℤ} (g0 : 0 ≤ g) (g1 : g ≤ 3) (h : window d g i j) :
    interior d (parent d (g, i, j)).1 (parent d (g, i, j)).2 := by
  obtain ⟨e1, e2, e3, e4⟩ := hE
  obtain ⟨h1, h2, h3, h4⟩ := h
  unfold interior parent
  dsimp only
  interval_cases g <;>
    simp only [Int.reduceMod, Int.reduceDiv, zero_mul, one_mul, Int.zero_emod, Int.zero_ediv] at h1 h2 h3 h4 ⊢ <;> omega

theorem window_inPatch {d : Dims} (hb : 2 ≤ d.mbc) {g i j : ℤ} (g0 : 0 ≤ g) (g1 : g ≤ 3) (h : window d g i j) :
    inPatch d i j := by
  obtain ⟨h1, h2, h3, h4⟩ := h
  unfold inPatch
  interval_cases g <;>
    simp only [Int.reduceMod, Int.reduceDiv, zero_mul, one_mul, Int.zero_emod, Int.zero_ediv] at h1 h2 h3 h4 ⊢ <;> omega

/-- C82: after refinement of a lake at rest at the sea level there is a lake at rest in the cells of the children as soon
as their next step begins. (Until then depths on land are negative.) -/
theorem C82_rest_refine (d : Dims) (hE : Even2 d) (hb : 2 ≤ d.mbc) (P : Params) (hz : Sizes d P) (ht : 0 < P.dryTolerance)
    (qcoarse auxC : Grid ℚ) (auxF qfine : ℤ → Grid ℚ)
    (hrest : ∀ i j, inPatch d i j → AtRest P.dryTolerance P.seaLevel (waterAt qcoarse (i, j)) (groundAt P auxC (i, j))) :
    ∃ q', refine d P auxC auxF qcoarse qfine = some q' ∧ ∀ g i j, 0 ≤ g → g ≤ 3 → window d g i j →
      (waterAt (q' g) (i, j) = ⟨P.seaLevel - auxF g (i, j, 1), 0, 0⟩) ∧
      waterAt (beforeStep d P (q' g)) (i, j) = ⟨max (P.seaLevel - auxF g (i, j, 1)) 0, 0, 0⟩ := by
  obtain ⟨q', h1, h2⟩ := C82_refine d hE hb P hz qcoarse auxC auxF qfine
  refine ⟨q', h1, fun g i j g0 g1 hi => ?_⟩
  have hm := hz.meqn
  obtain ⟨e1, e2⟩ := (h2 g g0 g1).1 i j hi
  obtain ⟨r1, r2, r3⟩ := refined_rest (by omega) ht hrest (window_parent hE g0 g1 hi) (half i) (half j) (auxF g (i, j, 1))
  have f1 := e1.trans r1
  have f2 := (e2 2 (by omega) (by omega)).trans r2
  have f3 := (e2 3 (by omega) (by omega)).trans r3
  have hin := window_inPatch hb g0 g1 hi
  refine ⟨by unfold waterAt; dsimp only; rw [f1, f2, f3], ?_⟩
  unfold waterAt beforeStep
  dsimp only
  rw [f1, f2, f3]
  simp only [hin, true_and]
  by_cases hd : P.seaLevel - auxF g (i, j, 1) < P.dryTolerance
  · simp [hd]
  · simp only [hd, if_false]
    rw [max_eq_left (by linarith)]

/-- C82: refinement keeps the amount of water in a coarse cell that is not dry (negative depths counted), if its
ground is the mean of the ground in its four parts; and the momentum. -/
theorem C82_refine_conserves (P : Params) (q aux : Grid ℚ) (i j : ℤ) (b : Nat → Nat → ℚ)
    (hw : P.dryTolerance ≤ q (i, j, 1)) (hc : sum4 b = 4 * aux (i, j, 1)) :
    sum4 (fun x y => refinedDepth P q aux i j x y (b x y)) = 4 * q (i, j, 1) ∧
    ∀ m, sum4 (fun x y => reconstruct q i j m x y) = 4 * q (i, j, m) := by
  have key : ∀ (Q : Grid ℚ) (m : ℤ), sum4 (fun x y => reconstruct Q i j m x y) = 4 * Q (i, j, m) := by
    intro Q m
    unfold sum4 reconstruct
    push_cast
    ring
  refine ⟨?_, fun m => key q m⟩
  have h1 := key (surface P q aux) 1
  have h2 : surface P q aux (i, j, 1) = q (i, j, 1) + aux (i, j, 1) := if_neg (not_lt.2 hw)
  unfold refinedDepth
  unfold sum4 at h1 hc ⊢
  linarith

/-- C82: coarsening undoes refinement, where all is under water: with equal capacities. -/
theorem C82_round_trip (tol : ℚ) (ht : 0 ≤ tol) (P : Params) (q aux : Grid ℚ) (i j : ℤ) (b : Nat → Nat → ℚ)
    (hw : P.dryTolerance ≤ q (i, j, 1)) (hc : sum4 b = 4 * aux (i, j, 1))
    (hd : ∀ x y : Nat, x < 2 → y < 2 → tol < refinedDepth P q aux i j x y (b x y)) :
    merged tol (fun x y => ⟨refinedDepth P q aux i j x y (b x y), reconstruct q i j 2 x y, reconstruct q i j 3 x y⟩)
      (fun x y => ⟨b x y, 1⟩) ⟨aux (i, j, 1), 1⟩ = waterAt q (i, j) := by
  obtain ⟨c1, c2⟩ := C82_refine_conserves P q aux i j b hw hc
  have c3 := c2 2
  have c4 := c2 3
  have m := merged_conserves ht (w := fun x y => ⟨refinedDepth P q aux i j x y (b x y), reconstruct q i j 2 x y, reconstruct q i j 3 x y⟩)
    (g := fun x y => ⟨b x y, 1⟩) (G := ⟨aux (i, j, 1), 1⟩) (fun x y _ _ => by norm_num) (by norm_num)
    (by unfold Consistent; simp only [mul_one]; exact ⟨by unfold sum4; norm_num, hc⟩)
    (fun x y hx hy => by unfold Wet; simpa using hd x y hx hy)
  simp only [mul_one] at m
  obtain ⟨m1, m2, m3⟩ := m
  generalize merged tol (fun x y => ⟨refinedDepth P q aux i j x y (b x y), reconstruct q i j 2 x y, reconstruct q i j 3 x y⟩)
    (fun x y => ⟨b x y, 1⟩) ⟨aux (i, j, 1), 1⟩ = w at m1 m2 m3
  obtain ⟨h, hu, hv⟩ := w
  dsimp only at m1 m2 m3
  unfold waterAt
  rw [Water.mk.injEq]
  refine ⟨?_, ?_, ?_⟩ <;> linarith

/-! ### The start, and before each step -/

/-- C82: the initial state is a lake at rest at the sea level. -/
theorem C82_start (d : Dims) (P : Params) (hz : Sizes d P) (aux q : Grid ℚ) (i j : ℤ) (h : inPatch d i j) :
    AtRest P.dryTolerance P.seaLevel (waterAt (qinit d P aux q) (i, j)) (groundAt P aux (i, j)) := by
  have hm := hz.meqn
  have m1 : (1 : ℤ) ≤ d.meqn := by omega
  have m2 : (2 : ℤ) ≤ d.meqn := by omega
  have m3 : (3 : ℤ) ≤ d.meqn := by omega
  unfold AtRest waterAt groundAt qinit
  dsimp only
  refine ⟨?_, ?_, Or.inl ?_⟩
  · simp [h, m2]
  · simp [h, m3]
  · rw [if_pos ⟨h, by omega, m1⟩, if_pos rfl, max_comm]

/-- C82: before each step, depths are made non-negative and water in cells that are not wet stops; nothing else changes,
and water at rest stays at rest. -/
theorem C82_before_step (d : Dims) (P : Params) (q : Grid ℚ) (ht : 0 ≤ P.dryTolerance) (i j : ℤ) (h : inPatch d i j) :
    0 ≤ (waterAt (beforeStep d P q) (i, j)).h ∧
    ((waterAt (beforeStep d P q) (i, j)).h < P.dryTolerance →
      (waterAt (beforeStep d P q) (i, j)).hu = 0 ∧ (waterAt (beforeStep d P q) (i, j)).hv = 0) ∧
    (0 ≤ (waterAt q (i, j)).h → (waterAt (beforeStep d P q) (i, j)).h = (waterAt q (i, j)).h) ∧
    (P.dryTolerance ≤ (waterAt q (i, j)).h → waterAt (beforeStep d P q) (i, j) = waterAt q (i, j)) ∧
    (∀ s g, AtRest P.dryTolerance s (waterAt q (i, j)) g → waterAt (beforeStep d P q) (i, j) = waterAt q (i, j)) ∧
    ∀ m, m ≠ 1 → m ≠ 2 → m ≠ 3 → beforeStep d P q (i, j, m) = q (i, j, m) := by
  unfold waterAt beforeStep AtRest
  simp only [h, true_and]
  by_cases hd : q (i, j, 1) < P.dryTolerance
  · simp only [hd, if_true]
    refine ⟨le_max_right _ _, fun _ => by norm_num, fun h0 => max_eq_left h0, fun h0 => absurd hd (not_lt.2 h0), ?_, ?_⟩
    · rintro s g ⟨r1, r2, r3⟩
      have : 0 ≤ q (i, j, 1) := by
        rcases r3 with r | ⟨r, _⟩
        · rw [r]; exact le_max_right _ _
        · rw [r]
      rw [max_eq_left this, r1, r2]
      norm_num
    · intro m h1 h2 h3
      simp [h1, h2, h3]
  · simp only [hd, if_false]
    exact ⟨by linarith, fun h => h.elim, fun _ => trivial, fun _ => trivial, fun _ _ _ => trivial, fun _ _ _ _ => trivial⟩

/-! ### Inputs for which the code violates the property -/

/-- Tolerance 1/1000, sea level 0, no capacity function, one auxiliary component. -/
def plain : Params := ⟨1 / 1000, 0, 0, 1⟩
def small : Dims := ⟨4, 4, 2, 3⟩

/-- Ground on the children: an island in each coarse cell, one quarter of it. -/
def island (top : ℚ) : ℤ → Grid ℚ := fun _ c => if c.1 % 2 = 0 ∧ c.2.1 % 2 = 0 then top else -1

/-- C82, code that violates it: on refining a patch with a lake at rest, depths on land get negative, -/
theorem C82_negative_counterexample :
    ∃ q', refine small plain (fun _ => 0) (island 3) (qinit small plain (fun _ => 0) fun _ => 0) (fun _ _ => 0) = some q' ∧
      (waterAt (q' 0) (2, 2)).h = -3 := by
  obtain ⟨q', h⟩ : ∃ q', refine small plain (fun _ => 0) (island 3) (qinit small plain (fun _ => 0) fun _ => 0)
      (fun _ _ => 0) = some q' := by
    rw [← Option.isSome_iff_exists]
    decide +kernel
  refine ⟨q', h, ?_⟩
  have : (refine small plain (fun _ => 0) (island 3) (qinit small plain (fun _ => 0) fun _ => 0) (fun _ _ => 0)).map
      (fun q => (waterAt (q 0) (2, 2)).h) = some (-3) := by
    decide +kernel
  rw [h] at this
  simpa using this

/-- … and averaging before the next step then divides by zero, -/
theorem C82_division_counterexample :
    ((refine small plain (fun _ => 0) (island 3) (qinit small plain (fun _ => 0) fun _ => 0) (fun _ _ => 0)).bind fun q =>
      coarsen small plain (fun _ => 0) (island 3) q (fun _ => 0)) = none := by
  rw [← Option.isNone_iff_eq_none]
  decide +kernel

/-- … or makes a negative depth of what was dry land. -/
theorem C82_coarse_negative_counterexample :
    ((refine small plain (fun _ => 1 / 4) (island 4) (qinit small plain (fun _ => 1 / 4) fun _ => 0) (fun _ _ => 0)).bind
      fun q => (coarsen small plain (fun _ => 1 / 4) (island 4) q (fun _ => 0)).map fun q => (waterAt q (1, 1)).h) =
      some (-1 / 3) ∧
    (waterAt (qinit small plain (fun _ => 1 / 4) fun _ => 0) (1, 1)).h = 0 := by
  constructor <;> decide +kernel

/-- C82, code that violates it: a dry valley below the sea level is full of water after refinement. -/
theorem C82_valley_counterexample :
    (refine small plain (fun _ => -1) (fun _ _ => -1) (fun _ => 0) (fun _ _ => 0)).map
      (fun q => waterAt (q 0) (1, 1)) = some ⟨1, 0, 0⟩ := by
  have h : (refine small plain (fun _ => -1) (fun _ _ => -1) (fun _ => 0) (fun _ _ => 0)).map
      (fun q => (q 0 (1, 1, 1), q 0 (1, 1, 2), q 0 (1, 1, 3))) = some (1, 0, 0) := by decide +kernel
  cases hr : refine small plain (fun _ => -1) (fun _ _ => -1) (fun _ => 0) (fun _ _ => 0) with
  | none => rw [hr] at h; simp at h
  | some q =>
    rw [hr] at h
    simp only [Option.map_some, Option.some.injEq, Prod.mk.injEq] at h
    obtain ⟨a, b, c⟩ := h
    simp [waterAt, a, b, c]

/-- C82, code that violates it: a lake at rest at another height than the sea level. The shore of a lake at height 5 (the
coarse cell is dry, since its ground is at height 6, a quarter of it is at height 4) stays dry on refinement. -/
theorem C82_lake_counterexample :
    ∃ (P : Params) (q aux : Grid ℚ), (∀ i j, AtRest P.dryTolerance 5 (waterAt q (i, j)) (groundAt P aux (i, j))) ∧
      aux (1, 1, 1) = 6 ∧ max (refinedDepth P q aux 1 1 0 0 4) 0 = 0 ∧ max ((5 : ℚ) - 4) 0 = 1 := by
  refine ⟨plain, fun c => if c.2.2 = 1 then (if 0 < c.1 then 0 else 5) else 0, fun c => if 0 < c.1 then 6 else 0, ?_, ?_, ?_, ?_⟩
  · intro i j
    unfold AtRest waterAt groundAt
    by_cases h : 0 < i
    · simp [h]; left; norm_num
    · simp [h]
  · simp
  · decide +kernel
  · norm_num

/-- C82, code that violates it: a quarter of a coarse cell is under water, on flat ground, and the whole is after averaging:
four times the water. -/
theorem C82_mass_counterexample :
    merged (1 / 1000) (fun x y => if x = 0 ∧ y = 0 then ⟨1, 0, 0⟩ else ⟨0, 0, 0⟩) (fun _ _ => ⟨0, 1⟩) ⟨0, 1⟩ = ⟨1, 0, 0⟩ := by
  unfold merged wetCells wetSum sum4 Wet
  norm_num

/-- C82, code that violates it: with capacities that differ, a lake at rest at height 4 does not stay at rest. -/
theorem C82_capacity_counterexample :
    ∃ (w : Nat → Nat → Water) (g : Nat → Nat → Ground) (G : Ground),
      (∀ x y : Nat, x < 2 → y < 2 → 0 < (g x y).κ) ∧ 0 < G.κ ∧ Consistent g G ∧
      (∀ x y : Nat, x < 2 → y < 2 → AtRest (1 / 1000) 4 (w x y) (g x y)) ∧ ¬ AtRest (1 / 1000) 4 (merged (1 / 1000) w g G) G ∧
      (merged (1 / 1000) w g G).h + G.b = 10 := by
  refine ⟨fun x y => if x = 0 ∧ y = 0 then ⟨4, 0, 0⟩ else ⟨0, 0, 0⟩, fun x y => if x = 0 ∧ y = 0 then ⟨0, 5⟩ else ⟨8, 1⟩,
    ⟨3, 2⟩, ?_, by norm_num, ?_, ?_, ?_, ?_⟩
  · intro x y _ _
    dsimp only
    split_ifs <;> norm_num
  · unfold Consistent sum4
    norm_num
  · intro x y _ _
    dsimp only
    unfold AtRest
    split_ifs <;> norm_num
  · unfold merged wetCells wetSum sum4 Wet AtRest
    norm_num
  · unfold merged wetCells wetSum sum4 Wet
    norm_num

/-- C82, code that violates it: water that flows gives momentum to a ghost cell on land, without water. -/
theorem C82_momentum_counterexample :
    ∃ (P : Params) (q aux : Grid ℚ) (b : Nat → Nat → ℚ), (∀ i j, (waterAt q (i, j)) = ⟨1, 1, 0⟩) ∧ sum4 b = 4 * aux (1, 1, 1) ∧
      max (refinedDepth P q aux 1 1 0 0 (b 0 0)) 0 = 0 ∧ reconstruct q 1 1 2 0 0 = 1 := by
  refine ⟨plain, fun c => if c.2.2 = 3 then 0 else 1, fun _ => 0, fun x y => if x = 0 ∧ y = 0 then 3 else -1, ?_, ?_, ?_, ?_⟩
  · intro i j; simp [waterAt]
  · unfold sum4; norm_num
  · decide +kernel
  · decide +kernel

/-- C82, code that violates it: with four ghost layers the two outer ones are not set by interpolation, -/
theorem C82_layers_counterexample :
    ∃ (d : Dims) (td : TData) (qcoarse auxC auxF qfine : Grid ℚ), EvenDims d ∧ d.mx = d.my ∧ Sizes d plain ∧
      HalfFaceLink d td.transform 1 1 td.this td.neighbor ∧ inStrip d (touching td.transform 1) (-2) 1 ∧
      (interpolateFace d td plain 1 qcoarse auxC auxF qfine).map (fun q => q (-2, 1, 1)) = some 7 ∧
      (∀ i j, qcoarse (i, j, 1) = 0 ∧ auxC (i, j, 1) = 0 ∧ auxF (i, j, 1) = 0) ∧ qfine (-2, 1, 1) = 7 := by
  refine ⟨⟨8, 8, 4, 3⟩, td0, fun _ => 0, fun _ => 0, fun _ => 0, fun _ => 7,
    ⟨by decide, by decide, by decide, by decide, by decide, by decide⟩, rfl, ⟨by decide, by decide, Or.inl rfl⟩, link0 _,
    by simp [inStrip, touching, td0, CoarseFine.intra], ?_, fun _ _ => ⟨rfl, rfl, rfl⟩, rfl⟩
  decide +kernel

/-- … and with more rows than columns, ghost cells at the left and right faces are not. -/
theorem C82_tall_counterexample :
    ∃ (d : Dims) (td : TData) (qcoarse auxC auxF qfine : Grid ℚ), EvenDims d ∧ d.mbc = 2 ∧ Sizes d plain ∧
      HalfFaceLink d td.transform 1 1 td.this td.neighbor ∧ inStrip d (touching td.transform 1) 0 1 ∧
      (interpolateFace d td plain 1 qcoarse auxC auxF qfine).map (fun q => q (0, 1, 1)) = some 7 ∧
      (∀ i j, qcoarse (i, j, 1) = 0 ∧ auxC (i, j, 1) = 0 ∧ auxF (i, j, 1) = 0) ∧ qfine (0, 1, 1) = 7 := by
  refine ⟨⟨4, 8, 2, 3⟩, td0, fun _ => 0, fun _ => 0, fun _ => 0, fun _ => 7,
    ⟨by decide, by decide, by decide, by decide, by decide, by decide⟩, rfl, ⟨by decide, by decide, Or.inl rfl⟩, link0 _,
    by simp [inStrip, touching, td0, CoarseFine.intra], ?_, fun _ _ => ⟨rfl, rfl, rfl⟩, rfl⟩
  decide +kernel

/-! ### Cases that meet the hypotheses -/

/-- Ground that rises to the right, with water up to the sea level: the same on both patches. -/
def shore : Grid ℚ := fun c => if c.1 ≤ 0 then -2 else 1

example : Sizes small plain := ⟨by decide, by decide, Or.inl rfl⟩
example : Even2 small ∧ EvenDims small :=
  ⟨⟨by decide, by decide, by decide, by decide⟩, ⟨by decide, by decide, by decide, by decide, by decide, by decide⟩⟩

/-- A lake at rest, with a shore: cells with water and without. -/
example : (∀ i j, inPatch small i j →
      AtRest plain.dryTolerance plain.seaLevel (waterAt (qinit small plain shore fun _ => 0) (i, j)) (groundAt plain shore (i, j))) ∧
    (waterAt (qinit small plain shore fun _ => 0) (0, 1)).h = 2 ∧ (waterAt (qinit small plain shore fun _ => 0) (1, 1)).h = 0 :=
  ⟨fun i j h => C82_start small plain ⟨by decide, by decide, Or.inl rfl⟩ shore _ i j h, by decide +kernel, by decide +kernel⟩

example (f g : Nat) : Safe small plain (qinit small plain shore fun _ => 0) shore (fun _ => -1) (inHalfStrip small f g) := by
  refine ⟨⟨by decide, by decide, Or.inl rfl⟩, by unfold plain; norm_num, ⟨fun i j h => ?_, fun i j _ => ?_⟩, fun i j _ => ?_⟩
  · obtain ⟨_, _, r | ⟨r, _⟩⟩ := C82_start small plain ⟨by decide, by decide, Or.inl rfl⟩ shore (fun _ => 0) i j
      (interior_inPatch h)
    · rw [r]; exact le_max_right _ _
    · rw [r]
  · simp [groundAt, plain]
  · simp [groundAt, plain]

/-- Ground known in the same way on both patches. -/
example : Consistent (fun x _ => if x = 0 then ⟨-2, 1⟩ else ⟨1, 1⟩) ⟨-1 / 2, 1⟩ := by
  unfold Consistent sum4; norm_num

/-- … with water in two of the four cells only. -/
example : merged (1 / 1000) (fun x _ => if x = 0 then ⟨2, 0, 0⟩ else ⟨0, 0, 0⟩) (fun x _ => if x = 0 then ⟨-2, 1⟩ else ⟨1, 1⟩)
    ⟨-1 / 2, 1⟩ = ⟨1 / 2, 0, 0⟩ := by
  unfold merged wetCells wetSum sum4 Wet
  norm_num

/-- A round trip over rough ground. -/
example : ∀ x y : Nat, x < 2 → y < 2 → (1 / 1000 : ℚ) < refinedDepth plain
    (fun c => if c.2.2 = 1 then 2 + c.1 else 1) (fun _ => -1) 1 1 x y (if x = 0 then -3 / 2 else -1 / 2) := by
  intro x y hx hy
  have : x = 0 ∨ x = 1 := by omega
  have : y = 0 ∨ y = 1 := by omega
  rcases ‹x = 0 ∨ x = 1› with rfl | rfl <;> rcases ‹y = 0 ∨ y = 1› with rfl | rfl <;> decide +kernel

end Fclaw.Geo

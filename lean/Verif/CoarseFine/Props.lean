import Verif.CoarseFine.Ops
/-
C67: ghost cells of a patch at a neighbour of half its size hold the means of the cells in the same
place. C68: ghost cells of a patch at a neighbour of twice its size hold a linear reconstruction of the
values in the cell in the same place.
-/
set_option autoImplicit false
set_option linter.unusedSimpArgs false
set_option linter.unusedVariables false
namespace Fclaw.CoarseFine

open Fort Transform CopyGhost Transfer

/-! ### C67 -/

/-- C67: averaging from a neighbour of half the size does not touch memory outside of the arrays, sets
each ghost cell at its half of the face to the mean of the four interior cells of the neighbour that lie
in the same place, and changes nothing else. -/
theorem C67_face (d : Dims) (hd : EvenDims d) (td : TData) (f g : Nat) (hf : f < 4) (hg : g < 2)
    (h : HalfFaceLink d td.transform f g td.this td.neighbor) (area : ℤ × ℤ → ℚ) (manifold : Bool)
    (hp : manifold = true → Positive d area) (qfine qcoarse : Grid ℚ) :
    ∃ q', averageFace d td f area manifold qfine qcoarse = some q' ∧
      (∀ i j mq, inHalfStrip d f g i j → comp d mq → ∃ c : Nat → Nat → ℤ × ℤ,
        (∀ x y, x < 2 → y < 2 → interior d (c x y).1 (c x y).2 ∧
          HalfFaceSame d td.transform td.this td.neighbor i j x y (c x y).1 (c x y).2) ∧
        q' (i, j, mq) = mean area manifold qfine c mq) ∧
      ∀ i j mq, ¬ (inHalfStrip d f g i j ∧ comp d mq) → q' (i, j, mq) = qcoarse (i, j, mq) := by
  obtain ⟨hM, ho, hS⟩ := faceHalf_spec hd.proper td f g h
  obtain ⟨q', h1, h2, h3⟩ := averageFace_writes hd td hf hg ho hM area manifold hp qfine qcoarse
  refine ⟨q', h1, ?_, fun i j mq hn => h3 (i, j, mq) hn⟩
  intro i j mq hi hm
  refine ⟨cells (faceOrient td.transform) d (faceHalfStep f g) i j, ?_, h2 (i, j, mq) ⟨hi, hm⟩⟩
  intro x y hx hy
  exact ⟨half_interior hd hf hg ho hi hx hy, hS i j x y hx hy⟩

/-- C67: averaging from both neighbours at a face sets all ghost cells there. -/
theorem C67_both (d : Dims) (hd : EvenDims d) (td0 td1 : TData) (f : Nat) (hf : f < 4)
    (h0 : HalfFaceLink d td0.transform f 0 td0.this td0.neighbor)
    (h1 : HalfFaceLink d td1.transform f 1 td1.this td1.neighbor) (area0 area1 : ℤ × ℤ → ℚ) (manifold : Bool)
    (hp0 : manifold = true → Positive d area0) (hp1 : manifold = true → Positive d area1)
    (qfine0 qfine1 qcoarse : Grid ℚ) :
    ∃ q' q'', averageFace d td0 f area0 manifold qfine0 qcoarse = some q' ∧
      averageFace d td1 f area1 manifold qfine1 q' = some q'' ∧
      (∀ i j mq, inStrip d f i j → comp d mq →
        (∃ c : Nat → Nat → ℤ × ℤ, (∀ x y, x < 2 → y < 2 → interior d (c x y).1 (c x y).2 ∧
          HalfFaceSame d td0.transform td0.this td0.neighbor i j x y (c x y).1 (c x y).2) ∧
          q'' (i, j, mq) = mean area0 manifold qfine0 c mq) ∨
        ∃ c : Nat → Nat → ℤ × ℤ, (∀ x y, x < 2 → y < 2 → interior d (c x y).1 (c x y).2 ∧
          HalfFaceSame d td1.transform td1.this td1.neighbor i j x y (c x y).1 (c x y).2) ∧
          q'' (i, j, mq) = mean area1 manifold qfine1 c mq) ∧
      ∀ i j mq, ¬ (inStrip d f i j ∧ comp d mq) → q'' (i, j, mq) = qcoarse (i, j, mq) := by
  obtain ⟨q', a1, a2, a3⟩ := C67_face d hd td0 f 0 hf (by omega) h0 area0 manifold hp0 qfine0 qcoarse
  obtain ⟨q'', b1, b2, b3⟩ := C67_face d hd td1 f 1 hf (by omega) h1 area1 manifold hp1 qfine1 q'
  refine ⟨q', q'', a1, b1, ?_, ?_⟩
  · intro i j mq hi hm
    by_cases hh : inHalfStrip d f 1 i j
    · right; exact b2 i j mq hh hm
    · left
      have h0' : inHalfStrip d f 0 i j := by
        refine ⟨hi, ?_⟩
        have : ¬ (if f / 2 = 0 then (d.my : ℤ) < 2 * j else (d.mx : ℤ) < 2 * i) := by
          intro hc; exact hh ⟨hi, by simpa using hc⟩
        split at this <;> simp_all
      obtain ⟨c, c1, c2⟩ := a2 i j mq h0' hm
      refine ⟨c, c1, ?_⟩
      rw [b3 i j mq (fun h => hh h.1)]
      exact c2
  · intro i j mq hn
    rw [b3 i j mq (fun h => hn ⟨h.1.1, h.2⟩), a3 i j mq (fun h => hn ⟨h.1.1, h.2⟩)]

/-- C67, corners. -/
theorem C67_corner (d : Dims) (hd : EvenDims d) (td : TData) (k : Nat) (hk : k < 4) (h : HalfCornerLink d td k)
    (area : ℤ × ℤ → ℚ) (manifold : Bool) (hp : manifold = true → Positive d area) (qfine qcoarse : Grid ℚ) :
    ∃ q', averageCorner d td k area manifold qfine qcoarse = some q' ∧
      (∀ i j mq, inCorner d k i j → comp d mq → ∃ c : Nat → Nat → ℤ × ℤ,
        (∀ x y, x < 2 → y < 2 → interior d (c x y).1 (c x y).2 ∧
          HalfCornerSame d td i j x y (c x y).1 (c x y).2) ∧
        q' (i, j, mq) = mean area manifold qfine c mq) ∧
      ∀ i j mq, ¬ (inCorner d k i j ∧ comp d mq) → q' (i, j, mq) = qcoarse (i, j, mq) := by
  obtain ⟨hM, ho, hS⟩ := cornerHalf_spec hd.proper td k h
  obtain ⟨q', h1, h2, h3⟩ := averageCorner_writes hd td hk ho hM area manifold hp qfine qcoarse
  refine ⟨q', h1, ?_, fun i j mq hn => h3 (i, j, mq) hn⟩
  intro i j mq hi hm
  refine ⟨cells (cornerOrient td) d (cornerHalfStep k) i j, ?_, h2 (i, j, mq) ⟨hi, hm⟩⟩
  intro x y hx hy
  exact ⟨corner_interior hd hk ho hi hx hy, hS i j x y hx hy⟩

/-! ### C68 -/

/-- C68, partial: interpolation to a neighbour of half the size does not touch memory outside of the
arrays, sets each of its ghost cells at the common face, and at its corner in the middle of the face, to
the reconstruction in the interior cell of the large patch that contains it, and changes nothing else.
Missing: an odd number of ghost layers, and patches with different numbers of cells in the two directions
at the left and right faces; see the counterexamples. -/
theorem C68_face_partial (d : Dims) (hd : EvenDims d) (hb : d.mbc % 2 = 0) (td : TData) (f g : Nat) (hf : f < 4)
    (hg : g < 2) (hsq : f / 2 = 0 → d.mx = d.my)
    (h : HalfFaceLink d td.transform f g td.this td.neighbor) (qcoarse qfine : Grid ℚ) :
    ∃ q', interpolateFace d td f qcoarse qfine = some q' ∧
      (∀ i' j' mq, inStrip d (touching td.transform f) i' j' ∨ inCorner d (hanging td.transform f g) i' j' → comp d mq →
        ∃ i j x y, interior d i j ∧ x < 2 ∧ y < 2 ∧
          HalfFaceSame d td.transform td.this td.neighbor i j x y i' j' ∧
          q' (i', j', mq) = reconstruct qcoarse i j mq x y) ∧
      ∀ i' j' mq, ¬ ((inStrip d (touching td.transform f) i' j' ∨ inCorner d (hanging td.transform f g) i' j') ∧
        comp d mq) → q' (i', j', mq) = qfine (i', j', mq) := by
  obtain ⟨hM, ho, hS⟩ := faceHalf_spec hd.proper td f g h
  rw [touch_eq hf h, hang_eq hf hg h]
  obtain ⟨q', h1, h2, h3⟩ := interpolateFace_writes hd hb td hf hg hsq ho hM qcoarse qfine
  refine ⟨q', h1, ?_, fun i j mq hn => h3 (i, j, mq) hn⟩
  intro i' j' mq hi hm
  obtain ⟨hl, _⟩ := ghost_layer hd hb hf hg ho hi
  refine ⟨_, _, _, _, hl.1, partOf_lt (Orient.inv (faceOrient td.transform) d (faceHalfStep f g) i' j').1,
    partOf_lt (Orient.inv (faceOrient td.transform) d (faceHalfStep f g) i' j').2, ?_, h2 (i', j', mq) ⟨hi, hm⟩⟩
  have := hS (cellOf (Orient.inv (faceOrient td.transform) d (faceHalfStep f g) i' j').1)
    (cellOf (Orient.inv (faceOrient td.transform) d (faceHalfStep f g) i' j').2) _ _
    (partOf_lt (Orient.inv (faceOrient td.transform) d (faceHalfStep f g) i' j').1)
    (partOf_lt (Orient.inv (faceOrient td.transform) d (faceHalfStep f g) i' j').2)
  rw [quarter_of, quarter_of, map_inv ho] at this
  exact this

/-- Within a block the transformation is a shift by whole cells. -/
theorem intra_maps {d : Dims} (hd : Proper d) (td : TData) (hf : FinerLevel td.this td.neighbor)
    (h4 : td.transform 8 / 4 % 2 = 1) (hv : valid false td.transform = true) :
    ∃ s, Maps d s straight (clawFaceHalf d td) := by
  obtain ⟨hl, hi, ho⟩ := hf
  have H : ∀ a, ∃ z : ℤ, patchCentre td.neighbor (fun _ => 0) a = td.this.lower a + (1 / 4 + (z : ℚ) / 2) / 2 ^ td.this.level := by
    intro a
    obtain ⟨X, hX⟩ := hi a
    obtain ⟨Y, hY⟩ := ho a
    refine ⟨Y - 2 * X, ?_⟩
    unfold patchCentre
    rw [hX, hY, ← hl, pow_succ]
    have : (2 : ℚ) ^ td.this.level ≠ 0 := by positivity
    push_cast
    field_simp
    ring
  refine ⟨fun a => Classical.choose (H a), ?_⟩
  intro i j
  obtain ⟨c2, h1, h2⟩ := intra_spec hd td ⟨hl, hi, ho⟩ h4 hv i j
  refine ⟨c2, h1, fun x y hx hy => ?_⟩
  refine shift_map hd hl (fun _ => 0) ?_ i j _ _ x y ?_
  · intro a ha
    rw [add_zero]
    exact Classical.choose_spec (H a)
  · intro a ha; rw [add_zero]; exact h2 x y hx hy a ha

/-- C68, corners, partial: an even number of ghost layers. -/
theorem C68_corner_partial (d : Dims) (hd : EvenDims d) (hb : d.mbc % 2 = 0) (td : TData) (k : Nat) (hk : k < 4)
    (h : HalfCornerLink d td k) (qcoarse qfine : Grid ℚ) :
    ∃ q', interpolateCorner d td k qcoarse qfine = some q' ∧
      (∀ i' j' mq, inCorner d (touchingCorner td k) i' j' → comp d mq →
        ∃ i j x y, interior d i j ∧ x < 2 ∧ y < 2 ∧ HalfCornerSame d td i j x y i' j' ∧
          q' (i', j', mq) = reconstruct qcoarse i j mq x y) ∧
      ∀ i' j' mq, ¬ (inCorner d (touchingCorner td k) i' j' ∧ comp d mq) → q' (i', j', mq) = qfine (i', j', mq) := by
  obtain ⟨hM, ho, hS⟩ := cornerHalf_spec hd.proper td k h
  rw [corner_eq hk h]
  have hM' : ∃ s', Maps d s' (cornerOrient td) (clawFaceHalf d td) := by
    obtain ⟨hf, hk', hbi, h⟩ := h
    by_cases hb : 0 ≤ td.blockIface
    · refine ⟨cornerHalfStep k, fun i j => ?_⟩
      have := hM i j
      unfold clawCornerHalf at this
      rw [if_pos hb] at this
      exact this
    · rw [if_neg hb] at h
      obtain ⟨hv, h4, _⟩ := h
      have : cornerOrient td = straight := by unfold cornerOrient; rw [if_neg hb]
      rw [this]
      exact intra_maps hd.proper td hf h4 hv
  obtain ⟨s', hM'⟩ := hM'
  obtain ⟨q', h1, h2, h3⟩ := interpolateCorner_writes hd hb td hk ho hM hM' qcoarse qfine
  refine ⟨q', h1, ?_, fun i j mq hn => h3 (i, j, mq) hn⟩
  intro i' j' mq hi hm
  have hl := ghost_inner hd hb hk ho hi
  refine ⟨_, _, _, _, hl.1, partOf_lt (Orient.inv (cornerOrient td) d (cornerHalfStep k) i' j').1,
    partOf_lt (Orient.inv (cornerOrient td) d (cornerHalfStep k) i' j').2, ?_, h2 (i', j', mq) ⟨hi, hm⟩⟩
  have := hS (cellOf (Orient.inv (cornerOrient td) d (cornerHalfStep k) i' j').1)
    (cellOf (Orient.inv (cornerOrient td) d (cornerHalfStep k) i' j').2) _ _
    (partOf_lt (Orient.inv (cornerOrient td) d (cornerHalfStep k) i' j').1)
    (partOf_lt (Orient.inv (cornerOrient td) d (cornerHalfStep k) i' j').2)
  rw [quarter_of, quarter_of, map_inv ho] at this
  exact this

/-- C68: the four reconstructed values have the mean of the cell. -/
theorem C68_mean (q : Grid ℚ) (i j mq : ℤ) :
    (reconstruct q i j mq 0 0 + reconstruct q i j mq 1 0 + reconstruct q i j mq 0 1 + reconstruct q i j mq 1 1) / 4 =
      q (i, j, mq) := by
  unfold reconstruct
  push_cast
  ring

theorem limited_bounds (l r : ℚ) :
    (0 ≤ limited l r ∧ limited l r ≤ 2 * l ∧ limited l r ≤ 2 * r) ∨
    (limited l r ≤ 0 ∧ 2 * l ≤ limited l r ∧ 2 * r ≤ limited l r) ∨ limited l r = 0 := by
  rw [← limited_eq]; exact slopes_bound l r

/-- C68: a reconstructed value lies between the least and the greatest of the values in the cell and its
four neighbours. -/
theorem C68_bounds (q : Grid ℚ) (i j mq : ℤ) (x y : Nat) (hx : x < 2) (hy : y < 2) (lo hi : ℚ)
    (h0 : lo ≤ q (i, j, mq) ∧ q (i, j, mq) ≤ hi) (h1 : lo ≤ q (i - 1, j, mq) ∧ q (i - 1, j, mq) ≤ hi)
    (h2 : lo ≤ q (i + 1, j, mq) ∧ q (i + 1, j, mq) ≤ hi) (h3 : lo ≤ q (i, j - 1, mq) ∧ q (i, j - 1, mq) ≤ hi)
    (h4 : lo ≤ q (i, j + 1, mq) ∧ q (i, j + 1, mq) ≤ hi) :
    lo ≤ reconstruct q i j mq x y ∧ reconstruct q i j mq x y ≤ hi := by
  obtain ⟨a0, b0⟩ := h0
  obtain ⟨a1, b1⟩ := h1
  obtain ⟨a2, b2⟩ := h2
  obtain ⟨a3, b3⟩ := h3
  obtain ⟨a4, b4⟩ := h4
  unfold reconstruct
  dsimp only
  have u := limited_bounds (q (i, j, mq) - q (i - 1, j, mq)) (q (i + 1, j, mq) - q (i, j, mq))
  have v := limited_bounds (q (i, j, mq) - q (i, j - 1, mq)) (q (i, j + 1, mq) - q (i, j, mq))
  generalize limited (q (i, j, mq) - q (i - 1, j, mq)) (q (i + 1, j, mq) - q (i, j, mq)) = s at u ⊢
  generalize limited (q (i, j, mq) - q (i, j - 1, mq)) (q (i, j + 1, mq) - q (i, j, mq)) = t at v ⊢
  rcases two hx with rfl | rfl <;> rcases two hy with rfl | rfl <;> push_cast <;>
    rcases u with ⟨u1, u2, u3⟩ | ⟨u1, u2, u3⟩ | u1 <;> rcases v with ⟨v1, v2, v3⟩ | ⟨v1, v2, v3⟩ | v1 <;>
    constructor <;> linarith

/-- C68: a linear function is reconstructed exactly. -/
theorem C68_linear (q : Grid ℚ) (i j mq : ℤ) (x y : Nat) (a b c : ℚ)
    (h : ∀ i' j', q (i', j', mq) = a + b * i' + c * j') :
    reconstruct q i j mq x y = a + b * (i + ((x : ℚ) / 2 - 1 / 4)) + c * (j + ((y : ℚ) / 2 - 1 / 4)) := by
  unfold reconstruct
  dsimp only
  rw [← limited_eq, ← limited_eq]
  simp only [h]
  push_cast
  rw [show a + b * i + c * j - (a + b * ((i : ℚ) - 1) + c * j) = b by ring,
    show a + b * ((i : ℚ) + 1) + c * j - (a + b * i + c * j) = b by ring,
    show a + b * i + c * j - (a + b * i + c * ((j : ℚ) - 1)) = c by ring,
    show a + b * (i : ℚ) + c * (j + 1) - (a + b * i + c * j) = c by ring, slopes_linear, slopes_linear]
  ring

/-! ### The cases that fail -/

/-- A patch of the size of its block, and its neighbour of half the size at the upper half of face 1,
with the coordinates of the first one's block. -/
def coarse0 : Patch := ⟨1, fun _ => 0⟩
def fine0 : Patch := ⟨2, fun a => if a = 0 then 1 / 2 else 1 / 4⟩
def intra : Nat → Nat := fun k => if k = 8 then 4 else 0
def td0 : TData := ⟨coarse0, fine0, intra, 0, false, -1, fun _ _ _ => 0⟩

theorem link0 (d : Dims) : HalfFaceLink d td0.transform 1 1 td0.this td0.neighbor := by
  refine ⟨⟨rfl, ?_, ?_⟩, ?_⟩
  · intro a; exact ⟨0, by simp [td0, coarse0]⟩
  · intro a
    by_cases h : a = 0
    · exact ⟨2, by simp [td0, fine0, h]; norm_num⟩
    · exact ⟨1, by simp [td0, fine0, h]; norm_num⟩
  · rw [if_pos (by simp [td0, intra])]
    refine ⟨by decide, axes_two ?_ ?_⟩ <;> simp [patchCentre, halfCentre, td0, fine0, coarse0, faceHalfStep] <;> norm_num

/-- C68, code that violates it: with more rows than columns, ghost cells at the left and right faces are
not set (the loop over the rows ends at the number of columns). -/
theorem C68_tall_counterexample :
    ∃ (d : Dims) (td : TData) (qcoarse qfine : Grid ℚ), EvenDims d ∧ d.mbc % 2 = 0 ∧
      HalfFaceLink d td.transform 1 1 td.this td.neighbor ∧ inStrip d (touching td.transform 1) 0 1 ∧
      ∃ q', interpolateFace d td 1 qcoarse qfine = some q' ∧ (∀ c, qcoarse c = 0) ∧ q' (0, 1, 1) = 1 := by
  refine ⟨⟨4, 8, 2, 1⟩, td0, fun _ => 0, fun _ => 1, ⟨by decide, by decide, by decide, by decide, by decide, by decide⟩,
    by decide, link0 _, by simp [inStrip, touching, td0, intra], ?_⟩
  obtain ⟨q', h⟩ : ∃ q', interpolateFace ⟨4, 8, 2, 1⟩ td0 1 (fun _ => 0) (fun _ => 1) = some q' := by
    rw [← Option.isSome_iff_exists]
    decide +kernel
  refine ⟨q', h, fun _ => rfl, ?_⟩
  have : (interpolateFace ⟨4, 8, 2, 1⟩ td0 1 (fun _ => 0) (fun _ => 1)).map (fun q => q (0, 1, 1)) = some 1 := by
    decide +kernel
  rw [h] at this
  simpa using this

/-- C68, code that violates it: with an odd number of ghost layers, the outermost layer is not set. -/
theorem C68_odd_counterexample :
    ∃ (d : Dims) (td : TData) (qcoarse qfine : Grid ℚ), EvenDims d ∧ d.mx = d.my ∧
      HalfFaceLink d td.transform 1 1 td.this td.neighbor ∧ inStrip d (touching td.transform 1) (-2) 1 ∧
      ∃ q', interpolateFace d td 1 qcoarse qfine = some q' ∧ (∀ c, qcoarse c = 0) ∧ q' (-2, 1, 1) = 1 := by
  refine ⟨⟨6, 6, 3, 1⟩, td0, fun _ => 0, fun _ => 1, ⟨by decide, by decide, by decide, by decide, by decide, by decide⟩,
    rfl, link0 _, by simp [inStrip, touching, td0, intra], ?_⟩
  obtain ⟨q', h⟩ : ∃ q', interpolateFace ⟨6, 6, 3, 1⟩ td0 1 (fun _ => 0) (fun _ => 1) = some q' := by
    rw [← Option.isSome_iff_exists]
    decide +kernel
  refine ⟨q', h, fun _ => rfl, ?_⟩
  have : (interpolateFace ⟨6, 6, 3, 1⟩ td0 1 (fun _ => 0) (fun _ => 1)).map (fun q => q (-2, 1, 1)) = some 1 := by
    decide +kernel
  rw [h] at this
  simpa using this

/-- … with a single layer, nothing is set. -/
theorem C68_single_counterexample (td : TData) (f : Nat) (d : Dims) (hd : d.mbc = 1) (A : Matrix)
    (hA : buildTransform d td = some A) (qcoarse qfine : Grid ℚ) :
    interpolateFace d td f qcoarse qfine = some qfine := by
  have h0 : ∀ (σ : Type) (F : ℤ → σ → Option σ) (q : σ), doLoop 1 (((1 : Nat) : ℤ) / 2) F q = some q := by
    intro σ F q
    have : range 1 (((1 : Nat) : ℤ) / 2) = [] := by decide
    unfold doLoop
    rw [this]; rfl
  have h1 : ∀ (n : ℤ) (q : Grid ℚ), doLoop 1 n (fun _ q => some q) q = some q := by
    intro n q
    unfold doLoop
    generalize range 1 n = l
    induction l with
    | nil => rfl
    | cons a l ih => simpa [loop] using ih
  unfold interpolateFace
  rw [hA, hd]
  simp only [Option.bind_some]
  have e : ∀ (F : ℤ → ℤ → Grid ℚ → Option (Grid ℚ)),
      (fun mq => doLoop 1 (((1 : Nat) : ℤ) / 2) (F mq)) = (fun (_ : ℤ) q => some q) := by
    intro F; funext mq q; exact h0 _ _ _
  split <;> rw [e] <;> exact h1 _ _

/-! ### Cases that meet the hypotheses -/

example : EvenDims ⟨8, 8, 2, 3⟩ := ⟨by decide, by decide, by decide, by decide, by decide, by decide⟩

example : (⟨8, 8, 2, 3⟩ : Dims).mbc % 2 = 0 ∧ HalfFaceLink ⟨8, 8, 2, 3⟩ td0.transform 1 1 td0.this td0.neighbor :=
  ⟨by decide, link0 _⟩

example : Positive ⟨8, 8, 2, 3⟩ (fun _ => 1) := fun _ _ _ => by norm_num

/-- Two blocks of which the second is turned: face 1 of the first is glued to face 2 of the second,
reversed. -/
def glued : Nat → Nat := fun k => if k = 0 then 1 else if k = 5 then 1 else if k = 6 then 1 else if k = 8 then 2 else 0

example : HalfFaceLink ⟨8, 8, 2, 3⟩ glued 1 0 ⟨0, fun _ => 0⟩ ⟨1, fun a => if a = 0 then 1 / 2 else 0⟩ := by
  refine ⟨⟨rfl, ?_, ?_⟩, ?_⟩
  · intro a; exact ⟨0, by simp⟩
  · intro a
    by_cases h : a = 0
    · exact ⟨1, by simp [h]⟩
    · exact ⟨0, by simp [h]⟩
  · rw [if_neg (by decide)]
    refine ⟨⟨?_, ?_, ?_⟩, by decide, by decide⟩
    · constructor <;> decide
    · exact ⟨by decide, by decide, by decide⟩
    · constructor
      · simp [glued, patchCentre, halfCentre, faceHalfStep]; norm_num
      · simp
      · simp [glued, patchCentre, halfCentre, faceHalfStep, inside, outside]; norm_num

/-- A neighbour across corner 3 in the same block. -/
example : HalfCornerLink ⟨8, 8, 2, 3⟩ ⟨⟨1, fun _ => 0⟩, ⟨2, fun _ => 1 / 2⟩, intra, 3, false, -1, fun _ _ _ => 0⟩ 3 := by
  refine ⟨⟨rfl, ?_, ?_⟩, rfl, by simp, ?_⟩
  · intro a; exact ⟨0, by simp⟩
  · intro a; exact ⟨2, by norm_num⟩
  · rw [if_neg (by simp)]
    refine ⟨by decide, by simp [intra], ?_⟩
    simp only [Bool.false_eq_true, if_false]
    refine axes_two ?_ ?_ <;> simp [patchCentre, halfCentre, cornerHalfStep] <;> norm_num

end Fclaw.CoarseFine

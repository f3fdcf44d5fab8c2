import Verif.Mapping.Pillow
import Verif.Mapping.Disk
/-
C91: the mappings that come with the library put the blocks together without gaps and overlaps.
-/
set_option autoImplicit false
set_option linter.unusedVariables false
namespace Fclaw.Mapping

noncomputable section

open Real

/-- The six blocks of the cubed sphere lie on the unit sphere, cover it, and two places are mapped to the
same point exactly when they are the same point of the surface of the cube: the blocks meet along the edges of
the cube and nowhere else. -/
theorem C91_cubedsphere :
    (∀ a : Place, InBlocks 6 a → ∃ p, cubedsphere a.1 a.2.1 a.2.2 = some p ∧ OnSphere p) ∧
    (∀ p, OnSphere p → ∃ a : Place, InBlocks 6 a ∧ cubedsphere a.1 a.2.1 a.2.2 = some p) ∧
    (∀ a a' : Place, InBlocks 6 a → InBlocks 6 a' →
      (cubedsphere a.1 a.2.1 a.2.2 = cubedsphere a'.1 a'.2.1 a'.2.2 ↔
        cubePoint a.1 a.2.1 a.2.2 = cubePoint a'.1 a'.2.1 a'.2.2)) := by
  refine ⟨?_, ?_, ?_⟩
  · rintro a ⟨h0, h6, h1, h2⟩
    exact ⟨_, cubedsphere_eq h0 h6 _ _, onSphere_toSphere (onCube_cubePoint h1 h2)⟩
  · intro p hp
    obtain ⟨c, hc, rfl⟩ := toSphere_surj hp
    obtain ⟨b, s, t, h0, h6, h1, h2, rfl⟩ := cubePoint_surj hc
    exact ⟨(b, s, t), ⟨h0, h6, h1, h2⟩, cubedsphere_eq h0 h6 s t⟩
  · rintro a a' ⟨h0, h6, h1, h2⟩ ⟨h0', h6', h1', h2'⟩
    rw [cubedsphere_eq h0 h6, cubedsphere_eq h0' h6']
    constructor
    · intro h
      exact toSphere_inj (onCube_cubePoint h1 h2) (onCube_cubePoint h1' h2') (Option.some.inj h)
    · intro h; rw [h]

/-- The corner of the top (block 3) where x and y are largest is also a corner of the back (1) and of the
right (5). -/
example : cubePoint 3 1 1 = cubePoint 1 1 1 ∧ cubePoint 3 1 1 = cubePoint 5 1 1 ∧ InBlocks 6 (3, 1, 1) := by
  refine ⟨by simp [cubePoint]; norm_num, by simp [cubePoint]; norm_num, ?_⟩
  simp [InBlocks, I01]

/-- The five blocks of the square lie in the square [-1,1] × [-1,1], cover it, and two places are mapped to
the same point exactly when they are the same place of the five blocks glued together. -/
theorem C91_fivepatch {α : ℝ} (h0 : 0 < α) (h1 : α < 1) :
    (∀ a : Place, InBlocks 5 a → ∃ p, fivepatch a.1 a.2.1 a.2.2 α = some p ∧ InSquare p) ∧
    (∀ p, InSquare p → ∃ a : Place, InBlocks 5 a ∧ fivepatch a.1 a.2.1 a.2.2 α = some p) ∧
    (∀ a a' : Place, InBlocks 5 a → InBlocks 5 a' →
      (fivepatch a.1 a.2.1 a.2.2 α = fivepatch a'.1 a'.2.1 a'.2.2 α ↔ Same5 a a')) := by
  have S := squareSector h0 h1
  refine ⟨?_, fun p => fivepatch_surj h0 h1, ?_⟩
  · intro a ha
    obtain ⟨p, hp, hb, hz⟩ := S.bound (fun x y => |x| ≤ 1 ∧ |y| ≤ 1)
      (fun u v hu hv => by
        rw [abs_mul, abs_mul, abs_of_pos h0]
        constructor <;> nlinarith [abs_nonneg u, abs_nonneg v])
      (fun ξ η hξ hη => by
        have k := abs_coord hξ
        have k0 : 0 ≤ α + (1 - α) * η := by have := hη.1; nlinarith
        have k1 : α + (1 - α) * η ≤ 1 := by have := hη.2; nlinarith
        rw [abs_mul, abs_of_nonneg k0]
        constructor
        · nlinarith [abs_nonneg (2 * ξ - 1)]
        · exact k1)
      (fun x y h => by rw [abs_neg]; exact h) (fun x y h => ⟨h.2, h.1⟩) ha
    rw [abs_le, abs_le] at hb
    exact ⟨p, hp, hb.1.1, hb.1.2, hb.2.1, hb.2.2, hz⟩
  · intro a a' ha ha'
    by_cases hn : a.1 = a'.1
    · constructor
      · intro e
        obtain ⟨b, s, t⟩ := a
        obtain ⟨b', s', t'⟩ := a'
        dsimp only at hn e
        subst hn
        obtain ⟨q0, q5, i1, i2⟩ := ha
        obtain ⟨_, _, i1', i2'⟩ := ha'
        obtain ⟨rfl, rfl⟩ := fivepatch_inj h0 h1 q0 q5 e i2 i1 i2' i1'
        exact Or.inl rfl
      · rintro (rfl | g | g)
        · rfl
        · cases g <;> norm_num at hn
        · cases g <;> norm_num at hn
    · rw [fivepatch_five, fivepatch_five, S.iff ha ha' hn]
      constructor
      · exact Or.inr
      · rintro (rfl | g)
        · exact absurd rfl hn
        · exact g

/-- The lower left corner of the centre belongs to three blocks. -/
example : Same5 (0, 0, 1) (2, 0, 0) ∧ Same5 (1, 1, 0) (2, 0, 0) ∧ Same5 (0, 0, 1) (1, 1, 0) ∧
    fivepatch 0 0 1 (1 / 2) = some ⟨-(1 / 2), -(1 / 2), 0⟩ := by
  refine ⟨Or.inr (Or.inl (Glue5.below 0)), Or.inr (Or.inl (Glue5.left 0)),
    Or.inr (Or.inl (Glue5.belowLeft 1)), ?_⟩
  simp [fivepatch, bilinearHelp]

/-- The five blocks of the squared disk lie in the unit disk and cover it; the points on the unit circle are
those of the outer edges; two places are mapped to the same point exactly when they are the same place of the
five blocks glued together. -/
theorem C91_squareddisk {α : ℝ} (h0 : 0 < α) (h1 : α < 1) :
    (∀ a : Place, InBlocks 5 a →
      ∃ p, squareddisk a.1 a.2.1 a.2.2 α = some p ∧ InDisk p ∧ (OnCircle p ↔ Outer5 a)) ∧
    (∀ p, InDisk p → ∃ a : Place, InBlocks 5 a ∧ squareddisk a.1 a.2.1 a.2.2 α = some p) ∧
    (∀ a a' : Place, InBlocks 5 a → InBlocks 5 a' →
      (squareddisk a.1 a.2.1 a.2.2 α = squareddisk a'.1 a'.2.1 a'.2.2 α ↔ Same5 a a')) := by
  have S := diskSector h0 h1
  refine ⟨?_, fun p => squareddisk_surj h0 h1, ?_⟩
  · rintro ⟨b, s, t⟩ ⟨q0, q5, i1, i2⟩
    dsimp only at *
    have key {ξ η : ℝ} (hξ : I01 ξ) (hη : I01 η) :
        (dA ξ η * dY α ξ η) ^ 2 + dY α ξ η ^ 2 ≤ 1 ∧
        ((dA ξ η * dY α ξ η) ^ 2 + dY α ξ η ^ 2 = 1 ↔ η = 1) := by
      refine ⟨disk_in h0 h1 hξ hη, fun h => ?_, ?_⟩
      · by_contra hn
        have := disk_strict h0 h1 hξ hη hn
        linarith
      · rintro rfl; exact disk_outer h0 hξ
    have hb : b = 0 ∨ b = 1 ∨ b = 2 ∨ b = 3 ∨ b = 4 := by omega
    rw [squareddisk_five]
    rcases hb with rfl | rfl | rfl | rfl | rfl
    · rw [S.five0]
      obtain ⟨k1, k2⟩ := key i1 i2.flip
      refine ⟨_, rfl, ⟨?_, rfl⟩, ?_⟩
      · dsimp only; rw [neg_sq]; exact k1
      · unfold OnCircle; dsimp only; rw [neg_sq, k2]
        constructor
        · rintro ⟨h, _⟩
          obtain rfl : t = 0 := by linarith
          exact Outer5.below s
        · rintro ⟨⟩; norm_num
    · rw [S.five1]
      obtain ⟨k1, k2⟩ := key i2 i1.flip
      refine ⟨_, rfl, ⟨?_, rfl⟩, ?_⟩
      · dsimp only; rw [neg_sq, add_comm]; exact k1
      · unfold OnCircle; dsimp only; rw [neg_sq, add_comm, k2]
        constructor
        · rintro ⟨h, _⟩
          obtain rfl : s = 0 := by linarith
          exact Outer5.left t
        · rintro ⟨⟩; norm_num
    · rw [S.five2]
      have hs := Real.sq_sqrt (show (0 : ℝ) ≤ 2 by norm_num)
      have ks : (2 * s - 1) ^ 2 ≤ 1 := by have := i1.1; have := i1.2; nlinarith
      have kt : (2 * t - 1) ^ 2 ≤ 1 := by have := i2.1; have := i2.2; nlinarith
      have e : ((2 * s - 1) * (α / Real.sqrt 2)) ^ 2 + ((2 * t - 1) * (α / Real.sqrt 2)) ^ 2
          = ((2 * s - 1) ^ 2 + (2 * t - 1) ^ 2) * α ^ 2 / 2 := by
        rw [mul_pow, mul_pow, div_pow, hs]; ring
      have hα : α ^ 2 < 1 := by nlinarith
      have hα0 : 0 < α ^ 2 := by positivity
      have hlt : ((2 * s - 1) ^ 2 + (2 * t - 1) ^ 2) * α ^ 2 / 2 < 1 := by nlinarith
      refine ⟨_, rfl, ⟨?_, rfl⟩, ?_⟩
      · dsimp only; rw [e]; exact hlt.le
      · unfold OnCircle; dsimp only; rw [e]
        constructor
        · rintro ⟨h, _⟩; linarith
        · rintro ⟨⟩
    · rw [S.five3]
      obtain ⟨k1, k2⟩ := key i2 i1
      refine ⟨_, rfl, ⟨?_, rfl⟩, ?_⟩
      · dsimp only; rw [add_comm]; exact k1
      · unfold OnCircle; dsimp only; rw [add_comm, k2]
        constructor
        · rintro ⟨h, _⟩
          subst h
          exact Outer5.right t
        · rintro ⟨⟩; norm_num
    · rw [S.five4]
      obtain ⟨k1, k2⟩ := key i1 i2
      refine ⟨_, rfl, ⟨?_, rfl⟩, ?_⟩
      · dsimp only; exact k1
      · unfold OnCircle; dsimp only; rw [k2]
        constructor
        · rintro ⟨h, _⟩
          subst h
          exact Outer5.above s
        · rintro ⟨⟩; norm_num
  · intro a a' ha ha'
    by_cases hn : a.1 = a'.1
    · constructor
      · intro e
        obtain ⟨b, s, t⟩ := a
        obtain ⟨b', s', t'⟩ := a'
        dsimp only at hn e
        subst hn
        obtain ⟨q0, q5, i1, i2⟩ := ha
        obtain ⟨_, _, i1', i2'⟩ := ha'
        obtain ⟨rfl, rfl⟩ := squareddisk_inj h0 h1 q0 q5 e i1 i2 i1' i2'
        exact Or.inl rfl
      · rintro (rfl | g | g)
        · rfl
        · cases g <;> norm_num at hn
        · cases g <;> norm_num at hn
    · rw [squareddisk_five, squareddisk_five, S.iff ha ha' hn]
      constructor
      · exact Or.inr
      · rintro (rfl | g)
        · exact absurd rfl hn
        · exact g

/-- The middle of the upper edge of block 4 is the northern point of the circle. -/
example : squareddisk 4 (1 / 2) 1 (1 / 2) = some ⟨0, 1, 0⟩ ∧ Outer5 (4, 1 / 2, 1) := by
  refine ⟨?_, Outer5.above _⟩
  simp [squareddisk, squareddiskHelp]
  norm_num

/-- A place of the one block, away from its middle. -/
def OffCentre (δ : ℝ) (s t : ℝ) : Prop := δ ≤ max |2 * s - 1| |2 * t - 1|

theorem sqrt2_cancel {u v : ℝ} (h : u / Real.sqrt 2 = v / Real.sqrt 2) : u = v :=
  (div_left_inj' (by positivity)).mp h

/-- The pillow disk: a block lies in the unit disk, its edge is the unit circle, away from the middle places are
mapped to different points, and points away from the middle of the disk are reached. -/
theorem C91_pillowdisk_partial :
    (∀ s t, I01 s → I01 t → InDisk (pillowdisk s t) ∧ (OnCircle (pillowdisk s t) ↔ OnEdge s t)) ∧
    (∀ s t s' t', I01 s → I01 t → I01 s' → I01 t' → OffCentre (1 / 10 ^ 10) s t →
      OffCentre (1 / 10 ^ 10) s' t' → pillowdisk s t = pillowdisk s' t' → s = s' ∧ t = t') ∧
    (∀ p, InDisk p → 2 / 10 ^ 10 ≤ max |p.x| |p.y| → ∃ s t, I01 s ∧ I01 t ∧ pillowdisk s t = p) := by
  have hs := Real.sq_sqrt (show (0 : ℝ) ≤ 2 by norm_num)
  have hE : ∀ s t, I01 s → I01 t → (max |2 * s - 1| |2 * t - 1| = 1 ↔ OnEdge s t) := by
    intro s t i1 i2
    have a1 := abs_coord i1
    have a2 := abs_coord i2
    constructor
    · intro h
      rcases max_choice |2 * s - 1| |2 * t - 1| with k | k
      · rw [k] at h
        rcases (abs_eq (by norm_num)).mp h with h | h
        · exact Or.inr (Or.inl (by linarith))
        · exact Or.inl (by linarith)
      · rw [k] at h
        rcases (abs_eq (by norm_num)).mp h with h | h
        · exact Or.inr (Or.inr (Or.inr (by linarith)))
        · exact Or.inr (Or.inr (Or.inl (by linarith)))
    · intro h
      apply le_antisymm (max_le a1 a2)
      rcases h with rfl | rfl | rfl | rfl
      · exact le_trans (by norm_num) (le_max_left _ _)
      · exact le_trans (by norm_num) (le_max_left _ _)
      · exact le_trans (by norm_num) (le_max_right _ _)
      · exact le_trans (by norm_num) (le_max_right _ _)
  have he : (1 / 10 ^ 10 : ℝ) = eps := by unfold eps; norm_num
  refine ⟨?_, ?_, ?_⟩
  · intro s t i1 i2
    have a1 := abs_coord i1
    have a2 := abs_coord i2
    have e : (pillowdisk s t).x ^ 2 + (pillowdisk s t).y ^ 2
        = ((diskCircle (2 * s - 1) (2 * t - 1)).1 ^ 2 + (diskCircle (2 * s - 1) (2 * t - 1)).2 ^ 2) / 2 := by
      unfold pillowdisk cart
      dsimp only
      rw [div_pow, div_pow, hs, ← add_div]
    refine ⟨⟨?_, rfl⟩, ?_⟩
    · rw [e]; have := diskCircle_le a1 a2; linarith
    · unfold OnCircle
      rw [e, ← hE s t i1 i2, ← diskCircle_edge a1 a2]
      constructor
      · rintro ⟨h, _⟩; linarith
      · intro h; exact ⟨by linarith, rfl⟩
  · intro s t s' t' i1 i2 i1' i2' c c' h
    rw [he] at c c'
    have h1 := sqrt2_cancel (congrArg P3.x h)
    have h2 := sqrt2_cancel (congrArg P3.y h)
    obtain ⟨k1, k2⟩ := diskCircle_inj (abs_coord i1) (abs_coord i2) (abs_coord i1') (abs_coord i2') c c'
      (Prod.ext h1 h2)
    constructor <;> linarith
  · rintro ⟨x, y, z⟩ ⟨hd, hz⟩ hc
    dsimp only at *
    subst hz
    have h1 : 1 ≤ Real.sqrt 2 := Real.le_sqrt_of_sq_le (by norm_num)
    obtain ⟨u, v, hu, hv, huv⟩ := diskCircle_surj (p := x * Real.sqrt 2) (q := y * Real.sqrt 2)
      (by rw [mul_pow, mul_pow, hs]; linarith)
      (by
        rw [abs_mul, abs_mul, abs_of_nonneg (Real.sqrt_nonneg 2), ← max_mul_of_nonneg _ _ (Real.sqrt_nonneg 2),
          ← he]
        have : (0 : ℝ) ≤ max |x| |y| := le_trans (abs_nonneg x) (le_max_left _ _)
        nlinarith)
    rw [abs_le] at hu hv
    refine ⟨(u + 1) / 2, (v + 1) / 2, ⟨by linarith, by linarith⟩, ⟨by linarith, by linarith⟩, ?_⟩
    have hp : Real.sqrt 2 ≠ 0 := by positivity
    unfold pillowdisk cart
    dsimp only
    rw [show 2 * ((u + 1) / 2) - 1 = u by ring, show 2 * ((v + 1) / 2) - 1 = v by ring, huv,
      mul_div_cancel_right₀ _ hp, mul_div_cancel_right₀ _ hp]

example : I01 (1 / 2) ∧ I01 1 ∧ OffCentre (1 / 10 ^ 10) (1 / 2) 1 ∧ OnEdge (1 / 2) 1 := by
  refine ⟨⟨by norm_num, by norm_num⟩, i01_one, ?_, Or.inr (Or.inr (Or.inr rfl))⟩
  unfold OffCentre; norm_num

/-- In the middle two different places of the pillow disk are mapped to the same point. -/
theorem C91_pillowdisk_counterexample :
    pillowdisk (1 / 2) (1 / 2) = pillowdisk (1 / 2) (1 / 2 + 1 / 10 ^ 11) := by
  unfold pillowdisk cart diskCircle
  dsimp only
  have e1 : (2 * (1 / 2) - 1 : ℝ) = 0 := by norm_num
  have e2 : (2 * (1 / 2 + 1 / 10 ^ 11) - 1 : ℝ) = 2 / 10 ^ 11 := by norm_num
  have a2 : |(2 / 10 ^ 11 : ℝ)| = 2 / 10 ^ 11 := abs_of_pos (by norm_num)
  rw [e1, e2, a2, abs_zero, max_self, min_self, min_eq_left (by norm_num), max_eq_right (by norm_num),
    max_eq_right (a := (0 : ℝ)) (b := 2 / 10 ^ 11) (by norm_num), max_eq_right (by norm_num)]
  unfold sectors
  dsimp only
  rw [a2, abs_zero, if_pos (le_refl _), if_pos (by norm_num)]
  have s0 : sign1 0 = 1 := by unfold sign1; rw [if_pos (le_refl _)]
  have s2 : sign1 (2 / 10 ^ 11) = 1 := by unfold sign1; rw [if_pos (by norm_num)]
  rw [s0, s2]

/-- The pillow disk of five blocks: blocks lie in the unit disk, the points on the circle are those of the outer
edges, and places that are glued together are mapped to the same point; so are, away from the middle, no
others. -/
theorem C91_pillowdisk5_partial {α : ℝ} (h0 : 0 < α) (h1 : α < 1) :
    (∀ a : Place, InBlocks 5 a →
      ∃ p, pillowdisk5 a.1 a.2.1 a.2.2 α = some p ∧ InDisk p ∧ (OnCircle p ↔ Outer5 a)) ∧
    (∀ a a' : Place, InBlocks 5 a → InBlocks 5 a' → Same5 a a' →
      pillowdisk5 a.1 a.2.1 a.2.2 α = pillowdisk5 a'.1 a'.2.1 a'.2.2 α) ∧
    (∀ (a a' : Place) (c c' : P3), InBlocks 5 a → InBlocks 5 a' → fivepatch a.1 a.2.1 a.2.2 α = some c →
      fivepatch a'.1 a'.2.1 a'.2.2 α = some c' → 1 / 10 ^ 10 ≤ max |c.x| |c.y| →
      1 / 10 ^ 10 ≤ max |c'.x| |c'.y| →
      pillowdisk5 a.1 a.2.1 a.2.2 α = pillowdisk5 a'.1 a'.2.1 a'.2.2 α → Same5 a a') := by
  obtain ⟨f1, f2, f3⟩ := C91_fivepatch h0 h1
  obtain ⟨d1, d2, d3⟩ := C91_pillowdisk_partial
  have hin : ∀ p, InSquare p → I01 ((p.x + 1) / 2) ∧ I01 ((p.y + 1) / 2) := by
    rintro p ⟨k1, k2, k3, k4, _⟩
    exact ⟨⟨by linarith, by linarith⟩, ⟨by linarith, by linarith⟩⟩
  have S := squareSector h0 h1
  refine ⟨?_, ?_, ?_⟩
  · intro a ha
    obtain ⟨c, hc, hq⟩ := f1 a ha
    obtain ⟨j1, j2⟩ := hin c hq
    obtain ⟨k1, k2⟩ := d1 _ _ j1 j2
    unfold pillowdisk5
    rw [hc]
    refine ⟨_, rfl, k1, ?_⟩
    rw [k2]
    obtain ⟨b, s, t⟩ := a
    obtain ⟨q0, q5, i1, i2⟩ := ha
    dsimp only at *
    have hb : b = 0 ∨ b = 1 ∨ b = 2 ∨ b = 3 ∨ b = 4 := by omega
    rw [fivepatch_five] at hc
    -- a point of a sector on the edge of the square
    have edge {ξ η : ℝ} (hξ : I01 ξ) (hη : I01 η) : η = 1 ∨
        (α + (1 - α) * η < 1 ∧ -1 < (2 * ξ - 1) * (α + (1 - α) * η) ∧ (2 * ξ - 1) * (α + (1 - α) * η) < 1) := by
      by_cases h : η = 1
      · exact Or.inl h
      · right
        have l : η < 1 := lt_of_le_of_ne hη.2 h
        have k := abs_le.mp (abs_coord hξ)
        have p0 : 0 < α + (1 - α) * η := by have := hη.1; nlinarith
        have p1 : α + (1 - α) * η < 1 := by nlinarith
        refine ⟨p1, ?_, ?_⟩ <;> nlinarith
    unfold OnEdge
    rcases hb with rfl | rfl | rfl | rfl | rfl
    · rw [S.five0] at hc
      obtain rfl := Option.some.inj hc
      dsimp only
      constructor
      · intro h
        rcases edge i1 i2.flip with k | ⟨k1, k2, k3⟩
        · obtain rfl : t = 0 := by linarith
          exact Outer5.below s
        · have p0 : 0 < α + (1 - α) * (1 - t) := by have := i2.2; nlinarith
          rcases h with h | h | h | h <;> linarith
      · rintro ⟨⟩; right; right; left; ring
    · rw [S.five1] at hc
      obtain rfl := Option.some.inj hc
      dsimp only
      constructor
      · intro h
        rcases edge i2 i1.flip with k | ⟨k1, k2, k3⟩
        · obtain rfl : s = 0 := by linarith
          exact Outer5.left t
        · have p0 : 0 < α + (1 - α) * (1 - s) := by have := i1.2; nlinarith
          rcases h with h | h | h | h <;> linarith
      · rintro ⟨⟩; left; ring
    · rw [S.five2] at hc
      obtain rfl := Option.some.inj hc
      dsimp only
      have ks := abs_le.mp (abs_coord i1)
      have kt := abs_le.mp (abs_coord i2)
      constructor
      · intro h
        have e1 : -1 < (2 * s - 1) * α := by nlinarith
        have e2 : (2 * s - 1) * α < 1 := by nlinarith
        have e3 : -1 < (2 * t - 1) * α := by nlinarith
        have e4 : (2 * t - 1) * α < 1 := by nlinarith
        rcases h with h | h | h | h <;> linarith
      · rintro ⟨⟩
    · rw [S.five3] at hc
      obtain rfl := Option.some.inj hc
      dsimp only
      constructor
      · intro h
        rcases edge i2 i1 with k | ⟨k1, k2, k3⟩
        · subst k
          exact Outer5.right t
        · have p0 : 0 < α + (1 - α) * s := by have := i1.1; nlinarith
          rcases h with h | h | h | h <;> linarith
      · rintro ⟨⟩; right; left; ring
    · rw [S.five4] at hc
      obtain rfl := Option.some.inj hc
      dsimp only
      constructor
      · intro h
        rcases edge i1 i2 with k | ⟨k1, k2, k3⟩
        · subst k
          exact Outer5.above s
        · have p0 : 0 < α + (1 - α) * t := by have := i2.1; nlinarith
          rcases h with h | h | h | h <;> linarith
      · rintro ⟨⟩; right; right; right; ring
  · intro a a' ha ha' h
    have := (f3 a a' ha ha').mpr h
    unfold pillowdisk5
    rw [this]
  · intro a a' c c' ha ha' hc hc' e e' h
    obtain ⟨q, hq, hs⟩ := f1 a ha
    obtain ⟨q', hq', hs'⟩ := f1 a' ha'
    obtain rfl : q = c := Option.some.inj (hq.symm.trans hc)
    obtain rfl : q' = c' := Option.some.inj (hq'.symm.trans hc')
    unfold pillowdisk5 at h
    rw [hc, hc'] at h
    obtain ⟨j1, j2⟩ := hin q hs
    obtain ⟨j1', j2'⟩ := hin q' hs'
    have u {x : ℝ} : 2 * ((x + 1) / 2) - 1 = x := by ring
    have := d2 _ _ _ _ j1 j2 j1' j2' (by unfold OffCentre; rw [u, u]; exact e)
      (by unfold OffCentre; rw [u, u]; exact e') (Option.some.inj h)
    rw [← f3 a a' ha ha', hc, hc']
    congr 1
    ext
    · linarith [this.1]
    · linarith [this.2]
    · rw [hs.2.2.2.2, hs'.2.2.2.2]

example : fivepatch 4 1 1 (1 / 2) = some ⟨1, 1, 0⟩ := by
  simp [fivepatch, bilinearHelp]

/-- The two blocks of the pillow sphere. Up to 5·10⁻¹¹ they lie on the unit sphere, block 0 above and block 1
below the plane `z = 0`. On their edges, and only if the same place is meant, the two blocks are mapped to the
same point, on the equator. Ghost cells beyond an edge of a block are mapped to the cells of the other block,
those beyond a corner to cells of the same block. Away from the middle the places of a block are mapped to
different points. -/
theorem C91_pillowsphere_partial :
    (∀ (b : ℤ) s t, I01 s → I01 t → (b = 0 ∨ b = 1) →
      let p := pillowsphere true b s t
      1 - 5 / 10 ^ 11 < p.x ^ 2 + p.y ^ 2 + p.z ^ 2 ∧ p.x ^ 2 + p.y ^ 2 + p.z ^ 2 ≤ 1 ∧
      (b = 0 → 0 ≤ p.z) ∧ (b = 1 → p.z ≤ 0)) ∧
    (∀ s t, I01 s → I01 t → OnEdge s t → pillowsphere true 0 s t = pillowsphere true 1 s t ∧
      (pillowsphere true 0 s t).z = 0 ∧ OnSphere (pillowsphere true 0 s t)) ∧
    (∀ (b : ℤ) d t, 0 < d → d ≤ 1 → I01 t → (b = 0 ∨ b = 1) →
      pillowsphere true b (1 + d) t = pillowsphere true (1 - b) (1 - d) t ∧
      pillowsphere true b (-d) t = pillowsphere true (1 - b) d t ∧
      pillowsphere true b t (1 + d) = pillowsphere true (1 - b) t (1 - d) ∧
      pillowsphere true b t (-d) = pillowsphere true (1 - b) t d) ∧
    (∀ (b : ℤ) d e, 0 < d → d ≤ 1 → 0 < e → e ≤ 1 →
      pillowsphere true b (1 + d) (1 + e) = pillowsphere true b (1 - d) (1 - e) ∧
      pillowsphere true b (1 + d) (-e) = pillowsphere true b (1 - d) e ∧
      pillowsphere true b (-d) (1 + e) = pillowsphere true b d (1 - e) ∧
      pillowsphere true b (-d) (-e) = pillowsphere true b d e) ∧
    (∀ (b b' : ℤ) s t s' t', I01 s → I01 t → I01 s' → I01 t' → OffCentre (1 / 10 ^ 10) s t →
      OffCentre (1 / 10 ^ 10) s' t' → pillowsphere true b s t = pillowsphere true b' s' t' →
      s = s' ∧ t = t') := by
  have he : (1 / 10 ^ 10 : ℝ) = eps := by unfold eps; norm_num
  have hin {s : ℝ} (h : I01 s) : ¬ |2 * s - 1| > 1 := not_lt.mpr (abs_coord h)
  have hsin {b : ℤ} {s t : ℝ} (h1 : I01 s) (h2 : I01 t) : hsign b s t = if b = 1 then -1 else 1 := by
    unfold hsign
    rw [decide_eq_false (hin h1), decide_eq_false (hin h2), if_neg (by simp), one_mul]
  have hpos {d : ℝ} (h0 : 0 < d) : |2 * (1 + d) - 1| > 1 := by
    rw [abs_of_pos (by linarith)]; linarith
  have hneg {d : ℝ} (h0 : 0 < d) : |2 * (-d) - 1| > 1 := by
    rw [abs_of_neg (by linarith)]; linarith
  have f1 {d : ℝ} (h0 : 0 < d) (h1 : d ≤ 1) : fold (2 * (1 + d) - 1) = fold (2 * (1 - d) - 1) := by
    rw [show 2 * (1 + d) - 1 = 1 + 2 * d by ring, fold_hi (by linarith),
      fold_in (abs_coord ⟨by linarith, by linarith⟩)]
    ring
  have f2 {d : ℝ} (h0 : 0 < d) (h1 : d ≤ 1) : fold (2 * (-d) - 1) = fold (2 * d - 1) := by
    rw [show 2 * (-d) - 1 = -1 - 2 * d by ring, fold_lo (by linarith), fold_in (abs_coord ⟨h0.le, h1⟩)]
    ring
  have flip {b : ℤ} (hb : b = 0 ∨ b = 1) :
      (if b = 1 then (-1 : ℝ) else 1) = -(if 1 - b = 1 then (-1 : ℝ) else 1) := by
    rcases hb with rfl | rfl <;> norm_num
  have tf : (true : Bool) ≠ false := by simp
  have ft : (false : Bool) ≠ true := by simp
  refine ⟨?_, ?_, ?_, ?_, ?_⟩
  · intro b s t i1 i2 hb
    have a1 := abs_coord i1
    have a2 := abs_coord i2
    dsimp only
    rw [pillowsphere_eq, fold_in a1, fold_in a2]
    obtain ⟨k1, k2⟩ := near_sphere (hsign_sq b s t) (circleSp_sq a1 a2).1
    have h := height_nonneg (circleSp (2 * s - 1) (2 * t - 1))
    refine ⟨?_, k2, ?_, ?_⟩
    · calc (1 - 5 / 10 ^ 11 : ℝ) = 1 - 5 / 100000000000 := by norm_num
        _ < _ := k1
    · rintro rfl
      dsimp only
      rw [hsin i1 i2, if_neg (by norm_num)]; positivity
    · rintro rfl
      dsimp only
      rw [hsin i1 i2, if_pos rfl, neg_one_mul, neg_div]
      have : 0 ≤ height (circleSp (2 * s - 1) (2 * t - 1)) / Real.sqrt 2 := by positivity
      linarith
  · intro s t i1 i2 hE
    have a1 := abs_coord i1
    have a2 := abs_coord i2
    have hm : max |2 * s - 1| |2 * t - 1| = 1 := by
      apply le_antisymm (max_le a1 a2)
      rcases hE with rfl | rfl | rfl | rfl
      · exact le_trans (by norm_num) (le_max_left _ _)
      · exact le_trans (by norm_num) (le_max_left _ _)
      · exact le_trans (by norm_num) (le_max_right _ _)
      · exact le_trans (by norm_num) (le_max_right _ _)
    have hr := (circleSp_sq a1 a2).2.mpr hm
    have hh : height (circleSp (2 * s - 1) (2 * t - 1)) = 0 := by
      unfold height; rw [hr, if_pos (by norm_num)]
    rw [pillowsphere_eq, pillowsphere_eq, fold_in a1, fold_in a2, hh]
    refine ⟨?_, ?_, ?_⟩
    · simp
    · simp
    · unfold OnSphere
      dsimp only
      rw [div_pow, div_pow, div_pow, Real.sq_sqrt (show (0 : ℝ) ≤ 2 by norm_num)]
      nlinarith
  · intro b d t h0 h1 i hb
    have j1 : I01 (1 - d) := ⟨by linarith, by linarith⟩
    have j2 : I01 d := ⟨h0.le, h1⟩
    have hs1 {x : ℝ} (hx : |2 * x - 1| > 1) : hsign b x t = -(if b = 1 then (-1 : ℝ) else 1) := by
      unfold hsign
      rw [decide_eq_true hx, decide_eq_false (hin i), if_pos tf]; ring
    have hs2 {x : ℝ} (hx : |2 * x - 1| > 1) : hsign b t x = -(if b = 1 then (-1 : ℝ) else 1) := by
      unfold hsign
      rw [decide_eq_true hx, decide_eq_false (hin i), if_pos ft]; ring
    refine ⟨?_, ?_, ?_, ?_⟩
    · rw [pillowsphere_eq, pillowsphere_eq, f1 h0 h1, hs1 (hpos h0), hsin j1 i, flip hb, neg_neg]
    · rw [pillowsphere_eq, pillowsphere_eq, f2 h0 h1, hs1 (hneg h0), hsin j2 i, flip hb, neg_neg]
    · rw [pillowsphere_eq, pillowsphere_eq, f1 h0 h1, hs2 (hpos h0), hsin i j1, flip hb, neg_neg]
    · rw [pillowsphere_eq, pillowsphere_eq, f2 h0 h1, hs2 (hneg h0), hsin i j2, flip hb, neg_neg]
  · intro b d e h0 h1 g0 g1
    have j1 : I01 (1 - d) := ⟨by linarith, by linarith⟩
    have j2 : I01 d := ⟨h0.le, h1⟩
    have k1 : I01 (1 - e) := ⟨by linarith, by linarith⟩
    have k2 : I01 e := ⟨g0.le, g1⟩
    have hs {x y : ℝ} (hx : |2 * x - 1| > 1) (hy : |2 * y - 1| > 1) :
        hsign b x y = if b = 1 then (-1 : ℝ) else 1 := by
      unfold hsign
      rw [decide_eq_true hx, decide_eq_true hy, if_neg (by simp), one_mul]
    refine ⟨?_, ?_, ?_, ?_⟩
    · rw [pillowsphere_eq, pillowsphere_eq, f1 h0 h1, f1 g0 g1, hs (hpos h0) (hpos g0), hsin j1 k1]
    · rw [pillowsphere_eq, pillowsphere_eq, f1 h0 h1, f2 g0 g1, hs (hpos h0) (hneg g0), hsin j1 k2]
    · rw [pillowsphere_eq, pillowsphere_eq, f2 h0 h1, f1 g0 g1, hs (hneg h0) (hpos g0), hsin j2 k1]
    · rw [pillowsphere_eq, pillowsphere_eq, f2 h0 h1, f2 g0 g1, hs (hneg h0) (hneg g0), hsin j2 k2]
  · intro b b' s t s' t' i1 i2 i1' i2' c c' h
    rw [he] at c c'
    have a1 := abs_coord i1
    have a2 := abs_coord i2
    have a1' := abs_coord i1'
    have a2' := abs_coord i2'
    rw [pillowsphere_eq, pillowsphere_eq, fold_in a1, fold_in a2, fold_in a1', fold_in a2'] at h
    have h1 := sqrt2_cancel (congrArg P3.x h)
    have h2 := sqrt2_cancel (congrArg P3.y h)
    obtain ⟨k1, k2⟩ := circleSp_inj a1 a2 a1' a2' c c' (Prod.ext h1 h2)
    constructor <;> linarith

example : I01 (1 / 4) ∧ (0 : ℝ) < 1 / 8 ∧ (1 / 8 : ℝ) ≤ 1 ∧ OffCentre (1 / 10 ^ 10) 1 (1 / 4) ∧ OnEdge 1 (1 / 4) := by
  refine ⟨⟨by norm_num, by norm_num⟩, by norm_num, by norm_num, ?_, Or.inr (Or.inl rfl)⟩
  unfold OffCentre
  exact le_trans (by norm_num) (le_max_left _ _)

/-- The four blocks around a point: glued places are mapped to the same point, all blocks have the given
centre as a corner, and the outer edges form the edge of the square. -/
theorem C91_bilinear (center : ℝ × ℝ) :
    (∀ a a' : Place, Glue4 a a' →
      ∃ p, bilinear a.1 a.2.1 a.2.2 center = some p ∧ bilinear a'.1 a'.2.1 a'.2.2 center = some p) ∧
    (bilinear 0 1 1 center = some ⟨center.1, center.2, 0⟩ ∧
      bilinear 1 0 1 center = some ⟨center.1, center.2, 0⟩ ∧
      bilinear 2 1 0 center = some ⟨center.1, center.2, 0⟩ ∧
      bilinear 3 0 0 center = some ⟨center.1, center.2, 0⟩) ∧
    (∀ s, bilinear 0 s 0 center = some ⟨s - 1, -1, 0⟩ ∧ bilinear 1 s 0 center = some ⟨s, -1, 0⟩ ∧
      bilinear 2 s 1 center = some ⟨s - 1, 1, 0⟩ ∧ bilinear 3 s 1 center = some ⟨s, 1, 0⟩ ∧
      bilinear 0 0 s center = some ⟨-1, s - 1, 0⟩ ∧ bilinear 2 0 s center = some ⟨-1, s, 0⟩ ∧
      bilinear 1 1 s center = some ⟨1, s - 1, 0⟩ ∧ bilinear 3 1 s center = some ⟨1, s, 0⟩) := by
  have b0 (x y : ℝ) : bilinear 0 x y center = some ⟨-1 + x + (center.1 + 1 - 1) * (x * y),
      -1 + y + center.2 * (x * y), 0⟩ := by
    simp [bilinear, bilinearShift]; constructor <;> ring
  have b1 (x y : ℝ) : bilinear 1 x y center = some ⟨x + center.1 * y - center.1 * x * y,
      -1 + (center.2 + 1) * y - center.2 * (x * y), 0⟩ := by
    simp [bilinear, bilinearShift]; constructor <;> ring
  have b2 (x y : ℝ) : bilinear 2 x y center = some ⟨-1 + (center.1 + 1) * x - center.1 * (x * y),
      y + center.2 * x - center.2 * (x * y), 0⟩ := by
    simp [bilinear, bilinearShift]; constructor <;> ring
  have b3 (x y : ℝ) : bilinear 3 x y center = some ⟨center.1 + (1 - center.1) * x - center.1 * y + center.1 * (x * y),
      center.2 - center.2 * x + (1 - center.2) * y + center.2 * (x * y), 0⟩ := by
    simp [bilinear, bilinearShift]; constructor <;> ring
  refine ⟨?_, ?_, ?_⟩
  · rintro a a' g
    cases g with
    | lower t => dsimp only; rw [b0, b1]; exact ⟨_, rfl, by rw [some_p3]; constructor <;> ring⟩
    | upper t => dsimp only; rw [b2, b3]; exact ⟨_, rfl, by rw [some_p3]; constructor <;> ring⟩
    | left s => dsimp only; rw [b0, b2]; exact ⟨_, rfl, by rw [some_p3]; constructor <;> ring⟩
    | right s => dsimp only; rw [b1, b3]; exact ⟨_, rfl, by rw [some_p3]; constructor <;> ring⟩
  · rw [b0, b1, b2, b3]
    refine ⟨?_, ?_, ?_, ?_⟩ <;> rw [some_p3] <;> constructor <;> ring
  · intro s
    rw [b0, b1, b2, b3, b0, b2, b1, b3]
    refine ⟨?_, ?_, ?_, ?_, ?_, ?_, ?_, ?_⟩ <;> rw [some_p3] <;> constructor <;> ring

example : Glue4 (0, 1, 1) (1, 0, 1) := Glue4.lower 1

/-- Mappings of periodic domains: opposite edges are mapped to the same points, and the points lie on the
surface that is meant: between two circles, on a torus, on the sphere. -/
theorem C91_periodic (x y α β : ℝ) :
    (annulus (x + 1) y β 0 1 = annulus x y β 0 1 ∧
      (0 ≤ β → β ≤ 1 → I01 y → β ^ 2 ≤ (annulus x y β 0 1).x ^ 2 + (annulus x y β 0 1).y ^ 2 ∧
        InDisk (annulus x y β 0 1))) ∧
    (torus (x + 1) y α β = torus x y α β ∧ torus x (y + 1) α β = torus x y α β ∧
      (let p := torus x y α 0
       (p.x ^ 2 + p.y ^ 2 + p.z ^ 2 + 1 - α ^ 2) ^ 2 = 4 * (p.x ^ 2 + p.y ^ 2))) ∧
    (twistedTorus (x + 1) y α = twistedTorus x y α ∧ twistedTorus x (y + 1) α = twistedTorus x y α ∧
      twistedTorus x y α = torus x (y + x) α 0) ∧
    (latlong (x + 360) y = latlong x y ∧ OnSphere (latlong x y)) := by
  have c1 (u : ℝ) : Real.cos (2 * Real.pi * (u + 1)) = Real.cos (2 * Real.pi * u) := by
    rw [show 2 * Real.pi * (u + 1) = 2 * Real.pi * u + 2 * Real.pi by ring, Real.cos_add_two_pi]
  have s1 (u : ℝ) : Real.sin (2 * Real.pi * (u + 1)) = Real.sin (2 * Real.pi * u) := by
    rw [show 2 * Real.pi * (u + 1) = 2 * Real.pi * u + 2 * Real.pi by ring, Real.sin_add_two_pi]
  refine ⟨⟨?_, ?_⟩, ⟨?_, ?_, ?_⟩, ⟨?_, ?_, ?_⟩, ?_, ?_⟩
  · unfold annulus
    dsimp only
    rw [show 0 + (1 - 0) * (x + 1) = x + 1 by ring, show 0 + (1 - 0) * x = x by ring, c1, s1]
  · intro h0 h1 hy
    unfold InDisk annulus
    dsimp only
    generalize 2 * Real.pi * (0 + (1 - 0) * x) = u
    have hr0 : β ≤ β + (1 - β) * y := by have := hy.1; nlinarith
    have hr1 : β + (1 - β) * y ≤ 1 := by have := hy.2; nlinarith
    have e : ((β + (1 - β) * y) * Real.cos u) ^ 2 + ((β + (1 - β) * y) * Real.sin u) ^ 2
        = (β + (1 - β) * y) ^ 2 := by
      have := Real.sin_sq_add_cos_sq u
      rw [mul_pow, mul_pow, ← mul_add, add_comm (Real.cos u ^ 2), this, mul_one]
    rw [e]
    refine ⟨?_, ?_, rfl⟩ <;> nlinarith
  · unfold torus; dsimp only; rw [c1, s1]
  · unfold torus; dsimp only; rw [c1, s1]
  · unfold torus
    dsimp only
    have hu := Real.sin_sq_add_cos_sq (2 * Real.pi * x)
    have hv := Real.sin_sq_add_cos_sq (2 * Real.pi * y)
    generalize Real.sin (2 * Real.pi * x) = sx at *
    generalize Real.cos (2 * Real.pi * x) = cx at *
    generalize Real.sin (2 * Real.pi * y) = sy at *
    generalize Real.cos (2 * Real.pi * y) = cy at *
    have e1 : ((1 + α * (1 + 0 * sx) * cy) * cx) ^ 2 + ((1 + α * (1 + 0 * sx) * cy) * sx) ^ 2
        = (1 + α * cy) ^ 2 := by
      linear_combination (1 + α * cy) ^ 2 * hu
    have e2 : (α * (1 + 0 * sx) * sy) ^ 2 = α ^ 2 - (α * cy) ^ 2 := by
      linear_combination α ^ 2 * hv
    rw [e1, e2]
    ring
  · unfold twistedTorus
    dsimp only
    rw [show y + (x + 1) = y + x + 1 by ring, c1, s1, c1, s1]
  · unfold twistedTorus
    dsimp only
    rw [show y + 1 + x = y + x + 1 by ring, c1, s1]
  · unfold twistedTorus torus
    dsimp only
    ext <;> dsimp only <;> ring
  · unfold latlong
    dsimp only
    rw [show Real.pi / 180 * (x + 360) = Real.pi / 180 * x + 2 * Real.pi by ring, Real.cos_add_two_pi,
      Real.sin_add_two_pi]
  · unfold latlong OnSphere
    dsimp only
    have hu := Real.sin_sq_add_cos_sq (Real.pi / 180 * x)
    have hv := Real.sin_sq_add_cos_sq (Real.pi / 180 * y)
    linear_combination (Real.cos (Real.pi / 180 * y)) ^ 2 * hu + hv

/-- A quarter of the way round the annulus with inner radius 1/2. -/
example : annulus (1 / 4) 0 (1 / 2) 0 1 = ⟨0, 1 / 2, 0⟩ := by
  unfold annulus
  dsimp only
  rw [show 2 * Real.pi * (0 + (1 - 0) * (1 / 4)) = Real.pi / 2 by ring, Real.cos_pi_div_two, Real.sin_pi_div_two]
  norm_num

/-- Rotations keep lengths and angles and orientation; no angles, no rotation; the first angle turns the
x-axis towards the y-axis, the second one the x-axis towards the z-axis. -/
theorem C91_rotate (θ φ : ℝ) :
    (∀ p q, dot (rotateMap (setRotate θ φ) p) (rotateMap (setRotate θ φ) q) = dot p q) ∧
    (∀ p q, cross (rotateMap (setRotate θ φ) p) (rotateMap (setRotate θ φ) q)
      = rotateMap (setRotate θ φ) (cross p q)) ∧
    (∀ p, rotateMap (setRotate 0 0) p = p) ∧
    rotateMap (setRotate θ 0) ⟨1, 0, 0⟩ = ⟨Real.cos θ, Real.sin θ, 0⟩ ∧
    rotateMap (setRotate 0 φ) ⟨1, 0, 0⟩ = ⟨Real.cos φ, 0, Real.sin φ⟩ := by
  have e (θ φ : ℝ) (p : P3) : rotateMap (setRotate θ φ) p =
      ⟨Real.cos φ * (Real.cos θ * p.x - Real.sin θ * p.y) - Real.sin φ * p.z,
       Real.sin θ * p.x + Real.cos θ * p.y,
       Real.sin φ * (Real.cos θ * p.x - Real.sin θ * p.y) + Real.cos φ * p.z⟩ := by
    simp [rotateMap, setRotate, rotationMatrix, rot1, rot2, Fin.ofNat]
    refine ⟨?_, ?_⟩ <;> ring
  have hθ := Real.sin_sq_add_cos_sq θ
  have hφ := Real.sin_sq_add_cos_sq φ
  refine ⟨?_, ?_, ?_, ?_, ?_⟩
  · intro p q
    rw [e, e]
    unfold dot
    dsimp only
    generalize Real.sin θ = s at *
    generalize Real.cos θ = c at *
    generalize Real.sin φ = s' at *
    generalize Real.cos φ = c' at *
    linear_combination ((c * p.x - s * p.y) * (c * q.x - s * q.y) + p.z * q.z) * hφ
      + (p.x * q.x + p.y * q.y) * hθ
  · intro p q
    rw [e, e, e]
    unfold cross
    generalize Real.sin θ = s at *
    generalize Real.cos θ = c at *
    generalize Real.sin φ = s' at *
    generalize Real.cos φ = c' at *
    ext <;> dsimp only
    · linear_combination (-s') * (p.x * q.y - p.y * q.x) * hθ
    · linear_combination (p.z * (c * q.x - s * q.y) - q.z * (c * p.x - s * p.y)) * hφ
    · linear_combination c' * (p.x * q.y - p.y * q.x) * hθ
  · intro p
    rw [e]
    ext <;> simp
  · rw [e]; ext <;> simp
  · rw [e]; ext <;> simp

/-- Scaling takes the unit sphere to the ellipsoid with the given half axes, shifting takes it to the sphere
around the given centre. -/
theorem C91_scale_shift (s c p : P3) (hx : s.x ≠ 0) (hy : s.y ≠ 0) (hz : s.z ≠ 0) :
    (OnSphere p ↔ ((scaleMap s p).x / s.x) ^ 2 + ((scaleMap s p).y / s.y) ^ 2 + ((scaleMap s p).z / s.z) ^ 2 = 1) ∧
    (OnSphere p ↔ ((shiftMap c p).x - c.x) ^ 2 + ((shiftMap c p).y - c.y) ^ 2 + ((shiftMap c p).z - c.z) ^ 2 = 1) := by
  unfold OnSphere scaleMap shiftMap
  dsimp only
  rw [mul_div_cancel_right₀ _ hx, mul_div_cancel_right₀ _ hy, mul_div_cancel_right₀ _ hz, add_sub_cancel_right,
    add_sub_cancel_right, add_sub_cancel_right]
  exact ⟨Iff.rfl, Iff.rfl⟩

example : scaleMap ⟨2, 1, 3⟩ ⟨1, 0, 0⟩ = ⟨2, 0, 0⟩ ∧ shiftMap ⟨2, 1, 3⟩ ⟨1, 0, 0⟩ = ⟨3, 1, 3⟩ := by
  constructor <;> (ext <;> simp [scaleMap, shiftMap] <;> norm_num)

end

end Fclaw.Mapping

import Verif.Transform.Lemmas
import Mathlib.Tactic.NormNum
/-
C13, C14, C15: the index transformations between neighbouring patches.
-/
set_option autoImplicit false
set_option linter.unusedSimpArgs false
set_option linter.unusedVariables false
namespace Fclaw.Transform

/-- C13, different blocks: the transformation of an index yields an index of the same physical point
in the neighbour patch, cell centre to cell centre (`based = 1`) or corner to corner (`based = 0`),
in 2D and 3D, for every gluing, level, position and size. -/
theorem C13_face_point (d3 : Bool) (ft : Nat → Nat) (g : Gluing d3 ft) (ip op : Patch)
    (hl : ip.level = op.level) (hi : OnLattice ip) (ho : OnLattice op) (m : Nat → Nat) (based : Nat)
    (hs : Sizes d3 m based) (hm : SizesMatch d3 ft m) (idx : Nat → ℤ) (junk : Nat → ℚ) :
    ∃ idx', transformFace d3 ip op ft m based idx junk = some idx' ∧
      SamePoint d3 ft (location ip m based idx) (location op m based idx') := by
  unfold transformFace
  have hv := valid_of_gluing d3 ft g
  have hb4 : ¬ (ft 8 / 4 % 2 = 1) := by have := g.r2; omega
  rw [if_neg (by simp [hl, sizesOk_of hs, hv]), if_neg hb4, if_neg (by simp [axesOk_of_match hm])]
  have hmine : ∀ a ∈ axes d3, ip.lower a * (2 ^ ip.level * (m a : ℚ)) + idx a - 1 / 2 * based
      = 2 ^ ip.level * m a * location ip m based idx a := by
    intro a ha
    have hm' : (0 : ℚ) < m a := by exact_mod_cast hs.2 a ha
    have hw : (2 : ℚ) ^ ip.level ≠ 0 := by positivity
    unfold location
    field_simp
    ring
  obtain ⟨t, ht, e3, e4, e5⟩ := target_eq d3 ft g m (2 ^ ip.level) hm (location ip m based idx)
    (fun a => ip.lower a * (2 ^ ip.level * (m a : ℚ)) + idx a - 1 / 2 * based) junk hmine
  refine ⟨fun a => trunc (t a - op.lower a * (2 ^ ip.level * (m a : ℚ)) + 1 / 2 * based), ?_, ?_⟩
  · simp only [ht, Option.map_some]
  · rw [samePoint_iff d3 ft g.r2]
    obtain ⟨a3, a4, a5⟩ := mem_axes_target d3 ft g
    have core : ∀ (a a' : Nat) (s c : ℤ), (s = 1 ∨ s = -1) → a' ∈ axes d3 → m a = m a' →
        t a' = 2 ^ ip.level * m a' * (s * location ip m based idx a + c) →
        location op m based (fun a => trunc (t a - op.lower a * (2 ^ ip.level * (m a : ℚ))
          + 1 / 2 * based)) a' = s * location ip m based idx a + c := by
      intro a a' s c hsc ha' hma hta
      obtain ⟨X, hX⟩ := hi a
      obtain ⟨OX, hOX⟩ := ho a'
      rw [← hl] at hOX
      have hm1 := hs.2 a' ha'
      unfold location at hta ⊢
      rw [← hl]
      rw [hma] at hta ⊢
      exact index_core X OX (idx a) s c hsc (m a') ip.level hm1 based (ip.lower a) (op.lower a') hX hOX
        (t a') hta
    exact ⟨core _ _ _ _ (sT_pm _) a3 hm.1 e3, fun hd => core _ _ _ _ (sT_pm _) (a4 hd) (hm.2.1 hd) (e4 hd),
      core _ _ _ _ (sN_pm _) a5 hm.2.2 e5⟩

/-- C13, same block: with the same-block flag the transformed index has the same position in the
block. (The flag overrides everything else in the transformation.) -/
theorem C13_same_block (d3 : Bool) (ft : Nat → Nat) (hv : valid d3 ft = true) (h4 : ft 8 / 4 % 2 = 1)
    (ip op : Patch) (hl : ip.level = op.level) (hi : OnLattice ip) (ho : OnLattice op) (m : Nat → Nat)
    (based : Nat) (hs : Sizes d3 m based) (idx : Nat → ℤ) (junk : Nat → ℚ) :
    ∃ idx', transformFace d3 ip op ft m based idx junk = some idx' ∧
      ∀ a ∈ axes d3, location op m based idx' a = location ip m based idx a := by
  unfold transformFace
  rw [if_neg (by simp [hl, sizesOk_of hs, hv]), if_pos h4]
  refine ⟨_, rfl, ?_⟩
  intro a ha
  obtain ⟨X, hX⟩ := hi a
  obtain ⟨OX, hOX⟩ := ho a
  rw [← hl] at hOX
  have := trans_core X OX 0 ip.level (m a) (hs.2 a ha) based (idx a) (ip.lower a) (op.lower a) hX hOX
  simp only [Int.cast_zero, add_zero] at this
  unfold location
  dsimp only
  rw [← hl, ← this, mul_assoc]

/-- C13, inverse: the transformation back with the reverse gluing returns the original index. -/
theorem C13_face_inverse (d3 : Bool) (ft : Nat → Nat) (g : Gluing d3 ft) (ip op : Patch)
    (hl : ip.level = op.level) (hi : OnLattice ip) (ho : OnLattice op) (m : Nat → Nat) (based : Nat)
    (hs : Sizes d3 m based) (hm : SizesMatch d3 ft m) (idx idx' : Nat → ℤ) (junk junk' : Nat → ℚ)
    (h : transformFace d3 ip op ft m based idx junk = some idx') :
    ∃ idx'', transformFace d3 op ip (reverse ft) m based idx' junk' = some idx'' ∧
      ∀ a ∈ axes d3, idx'' a = idx a := by
  obtain ⟨i1, h1, s1⟩ := C13_face_point d3 ft g ip op hl hi ho m based hs hm idx junk
  rw [h] at h1
  cases h1
  obtain ⟨i2, h2, s2⟩ := C13_face_point d3 (reverse ft) (reverse_gluing d3 ft g) op ip hl.symm ho hi m
    based hs (reverse_sizes hm) idx' junk'
  refine ⟨i2, h2, ?_⟩
  intro a ha
  have s1' := reverse_samePoint d3 ft g _ _ s1
  exact location_inj (hs.2 a ha)
    (samePoint_det d3 (reverse ft) (reverse_gluing d3 ft g) _ _ _ s2 s1' a ha)

/-- C13, ghost cells: let `op` be the patch on the other side of the common face. A cell (or node)
index beyond the face, within the extent of the neighbour patch, becomes an index of the neighbour's
interior, at the same distance `k` from the common face. -/
theorem C13_ghost_interior (d3 : Bool) (ft : Nat → Nat) (g : Gluing d3 ft) (ip op : Patch)
    (hl : ip.level = op.level) (hi : OnLattice ip) (ho : OnLattice op) (m : Nat → Nat) (based : Nat)
    (hs : Sizes d3 m based) (hm : SizesMatch d3 ft m) (idx idx' : Nat → ℤ) (junk : Nat → ℚ)
    (hn : SamePoint d3 ft (patchCentre ip (outStep ft)) (patchCentre op (fun _ => 0)))
    (h : transformFace d3 ip op ft m based idx junk = some idx')
    (hidx : ∀ a ∈ axes d3, (based : ℤ) ≤ idx a - outStep ft a * m a ∧ idx a - outStep ft a * m a ≤ m a) :
    (∀ a ∈ axes d3, (based : ℤ) ≤ idx' a ∧ idx' a ≤ m a) ∧
    ∀ k : ℤ, (idx (ft 2) = if ft 8 / 2 = 1 then (m (ft 2) : ℤ) + k else based - k) →
      (idx' (ft 5) = if ft 8 % 2 = 1 then (m (ft 5) : ℤ) + based - k else k) := by
  obtain ⟨i1, h1, s1⟩ := C13_face_point d3 ft g ip op hl hi ho m based hs hm idx junk
  rw [h] at h1
  cases h1
  rw [samePoint_iff d3 ft g.r2] at s1 hn
  obtain ⟨my0, my1, my2⟩ := mem_axes_my d3 ft g
  obtain ⟨a3, a4, a5⟩ := mem_axes_target d3 ft g
  have core : ∀ (a a' : Nat) (s c : ℤ), (s = 1 ∨ s = -1) → a' ∈ axes d3 → m a = m a' →
      location op m based idx' a' = s * location ip m based idx a + c →
      patchCentre op (fun _ => 0) a' = s * patchCentre ip (outStep ft) a + c →
      (s = 1 → idx' a' = idx a - outStep ft a * m a) ∧
      (s = -1 → idx' a' = m a' + based - (idx a - outStep ft a * m a)) := by
    intro a a' s c hsc ha' hma e1 e2
    unfold location at e1
    unfold patchCentre at e2
    rw [← hl] at e1 e2
    have hm' : (0 : ℚ) < m a' := by exact_mod_cast hs.2 a' ha'
    have hw : (0 : ℚ) < 2 ^ ip.level := by positivity
    rw [hma] at e1 ⊢
    field_simp at e1 e2
    constructor
    · rintro rfl
      have : (idx' a' : ℚ) = idx a - outStep ft a * m a' := by
        push_cast at e1 e2 ⊢
        have h3 : (m a' : ℚ) * (op.lower a' * 2 ^ ip.level) = m a' * (2 ^ ip.level * ip.lower a + outStep ft a
            + 2 ^ ip.level * c) := by
          congr 1
          linarith
        linarith
      exact_mod_cast this
    · rintro rfl
      have : (idx' a' : ℚ) = m a' + based - (idx a - outStep ft a * m a') := by
        push_cast at e1 e2 ⊢
        have h3 : (m a' : ℚ) * (op.lower a' * 2 ^ ip.level) = m a' * (-(2 ^ ip.level * ip.lower a) - outStep ft a
            + 2 ^ ip.level * c - 1) := by
          congr 1
          linarith
        linarith
      exact_mod_cast this
  have c3 := core _ _ _ _ (sT_pm _) a3 hm.1 s1.1 hn.1
  have c4 := fun hd => core _ _ _ _ (sT_pm _) (a4 hd) (hm.2.1 hd) (s1.2.1 hd) (hn.2.1 hd)
  have c5 := core _ _ _ _ (sN_pm _) a5 hm.2.2 s1.2.2 hn.2.2
  constructor
  · intro a ha
    rcases target_axis d3 ft g a ha with rfl | ⟨hd, rfl⟩ | rfl
    · have hx := hidx _ my0
      have := hm.1
      rcases sT_pm (ft 6) with e | e
      · rw [c3.1 e]; omega
      · rw [c3.2 e]; omega
    · have hx := hidx _ (my1 hd)
      have := hm.2.1 hd
      rcases sT_pm (ft 7) with e | e
      · rw [(c4 hd).1 e]; omega
      · rw [(c4 hd).2 e]; omega
    · have hx := hidx _ my2
      have := hm.2.2
      rcases sN_pm (ft 8) with e | e
      · rw [c5.1 e]; omega
      · rw [c5.2 e]; omega
  · intro k hk
    have hmm := hm.2.2
    have h8 := g.r2
    simp only [outStep, if_true] at c5
    have : ft 8 = 0 ∨ ft 8 = 1 ∨ ft 8 = 2 ∨ ft 8 = 3 := by omega
    rcases this with e | e | e | e <;> rw [e] at hk c5 ⊢ <;> simp [sN] at hk c5 ⊢ <;> rw [c5, hk] <;>
      omega

/-- C13, 2D: the face transformation built from a face and a neighbour face with orientation is a
gluing of exactly these two faces, and swapping the roles of the two faces gives its reverse. The
same-block flag can be set and cleared. -/
theorem C13_gluing_2d (f r : Nat) (hf : f < 4) (hr : r < 8) :
    Gluing false (expand2 f r) ∧
    2 * expand2 f r 2 + expand2 f r 8 / 2 = f ∧ 2 * expand2 f r 5 + expand2 f r 8 % 2 = r % 4 ∧
    (∀ k, expand2 (r % 4) (f + 4 * (r / 4)) k = reverse (expand2 f r) k) ∧
    (setBlock (expand2 f r) true 8 / 4 % 2 = 1 ∧ valid false (setBlock (expand2 f r) true) = true) ∧
    (∀ k, setBlock (setBlock (expand2 f r) true) false k = expand2 f r k) ∧
    (valid false intra = true ∧ valid true intra = true ∧ intra 8 / 4 % 2 = 1) := by
  have hf' : f = 0 ∨ f = 1 ∨ f = 2 ∨ f = 3 := by omega
  have hr' : r = 0 ∨ r = 1 ∨ r = 2 ∨ r = 3 ∨ r = 4 ∨ r = 5 ∨ r = 6 ∨ r = 7 := by omega
  have hk : ∀ (u v : Nat → Nat), (∀ k < 9, u k = v k) → (∀ k, 9 ≤ k → u k = v k) → ∀ k, u k = v k := by
    intro u v h1 h2 k
    by_cases h : k < 9
    · exact h1 k h
    · exact h2 k (by omega)
  have hex : ∀ f r k, 9 ≤ k → expand2 f r k = 0 := by
    intro f r k hk
    obtain ⟨k', rfl⟩ : ∃ k', k = k' + 9 := ⟨k - 9, by omega⟩
    rfl
  have hrev : ∀ ft k, 9 ≤ k → reverse ft k = 0 := by
    intro ft k hk
    obtain ⟨k', rfl⟩ : ∃ k', k = k' + 9 := ⟨k - 9, by omega⟩
    rfl
  have hset : ∀ ft b k, 9 ≤ k → setBlock ft b k = ft k := by
    intro ft b k hk
    unfold setBlock
    rw [upd_ne _ _ _ _ (by omega)]
  refine ⟨?_, ?_, ?_, ?_, ?_, ?_, ?_⟩
  · rcases hf' with rfl | rfl | rfl | rfl <;>
      rcases hr' with rfl | rfl | rfl | rfl | rfl | rfl | rfl | rfl <;>
      constructor <;> simp [expand2]
  · simp only [expand2]; omega
  · simp only [expand2]; omega
  · apply hk
    · rcases hf' with rfl | rfl | rfl | rfl <;>
        rcases hr' with rfl | rfl | rfl | rfl | rfl | rfl | rfl | rfl <;> decide
    · intro k hk'; rw [hex _ _ _ hk', hrev _ _ hk']
  · rcases hf' with rfl | rfl | rfl | rfl <;>
      rcases hr' with rfl | rfl | rfl | rfl | rfl | rfl | rfl | rfl <;> decide
  · apply hk
    · rcases hf' with rfl | rfl | rfl | rfl <;>
        rcases hr' with rfl | rfl | rfl | rfl | rfl | rfl | rfl | rfl <;> decide
    · intro k hk'; rw [hset _ _ _ hk', hset _ _ _ hk']
  · decide

/-- C14, different blocks: entry `childNo b` of the output is the fine cell whose centre is the image
of the centre of child `b` of the given coarse cell (the fine cells have half the size, so they tile
its image); distinct children have distinct fine cells, and nothing beyond the 4 (8) entries is
written. -/
theorem C14_face2_children (d3 : Bool) (ft : Nat → Nat) (g : Gluing d3 ft) (ip op : Patch)
    (hl : ip.level + 1 = op.level) (hi : OnLattice ip) (ho : OnLattice op) (m : Nat → Nat) (based : Nat)
    (hs : Sizes d3 m based) (hm : SizesMatch d3 ft m) (idx : Nat → ℤ) (junk : Nat → ℚ) :
    ∃ out, transformFace2 d3 ip op ft m based idx junk = some out ∧
      (∀ b, IsChild d3 b → ∃ idx', out (childNo b) = some idx' ∧
        SamePoint d3 ft (childCentre ip m based idx b) (cellCentre op m based idx')) ∧
      (∀ b b' i i', IsChild d3 b → IsChild d3 b' → b ≠ b' → out (childNo b) = some i →
        out (childNo b') = some i' → ∃ a ∈ axes d3, i a ≠ i' a) ∧
      ∀ k, out k ≠ none → k < if d3 then 8 else 4 := by
  unfold transformFace2
  have hv := valid_of_gluing d3 ft g
  have hb4 : ¬ (ft 8 / 4 % 2 = 1) := by have := g.r2; omega
  rw [if_neg (by simp [hl, sizesOk_of hs, hv]), if_neg hb4, if_neg (by simp [axesOk_of_match hm])]
  have hmine : ∀ a ∈ axes d3, ip.lower a * (2 ^ op.level * (m a : ℚ)) + 2 * ((idx a : ℚ) + 1 / 2 - based)
      = 2 ^ op.level * m a * cellCentre ip m based idx a := by
    intro a ha
    have hm' : (0 : ℚ) < m a := by exact_mod_cast hs.2 a ha
    have hw : (2 : ℚ) ^ ip.level ≠ 0 := by positivity
    unfold cellCentre
    rw [← hl, pow_succ]
    field_simp
    ring
  obtain ⟨t, ht, e3, e4, e5⟩ := target_eq d3 ft g m (2 ^ op.level) hm (cellCentre ip m based idx)
    (fun a => ip.lower a * (2 ^ op.level * (m a : ℚ)) + 2 * ((idx a : ℚ) + 1 / 2 - based)) junk hmine
  simp only [ht, Option.map_some]
  have hpoint : ∀ b, IsChild d3 b → ∃ idx',
      writeAll (fun is => childNo (bigCoord d3 ft is)) (fun is a =>
        trunc (t a - op.lower a * (2 ^ op.level * (m a : ℚ))) + based - 1 + is a) (childLoop d3) (childNo b)
        = some idx' ∧
      SamePoint d3 ft (childCentre ip m based idx b) (cellCentre op m based idx') := by
    intro b hb
    obtain ⟨is, hmem, hkey, hinj, f3, f4, f5⟩ := bigCoord_surj d3 ft g b hb
    refine ⟨fun a => trunc (t a - op.lower a * (2 ^ op.level * (m a : ℚ))) + based - 1 + is a, ?_, ?_⟩
    · rw [← hkey]
      exact writeAll_get (fun is => childNo (bigCoord d3 ft is)) (fun is a =>
        trunc (t a - op.lower a * (2 ^ op.level * (m a : ℚ))) + based - 1 + is a) _ is hmem hinj
    · rw [samePoint_iff d3 ft g.r2]
      obtain ⟨a3, a4, a5⟩ := mem_axes_target d3 ft g
      have core : ∀ (a a' : Nat) (s c : ℤ), (s = 1 ∨ s = -1) → a' ∈ axes d3 → m a = m a' →
          t a' = 2 ^ op.level * m a' * (s * cellCentre ip m based idx a + c) →
          is a' = flip s (b a) →
          cellCentre op m based (fun a => trunc (t a - op.lower a * (2 ^ op.level * (m a : ℚ)))
            + based - 1 + is a) a' = s * childCentre ip m based idx b a + c := by
        intro a a' s c hsc ha' hma hta hisa
        obtain ⟨X, hX⟩ := hi a
        obtain ⟨OX, hOX⟩ := ho a'
        rw [← hl] at hOX
        have hm1 := hs.2 a' ha'
        have hc := flip_cast hsc (child_lt hb a)
        rw [← hisa] at hc
        unfold cellCentre at hta ⊢
        unfold childCentre
        rw [← hl] at hta ⊢
        rw [hma] at hta ⊢
        exact index_core2 X OX (idx a) s c hsc (m a') ip.level hm1 based (ip.lower a) (op.lower a') hX hOX
          (t a') hta (b a) (is a') hc
      exact ⟨core _ _ _ _ (sT_pm _) a3 hm.1 e3 f3,
        fun hd => core _ _ _ _ (sT_pm _) (a4 hd) (hm.2.1 hd) (e4 hd) (f4 hd),
        core _ _ _ _ (sN_pm _) a5 hm.2.2 e5 f5⟩
  refine ⟨_, rfl, hpoint, ?_, ?_⟩
  · intro b b' i i' hb hb' hne h1 h2
    by_contra hcon
    have heq : ∀ a ∈ axes d3, i a = i' a := by
      intro a ha
      by_contra h
      exact hcon ⟨a, ha, h⟩
    obtain ⟨j, g1, s1⟩ := hpoint b hb
    obtain ⟨j', g2, s2⟩ := hpoint b' hb'
    rw [h1] at g1; cases g1
    rw [h2] at g2; cases g2
    have r1 := reverse_samePoint d3 ft g _ _ s1
    have r2 := reverse_samePoint d3 ft g _ _ s2
    obtain ⟨a, ha, hne'⟩ := childCentre_ne (p := ip) (based := based) (idx := idx) hs.2 hb hb' hne
    apply hne'
    -- both are the image of the same point
    have r2' : SamePoint d3 (reverse ft) (cellCentre op m based i) (childCentre ip m based idx b') := by
      obtain ⟨u0, u1, u2⟩ := r2
      have hcc : ∀ a ∈ axes d3, cellCentre op m based i' a = cellCentre op m based i a := by
        intro a ha
        unfold cellCentre
        rw [heq a ha]
      obtain ⟨y0, y1, y2⟩ := mem_axes_my d3 (reverse ft) (reverse_gluing d3 ft g)
      refine ⟨?_, ?_, ?_⟩
      · rw [u0, hcc _ y0]
      · intro hd; rw [u1 hd, hcc _ (y1 hd)]
      · rw [u2, hcc _ y2]
    exact samePoint_det d3 (reverse ft) (reverse_gluing d3 ft g) _ _ _ r1 r2' a ha
  · intro k hk
    obtain ⟨is, hmem, rfl⟩ := writeAll_written _ _ _ k hk
    have hch := (mem_childLoop d3 is).1 hmem
    apply childNo_lt
    · exact bigCoord_lt d3 ft g is (child_lt hch) 0 (by simp)
    · exact bigCoord_lt d3 ft g is (child_lt hch) 1 (by simp)
    · exact bigCoord_lt d3 ft g is (child_lt hch) 2 (by simp)
    · intro hd; exact (bigCoord_at d3 ft g is).2.2.2 hd

/-- The loop that writes the children in order, as used within a block and across corners. -/
theorem children_in_order (d3 : Bool) (d : Nat → ℤ) :
    (∀ b, IsChild d3 b → writeAll childNo (fun is a => d a + (is a : ℤ)) (childLoop d3) (childNo b)
      = some fun a => d a + (b a : ℤ)) ∧
    ∀ k, writeAll childNo (fun is a => d a + (is a : ℤ)) (childLoop d3) k ≠ none →
      k < if d3 then 8 else 4 := by
  constructor
  · intro b hb
    apply writeAll_get childNo (fun is a => d a + (is a : ℤ))
    · exact (mem_childLoop d3 b).2 hb
    · intro is' hmem hkey
      have hch := (mem_childLoop d3 is').1 hmem
      obtain ⟨h0, h1, h2⟩ := childNo_inj (child_lt hch) (child_lt hb) hkey
      apply child_ext hch hb
      intro a ha
      rcases axes_lt3 ha with rfl | rfl | rfl <;> assumption
  · intro k hk
    obtain ⟨is, hmem, rfl⟩ := writeAll_written _ _ _ k hk
    have hch := (mem_childLoop d3 is).1 hmem
    apply childNo_lt (child_lt hch 0) (child_lt hch 1) (child_lt hch 2)
    intro hd; subst hd; exact child_zero hch

/-- C14, same block: entry `childNo b` is the fine cell at the position of child `b`. -/
theorem C14_face2_same_block (d3 : Bool) (ft : Nat → Nat) (hv : valid d3 ft = true)
    (h4 : ft 8 / 4 % 2 = 1) (ip op : Patch) (hl : ip.level + 1 = op.level) (hi : OnLattice ip)
    (ho : OnLattice op) (m : Nat → Nat) (based : Nat) (hs : Sizes d3 m based) (idx : Nat → ℤ)
    (junk : Nat → ℚ) :
    ∃ out, transformFace2 d3 ip op ft m based idx junk = some out ∧
      (∀ b, IsChild d3 b → ∃ idx', out (childNo b) = some idx' ∧
        ∀ a ∈ axes d3, cellCentre op m based idx' a = childCentre ip m based idx b a) ∧
      ∀ k, out k ≠ none → k < if d3 then 8 else 4 := by
  unfold transformFace2
  rw [if_neg (by simp [hl, sizesOk_of hs, hv]), if_pos h4]
  refine ⟨_, rfl, ?_, (children_in_order d3 _).2⟩
  intro b hb
  refine ⟨_, (children_in_order d3 _).1 b hb, ?_⟩
  intro a ha
  obtain ⟨X, hX⟩ := hi a
  obtain ⟨OX, hOX⟩ := ho a
  rw [← hl] at hOX
  have := trans_core2 X OX 0 ip.level (m a) (hs.2 a ha) based (idx a) (b a) (ip.lower a) (op.lower a) hX hOX
  simp only [Int.cast_zero, add_zero] at this
  unfold cellCentre childCentre
  dsimp only
  rw [← hl, ← this, mul_assoc]

theorem cornerOk_of (d3 : Bool) (op : Patch) (ic : Nat) (bd : Bool)
    (h : bd = true → InOppositeCorner d3 ic op) : cornerOk d3 op ic bd = true := by
  unfold cornerOk
  cases bd with
  | false => simp
  | true =>
    have hc := h rfl
    unfold InOppositeCorner axes at hc
    simp only [Bool.not_true, Bool.false_or, List.all_eq_true]
    intro a ha
    have := hc a ha
    split <;> rename_i hh
    · rw [if_pos hh] at this
      simpa using this
    · rw [if_neg hh] at this
      simpa using this

theorem shift_point (d3 : Bool) (ic : Nat) (bd : Bool) (p p' : Nat → ℚ)
    (h : ∀ a ∈ axes d3, p' a = p a + shift ic bd a) : CornerSamePoint d3 ic bd p p' := by
  intro a ha
  have h1 := h a ha
  cases bd with
  | false => simpa [shift] using h1
  | true =>
    have : ic / 2 ^ a % 2 = 0 ∨ ic / 2 ^ a % 2 = 1 := by omega
    rcases this with e | e <;> simp [shift, e, inside, outside] at h1 ⊢ <;> linarith

theorem shift_int (ic : Nat) (bd : Bool) (a : Nat) : ∃ c : ℤ, shift ic bd a = c := by
  unfold shift
  split
  · split
    · exact ⟨1, by simp⟩
    · exact ⟨-1, by simp⟩
  · exact ⟨0, by simp⟩

/-- C15, same size: the index is sent to the index of the same physical point in the corner
neighbour, within a block and across a block corner. -/
theorem C15_corner_point (d3 : Bool) (ip op : Patch) (ic : Nat) (bd : Bool)
    (hl : ip.level = op.level) (hi : OnLattice ip) (ho : OnLattice op) (m : Nat → Nat) (based : Nat)
    (hs : Sizes d3 m based) (hc : bd = true → InOppositeCorner d3 ic op) (idx : Nat → ℤ) :
    ∃ idx', transformCorner d3 ip op ic bd m based idx = some idx' ∧
      CornerSamePoint d3 ic bd (location ip m based idx) (location op m based idx') := by
  unfold transformCorner
  rw [if_neg (by simp [hl, sizesOk_of hs, cornerOk_of d3 op ic bd hc])]
  refine ⟨_, rfl, shift_point _ _ _ _ _ ?_⟩
  intro a ha
  obtain ⟨X, hX⟩ := hi a
  obtain ⟨OX, hOX⟩ := ho a
  obtain ⟨c, hcc⟩ := shift_int ic bd a
  rw [← hl] at hOX
  have := trans_core X OX c ip.level (m a) (hs.2 a ha) based (idx a) (ip.lower a) (op.lower a) hX hOX
  unfold location
  dsimp only
  rw [hcc, ← this, ← hl]

/-- C15, half size: entry `childNo b` is the fine cell of the corner neighbour whose centre is the
centre of child `b` of the given cell. -/
theorem C15_corner2_children (d3 : Bool) (ip op : Patch) (ic : Nat) (bd : Bool)
    (hl : ip.level + 1 = op.level) (hi : OnLattice ip) (ho : OnLattice op) (m : Nat → Nat) (based : Nat)
    (hs : Sizes d3 m based) (hc : bd = true → InOppositeCorner d3 ic op) (idx : Nat → ℤ) :
    ∃ out, transformCorner2 d3 ip op ic bd m based idx = some out ∧
      (∀ b, IsChild d3 b → ∃ idx', out (childNo b) = some idx' ∧
        CornerSamePoint d3 ic bd (childCentre ip m based idx b) (cellCentre op m based idx')) ∧
      ∀ k, out k ≠ none → k < if d3 then 8 else 4 := by
  unfold transformCorner2
  rw [if_neg (by simp [hl, sizesOk_of hs, cornerOk_of d3 op ic bd hc])]
  refine ⟨_, rfl, ?_, (children_in_order d3 _).2⟩
  intro b hb
  refine ⟨_, (children_in_order d3 _).1 b hb, shift_point _ _ _ _ _ ?_⟩
  intro a ha
  obtain ⟨X, hX⟩ := hi a
  obtain ⟨OX, hOX⟩ := ho a
  obtain ⟨c, hcc⟩ := shift_int ic bd a
  rw [← hl] at hOX
  have := trans_core2 X OX c ip.level (m a) (hs.2 a ha) based (idx a) (b a) (ip.lower a) (op.lower a) hX hOX
  unfold cellCentre childCentre
  dsimp only
  rw [hcc, ← this, ← hl]

/-! A case meeting the hypotheses: two blocks glued along the upper x face of the first and the upper
y face of the second, reversed, patches of level 1 with 8 x 8 cells. Ghost cell (9, 3) of the patch
at (1/2, 0) is cell (6, 8) of the patch at (1/2, 1/2). -/
def exIp : Patch := ⟨1, fun a => if a = 0 then 1 / 2 else 0⟩
def exOp : Patch := ⟨1, fun _ => 1 / 2⟩

example : Gluing false (expand2 1 7) ∧ OnLattice exIp ∧ OnLattice exOp ∧ Sizes false (fun _ => 8) 1 ∧
    SizesMatch false (expand2 1 7) (fun _ => 8) ∧
    SamePoint false (expand2 1 7) (patchCentre exIp (outStep (expand2 1 7)))
      (patchCentre exOp (fun _ => 0)) := by
  refine ⟨(C13_gluing_2d 1 7 (by omega) (by omega)).1, ?_, ?_, ?_, ?_, ?_⟩
  · intro a
    by_cases h : a = 0
    · exact ⟨1, by simp [exIp, h]⟩
    · exact ⟨0, by simp [exIp, h]⟩
  · intro a; exact ⟨1, by simp [exOp]⟩
  · exact ⟨by omega, by simp⟩
  · simp [SizesMatch]
  · constructor
    · simp [expand2, patchCentre, exIp, exOp, outStep]; norm_num
    · simp
    · simp [expand2, patchCentre, exIp, exOp, outStep, inside, outside]; norm_num

def exIdx : Nat → ℤ := fun a => if a = 0 then 9 else 3

example : ((transformFace false exIp exOp (expand2 1 7) (fun _ => 8) 1 exIdx (fun _ => 0)).map
    fun r => (r 0, r 1)) = some (6, 8) := by decide +kernel

example : ((transformFace2 false exIp ⟨2, fun a => if a = 0 then 1 / 2 else 3 / 4⟩ (expand2 1 7)
    (fun _ => 8) 1 exIdx (fun _ => 0)).map
    fun r => (List.range 4).map fun k => (r k).map fun v => (v 0, v 1)) =
    some [some (12, 8), some (12, 7), some (11, 8), some (11, 7)] := by decide +kernel

example : InOppositeCorner false 3 ⟨1, fun _ => 0⟩ ∧
    ((transformCorner false ⟨1, fun _ => 1 / 2⟩ ⟨1, fun _ => 0⟩ 3 true (fun _ => 8) 1 (fun _ => 9)).map
      fun r => (r 0, r 1)) = some (1, 1) := by
  constructor
  · intro a ha
    simp [axes] at ha
    rcases ha with rfl | rfl <;> simp
  · decide +kernel

end Fclaw.Transform

import Verif.GhostAll.Spec
import Verif.CopyGhost.UpdateLemmas
/-
Helpers for C69: positions determine cells, and where the cells lie that operations read.
-/
set_option autoImplicit false
set_option linter.unusedSimpArgs false
set_option linter.unusedVariables false
namespace Fclaw.GhostAll

open Fort Transform GhostFill CopyGhost CoarseFine

/-! ### Positions determine cells -/

theorem location_inj {p : Patch} {d : Dims} (hd : Proper d) {i j i' j' : ℤ}
    (h0 : location p (sizes d) 1 (index i j) 0 = location p (sizes d) 1 (index i' j') 0)
    (h1 : location p (sizes d) 1 (index i j) 1 = location p (sizes d) 1 (index i' j') 1) : i = i' ∧ j = j' := by
  have key : ∀ (lo : ℚ) (m l : Nat) (a b : ℤ), 1 ≤ m →
      lo + ((a : ℚ) - (1 : Nat) / 2) / (m * 2 ^ l) = lo + ((b : ℚ) - (1 : Nat) / 2) / (m * 2 ^ l) → a = b := by
    intro lo m l a b hm h
    have hm' : (m : ℚ) ≠ 0 := by
      have : (0 : ℚ) < m := by exact_mod_cast hm
      exact ne_of_gt this
    have hw : (2 : ℚ) ^ l ≠ 0 := by positivity
    have h2 := add_left_cancel h
    rw [div_left_inj' (mul_ne_zero hm' hw)] at h2
    have : (a : ℚ) = b := by linarith
    exact_mod_cast this
  exact ⟨key _ _ _ _ _ hd.1 h0, key _ _ _ _ _ hd.2.1 h1⟩

theorem samePoint_unique {ft : Nat → Nat} (g : Gluing false ft) {p p' p'' : Nat → ℚ} (h : SamePoint false ft p p')
    (h' : SamePoint false ft p p'') : p' 0 = p'' 0 ∧ p' 1 = p'' 1 := by
  obtain ⟨e0, e1, k0, k1, _, _, hA⟩ := samePoint_affine g
  obtain ⟨a, b⟩ := hA _ _ h
  obtain ⟨a', b'⟩ := hA _ _ h'
  rcases (gluing_axes g).2 with ⟨f3, f5⟩ | ⟨f3, f5⟩ <;> rw [f3] at a a' <;> rw [f5] at b b'
  · exact ⟨by rw [a, a'], by rw [b, b']⟩
  · exact ⟨by rw [b, b'], by rw [a, a']⟩

theorem cornerSamePoint_unique {k : Nat} {bd : Bool} {p p' p'' : Nat → ℚ} (h : CornerSamePoint false k bd p p')
    (h' : CornerSamePoint false k bd p p'') : p' 0 = p'' 0 ∧ p' 1 = p'' 1 := by
  have a := cornerSame_shift h
  have b := cornerSame_shift h'
  exact ⟨by rw [a 0 (by simp [axes]), b 0 (by simp [axes])], by rw [a 1 (by simp [axes]), b 1 (by simp [axes])]⟩

theorem faceSame_unique {d : Dims} (hd : Proper d) {ft : Nat → Nat} {f : Nat} {ip op : Patch} (L : FaceLink d ft f ip op)
    {i j i' j' i'' j'' : ℤ} (h : FaceSame d ft ip op i j i' j') (h' : FaceSame d ft ip op i j i'' j'') :
    i' = i'' ∧ j' = j'' := by
  unfold FaceSame at h h'
  obtain ⟨_, L⟩ := L
  by_cases h4 : ft 8 / 4 % 2 = 1
  · simp only [if_pos h4] at h h'
    exact location_inj hd (by rw [h 0 (by simp [axes]), h' 0 (by simp [axes])])
      (by rw [h 1 (by simp [axes]), h' 1 (by simp [axes])])
  · simp only [if_neg h4] at h h' L
    obtain ⟨a, b⟩ := samePoint_unique L.1 h h'
    exact location_inj hd a b

theorem cornerSame_unique {d : Dims} (hd : Proper d) {td : TData} {k : Nat} (L : CornerLink d td k)
    {i j i' j' i'' j'' : ℤ} (h : CornerSame d td i j i' j') (h' : CornerSame d td i j i'' j'') :
    i' = i'' ∧ j' = j'' := by
  unfold CornerSame at h h'
  obtain ⟨_, _, _, L⟩ := L
  by_cases h4 : 0 ≤ td.blockIface
  · simp only [if_pos h4] at h h' L
    obtain ⟨a, b⟩ := samePoint_unique L.2.1 h h'
    exact location_inj hd a b
  · simp only [if_neg h4] at h h'
    obtain ⟨a, b⟩ := cornerSamePoint_unique h h'
    exact location_inj hd a b

/-- The quarter of a large cell at a small cell. -/
theorem halfFace_map {d : Dims} (hd : Proper d) {ft : Nat → Nat} {f g : Nat} {ip op : Patch}
    (L : HalfFaceLink d ft f g ip op) {i j i' j' : ℤ} {a b : Nat}
    (h : HalfFaceSame d ft ip op i j a b i' j') :
    (i', j') = (faceOrient ft).map d (faceHalfStep f g) (quarter i a) (quarter j b) := by
  obtain ⟨hf, L⟩ := L
  unfold HalfFaceSame at h
  by_cases h4 : ft 8 / 4 % 2 = 1
  · simp only [if_pos h4] at h L
    have ho : faceOrient ft = straight := by unfold faceOrient; rw [if_pos h4]
    rw [ho]
    refine shift_map hd hf.level (fun _ => 0) ?_ i j _ _ a b ?_
    · intro a ha; simpa using L.2 a ha
    · intro a ha; simpa using h a ha
  · simp only [if_neg h4] at h L
    obtain ⟨⟨gl, hm, hc⟩, _, _⟩ := L
    have ho : faceOrient ft = turned ft := by unfold faceOrient; rw [if_neg h4]
    rw [ho]
    exact samePoint_map hd gl hm hf.level hc i j _ _ a b h

theorem halfCorner_map {d : Dims} (hd : Proper d) {td : TData} {k : Nat} (L : HalfCornerLink d td k) {i j i' j' : ℤ}
    {a b : Nat} (h : HalfCornerSame d td i j a b i' j') :
    (i', j') = (cornerOrient td).map d (cornerHalfStep k) (quarter i a) (quarter j b) := by
  obtain ⟨hf, hk, hbi, L⟩ := L
  unfold HalfCornerSame at h
  by_cases hb : 0 ≤ td.blockIface
  · simp only [if_pos hb] at h L
    obtain ⟨h4, ⟨gl, hm, hc⟩, _⟩ := L
    have ho : cornerOrient td = turned td.transform := by unfold cornerOrient; rw [if_pos hb]
    rw [ho]
    exact samePoint_map hd gl hm hf.level hc i j _ _ a b h
  · simp only [if_neg hb] at h L
    obtain ⟨_, _, L⟩ := L
    have ho : cornerOrient td = straight := by unfold cornerOrient; rw [if_neg hb]
    rw [ho]
    refine shift_map hd hf.level (Transform.shift td.icorner td.isBlockCorner) ?_ i j _ _ a b ?_
    · cases hbc : td.isBlockCorner with
      | true =>
        rw [hbc, if_pos rfl] at L
        rw [hk]
        exact cornerSame_shift L.2
      | false =>
        rw [hbc] at L
        simp only [Bool.false_eq_true, if_false] at L
        intro a ha
        rw [L a ha]; simp [Transform.shift]
    · exact cornerSame_shift h

/-- A small cell determines the large cell and its quarter. -/
theorem quarter_inj {d : Dims} {o : Orient} (ho : o.ok d) {s : Nat → ℤ} {i j i' j' : ℤ} {a b a' b' : Nat} (ha : a < 2)
    (hb : b < 2) (ha' : a' < 2) (hb' : b' < 2)
    (h : o.map d s (quarter i a) (quarter j b) = o.map d s (quarter i' a') (quarter j' b')) :
    i = i' ∧ j = j' ∧ a = a' ∧ b = b' := by
  have e := inv_map ho s (quarter i a) (quarter j b)
  rw [h, inv_map ho, Prod.mk.injEq] at e
  unfold quarter at e
  omega

/-! ### Where the cells are that are read -/

theorem near2_of_near {d : Dims} {i j : ℤ} (h : near d i j) : near2 d i j := by
  obtain ⟨h1, h2⟩ := h
  exact ⟨h1, by omega⟩

theorem half_near {d : Dims} (hd : EvenDims d) {f g : Nat} (hf : f < 4) (hg : g < 2) {o : Orient} (ho : o.ok d)
    {i j : ℤ} (h : inHalfStrip d f g i j) {x y : Nat} (hx : x < 2) (hy : y < 2) :
    near2 d (o.map d (faceHalfStep f g) (quarter i x) (quarter j y)).1
      (o.map d (faceHalfStep f g) (quarter i x) (quarter j y)).2 := by
  refine ⟨half_interior hd hf hg ho h hx hy, ?_⟩
  obtain ⟨a, b, c, e, u, v⟩ := hd
  obtain ⟨sw, e0, e1⟩ := o
  obtain ⟨h0, h1, hs⟩ := ho
  dsimp only at h0 h1 hs
  obtain ⟨h, h'⟩ := h
  unfold Orient.map CoarseFine.flip quarter faceHalfStep
  cases sw <;> rcases h0 with rfl | rfl <;> rcases h1 with rfl | rfl <;>
    rcases four hf with rfl | rfl | rfl | rfl <;> rcases two hg with rfl | rfl <;>
    simp [inStrip] at h h' hs ⊢ <;> omega

theorem halfCorner_near {d : Dims} (hd : EvenDims d) {k : Nat} (hk : k < 4) {o : Orient} (ho : o.ok d)
    {i j : ℤ} (h : inCorner d k i j) {x y : Nat} (hx : x < 2) (hy : y < 2) :
    near2 d (o.map d (cornerHalfStep k) (quarter i x) (quarter j y)).1
      (o.map d (cornerHalfStep k) (quarter i x) (quarter j y)).2 := by
  refine ⟨corner_interior hd hk ho h hx hy, ?_⟩
  obtain ⟨a, b, c, e, u, v⟩ := hd
  obtain ⟨sw, e0, e1⟩ := o
  obtain ⟨h0, h1, hs⟩ := ho
  dsimp only at h0 h1 hs
  unfold Orient.map CoarseFine.flip quarter cornerHalfStep
  cases sw <;> rcases h0 with rfl | rfl <;> rcases h1 with rfl | rfl <;>
    rcases four hk with rfl | rfl | rfl | rfl <;>
    simp [inCorner] at h hs ⊢ <;> omega

/-- The cells of half `g` of the strip at face `f`, in both descriptions. -/
theorem halfStrip_iff {d : Dims} {f g : Nat} (hg : g < 2) {i j : ℤ} :
    inHalfStrip d f g i j ↔ inRegion d (.strip f g) i j := by
  unfold inHalfStrip inRegion
  rcases two hg with rfl | rfl <;> by_cases h : f / 2 = 0 <;> simp [h]

theorem strip_pos {d : Dims} {f : Nat} {i j : ℤ} (h : inStrip d f i j) : 1 ≤ d.mbc := by
  unfold inStrip at h
  split at h <;> first | omega | exact absurd h id

theorem corner_pos {d : Dims} {k : Nat} {i j : ℤ} (h : inCorner d k i j) : 1 ≤ d.mbc := by
  obtain ⟨h1, h2⟩ := h
  split at h1 <;> omega

set_option maxHeartbeats 2000000 in
/-- The cells that interpolation at a face reads. -/
theorem cross_layer {d : Dims} (hd : EvenDims d) (hb : d.mbc % 2 = 0) (hp : 1 ≤ d.mbc) {f g : Nat} (hf : f < 4)
    (hg : g < 2) {o : Orient} (ho : o.ok d) {i j : ℤ} {x y : Nat} (hx : x < 2) (hy : y < 2) (hin : interior d i j)
    (h : inStrip d (touchO o f) (o.map d (faceHalfStep f g) (quarter i x) (quarter j y)).1
        (o.map d (faceHalfStep f g) (quarter i x) (quarter j y)).2 ∨
      inCorner d (hangO o f g) (o.map d (faceHalfStep f g) (quarter i x) (quarter j y)).1
        (o.map d (faceHalfStep f g) (quarter i x) (quarter j y)).2) :
    ∀ δ ∈ cross, near2 d (i + δ.1) (j + δ.2) ∨ inStrip d f (i + δ.1) (j + δ.2) ∨
      inRegion d (.strip (side f g) (f % 2)) (i + δ.1) (j + δ.2) := by
  have hl : inLayer d f i j ∧ (if f / 2 = 0 then (if g = 0 then 2 * j ≤ d.my + d.mbc else (d.my : ℤ) + 2 - d.mbc ≤ 2 * j)
      else (if g = 0 then 2 * i ≤ d.mx + d.mbc else (d.mx : ℤ) + 2 - d.mbc ≤ 2 * i)) := by
    obtain ⟨a, b, c, e, u, v⟩ := hd
    obtain ⟨sw, e0, e1⟩ := o
    obtain ⟨h0, h1, hs⟩ := ho
    dsimp only at h0 h1 hs
    unfold interior at hin
    unfold Orient.map CoarseFine.flip quarter faceHalfStep touchO hangO cornerAt turnBit at h
    unfold inLayer interior
    cases sw <;> rcases h0 with rfl | rfl <;> rcases h1 with rfl | rfl <;>
      rcases four hf with rfl | rfl | rfl | rfl <;> rcases two hg with rfl | rfl <;>
      simp [inStrip, inCorner] at h hs ⊢ <;> omega
  obtain ⟨⟨_, hl⟩, ht⟩ := hl
  obtain ⟨a, b, c, e, u, v⟩ := hd
  intro δ hδ
  unfold interior at hin
  unfold near2 interior
  simp only [cross, List.mem_cons, List.not_mem_nil, or_false] at hδ
  rcases hδ with rfl | rfl | rfl | rfl | rfl <;> rcases four hf with rfl | rfl | rfl | rfl <;>
    rcases two hg with rfl | rfl <;> simp [inStrip, inRegion, side] at hl ht ⊢ <;> omega

set_option maxHeartbeats 2000000 in
/-- … and at a corner. -/
theorem cross_inner {d : Dims} (hd : EvenDims d) (hb : d.mbc % 2 = 0) (hp : 1 ≤ d.mbc) {k : Nat} (hk : k < 4)
    {o : Orient} (ho : o.ok d) {i j : ℤ} {x y : Nat} (hx : x < 2) (hy : y < 2) (hin : interior d i j)
    (h : inCorner d (touchCornerO o k) (o.map d (cornerHalfStep k) (quarter i x) (quarter j y)).1
        (o.map d (cornerHalfStep k) (quarter i x) (quarter j y)).2) :
    ∀ δ ∈ cross, near2 d (i + δ.1) (j + δ.2) ∨ inRegion d (.strip (faceX k) (k / 2)) (i + δ.1) (j + δ.2) ∨
      inRegion d (.strip (faceY k) (k % 2)) (i + δ.1) (j + δ.2) := by
  have hl : inInner d k i j := by
    have := ghost_inner hd hb hk ho h
    rw [inv_map ho, cellOf_quarter _ hx, cellOf_quarter _ hy] at this
    exact this
  obtain ⟨_, hl, ht⟩ := hl
  obtain ⟨a, b, c, e, u, v⟩ := hd
  intro δ hδ
  unfold interior at hin
  unfold near2 interior
  simp only [cross, List.mem_cons, List.not_mem_nil, or_false] at hδ
  rcases hδ with rfl | rfl | rfl | rfl | rfl <;> rcases four hk with rfl | rfl | rfl | rfl <;>
    simp [inStrip, inRegion, faceX, faceY] at hl ht ⊢ <;> omega

theorem reconstruct_congr {q q' : Grid ℚ} {i j mq : ℤ} (x y : Nat)
    (h : ∀ δ ∈ cross, q (i + δ.1, j + δ.2, mq) = q' (i + δ.1, j + δ.2, mq)) :
    reconstruct q i j mq x y = reconstruct q' i j mq x y := by
  have h0 := h (0, 0) (by simp [cross])
  have h1 := h (-1, 0) (by simp [cross])
  have h2 := h (1, 0) (by simp [cross])
  have h3 := h (0, -1) (by simp [cross])
  have h4 := h (0, 1) (by simp [cross])
  simp only [add_zero, ← sub_eq_add_neg] at h0 h1 h2 h3 h4
  unfold reconstruct
  rw [h0, h1, h2, h3, h4]

theorem mean_congr {area : ℤ × ℤ → ℚ} {manifold : Bool} {q q' : Grid ℚ} {c c' : Nat → Nat → ℤ × ℤ} {mq : ℤ}
    (h : ∀ a b, a < 2 → b < 2 → c a b = c' a b)
    (h' : ∀ a b, a < 2 → b < 2 → q ((c' a b).1, (c' a b).2, mq) = q' ((c' a b).1, (c' a b).2, mq)) :
    mean area manifold q c mq = mean area manifold q' c' mq := by
  unfold mean
  simp only [h 0 0 (by omega) (by omega), h 0 1 (by omega) (by omega), h 1 0 (by omega) (by omega),
    h 1 1 (by omega) (by omega), h' 0 0 (by omega) (by omega), h' 0 1 (by omega) (by omega),
    h' 1 0 (by omega) (by omega), h' 1 1 (by omega) (by omega)]

end Fclaw.GhostAll

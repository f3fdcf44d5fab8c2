import Verif.CoarseFine.Cells
import Mathlib.Tactic.FieldSimp
import Mathlib.Tactic.SplitIfs
/-
Helpers for C67 and C68: what the four operations write.
-/
set_option autoImplicit false
set_option linter.unusedSimpArgs false
set_option linter.unusedVariables false
namespace Fclaw.CoarseFine

open Fort Transform CopyGhost Transfer

/-! ### The mean of four cells -/

theorem rd_of {d : Dims} (q : Grid ℚ) {i j mq : ℤ} (h : interior d i j) (hm : comp d mq) :
    rd d q (i, j, mq) = some (q (i, j, mq)) := by
  unfold rd
  rw [if_pos]
  rw [inBox_iff]
  obtain ⟨_, _, _, _⟩ := h
  obtain ⟨_, _⟩ := hm
  omega

theorem area_of {d : Dims} (a : Area) {i j : ℤ} (h : interior d i j) : rdArea d a i j = some (a (i, j)) := by
  unfold rdArea
  rw [if_pos]
  obtain ⟨_, _, _, _⟩ := h
  omega

/-- Areas of cells are positive. -/
def Positive (d : Dims) (area : ℤ × ℤ → ℚ) : Prop := ∀ i j, interior d i j → 0 < area (i, j)

theorem averageCell_spec {d : Dims} (area : Area) (manifold : Bool) (hp : manifold = true → Positive d area)
    (q : Grid ℚ) (c2 : ℤ → ℤ × ℤ) (c : Nat → Nat → ℤ × ℤ)
    (hc : ∀ x y : Nat, x < 2 → y < 2 → c2 (x + 2 * y) = c x y)
    (hi : ∀ x y : Nat, x < 2 → y < 2 → interior d (c x y).1 (c x y).2) (mq : ℤ) (hm : comp d mq) :
    averageCell d area manifold q c2 mq = some (mean area manifold q c mq) := by
  have c0 : c2 0 = c 0 0 := hc 0 0 (by omega) (by omega)
  have c1 : c2 1 = c 1 0 := hc 1 0 (by omega) (by omega)
  have c2' : c2 2 = c 0 1 := hc 0 1 (by omega) (by omega)
  have c3 : c2 3 = c 1 1 := hc 1 1 (by omega) (by omega)
  have i0 := hi 0 0 (by omega) (by omega)
  have i1 := hi 1 0 (by omega) (by omega)
  have i2 := hi 0 1 (by omega) (by omega)
  have i3 := hi 1 1 (by omega) (by omega)
  unfold averageCell mean
  cases manifold with
  | true =>
    have p0 := hp rfl _ _ i0
    have p1 := hp rfl _ _ i1
    have p2 := hp rfl _ _ i2
    have p3 := hp rfl _ _ i3
    simp only [if_true, doLoop_zero_three, c0, c1, c2', c3, rd_of q i0 hm, rd_of q i1 hm, rd_of q i2 hm, rd_of q i3 hm,
      area_of area i0, area_of area i1, area_of area i2, area_of area i3, Option.bind_some, zero_add]
    unfold divide
    rw [if_neg]
    · congr 1
      congr 1
      ring
    · simp only [Prod.mk.eta] at *
      intro h
      linarith
  | false =>
    simp only [Bool.false_eq_true, if_false, doLoop_zero_three, c0, c1, c2', c3, rd_of q i0 hm, rd_of q i1 hm,
      rd_of q i2 hm, rd_of q i3 hm, Option.bind_some, zero_add]
    congr 1
    norm_num

theorem validAverage_iff (d : Dims) (i j : ℤ) : validAverage d i j = true ↔ interior d i j := by
  simp [validAverage, interior, and_assoc]

theorem validInterp_iff (d : Dims) (c : ℤ × ℤ) : validInterp d c.1 c.2 = true ↔ box d c := by
  simp [validInterp, box, and_assoc]

/-- Nothing is written. -/
theorem Writes.skip {α : Type} (w : Cell → α) (S : Cell → Prop) (hS : ∀ c, ¬ S c) :
    Writes S w (fun q => some q) :=
  fun q => ⟨q, rfl, fun c h => absurd h (hS c), fun c _ => rfl⟩

/-- The fine cells at a coarse cell. -/
def cells (o : Orient) (d : Dims) (s : Nat → ℤ) (i j : ℤ) : Nat → Nat → ℤ × ℤ :=
  fun x y => o.map d s (quarter i x) (quarter j y)

theorem averageFaceBody_writes {d : Dims} (hd : EvenDims d) (td : TData) {f g : Nat} (hf : f < 4) (hg : g < 2)
    {o : Orient} (ho : o.ok d) (hM : Maps d (faceHalfStep f g) o (clawFaceHalf d td)) (area : Area) (manifold : Bool)
    (hp : manifold = true → Positive d area) (qf : Grid ℚ) {i j mq : ℤ} (h : inStrip d f i j) (hm : comp d mq) :
    Writes (fun c => c = (i, j, mq) ∧ inHalfStrip d f g i j)
      (fun c => mean area manifold qf (cells o d (faceHalfStep f g) c.1 c.2.1) c.2.2)
      (averageFaceBody d td area manifold qf mq i j) := by
  obtain ⟨c2, e, h2⟩ := hM i j
  have c0 := h2 0 0 (by omega) (by omega)
  have c1 := h2 1 0 (by omega) (by omega)
  have c2' := h2 0 1 (by omega) (by omega)
  have c3 := h2 1 1 (by omega) (by omega)
  simp only [Nat.cast_zero, Nat.cast_one, mul_zero, mul_one, zero_add, add_zero] at c0 c1 c2' c3
  norm_num at c3
  unfold averageFaceBody
  simp only [e, Option.bind_some]
  by_cases hh : inHalfStrip d f g i j
  · have H : ∀ x y : Nat, x < 2 → y < 2 → interior d (cells o d (faceHalfStep f g) i j x y).1
        (cells o d (faceHalfStep f g) i j x y).2 := fun x y hx hy => half_interior hd hf hg ho hh hx hy
    have v0 := (validAverage_iff d _ _).2 (H 0 0 (by omega) (by omega))
    have v1 := (validAverage_iff d _ _).2 (H 1 0 (by omega) (by omega))
    have v2 := (validAverage_iff d _ _).2 (H 0 1 (by omega) (by omega))
    have v3 := (validAverage_iff d _ _).2 (H 1 1 (by omega) (by omega))
    unfold cells at v0 v1 v2 v3
    rw [c0, c1, c2', c3, v0, v1, v2, v3]
    simp only [Bool.and_self, if_true]
    refine (Writes.assign d (i, j, mq) _ _ (strip_inBox h hm) ?_).congr ?_
    · exact averageCell_spec area manifold hp qf c2 _ h2 H mq hm
    · intro c; exact ⟨fun h => ⟨h, hh⟩, fun h => h.1⟩
  · have nv : ¬ (validAverage d (o.map d (faceHalfStep f g) (quarter i 0) (quarter j 0)).1
        (o.map d (faceHalfStep f g) (quarter i 0) (quarter j 0)).2 = true) := by
      rw [validAverage_iff]; exact other_half hd hf hg ho h hh
    rw [c0]
    simp only [nv, Bool.false_and, Bool.false_eq_true, if_false]
    exact Writes.skip _ _ fun c h => hh h.2

theorem averageFace_writes {d : Dims} (hd : EvenDims d) (td : TData) {f g : Nat} (hf : f < 4) (hg : g < 2)
    {o : Orient} (ho : o.ok d) (hM : Maps d (faceHalfStep f g) o (clawFaceHalf d td)) (area : Area) (manifold : Bool)
    (hp : manifold = true → Positive d area) (qf : Grid ℚ) :
    Writes (fun c => inHalfStrip d f g c.1 c.2.1 ∧ comp d c.2.2)
      (fun c => mean area manifold qf (cells o d (faceHalfStep f g) c.1 c.2.1) c.2.2)
      (averageFace d td f area manifold qf) := by
  have body := fun i j mq h hm => averageFaceBody_writes hd td hf hg ho hM area manifold hp qf (i := i) (j := j) (mq := mq) h hm
  unfold averageFace
  by_cases h2 : f / 2 = 0
  · simp only [if_pos h2]
    have key : ∀ jc ibc : ℤ, 1 ≤ jc → jc ≤ d.my → 1 ≤ ibc → ibc ≤ d.mbc →
        inStrip d f (if f = 0 then 1 - ibc else d.mx + ibc) jc := by
      intro jc ibc a b c e
      rcases four hf with rfl | rfl | rfl | rfl <;> simp [inStrip] at h2 ⊢ <;> omega
    refine (Writes.doLoop _ _ _ _ _ fun mq m1 m2 => Writes.doLoop _ _ _ _ _ fun jc j1 j2 =>
      Writes.doLoop _ _ _ _ _ fun ibc i1 i2 => body _ _ mq (key jc ibc j1 j2 i1 i2) ⟨m1, m2⟩).congr ?_
    rintro ⟨i, j, mq⟩
    constructor
    · rintro ⟨mq', m1, m2, jc, j1, j2, ibc, i1, i2, e, h⟩
      cases e
      exact ⟨h, m1, m2⟩
    · rintro ⟨h, m1, m2⟩
      have hs := h.1
      dsimp only at h hs m1 m2
      refine ⟨mq, m1, m2, j, ?_, ?_, if f = 0 then 1 - i else i - d.mx, ?_, ?_, ?_, ?_⟩
      all_goals rcases four hf with rfl | rfl | rfl | rfl <;> simp [inStrip] at h2 hs ⊢ <;> first | omega | exact h
  · simp only [if_neg h2]
    have key : ∀ jbc ic : ℤ, 1 ≤ jbc → jbc ≤ d.mbc → 1 ≤ ic → ic ≤ d.mx →
        inStrip d f ic (if f = 2 then 1 - jbc else d.my + jbc) := by
      intro jc ibc a b c e
      rcases four hf with rfl | rfl | rfl | rfl <;> simp [inStrip] at h2 ⊢ <;> omega
    refine (Writes.doLoop _ _ _ _ _ fun mq m1 m2 => Writes.doLoop _ _ _ _ _ fun jbc j1 j2 =>
      Writes.doLoop _ _ _ _ _ fun ic i1 i2 => body _ _ mq (key jbc ic j1 j2 i1 i2) ⟨m1, m2⟩).congr ?_
    rintro ⟨i, j, mq⟩
    constructor
    · rintro ⟨mq', m1, m2, jc, j1, j2, ibc, i1, i2, e, h⟩
      cases e
      exact ⟨h, m1, m2⟩
    · rintro ⟨h, m1, m2⟩
      have hs := h.1
      dsimp only at h hs m1 m2
      refine ⟨mq, m1, m2, if f = 2 then 1 - j else j - d.my, ?_, ?_, i, ?_, ?_, ?_, ?_⟩
      all_goals rcases four hf with rfl | rfl | rfl | rfl <;> simp [inStrip] at h2 hs ⊢ <;> first | omega | exact h

theorem averageCorner_writes {d : Dims} (hd : EvenDims d) (td : TData) {k : Nat} (hk : k < 4)
    {o : Orient} (ho : o.ok d) (hM : Maps d (cornerHalfStep k) o (clawCornerHalf d td)) (area : Area) (manifold : Bool)
    (hp : manifold = true → Positive d area) (qf : Grid ℚ) :
    Writes (fun c => inCorner d k c.1 c.2.1 ∧ comp d c.2.2)
      (fun c => mean area manifold qf (cells o d (cornerHalfStep k) c.1 c.2.1) c.2.2)
      (averageCorner d td k area manifold qf) := by
  unfold averageCorner
  refine (Writes.doLoop (fun ibc c => ∃ jbc : ℤ, 1 ≤ jbc ∧ jbc ≤ d.mbc ∧ ∃ mq : ℤ, 1 ≤ mq ∧ mq ≤ d.meqn ∧
    c = ((cornerCell d k ibc jbc).1, (cornerCell d k ibc jbc).2, mq)) _ _ _ _ fun ibc i1 i2 =>
    Writes.doLoop (fun jbc c => ∃ mq : ℤ, 1 ≤ mq ∧ mq ≤ d.meqn ∧
    c = ((cornerCell d k ibc jbc).1, (cornerCell d k ibc jbc).2, mq)) _ _ _ _ fun jbc j1 j2 => ?_).congr ?_
  · have hin : inCorner d k (cornerCell d k ibc jbc).1 (cornerCell d k ibc jbc).2 := by
      rcases four hk with rfl | rfl | rfl | rfl <;> simp [inCorner, cornerCell] <;> omega
    obtain ⟨c2, e, h2⟩ := hM (cornerCell d k ibc jbc).1 (cornerCell d k ibc jbc).2
    simp only [e, Option.bind_some]
    refine Writes.doLoop (fun mq c => c = ((cornerCell d k ibc jbc).1, (cornerCell d k ibc jbc).2, mq)) _ _ _ _
      fun mq m1 m2 => Writes.assign d _ _ _ (corner_inBox hin ⟨m1, m2⟩) ?_
    exact averageCell_spec area manifold hp qf c2 _ h2 (fun x y hx hy => corner_interior hd hk ho hin hx hy) mq ⟨m1, m2⟩
  · rintro ⟨i, j, mq⟩
    constructor
    · rintro ⟨ibc, i1, i2, jbc, j1, j2, mq', m1, m2, e⟩
      cases e
      refine ⟨?_, m1, m2⟩
      rcases four hk with rfl | rfl | rfl | rfl <;> simp [inCorner, cornerCell] <;> omega
    · rintro ⟨h, m1, m2⟩
      dsimp only at h m1 m2
      rcases four hk with rfl | rfl | rfl | rfl <;> simp [inCorner] at h
      · exact ⟨1 - i, by omega, by omega, 1 - j, by omega, by omega, mq, m1, m2, by simp [cornerCell]⟩
      · exact ⟨i - d.mx, by omega, by omega, 1 - j, by omega, by omega, mq, m1, m2, by simp [cornerCell]⟩
      · exact ⟨1 - i, by omega, by omega, j - d.my, by omega, by omega, mq, m1, m2, by simp [cornerCell]⟩
      · exact ⟨i - d.mx, by omega, by omega, j - d.my, by omega, by omega, mq, m1, m2, by simp [cornerCell]⟩

/-! ### Reconstruction -/

theorem limited_eq (l r : ℚ) : computeSlopes l r = limited l r := by
  unfold computeSlopes limited
  dsimp only
  by_cases h1 : 0 < l ∧ 0 < r
  · obtain ⟨a, b⟩ := h1
    have p := mul_pos a b
    rw [if_pos (And.intro a b), show sign1 (l * r) = 1 from if_neg (by linarith),
      show sign1 ((l + r) / 2) = 1 from if_neg (by linarith), abs_of_pos a, abs_of_pos b,
      abs_of_pos (by linarith : 0 < (l + r) / 2)]
    norm_num
  · rw [if_neg h1]
    by_cases h2 : l < 0 ∧ r < 0
    · obtain ⟨a, b⟩ := h2
      have p := mul_pos_of_neg_of_neg a b
      rw [if_pos (And.intro a b), show sign1 (l * r) = 1 from if_neg (by linarith),
        show sign1 ((l + r) / 2) = -1 from if_pos (by linarith),
        abs_of_neg a, abs_of_neg b, abs_of_neg (by linarith : (l + r) / 2 < 0)]
      have e1 : max (0 : ℚ) 1 = 1 := by norm_num
      rw [e1, mul_one, mul_neg_one]
      simp only [min_def, max_def]
      split_ifs <;> linarith
    · rw [if_neg h2]
      by_cases h3 : l * r < 0
      · rw [show sign1 (l * r) = -1 from if_pos h3]
        have e1 : max (0 : ℚ) (-1) = 0 := by norm_num
        rw [e1]; ring
      · have : l = 0 ∨ r = 0 := by
          by_contra hc
          have c1 : l ≠ 0 := fun h => hc (Or.inl h)
          have c2 : r ≠ 0 := fun h => hc (Or.inr h)
          rcases lt_or_gt_of_ne c1 with a | a
          · rcases lt_or_gt_of_ne c2 with b | b
            · exact h2 ⟨a, b⟩
            · exact h3 (mul_neg_of_neg_of_pos a b)
          · rcases lt_or_gt_of_ne c2 with b | b
            · exact h3 (mul_neg_of_pos_of_neg a b)
            · exact h1 ⟨a, b⟩
        have hmin : min (min (2 * |l|) (2 * |r|)) |(l + r) / 2| = 0 := by
          apply le_antisymm
          · rcases this with e | e
            · refine le_trans (min_le_left _ _) (le_trans (min_le_left _ _) ?_); rw [e]; simp
            · refine le_trans (min_le_left _ _) (le_trans (min_le_right _ _) ?_); rw [e]; simp
          · exact le_min (le_min (by positivity) (by positivity)) (abs_nonneg _)
        rw [hmin]; ring

/-- Displacement of the child `(x, y)` on the fine grid. -/
def delta (o : Orient) (x y : ℤ) : ℤ × ℤ := if o.swap then (o.e0 * y, o.e1 * x) else (o.e0 * x, o.e1 * y)

theorem map_delta {d : Dims} {o : Orient} (ho : o.ok d) (s : Nat → ℤ) (i j : ℤ) (x y : Nat) :
    ((o.map d s (quarter i 0) (quarter j 0)).1 + (delta o x y).1,
     (o.map d s (quarter i 0) (quarter j 0)).2 + (delta o x y).2) = o.map d s (quarter i x) (quarter j y) := by
  obtain ⟨sw, e0, e1⟩ := o
  obtain ⟨h0, h1, hs⟩ := ho
  dsimp only at h0 h1
  unfold Orient.map delta flip quarter
  generalize s 0 * (d.mx : ℤ) = u
  generalize s 1 * (d.my : ℤ) = v
  cases sw <;> rcases h0 with rfl | rfl <;> rcases h1 with rfl | rfl <;> simp <;> omega

theorem build_half {d : Dims} {td : TData} {s : Nat → ℤ} {o : Orient} (ho : o.ok d)
    (hM : Maps d s o (clawFaceHalf d td)) :
    ∃ A, buildTransform d td = some A ∧ ∀ x y : Nat, x < 2 → y < 2 → df A (x + 2 * y) = delta o x y := by
  obtain ⟨c0, a0, b0⟩ := hM 0 0
  obtain ⟨c1, a1, b1⟩ := hM 1 0
  obtain ⟨c2, a2, b2⟩ := hM 0 1
  have p0 := b0 0 0 (by omega) (by omega)
  have p1 := b1 0 0 (by omega) (by omega)
  have p2 := b2 0 0 (by omega) (by omega)
  simp only [Nat.cast_zero, mul_zero, add_zero] at p0 p1 p2
  refine ⟨⟨(c1 0).1 - (c0 0).1, (c2 0).1 - (c0 0).1, (c1 0).2 - (c0 0).2, (c2 0).2 - (c0 0).2⟩,
    by simp only [buildTransform, a0, a1, a2, Option.bind_some], ?_⟩
  rw [p0, p1, p2]
  obtain ⟨sw, e0, e1⟩ := o
  obtain ⟨h0, h1, hs⟩ := ho
  dsimp only at h0 h1
  unfold Orient.map delta flip quarter df
  generalize s 0 * (d.mx : ℤ) = u
  generalize s 1 * (d.my : ℤ) = v
  intro x y hx hy
  have ex : ((x : ℤ) + 2 * y) % 2 = x := by omega
  have ey : ((x : ℤ) + 2 * y) / 2 = y := by omega
  simp only [ex, ey]
  cases sw <;> rcases h0 with rfl | rfl <;> rcases h1 with rfl | rfl <;> simp

theorem slopes_spec {d : Dims} (hb : 1 ≤ d.mbc) (q : Grid ℚ) {i j mq : ℤ} (h : interior d i j) (hm : comp d mq) :
    ∃ s, slopes d q i j mq = some s ∧ ∀ x y : Nat,
      s.1 + ((x : ℚ) / 2 - 1 / 4) * s.2.1 + ((y : ℚ) / 2 - 1 / 4) * s.2.2 = reconstruct q i j mq x y := by
  have rdn : ∀ di dj : ℤ, -1 ≤ di → di ≤ 1 → -1 ≤ dj → dj ≤ 1 → rd d q (i + di, j + dj, mq) = some (q (i + di, j + dj, mq)) := by
    intro di dj a b c e
    unfold rd
    rw [if_pos]
    rw [inBox_iff]
    obtain ⟨_, _, _, _⟩ := h
    obtain ⟨_, _⟩ := hm
    omega
  have r0 := rdn 0 0 (by omega) (by omega) (by omega) (by omega)
  have r1 := rdn (-1) 0 (by omega) (by omega) (by omega) (by omega)
  have r2 := rdn 1 0 (by omega) (by omega) (by omega) (by omega)
  have r3 := rdn 0 (-1) (by omega) (by omega) (by omega) (by omega)
  have r4 := rdn 0 1 (by omega) (by omega) (by omega) (by omega)
  simp only [add_zero, ← sub_eq_add_neg] at r0 r1 r2 r3 r4
  refine ⟨_, by simp only [slopes, r0, r1, r2, r3, r4, Option.bind_some]; rfl, ?_⟩
  intro x y
  unfold reconstruct
  simp only [limited_eq]

/-- Value of the cell `c` of the small patch. -/
def fineValue (o : Orient) (d : Dims) (s : Nat → ℤ) (q : Grid ℚ) (c : Cell) : ℚ :=
  let p := o.inv d s c.1 c.2.1
  reconstruct q (cellOf p.1) (cellOf p.2) c.2.2 (partOf p.1) (partOf p.2)

theorem fineValue_map {d : Dims} {o : Orient} (ho : o.ok d) (s : Nat → ℤ) (q : Grid ℚ) (i j mq : ℤ) {x y : Nat}
    (hx : x < 2) (hy : y < 2) :
    fineValue o d s q ((o.map d s (quarter i x) (quarter j y)).1, (o.map d s (quarter i x) (quarter j y)).2, mq) =
      reconstruct q i j mq x y := by
  unfold fineValue
  dsimp only
  rw [inv_map ho]
  dsimp only
  rw [cellOf_quarter i hx, cellOf_quarter j hy, partOf_quarter i hx, partOf_quarter j hy]

theorem spread_writes {d : Dims} {o : Orient} (ho : o.ok d) (s : Nat → ℤ) (A : Matrix)
    (hA : ∀ x y : Nat, x < 2 → y < 2 → df A (x + 2 * y) = delta o x y) (q : Grid ℚ) (i j mq : ℤ) (hm : comp d mq)
    (c2 : ℤ → ℤ × ℤ) (hc : c2 0 = o.map d s (quarter i 0) (quarter j 0)) (sl : ℚ × ℚ × ℚ)
    (hs : ∀ x y : Nat, sl.1 + ((x : ℚ) / 2 - 1 / 4) * sl.2.1 + ((y : ℚ) / 2 - 1 / 4) * sl.2.2 = reconstruct q i j mq x y)
    (hbox : ∀ x y : Nat, x < 2 → y < 2 → box d (o.map d s (quarter i x) (quarter j y))) :
    Writes (fun c => ∃ x y : Nat, x < 2 ∧ y < 2 ∧ c = ((o.map d s (quarter i x) (quarter j y)).1,
        (o.map d s (quarter i x) (quarter j y)).2, mq)) (fineValue o d s q) (spreadCell d A c2 mq sl) := by
  unfold spreadCell
  have one : ∀ m : ℤ, 0 ≤ m → m ≤ 3 → ∃ x y : Nat, x < 2 ∧ y < 2 ∧ m = x + 2 * y := by
    intro m h1 h2
    exact ⟨(m % 2).toNat, (m / 2).toNat, by omega, by omega, by omega⟩
  refine (Writes.doLoop (fun m c => c = ((c2 0).1 + (df A m).1, (c2 0).2 + (df A m).2, mq)) _ _ _ _ ?_).congr ?_
  · intro m h1 h2
    obtain ⟨x, y, hx, hy, rfl⟩ := one m h1 h2
    have e := map_delta ho s i j x y
    rw [hA x y hx hy, hc]
    have e1 := congrArg Prod.fst e
    have e2 := congrArg Prod.snd e
    dsimp only at e1 e2
    rw [e1, e2]
    refine Writes.wr d _ _ _ ?_ ?_
    · rw [inBox_iff]
      obtain ⟨_, _, _, _⟩ := hbox x y hx hy
      obtain ⟨_, _⟩ := hm
      omega
    · rw [fineValue_map ho s q i j mq hx hy, ← hs x y]
      have ex : ((x : ℤ) + 2 * y) % 2 = x := by omega
      have ey : ((x : ℤ) + 2 * y) / 2 = y := by omega
      rw [ex, ey]
      unfold shiftHalf
      push_cast
      ring
  · intro c
    constructor
    · rintro ⟨m, h1, h2, h⟩
      obtain ⟨x, y, hx, hy, rfl⟩ := one m h1 h2
      refine ⟨x, y, hx, hy, ?_⟩
      have e := map_delta ho s i j x y
      rw [hA x y hx hy, hc] at h
      have e1 := congrArg Prod.fst e
      have e2 := congrArg Prod.snd e
      dsimp only at e1 e2
      rw [e1, e2] at h
      exact h
    · rintro ⟨x, y, hx, hy, h⟩
      refine ⟨x + 2 * y, by omega, by omega, ?_⟩
      have e := map_delta ho s i j x y
      rw [hA x y hx hy, hc]
      have e1 := congrArg Prod.fst e
      have e2 := congrArg Prod.snd e
      dsimp only at e1 e2
      rw [e1, e2]
      exact h

theorem interpFaceBody_writes {d : Dims} (hb : 1 ≤ d.mbc) (td : TData) {s : Nat → ℤ}
    {o : Orient} (ho : o.ok d) (hM : Maps d s o (clawFaceHalf d td)) (A : Matrix)
    (hA : ∀ x y : Nat, x < 2 → y < 2 → df A (x + 2 * y) = delta o x y) (qc : Grid ℚ) {i j mq : ℤ}
    (h : interior d i j) (hm : comp d mq) :
    Writes (fun c => ∃ x y : Nat, x < 2 ∧ y < 2 ∧ c = ((o.map d s (quarter i x) (quarter j y)).1,
        (o.map d s (quarter i x) (quarter j y)).2, mq) ∧
        ∀ x y : Nat, x < 2 → y < 2 → box d (o.map d s (quarter i x) (quarter j y)))
      (fineValue o d s qc) (interpFaceBody d td A qc mq i j) := by
  obtain ⟨c2, e, h2⟩ := hM i j
  have c0 := h2 0 0 (by omega) (by omega)
  have c1 := h2 1 0 (by omega) (by omega)
  have c2' := h2 0 1 (by omega) (by omega)
  have c3 := h2 1 1 (by omega) (by omega)
  simp only [Nat.cast_zero, Nat.cast_one, mul_zero, mul_one, zero_add, add_zero] at c0 c1 c2' c3
  norm_num at c3
  unfold interpFaceBody
  simp only [e, Option.bind_some]
  by_cases hh : ∀ x y : Nat, x < 2 → y < 2 → box d (o.map d s (quarter i x) (quarter j y))
  · have v0 := (validInterp_iff d _).2 (hh 0 0 (by omega) (by omega))
    have v1 := (validInterp_iff d _).2 (hh 1 0 (by omega) (by omega))
    have v2 := (validInterp_iff d _).2 (hh 0 1 (by omega) (by omega))
    have v3 := (validInterp_iff d _).2 (hh 1 1 (by omega) (by omega))
    rw [c0, c1, c2', c3, v0, v1, v2, v3]
    simp only [Bool.and_self, if_true]
    obtain ⟨sl, e1, e2⟩ := slopes_spec hb qc h hm
    rw [e1]
    simp only [Option.bind_some]
    refine (spread_writes ho s A hA qc i j mq hm c2 c0 sl e2 hh).congr ?_
    intro c
    constructor
    · rintro ⟨x, y, hx, hy, h⟩; exact ⟨x, y, hx, hy, h, hh⟩
    · rintro ⟨x, y, hx, hy, h, _⟩; exact ⟨x, y, hx, hy, h⟩
  · have nv : ¬ ((validInterp d (c2 0).1 (c2 0).2 && validInterp d (c2 1).1 (c2 1).2 &&
        validInterp d (c2 2).1 (c2 2).2 && validInterp d (c2 3).1 (c2 3).2) = true) := by
      intro hv
      rw [c0, c1, c2', c3] at hv
      simp only [Bool.and_eq_true] at hv
      obtain ⟨⟨⟨v0, v1⟩, v2⟩, v3⟩ := hv
      apply hh
      intro x y hx hy
      rcases two hx with rfl | rfl <;> rcases two hy with rfl | rfl
      · exact (validInterp_iff d _).1 v0
      · exact (validInterp_iff d _).1 v2
      · exact (validInterp_iff d _).1 v1
      · exact (validInterp_iff d _).1 v3
    simp only [nv, Bool.false_eq_true, if_false]
    exact Writes.skip _ _ fun c ⟨x, y, _, _, _, h⟩ => hh h

theorem interpolateFace_writes {d : Dims} (hd : EvenDims d) (hb : d.mbc % 2 = 0) (td : TData) {f g : Nat} (hf : f < 4)
    (hg : g < 2) (hsq : f / 2 = 0 → d.mx = d.my) {o : Orient} (ho : o.ok d)
    (hM : Maps d (faceHalfStep f g) o (clawFaceHalf d td)) (qc : Grid ℚ) :
    Writes (fun c => (inStrip d (touchO o f) c.1 c.2.1 ∨ inCorner d (hangO o f g) c.1 c.2.1) ∧ comp d c.2.2)
      (fineValue o d (faceHalfStep f g) qc) (interpolateFace d td f qc) := by
  obtain ⟨A, hA1, hA2⟩ := build_half ho hM
  have body := fun (hb : 1 ≤ d.mbc) i j mq h hm =>
    interpFaceBody_writes hb td ho hM A hA2 qc (i := i) (j := j) (mq := mq) h hm
  -- the cells written are the ghost cells
  have set_eq : ∀ c : Cell, (∃ i j : ℤ, inLayer d f i j ∧ comp d c.2.2 ∧
      ∃ x y : Nat, x < 2 ∧ y < 2 ∧ c = ((o.map d (faceHalfStep f g) (quarter i x) (quarter j y)).1,
        (o.map d (faceHalfStep f g) (quarter i x) (quarter j y)).2, c.2.2) ∧
        ∀ x y : Nat, x < 2 → y < 2 → box d (o.map d (faceHalfStep f g) (quarter i x) (quarter j y))) ↔
      ((inStrip d (touchO o f) c.1 c.2.1 ∨ inCorner d (hangO o f g) c.1 c.2.1) ∧ comp d c.2.2) := by
    rintro ⟨i', j', mq⟩
    constructor
    · rintro ⟨i, j, hl, hm, x, y, hx, hy, e, hbx⟩
      have e1 := congrArg Prod.fst e
      have e2 := congrArg (fun c : Cell => c.2.1) e
      dsimp only at e1 e2 hm ⊢
      refine ⟨?_, hm⟩
      rw [e1, e2]
      exact layer_ghost hd hb hf hg ho hl hx hy (hbx x y hx hy)
    · rintro ⟨h, hm⟩
      dsimp only at h hm
      obtain ⟨h1, h2⟩ := ghost_layer hd hb hf hg ho h
      refine ⟨_, _, h1, hm, partOf (o.inv d (faceHalfStep f g) i' j').1, partOf (o.inv d (faceHalfStep f g) i' j').2,
        partOf_lt _, partOf_lt _, ?_, h2⟩
      rw [quarter_of, quarter_of, map_inv ho]
  unfold interpolateFace
  simp only [hA1, Option.bind_some]
  have hmx := hd.bx
  have hmy := hd.by'
  have e1 : (d.mx : ℤ) % 2 = 0 := by have := hd.mx; omega
  by_cases h2 : f / 2 = 0
  · simp only [if_pos h2]
    have hm := hsq h2
    have key : ∀ ibc jc : ℤ, 1 ≤ ibc → ibc ≤ (d.mbc : ℤ) / 2 → 1 ≤ jc → jc ≤ d.mx →
        inLayer d f (if f = 0 then ibc else d.mx - ibc + 1) jc := by
      intro ibc jc a b c e
      rcases four hf with rfl | rfl | rfl | rfl <;> simp [inLayer, interior] at h2 ⊢ <;> omega
    refine ((Writes.doLoop _ _ _ _ _ fun mq m1 m2 => Writes.doLoop _ _ _ _ _ fun ibc i1 i2 =>
      Writes.doLoop _ _ _ _ _ fun jc j1 j2 => body (by omega) _ _ mq (key ibc jc i1 i2 j1 j2).1 ⟨m1, m2⟩).congr ?_).congr set_eq
    rintro ⟨i', j', mq⟩
    constructor
    · rintro ⟨mq', m1, m2, ibc, i1, i2, jc, j1, j2, x, y, hx, hy, e, hbx⟩
      have := congrArg (fun c : Cell => c.2.2) e
      dsimp only at this
      subst this
      exact ⟨_, _, key ibc jc i1 i2 j1 j2, ⟨m1, m2⟩, x, y, hx, hy, e, hbx⟩
    · rintro ⟨i, j, hl, ⟨m1, m2⟩, x, y, hx, hy, e, hbx⟩
      dsimp only at m1 m2 e
      have hi : i = (if f = 0 then (if f = 0 then i else d.mx - i + 1) else d.mx - (if f = 0 then i else d.mx - i + 1) + 1) := by
        split <;> omega
      refine ⟨mq, m1, m2, if f = 0 then i else d.mx - i + 1, ?_, ?_, j, ?_, ?_, x, y, hx, hy, ?_⟩
      · rcases four hf with rfl | rfl | rfl | rfl <;> simp [inLayer, interior] at h2 hl ⊢ <;> omega
      · rcases four hf with rfl | rfl | rfl | rfl <;> simp [inLayer, interior] at h2 hl ⊢ <;> omega
      · obtain ⟨⟨_, _, _, _⟩, _⟩ := hl; omega
      · obtain ⟨⟨_, _, _, _⟩, _⟩ := hl; omega
      · rw [← hi]; exact ⟨e, hbx⟩
  · simp only [if_neg h2]
    have key : ∀ jbc ic : ℤ, 1 ≤ jbc → jbc ≤ (d.mbc : ℤ) / 2 → 1 ≤ ic → ic ≤ d.mx →
        inLayer d f ic (if f = 2 then jbc else d.my - jbc + 1) := by
      intro ibc jc a b c e
      rcases four hf with rfl | rfl | rfl | rfl <;> simp [inLayer, interior] at h2 ⊢ <;> omega
    refine ((Writes.doLoop _ _ _ _ _ fun mq m1 m2 => Writes.doLoop _ _ _ _ _ fun jbc i1 i2 =>
      Writes.doLoop _ _ _ _ _ fun ic j1 j2 => body (by omega) _ _ mq (key jbc ic i1 i2 j1 j2).1 ⟨m1, m2⟩).congr ?_).congr set_eq
    rintro ⟨i', j', mq⟩
    constructor
    · rintro ⟨mq', m1, m2, jbc, i1, i2, ic, j1, j2, x, y, hx, hy, e, hbx⟩
      have := congrArg (fun c : Cell => c.2.2) e
      dsimp only at this
      subst this
      exact ⟨_, _, key jbc ic i1 i2 j1 j2, ⟨m1, m2⟩, x, y, hx, hy, e, hbx⟩
    · rintro ⟨i, j, hl, ⟨m1, m2⟩, x, y, hx, hy, e, hbx⟩
      dsimp only at m1 m2 e
      have hj : j = (if f = 2 then (if f = 2 then j else d.my - j + 1) else d.my - (if f = 2 then j else d.my - j + 1) + 1) := by
        split <;> omega
      refine ⟨mq, m1, m2, if f = 2 then j else d.my - j + 1, ?_, ?_, i, ?_, ?_, x, y, hx, hy, ?_⟩
      · rcases four hf with rfl | rfl | rfl | rfl <;> simp [inLayer, interior] at h2 hl ⊢ <;> omega
      · rcases four hf with rfl | rfl | rfl | rfl <;> simp [inLayer, interior] at h2 hl ⊢ <;> omega
      · obtain ⟨⟨_, _, _, _⟩, _⟩ := hl; omega
      · obtain ⟨⟨_, _, _, _⟩, _⟩ := hl; omega
      · rw [← hj]; exact ⟨e, hbx⟩

theorem interpolateCorner_writes {d : Dims} (hd : EvenDims d) (hb : d.mbc % 2 = 0) (td : TData) {k : Nat} (hk : k < 4)
    {o : Orient} (ho : o.ok d) (hM : Maps d (cornerHalfStep k) o (clawCornerHalf d td))
    {s' : Nat → ℤ} (hM' : Maps d s' o (clawFaceHalf d td)) (qc : Grid ℚ) :
    Writes (fun c => inCorner d (touchCornerO o k) c.1 c.2.1 ∧ comp d c.2.2)
      (fineValue o d (cornerHalfStep k) qc) (interpolateCorner d td k qc) := by
  obtain ⟨A, hA1, hA2⟩ := build_half ho hM'
  have hmx := hd.bx
  have hmy := hd.by'
  unfold interpolateCorner
  simp only [hA1, Option.bind_some]
  refine (Writes.doLoop (fun ibc c => ∃ jbc : ℤ, 1 ≤ jbc ∧ jbc ≤ (d.mbc : ℤ) / 2 ∧ ∃ mq : ℤ, 1 ≤ mq ∧ mq ≤ d.meqn ∧
    ∃ x y : Nat, x < 2 ∧ y < 2 ∧
    c = ((o.map d (cornerHalfStep k) (quarter (innerCell d k ibc jbc).1 x) (quarter (innerCell d k ibc jbc).2 y)).1,
      (o.map d (cornerHalfStep k) (quarter (innerCell d k ibc jbc).1 x) (quarter (innerCell d k ibc jbc).2 y)).2, mq))
    _ _ _ _ fun ibc i1 i2 => Writes.doLoop (fun jbc c => ∃ mq : ℤ, 1 ≤ mq ∧ mq ≤ d.meqn ∧ ∃ x y : Nat, x < 2 ∧ y < 2 ∧
    c = ((o.map d (cornerHalfStep k) (quarter (innerCell d k ibc jbc).1 x) (quarter (innerCell d k ibc jbc).2 y)).1,
      (o.map d (cornerHalfStep k) (quarter (innerCell d k ibc jbc).1 x) (quarter (innerCell d k ibc jbc).2 y)).2, mq))
    _ _ _ _ fun jbc j1 j2 => ?_).congr ?_
  · have hin : inInner d k (innerCell d k ibc jbc).1 (innerCell d k ibc jbc).2 := by
      rcases four hk with rfl | rfl | rfl | rfl <;> simp [inInner, interior, innerCell] <;> omega
    obtain ⟨c2, e, h2⟩ := hM (innerCell d k ibc jbc).1 (innerCell d k ibc jbc).2
    have c0 := h2 0 0 (by omega) (by omega)
    simp only [Nat.cast_zero, mul_zero, add_zero] at c0
    simp only [e, Option.bind_some]
    refine Writes.doLoop (fun mq c => ∃ x y : Nat, x < 2 ∧ y < 2 ∧
      c = ((o.map d (cornerHalfStep k) (quarter (innerCell d k ibc jbc).1 x) (quarter (innerCell d k ibc jbc).2 y)).1,
      (o.map d (cornerHalfStep k) (quarter (innerCell d k ibc jbc).1 x) (quarter (innerCell d k ibc jbc).2 y)).2, mq))
      _ _ _ _ fun mq m1 m2 => ?_
    obtain ⟨sl, e1, e2⟩ := slopes_spec (by omega) qc hin.1 ⟨m1, m2⟩
    rw [e1]
    simp only [Option.bind_some]
    refine spread_writes ho (cornerHalfStep k) A hA2 qc _ _ mq ⟨m1, m2⟩ c2 c0 sl e2 ?_
    intro x y hx hy
    have := inner_ghost hd hb hk ho hin hx hy
    have hbx := corner_inBox this (d := d) (mq := mq) ⟨m1, m2⟩
    rw [inBox_iff] at hbx
    unfold box
    omega
  · rintro ⟨i', j', mq⟩
    constructor
    · rintro ⟨ibc, i1, i2, jbc, j1, j2, mq', m1, m2, x, y, hx, hy, e⟩
      have hin : inInner d k (innerCell d k ibc jbc).1 (innerCell d k ibc jbc).2 := by
        rcases four hk with rfl | rfl | rfl | rfl <;> simp [inInner, interior, innerCell] <;> omega
      have := inner_ghost hd hb hk ho hin hx hy
      have e1 := congrArg Prod.fst e
      have e2 := congrArg (fun c : Cell => c.2.1) e
      have e3 := congrArg (fun c : Cell => c.2.2) e
      dsimp only at e1 e2 e3 ⊢
      rw [e1, e2, e3]
      exact ⟨this, m1, m2⟩
    · rintro ⟨h, m1, m2⟩
      dsimp only at h m1 m2
      have hin := ghost_inner hd hb hk ho h
      have hq : ((o.map d (cornerHalfStep k) (o.inv d (cornerHalfStep k) i' j').1 (o.inv d (cornerHalfStep k) i' j').2).1,
        (o.map d (cornerHalfStep k) (o.inv d (cornerHalfStep k) i' j').1 (o.inv d (cornerHalfStep k) i' j').2).2, mq) =
        (i', j', mq) := by rw [map_inv ho]
      generalize (o.inv d (cornerHalfStep k) i' j').1 = I at hin hq
      generalize (o.inv d (cornerHalfStep k) i' j').2 = J at hin hq
      have ex : ∃ ibc jbc : ℤ, 1 ≤ ibc ∧ ibc ≤ (d.mbc : ℤ) / 2 ∧ 1 ≤ jbc ∧ jbc ≤ (d.mbc : ℤ) / 2 ∧
          innerCell d k ibc jbc = (cellOf I, cellOf J) := by
        generalize cellOf I = a at hin
        generalize cellOf J = b at hin
        rcases four hk with rfl | rfl | rfl | rfl <;> simp [inInner, interior] at hin
        · exact ⟨a, b, by omega, by omega, by omega, by omega, rfl⟩
        · exact ⟨d.mx - a + 1, b, by omega, by omega, by omega, by omega, by simp [innerCell]; omega⟩
        · exact ⟨a, d.my - b + 1, by omega, by omega, by omega, by omega, by simp [innerCell]; omega⟩
        · exact ⟨d.mx - a + 1, d.my - b + 1, by omega, by omega, by omega, by omega, by simp [innerCell]; omega⟩
      obtain ⟨ibc, jbc, i1, i2, j1, j2, e⟩ := ex
      refine ⟨ibc, i1, i2, jbc, j1, j2, mq, m1, m2, partOf I, partOf J, partOf_lt _, partOf_lt _, ?_⟩
      rw [e]
      dsimp only
      rw [quarter_of, quarter_of]
      exact hq.symm

end Fclaw.CoarseFine

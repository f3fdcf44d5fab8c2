import Verif.GeoBc.Sides
/-
C112: boundary conditions of GeoClaw.
-/
set_option autoImplicit false
set_option linter.unusedSimpArgs false
set_option linter.unusedVariables false
namespace Fclaw.GeoBc

open Fort
open Bc (Out ofOption Kind image sign behindWall)

theorem kind_code (block : ℕ → ℤ) (intersects : ℕ → Bool) (k : ℕ) : kOf (if intersects k = true then block k else -1) = kind block intersects k := by
  unfold kOf kind
  by_cases h : intersects k = true
  · simp only [h, if_true]
  · simp [h]

/-- **C112.** After the boundary conditions, water and ground of each cell behind the physical boundary are those of its image: the first cell for
extrapolation, the mirror image for a wall, where the momentum normal to it changes its sign. Nothing else changes. -/
theorem C112_fill (d : Sizes) (block : ℕ → ℤ) (intersects : ℕ → Bool) (h : Usable d block intersects) (timeInterp : Bool) (M : Mem) :
    ∃ M', bc2 d block intersects timeInterp M = .ok M' ∧
      ∀ e, d.has e = true → M' e = filled d (if timeInterp then .interp else .q) (kind block intersects) M e := by
  have ha : (if timeInterp then Arr.interp else .q) ≠ .aux := by cases timeInterp <;> simp
  unfold bc2
  generalize (if timeInterp then Arr.interp else .q) = a at ha ⊢
  have code : ∀ k, k < 4 → (if intersects k = true then block k else -1) ≠ 0 := by
    intro k hk
    split
    · exact h.codes k hk (by assumption)
    · decide
  obtain ⟨M1, e1, s1⟩ := left_spec ha h.maux h.meqn h.cellsX.1 _ (code 0 (by decide)) M
  obtain ⟨M2, e2, s2⟩ := right_spec ha h.maux h.meqn h.cellsX.1 _ (code 1 (by decide)) M1
  obtain ⟨M3, e3, s3⟩ := bottom_spec ha h.maux h.meqn h.cellsY.1 _ (code 2 (by decide)) M2
  obtain ⟨M4, e4, s4⟩ := top_spec ha h.maux h.meqn h.cellsY.1 _ (code 3 (by decide)) M3
  rw [kind_code] at s1 s2 s3 s4
  refine ⟨M4, ?_, ?_⟩
  · unfold bc2Fort
    dsimp only
    rw [e1]; show (Out.bind (right d a _ M1) _) = _
    rw [e2]; show (Out.bind (bottom d a _ M2) _) = _
    rw [e3]; exact e4
  generalize kind block intersects = k at s1 s2 s3 s4 ⊢
  rintro ⟨b, i, j, m⟩ he
  have hb := (has_iff ..).1 he
  by_cases t : Touched d a (b, i, j, m)
  · have T : ∀ i' j', Touched d a (b, i', j', m) := fun i' j' => t
    have H : ∀ i' j', (1 - (d.mbc : ℤ) ≤ i' ∧ i' ≤ d.mx + d.mbc) → (1 - (d.mbc : ℤ) ≤ j' ∧ j' ≤ d.my + d.mbc) → d.has (b, i', j', m) = true :=
      fun i' j' hi hj => (has_iff ..).2 ⟨hi, hj, hb.2.2⟩
    have J1 := Bc.image_inBox d.my d.mbc h.cellsY .none (k 3) j hb.2.1.1 hb.2.1.2
    have J2 := Bc.image_inBox d.my d.mbc h.cellsY (k 2) .none _ J1.1 J1.2
    have I1 := Bc.image_inBox d.mx d.mbc h.cellsX .none (k 1) i hb.1.1 hb.1.2
    have c4 := s4 _ he
    have c3 := s3 _ (H i _ hb.1 J1)
    have c2 := s2 _ (H i _ hb.1 J2)
    have c1 := s1 _ (H _ _ I1 J2)
    rw [if_pos (T _ _)] at c1 c2 c3 c4
    dsimp only at c1 c2 c3 c4
    rw [Bc.image_comp d.my d.mbc h.cellsY (k 2) (k 3) j hb.2.1.2] at c1 c2 c3
    rw [Bc.image_comp d.mx d.mbc h.cellsX (k 0) (k 1) i hb.1.2] at c1
    rw [c4, c3, c2, c1]
    unfold filled image2
    dsimp only
    by_cases q : b = a
    · subst q
      simp only [if_true]
      rw [← Bc.sign_comp d.my d.mbc h.cellsY (k 2) (k 3) j m 3 hb.2.1.2, ← Bc.sign_comp d.mx d.mbc h.cellsX (k 0) (k 1) i m 2 hb.1.2]
      ring
    · have r : b = .aux ∧ m = 1 := by
        rcases t with t | t
        · exact absurd t.1 q
        · exact t
      simp only [if_neg q, if_pos r, one_mul]
      rw [r.1, r.2]
  · have c4 := s4 _ he
    have c3 := s3 _ he
    have c2 := s2 _ he
    have c1 := s1 _ he
    rw [if_neg t] at c1 c2 c3 c4
    rw [c4, c3, c2, c1]
    unfold filled
    dsimp only
    have q : b ≠ a := by
      intro q
      subst q
      apply t
      refine Or.inl ⟨rfl, hb.2.2.1, ?_⟩
      have := hb.2.2.2
      rw [comps_ne d b ha] at this
      exact this
    rw [if_neg q, if_neg (fun r => t (Or.inr r))]

/-- **C112.** The boundary conditions leave all cells alone that are not behind the physical boundary, and all auxiliary data but the ground. -/
theorem C112_frame (d : Sizes) (block : ℕ → ℤ) (intersects : ℕ → Bool) (h : Usable d block intersects) (timeInterp : Bool) (M M' : Mem)
    (e : bc2 d block intersects timeInterp M = .ok M') (b : Arr) (i j m : ℤ) (hh : d.has (b, i, j, m) = true)
    (hc : (b = .aux ∧ m ≠ 1) ∨ (b ≠ .aux ∧ b ≠ if timeInterp then .interp else .q) ∨ ((intersects 0 = true → 1 ≤ i) ∧ (intersects 1 = true → i ≤ d.mx) ∧
      (intersects 2 = true → 1 ≤ j) ∧ (intersects 3 = true → j ≤ d.my))) : M' (b, i, j, m) = M (b, i, j, m) := by
  obtain ⟨M2, e2, f⟩ := C112_fill d block intersects h timeInterp M
  rw [e] at e2
  have : M' = M2 := by injection e2
  subst this
  rw [f _ hh]
  have ha : (if timeInterp then Arr.interp else .q) ≠ .aux := by cases timeInterp <;> simp
  generalize (if timeInterp then Arr.interp else .q) = a at ha hc ⊢
  unfold filled image2
  dsimp only
  rcases hc with hc | hc | hc
  · rw [if_neg (fun q => ha (q.symm.trans hc.1)), if_neg (fun q => hc.2 q.2)]
  · rw [if_neg hc.2, if_neg (fun q => hc.1 q.1)]
  · have fix : ∀ (n : ℕ) (x : ℤ) (k1 k2 : ℕ), (intersects k1 = true → 1 ≤ x) → (intersects k2 = true → x ≤ n) →
        image n (kind block intersects k1) (kind block intersects k2) x = x ∧ ¬ behindWall n (kind block intersects k1) (kind block intersects k2) x := by
      intro n x k1 k2 g1 g2
      have n1 : x < 1 → kind block intersects k1 = .none := by
        intro hx
        unfold kind
        rw [if_neg (fun q => by have := g1 q; omega)]
      have n2 : (n : ℤ) < x → kind block intersects k2 = .none := by
        intro hx
        unfold kind
        rw [if_neg (fun q => by have := g2 q; omega)]
      constructor
      · unfold image
        split_ifs with c c
        · rw [n1 c]
        · rw [n2 c]
        · rfl
      · rintro (⟨c, q⟩ | ⟨c, q⟩)
        · rw [n1 c] at q; cases q
        · rw [n2 c] at q; cases q
    obtain ⟨x1, x2⟩ := fix d.mx i 0 1 hc.1 hc.2.1
    obtain ⟨y1, y2⟩ := fix d.my j 2 3 hc.2.2.1 hc.2.2.2
    have g1 : sign d.mx (kind block intersects 0) (kind block intersects 1) i m 2 = 1 := by rw [sign, if_neg (fun q => x2 q.1)]
    have g2 : sign d.my (kind block intersects 2) (kind block intersects 3) j m 3 = 1 := by rw [sign, if_neg (fun q => y2 q.1)]
    rw [x1, y1, g1, g2]
    split_ifs with q r
    · rw [q]; ring
    · rw [r.1, r.2]
    · rfl

/-- **C112.** If all cells that are not behind the physical boundary are at rest, then all cells are at rest after the boundary conditions. -/
theorem C112_rest (d : Sizes) (block : ℕ → ℤ) (intersects : ℕ → Bool) (h : Usable d block intersects) (timeInterp : Bool) (M M' : Mem) (eta : ℚ)
    (e : bc2 d block intersects timeInterp M = .ok M')
    (hr : ∀ i j : ℤ, (1 - (d.mbc : ℤ) ≤ i ∧ i ≤ d.mx + d.mbc) → (1 - (d.mbc : ℤ) ≤ j ∧ j ≤ d.my + d.mbc) →
      image2 d (kind block intersects) i j = (i, j) → AtRest (if timeInterp then .interp else .q) eta M i j) (i j : ℤ)
    (hi : 1 - (d.mbc : ℤ) ≤ i ∧ i ≤ d.mx + d.mbc) (hj : 1 - (d.mbc : ℤ) ≤ j ∧ j ≤ d.my + d.mbc) :
    AtRest (if timeInterp then .interp else .q) eta M' i j := by
  obtain ⟨M2, e2, f⟩ := C112_fill d block intersects h timeInterp M
  rw [e] at e2
  have : M' = M2 := by injection e2
  subst this
  have ha : (if timeInterp then Arr.interp else .q) ≠ .aux := by cases timeInterp <;> simp
  generalize (if timeInterp then Arr.interp else .q) = a at ha hr f ⊢
  have idem : ∀ (n : ℕ) (lo hi : Kind) (x : ℤ), 1 ≤ n ∧ d.mbc ≤ n → 1 - (d.mbc : ℤ) ≤ x → x ≤ n + d.mbc →
      image n lo hi (image n lo hi x) = image n lo hi x := by
    intro n lo hi x hn g1 g2
    unfold image
    cases lo <;> cases hi <;> dsimp only <;> split_ifs <;> omega
  have R := hr (image2 d (kind block intersects) i j).1 (image2 d (kind block intersects) i j).2
    (Bc.image_inBox d.mx d.mbc h.cellsX _ _ i hi.1 hi.2) (Bc.image_inBox d.my d.mbc h.cellsY _ _ j hj.1 hj.2)
    (by unfold image2; dsimp only; rw [idem d.mx _ _ i h.cellsX hi.1 hi.2, idem d.my _ _ j h.cellsY hj.1 hj.2])
  have he : ∀ m : ℤ, 1 ≤ m → m ≤ 3 → d.has (a, i, j, m) = true := by
    intro m m1 m2
    rw [has_iff, comps_ne d a ha]
    have := h.meqn
    exact ⟨hi, hj, m1, by omega⟩
  have hx : d.has (.aux, i, j, 1) = true := by
    rw [has_iff]
    have := h.maux
    exact ⟨hi, hj, le_rfl, by show (1 : ℤ) ≤ (d.maux : ℤ); omega⟩
  have f1 := f _ (he 1 (by omega) (by omega))
  have f2 := f _ (he 2 (by omega) (by omega))
  have f3 := f _ (he 3 (by omega) (by omega))
  have fx := f _ hx
  unfold filled at f1 f2 f3 fx
  dsimp only at f1 f2 f3 fx
  rw [if_pos rfl] at f1 f2 f3
  rw [if_neg (fun q => ha q.symm), if_pos ⟨rfl, rfl⟩] at fx
  have z : ∀ n lo hi x k, k ≠ 1 → sign n lo hi x 1 k = 1 := by
    intro n lo hi x k hk
    rw [sign, if_neg (fun q => hk q.2.symm)]
  rw [z _ _ _ _ _ (by decide), z _ _ _ _ _ (by decide), one_mul, one_mul] at f1
  unfold AtRest at R ⊢
  rw [f1, f2, f3, fx, R.2.1, R.2.2, mul_zero, mul_zero]
  exact ⟨R.1, rfl, rfl⟩

theorem select_zero (e w : Mem → Option Mem) (M : Mem) : select 0 e w M = .stop := by simp [select]

/-- **C112.** If the user has to give the boundary condition of a side (code 0) and has not, then the run stops. -/
theorem C112_stop (d : Sizes) (block : ℕ → ℤ) (intersects : ℕ → Bool) (timeInterp : Bool) (M : Mem) (hx : 1 ≤ d.mx) (hy : 1 ≤ d.my) (hm : 3 ≤ d.meqn)
    (hu : 1 ≤ d.maux) (k : ℕ) (hk : k < 4) (h : intersects k = true) (h0 : block k = 0) : bc2 d block intersects timeInterp M = .stop := by
  have ha : (if timeInterp then Arr.interp else .q) ≠ .aux := by cases timeInterp <;> simp
  unfold bc2
  generalize (if timeInterp then Arr.interp else .q) = a at ha ⊢
  obtain ⟨c, hc⟩ : ∃ c : ℕ → ℤ, c = fun i => if intersects i = true then block i else -1 := ⟨_, rfl⟩
  have z : c k = 0 := by rw [hc]; simp [h, h0]
  rw [← hc]
  unfold bc2Fort
  by_cases c0 : c 0 = 0
  · rw [c0, left, select_zero]; rfl
  obtain ⟨M1, e1, -⟩ := left_spec ha hu hm hx _ c0 M
  rw [e1]
  show Out.bind (right d a (c 1) M1) _ = _
  by_cases c1 : c 1 = 0
  · rw [c1, right, select_zero]; rfl
  obtain ⟨M2, e2, -⟩ := right_spec ha hu hm hx _ c1 M1
  rw [e2]
  show Out.bind (bottom d a (c 2) M2) _ = _
  by_cases c2 : c 2 = 0
  · rw [c2, bottom, select_zero]; rfl
  obtain ⟨M3, e3, -⟩ := bottom_spec ha hu hm hy _ c2 M2
  rw [e3]
  show top d a (c 3) M3 = _
  have c3 : c 3 = 0 := by
    have : k = 0 ∨ k = 1 ∨ k = 2 ∨ k = 3 := by omega
    rcases this with rfl | rfl | rfl | rfl
    · exact absurd z c0
    · exact absurd z c1
    · exact absurd z c2
    · exact z
  rw [c3, top, select_zero]

/-- A patch at the lower left corner of the domain, with a wall at the left and extrapolation at the bottom; `C112_fill` gives the ghost cell in the corner
the values of the cell (2, 1), with the momentum in x negated. -/
def exSizes : Sizes := ⟨4, 4, 2, 3, 1⟩
def exBlock : ℕ → ℤ := fun k => if k = 0 then 3 else 1
def exSides : ℕ → Bool := fun k => decide (k = 0) || decide (k = 2)

theorem exUsable : Usable exSizes exBlock exSides where
  cellsX := by decide
  cellsY := by decide
  meqn := by decide
  maux := by decide
  codes := by intro k _ _; unfold exBlock; split <;> decide

example : exSizes.has (.q, -1, -1, 2) = true ∧
    ∀ M : Mem, filled exSizes .q (kind exBlock exSides) M (.q, -1, -1, 2) = -M (.q, 2, 1, 2) := by
  refine ⟨by decide, fun M => ?_⟩
  have e1 : image2 exSizes (kind exBlock exSides) (-1) (-1) = (2, 1) := by decide +kernel
  have e2 : sign exSizes.mx (kind exBlock exSides 0) (kind exBlock exSides 1) (-1) 2 2 = -1 := by decide +kernel
  have e3 : sign exSizes.my (kind exBlock exSides 2) (kind exBlock exSides 3) (-1) 2 3 = 1 := by decide +kernel
  unfold filled
  dsimp only
  rw [e1, e2, e3, if_pos rfl]
  ring

/-- Water of depth 2 above ground at -2. -/
example : ∃ M : Mem, ∀ i j, AtRest .q 0 M i j ∧ M (.q, i, j, 1) = 2 :=
  ⟨fun e => if e.2.2.2 = 1 then (if e.1 = .aux then -2 else 2) else 0, fun i j => ⟨⟨Or.inr (by simp), by simp, by simp⟩, by simp⟩⟩

end Fclaw.GeoBc

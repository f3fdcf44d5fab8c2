/-
C66: the default physical boundary conditions.
-/
import Verif.Bc.Lemmas
import Mathlib.Tactic.IntervalCases

set_option autoImplicit false
set_option linter.unusedSimpArgs false

namespace Fclaw.Bc

open Fclaw.Fort

theorem image_comp (n mbc : Nat) (hn : 1 ≤ n ∧ mbc ≤ n) (lo hi : Kind) (i : ℤ)
    (h : i ≤ n + mbc) :
    image n lo .none (image n .none hi i) = image n lo hi i := by
  unfold image
  by_cases h1 : i < 1
  · simp [h1]
  · by_cases h2 : (n : ℤ) < i
    · cases hi with
      | none => simp [h1, h2]
      | extrap =>
        simp only [h1, h2, if_true, if_false]
        rw [if_neg (by omega), if_neg (by omega)]
      | wall =>
        simp only [h1, h2, if_true, if_false]
        rw [if_neg (by omega), if_neg (by omega)]
    · simp [h1, h2]

theorem sign_comp (n mbc : Nat) (hn : 1 ≤ n ∧ mbc ≤ n) (lo hi : Kind) (i m k : ℤ)
    (h : i ≤ n + mbc) :
    sign n .none hi i m k * sign n lo .none (image n .none hi i) m k = sign n lo hi i m k := by
  unfold sign
  by_cases hm : m = k
  · simp only [hm, and_true]
    by_cases h1 : i < 1
    · have e : image n .none hi i = i := by unfold image; simp [h1]
      have : ¬ ((n : ℤ) < i) := by omega
      rw [e]
      simp [behindWall, h1, this]
    · by_cases h2 : (n : ℤ) < i
      · cases hi with
        | none =>
          have e : image n .none .none i = i := by unfold image; simp
          rw [e]
          simp [behindWall, h1]
        | extrap =>
          have e : image n .none .extrap i = n := by unfold image; simp [h1, h2]
          rw [e]
          have : ¬ ((n : ℤ) < 1) := by omega
          simp [behindWall, h1]
          intro h; omega
        | wall =>
          have e : image n .none .wall i = 2 * n + 1 - i := by unfold image; simp [h1, h2]
          rw [e]
          have : ¬ (2 * (n : ℤ) + 1 - i < 1) := by omega
          simp [behindWall, h1, h2, this]
      · have e : image n .none hi i = i := by unfold image; simp [h1, h2]
        rw [e]
        simp [behindWall, h1, h2]
  · simp [hm]

theorem image_inBox (n mbc : Nat) (hn : 1 ≤ n ∧ mbc ≤ n) (lo hi : Kind) (i : ℤ)
    (h1 : 1 - (mbc : ℤ) ≤ i) (h2 : i ≤ n + mbc) :
    1 - (mbc : ℤ) ≤ image n lo hi i ∧ image n lo hi i ≤ n + mbc := by
  unfold image
  cases lo <;> cases hi <;> dsimp only <;> split_ifs <;> omega

theorem kinds (d : Dims) (bm : Nat → ℤ) (it : Nat → Bool) (h : Usable d bm it) (k : Nat) (hk : k < 4)
    (K : Nat) (hK : it k = true → bm k = 3 → K ≤ d.meqn) :
    (kind bm it k = .none ∧ (if it k = true then bm k else -1) = -1) ∨
    (kind bm it k = .extrap ∧ (if it k = true then bm k else -1) = 1) ∨
    (kind bm it k = .wall ∧ (if it k = true then bm k else -1) = 3 ∧ K ≤ d.meqn) := by
  unfold kind
  by_cases hi : it k = true
  · rw [if_pos hi, if_pos hi]
    rcases h.codes k hk hi with e | e
    · right; left; exact ⟨by rw [if_pos e], e⟩
    · right; right
      exact ⟨by rw [if_neg (by omega)], e, hK hi e⟩
  · left; rw [if_neg hi, if_neg hi]; exact ⟨rfl, rfl⟩

theorem bc2Default_spec (d : Dims) (bm : Nat → ℤ) (it : Nat → Bool) (h : Usable d bm it) (q : Grid ℚ) :
    ∃ q', bc2Default d (fun i => if it i = true then bm i else -1) q = .ok q' ∧
      ∀ c, inBox d c = true → q' c = filled d (kind bm it) q c := by
  obtain ⟨q1, e1, h1⟩ := left_spec d h.cellsX _ _ (kinds d bm it h 0 (by omega) 2
    (h.wallX 0 (by omega))) q
  obtain ⟨q2, e2, h2⟩ := right_spec d h.cellsX _ _ (kinds d bm it h 1 (by omega) 2
    (h.wallX 1 (by omega))) q1
  obtain ⟨q3, e3, h3⟩ := bottom_spec d h.cellsY _ _ (kinds d bm it h 2 (by omega) 3
    (h.wallY 2 (by omega) (by omega))) q2
  obtain ⟨q4, e4, h4⟩ := top_spec d h.cellsY _ _ (kinds d bm it h 3 (by omega) 3
    (h.wallY 3 (by omega) (by omega))) q3
  refine ⟨q4, ?_, ?_⟩
  · unfold bc2Default
    rw [e1]
    simp only [Out.bind]
    rw [e2]
    simp only
    rw [e3]
    simp only
    exact e4
  · rintro ⟨i, j, m⟩ hc
    obtain ⟨hi, hj, hm⟩ := (inBox_iff d i j m).1 hc
    have b1 := image_inBox d.my d.mbc h.cellsY .none (kind bm it 3) j hj.1 hj.2
    have b2 := image_inBox d.my d.mbc h.cellsY (kind bm it 2) (kind bm it 3) j hj.1 hj.2
    have b3 := image_inBox d.mx d.mbc h.cellsX .none (kind bm it 1) i hi.1 hi.2
    rw [h4 _ hc]
    dsimp only
    rw [h3 _ ((inBox_iff d _ _ _).2 ⟨hi, b1, hm⟩)]
    dsimp only
    rw [image_comp d.my d.mbc h.cellsY _ _ j hj.2]
    rw [h2 _ ((inBox_iff d _ _ _).2 ⟨hi, b2, hm⟩)]
    dsimp only
    rw [h1 _ ((inBox_iff d _ _ _).2 ⟨b3, b2, hm⟩)]
    dsimp only
    rw [image_comp d.mx d.mbc h.cellsX _ _ i hi.2]
    unfold filled
    dsimp only
    rw [← sign_comp d.my d.mbc h.cellsY (kind bm it 2) (kind bm it 3) j m 3 hj.2,
      ← sign_comp d.mx d.mbc h.cellsX (kind bm it 0) (kind bm it 1) i m 2 hi.2]
    ring

/-- **C66** (partial: codes other than 1 and 3, and walls with too few components, are not rejected, see the counterexamples).  With usable options the default boundary conditions complete without leaving the arrays.
Every element of the chosen solution array (the current or the time-interpolated one) holds the value
of its image, with the sign of the normal component changed behind walls; the other array is
unchanged. -/
theorem C66_partial (d : Dims) (bm : Nat → ℤ) (it : Nat → Bool) (h : Usable d bm it) (timeInterp : Bool)
    (g : Grids) :
    ∃ g', bc2 d bm it timeInterp g = .ok g' ∧
      (∀ c, inBox d c = true →
        (if timeInterp then g'.interp else g'.q) c
          = filled d (kind bm it) (if timeInterp then g.interp else g.q) c) ∧
      (if timeInterp then g'.q else g'.interp) = (if timeInterp then g.q else g.interp) := by
  unfold bc2
  cases timeInterp with
  | true =>
    obtain ⟨q', e, h'⟩ := bc2Default_spec d bm it h g.interp
    refine ⟨{ g with interp := q' }, ?_, ?_, rfl⟩
    · dsimp only
      rw [if_pos rfl, e]
      rfl
    · exact h'
  | false =>
    obtain ⟨q', e, h'⟩ := bc2Default_spec d bm it h g.q
    refine ⟨{ g with q := q' }, ?_, ?_, rfl⟩
    · dsimp only
      rw [if_neg (by simp), e]
      rfl
    · exact h'

/-- Only cells beyond the physical boundary change: all others, interior cells and ghost cells that
belong to neighbours, keep their values. -/
theorem C66_frame (d : Dims) (bm : Nat → ℤ) (it : Nat → Bool) (h : Usable d bm it) (g g' : Grids)
    (e : bc2 d bm it false g = .ok g') (i j m : ℤ) (hc : inBox d (i, j, m) = true)
    (h0 : it 0 = true → 1 ≤ i) (h1 : it 1 = true → i ≤ d.mx) (h2 : it 2 = true → 1 ≤ j)
    (h3 : it 3 = true → j ≤ d.my) : g'.q (i, j, m) = g.q (i, j, m) := by
  obtain ⟨g2, e2, h', -⟩ := C66_partial d bm it h false g
  rw [e] at e2
  simp only [Out.ok.injEq] at e2
  subst e2
  have h' := h' (i, j, m) hc
  simp only [Bool.false_eq_true, if_false] at h'
  rw [h']
  have key : ∀ (n : Nat) (lo hi : Kind) (x : ℤ) (a b : ℤ), (lo ≠ .none → 1 ≤ x) → (hi ≠ .none → x ≤ n) →
      sign n lo hi x a b = 1 ∧ image n lo hi x = x := by
    intro n lo hi x a b hl hh
    constructor
    · unfold sign behindWall
      rw [if_neg]
      rintro ⟨⟨hx, rfl⟩ | ⟨hx, rfl⟩, -⟩
      · have := hl (by simp); omega
      · have := hh (by simp); omega
    · unfold image
      split_ifs with h1 h2
      · cases lo with
        | none => rfl
        | extrap => have := hl (by simp); omega
        | wall => have := hl (by simp); omega
      · cases hi with
        | none => rfl
        | extrap => have := hh (by simp); omega
        | wall => have := hh (by simp); omega
      · rfl
  have hk : ∀ k, kind bm it k ≠ .none → it k = true := by
    intro k hk
    by_contra hi
    exact hk (by unfold kind; rw [if_neg hi])
  unfold filled
  dsimp only
  obtain ⟨a1, a2⟩ := key d.mx (kind bm it 0) (kind bm it 1) i m 2 (fun x => h0 (hk 0 x)) (fun x => h1 (hk 1 x))
  obtain ⟨b1, b2⟩ := key d.my (kind bm it 2) (kind bm it 3) j m 3 (fun x => h2 (hk 2 x)) (fun x => h3 (hk 3 x))
  rw [a1, a2, b1, b2, one_mul, one_mul]

/-- The codes 0 and 2 at a physical boundary stop the program, if the sides before it are usable. -/
theorem C66_stop (d : Dims) (bm : Nat → ℤ) (it : Nat → Bool) (t : Bool) (g : Grids) (k : Nat)
    (hk : k < 4) (hi : it k = true) (hb : bm k = 0 ∨ bm k = 2)
    (h : Usable d bm (fun j => it j && decide (j < k))) : bc2 d bm it t g = .stop := by
  have sel : ∀ (e w : Grid ℚ → Option (Grid ℚ)) (q : Grid ℚ),
      select (if it k = true then bm k else -1) e w q = .stop := by
    intro e w q
    rw [if_pos hi]
    unfold select
    rcases hb with e | e <;> rw [e] <;> simp
  have conv : ∀ j, j < k → (if (it j && decide (j < k)) = true then bm j else -1)
      = (if it j = true then bm j else -1) := by
    intro j hj; simp [hj]
  have key : ∀ q, bc2Default d (fun i => if it i = true then bm i else -1) q = .stop := by
    intro q
    unfold bc2Default
    rcases Nat.eq_zero_or_pos k with rfl | k0
    · unfold left; rw [sel]; rfl
    obtain ⟨q1, e1, -⟩ := left_spec d h.cellsX _ _ (kinds d bm _ h 0 (by omega) 2
      (h.wallX 0 (by omega))) q
    rw [conv 0 k0] at e1
    rw [e1]
    simp only [Out.bind]
    by_cases k1 : k = 1
    · subst k1; unfold right; rw [sel]
    obtain ⟨q2, e2, -⟩ := right_spec d h.cellsX _ _ (kinds d bm _ h 1 (by omega) 2
      (h.wallX 1 (by omega))) q1
    rw [conv 1 (by omega)] at e2
    rw [e2]
    simp only
    by_cases k2 : k = 2
    · subst k2; unfold bottom; rw [sel]
    obtain ⟨q3, e3, -⟩ := bottom_spec d h.cellsY _ _ (kinds d bm _ h 2 (by omega) 3
      (h.wallY 2 (by omega) (by omega))) q2
    rw [conv 2 (by omega)] at e3
    rw [e3]
    simp only
    have k3 : k = 3 := by omega
    subst k3; unfold top; rw [sel]
  unfold bc2
  cases t <;> simp only [Bool.false_eq_true, if_false, if_true, key] <;> rfl

/-- Other codes are not rejected, and leave the ghost cells beyond the physical boundary without
values: nothing checks the option. -/
theorem C66_code_counterexample : ∃ (d : Dims) (bm : Nat → ℤ), ∀ g : Grids,
    bc2 d bm (fun _ => true) false g = .ok g :=
  ⟨⟨2, 2, 1, 1⟩, fun _ => 4, fun _ => rfl⟩

/-- A solid wall with one component writes outside of the array: nothing checks the number of
components. -/
theorem C66_wall_counterexample : ∃ (d : Dims) (bm : Nat → ℤ) (g : Grids), 1 ≤ d.mx ∧ d.mbc ≤ d.mx ∧
    1 ≤ d.my ∧ d.mbc ≤ d.my ∧ bc2 d bm (fun k => decide (k = 0)) false g = .bad :=
  ⟨⟨1, 1, 1, 1⟩, fun _ => 3, ⟨fun _ => 0, fun _ => 0⟩, by decide, by decide, by decide, by decide, rfl⟩

/-! ### Example: wall at the left, extrapolation at the top, neighbours elsewhere -/

def exDims : Dims := ⟨4, 3, 2, 3⟩
def exMthbc : Nat → ℤ := fun k => if k = 0 then 3 else if k = 3 then 1 else 0
def exSides : Nat → Bool := fun k => decide (k = 0) || decide (k = 3)

theorem exUsable : Usable exDims exMthbc exSides where
  cellsX := by decide
  cellsY := by decide
  codes := by
    intro k hk hi
    interval_cases k <;> simp_all [exSides, exMthbc]
  wallX := by intros; decide
  wallY := by intros; decide

example := C66_partial exDims exMthbc exSides exUsable true ⟨fun c => c.1, fun c => c.1 + 10 * c.2.1⟩
/-- The code 0 at the right is not accepted. -/
example (g : Grids) : bc2 exDims exMthbc (fun _ => true) false g = .stop :=
  C66_stop exDims exMthbc _ false g 1 (by decide) rfl (Or.inl rfl)
    { cellsX := by decide, cellsY := by decide
      codes := by
        intro k hk hi
        interval_cases k <;> simp_all [exMthbc]
      wallX := by intros; decide
      wallY := by intros; decide }
/-- In the upper left corner both are applied. -/
example : filled exDims (kind exMthbc exSides) (fun c => c.1 + 10 * c.2.1) (-1, 5, 2) = -32 := by
  decide +kernel

end Fclaw.Bc

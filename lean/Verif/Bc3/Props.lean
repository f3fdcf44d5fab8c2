/-
C89: the default physical boundary conditions in three dimensions.
-/
import Verif.Bc3.Lemmas
import Verif.Bc.Props

set_option autoImplicit false
set_option linter.unusedSimpArgs false

namespace Fclaw.Bc3

open Fclaw.Fort Fclaw.Extrude
open Bc (Out ofOption)

variable {D : Dims3} {bm : Nat → ℤ} {it : Nat → Bool}

/-- The code that is used for side `k`. -/
def code (bm : Nat → ℤ) (it : Nat → Bool) (k : Nat) : ℤ := if k < 4 then (if it k then bm k else -1) else bm k

theorem fits_side (h : Usable D bm it) (k : Nat) (hk : k < 4) (ax : Axis) (hN : it k = true → bm k = 3 → ax.normal ≤ (D.meqn : ℤ)) :
    Fits D ax (code bm it k) (kind bm it k) := by
  unfold code kind ofCode Fits
  rw [if_pos hk]
  cases hi : it k
  · left; simp [hk]
  · rcases h.codes k hk hi with e | e
    · right; left; simp [e]
    · right; right; right; simp [e]; exact hN hi e

theorem fits_z (h : Usable D bm it) (k : Nat) (hk : k = 4 ∨ k = 5) : Fits D .z (code bm it k) (kind bm it k) := by
  have hk4 : ¬ k < 4 := by omega
  unfold code kind ofCode Fits
  rw [if_neg hk4, if_neg (fun h => hk4 h.1)]
  rcases h.codesZ k hk with e | e | e
  · right; left; simp [e]
  · right; right; left; simp [e]
  · right; right; right
    refine ⟨by simp [e], e, ?_⟩
    have := h.wallZ k hk e
    show (4 : ℤ) ≤ D.meqn
    omega

theorem bc3Default_spec (h : Usable D bm it) (q : Grid3 ℚ) :
    ∃ q', bc3Default D (code bm it) q = .ok q' ∧ ∀ c, inBox3 D c = true → q' c = filled D (kind bm it) q c := by
  obtain ⟨q1, q2, e1, e2, hx⟩ := axis_spec D .x h.cellsX (code bm it 0) (code bm it 1) _ _
    (fits_side h 0 (by omega) .x fun a b => by have := h.wallX 0 (by omega) a b; show (2 : ℤ) ≤ _; omega)
    (fits_side h 1 (by omega) .x fun a b => by have := h.wallX 1 (by omega) a b; show (2 : ℤ) ≤ _; omega) q
  obtain ⟨q3, q4, e3, e4, hy⟩ := axis_spec D .y h.cellsY (code bm it 2) (code bm it 3) _ _
    (fits_side h 2 (by omega) .y fun a b => by have := h.wallY 2 (by omega) a b; show (3 : ℤ) ≤ _; omega)
    (fits_side h 3 (by omega) .y fun a b => by have := h.wallY 3 (by omega) a b; show (3 : ℤ) ≤ _; omega) q2
  obtain ⟨q5, q6, e5, e6, hz⟩ := axis_spec D .z h.cellsZ (code bm it 4) (code bm it 5) _ _ (fits_z h 4 (Or.inl rfl)) (fits_z h 5 (Or.inr rfl)) q4
  refine ⟨q6, ?_, ?_⟩
  · unfold bc3Default
    rw [e1]
    simp only [Out.bind]
    rw [e2]
    simp only
    rw [e3]
    simp only
    rw [e4]
    simp only
    rw [e5]
    exact e6
  · rintro ⟨i, j, k, m⟩ hc
    obtain ⟨hi, hj, hk, hm⟩ := (inBox3_iff D i j k m).1 hc
    have bk := image_inBox D.mz D.mbc h.cellsZ (kind bm it 4) (kind bm it 5) k hk.1 hk.2
    have bj := image_inBox D.my D.mbc h.cellsY (kind bm it 2) (kind bm it 3) j hj.1 hj.2
    have z := hz k i j m hc
    have y := hy j i (image D.mz (kind bm it 4) (kind bm it 5) k) m ((inBox3_iff D _ _ _ _).2 ⟨hi, hj, bk, hm⟩)
    have x := hx i (image D.my (kind bm it 2) (kind bm it 3) j) (image D.mz (kind bm it 4) (kind bm it 5) k) m
      ((inBox3_iff D _ _ _ _).2 ⟨hi, bj, bk, hm⟩)
    simp only [Axis.cell, Axis.size, Axis.normal] at x y z
    rw [z, y, x]
    unfold filled
    ring

/-- **C89** (partial: codes that are not usable are not rejected, see the counterexamples). With usable options the
default boundary conditions complete without leaving the arrays. Every element of the chosen solution array (the current or
the time-interpolated one) holds the value of its image in all three directions, with the sign of the normal component
changed behind walls; the other array is unchanged. -/
theorem C89_partial (h : Usable D bm it) (timeInterp : Bool) (g : Grids) :
    ∃ g', bc3 D bm it timeInterp g = .ok g' ∧
      (∀ c, inBox3 D c = true →
        (if timeInterp then g'.interp else g'.q) c = filled D (kind bm it) (if timeInterp then g.interp else g.q) c) ∧
      (if timeInterp then g'.q else g'.interp) = (if timeInterp then g.q else g.interp) := by
  unfold bc3
  cases timeInterp with
  | true =>
    obtain ⟨q', e, h'⟩ := bc3Default_spec h g.interp
    refine ⟨{ g with interp := q' }, ?_, h', rfl⟩
    show (bc3Default D (code bm it) g.interp).bind _ = _
    rw [e]
    rfl
  | false =>
    obtain ⟨q', e, h'⟩ := bc3Default_spec h g.q
    refine ⟨{ g with q := q' }, ?_, h', rfl⟩
    show (bc3Default D (code bm it) g.q).bind _ = _
    rw [e]
    rfl

theorem value (h : Usable D bm it) {g g' : Grids} (e : bc3 D bm it false g = .ok g') {c : Cell3} (hc : inBox3 D c = true) :
    g'.q c = filled D (kind bm it) g.q c := by
  obtain ⟨g2, e2, h', -⟩ := C89_partial h false g
  rw [e] at e2
  simp only [Out.ok.injEq] at e2
  subst e2
  exact h' c hc

theorem unmoved {n : ℤ} {lo hi : Kind} {x : ℤ} (a b : ℤ) (hl : lo ≠ .none → 1 ≤ x) (hh : hi ≠ .none → x ≤ n) :
    sign n lo hi x a b = 1 ∧ image n lo hi x = x := by
  constructor
  · unfold sign behindWall
    rw [if_neg]
    rintro ⟨⟨hx, rfl⟩ | ⟨hx, rfl⟩, -⟩
    · have := hl (by simp); omega
    · have := hh (by simp); omega
  · unfold image
    split_ifs with h1 h2
    · cases lo with
      | none => rfl
      | extrap => have := hl (by simp); omega
      | periodic => have := hl (by simp); omega
      | wall => have := hl (by simp); omega
    · cases hi with
      | none => rfl
      | extrap => have := hh (by simp); omega
      | periodic => have := hh (by simp); omega
      | wall => have := hh (by simp); omega
    · rfl

/-- Only cells beyond the physical boundary change: all others between bottom and top, interior cells and ghost cells that
belong to neighbours, keep their values. -/
theorem C89_frame (h : Usable D bm it) (g g' : Grids) (e : bc3 D bm it false g = .ok g') (i j k m : ℤ)
    (hc : inBox3 D (i, j, k, m) = true) (h0 : it 0 = true → 1 ≤ i) (h1 : it 1 = true → i ≤ D.mx) (h2 : it 2 = true → 1 ≤ j)
    (h3 : it 3 = true → j ≤ D.my) (h4 : 1 ≤ k) (h5 : k ≤ D.mz) : g'.q (i, j, k, m) = g.q (i, j, k, m) := by
  rw [value h e hc]
  have hk : ∀ k, k < 4 → kind bm it k ≠ .none → it k = true := by
    intro k hk4 hk
    by_contra hi
    exact hk (by unfold kind; rw [if_pos ⟨hk4, by simpa using hi⟩])
  unfold filled
  dsimp only
  obtain ⟨a1, a2⟩ := unmoved (n := D.mx) m 2 (fun x => h0 (hk 0 (by omega) x)) (fun x => h1 (hk 1 (by omega) x))
  obtain ⟨b1, b2⟩ := unmoved (n := D.my) m 3 (fun x => h2 (hk 2 (by omega) x)) (fun x => h3 (hk 3 (by omega) x))
  obtain ⟨c1, c2⟩ := unmoved (n := D.mz) (lo := kind bm it 4) (hi := kind bm it 5) m 4 (fun _ => h4) (fun _ => h5)
  rw [a1, a2, b1, b2, c1, c2, one_mul, one_mul, one_mul]

/-- With periodic conditions below and above, layers repeat after `mz`: also in ghost cells at the sides. -/
theorem C89_periodic (h : Usable D bm it) (g g' : Grids) (e : bc3 D bm it false g = .ok g') (h4 : bm 4 = 2) (h5 : bm 5 = 2)
    (i j k m : ℤ) (hc : inBox3 D (i, j, k, m) = true) (hc' : inBox3 D (i, j, k + D.mz, m) = true) :
    g'.q (i, j, k + D.mz, m) = g'.q (i, j, k, m) := by
  rw [value h e hc, value h e hc']
  have k4 : kind bm it 4 = .periodic := by unfold kind ofCode; rw [if_neg (fun h => absurd h.1 (by decide)), h4]; rfl
  have k5 : kind bm it 5 = .periodic := by unfold kind ofCode; rw [if_neg (fun h => absurd h.1 (by decide)), h5]; rfl
  have b := (inBox3_iff D i j k m).1 hc
  have b' := (inBox3_iff D i j _ m).1 hc'
  have hz := h.cellsZ
  have s : ∀ x, sign D.mz (kind bm it 4) (kind bm it 5) x m 4 = 1 := by
    intro x; unfold sign behindWall; rw [k4, k5]; simp
  have im : image D.mz (kind bm it 4) (kind bm it 5) (k + D.mz) = image D.mz (kind bm it 4) (kind bm it 5) k := by
    unfold image
    rw [k4, k5]
    dsimp only
    split_ifs <;> omega
  unfold filled
  dsimp only
  rw [s, s, im]

/-- Between bottom and top every layer is treated as a patch in two dimensions (C66). -/
theorem C89_layers (h : Usable D bm it) (g g' : Grids) (e : bc3 D bm it false g = .ok g') (k : ℤ) (hk : 1 ≤ k ∧ k ≤ D.mz)
    (r : Bc.Grids) (hr : ∀ c, r.q c = g.q (c.1, c.2.1, k, c.2.2)) :
    ∃ r', Bc.bc2 D.toDims bm it false r = .ok r' ∧
      ∀ i j m, inBox D.toDims (i, j, m) = true → g'.q (i, j, k, m) = r'.q (i, j, m) := by
  have hu : Bc.Usable D.toDims bm it :=
    { cellsX := h.cellsX, cellsY := h.cellsY, codes := h.codes, wallX := h.wallX
      wallY := fun k h1 h2 => h.wallY k (by omega) }
  obtain ⟨r', e', h', -⟩ := Bc.C66_partial D.toDims bm it hu false r
  refine ⟨r', e', fun i j m hc => ?_⟩
  have h' := h' _ hc
  simp only [Bool.false_eq_true, if_false] at h'
  have hb := (inBox_iff D.toDims i j m).1 hc
  have hc3 : inBox3 D (i, j, k, m) = true := (inBox3_iff D _ _ _ _).2 ⟨hb.1, hb.2.1, by omega, hb.2.2⟩
  rw [value h e hc3, h']
  have kinds : ∀ s, s < 4 → (kind bm it s = .none ∧ Bc.kind bm it s = .none) ∨ (kind bm it s = .extrap ∧ Bc.kind bm it s = .extrap) ∨
      (kind bm it s = .wall ∧ Bc.kind bm it s = .wall) := by
    intro s hs
    unfold kind Bc.kind ofCode
    cases hi : it s
    · left; simp [hs]
    · right
      rcases h.codes s hs hi with e | e
      · left; simp [e]
      · right; simp [e]
  have same : ∀ (n : ℤ) (lo hi : Kind) (lo' hi' : Bc.Kind), (lo = .none ∧ lo' = .none ∨ lo = .extrap ∧ lo' = .extrap ∨ lo = .wall ∧ lo' = .wall) →
      (hi = .none ∧ hi' = .none ∨ hi = .extrap ∧ hi' = .extrap ∨ hi = .wall ∧ hi' = .wall) → ∀ x a b,
      image n lo hi x = Bc.image n lo' hi' x ∧ sign n lo hi x a b = Bc.sign n lo' hi' x a b := by
    rintro n lo hi lo' hi' h1 h2 x a b
    rcases h1 with ⟨rfl, rfl⟩ | ⟨rfl, rfl⟩ | ⟨rfl, rfl⟩ <;> rcases h2 with ⟨rfl, rfl⟩ | ⟨rfl, rfl⟩ | ⟨rfl, rfl⟩ <;>
      refine ⟨rfl, ?_⟩ <;> unfold sign Bc.sign behindWall Bc.behindWall <;> simp
  obtain ⟨x1, x2⟩ := same D.mx _ _ _ _ (kinds 0 (by omega)) (kinds 1 (by omega)) i m 2
  obtain ⟨y1, y2⟩ := same D.my _ _ _ _ (kinds 2 (by omega)) (kinds 3 (by omega)) j m 3
  obtain ⟨c1, c2⟩ := unmoved (n := D.mz) (lo := kind bm it 4) (hi := kind bm it 5) m 4 (fun _ => hk.1) (fun _ => hk.2)
  unfold filled Bc.filled
  dsimp only
  rw [x1, x2, y1, y2, c1, c2, hr]
  ring

/-- The code 0 below or above stops the program, for every patch, if the sides before it are usable. -/
theorem C89_stop (t : Bool) (g : Grids) (h4 : bm 4 = 0) (h : Usable D (fun k => if k < 4 then bm k else 1) it) : bc3 D bm it t g = .stop := by
  have conv : ∀ k, k < 4 → code (fun k => if k < 4 then bm k else 1) it k = code bm it k := by
    intro k hk; unfold code; simp [hk]
  have key : ∀ q, bc3Default D (code bm it) q = .stop := by
    intro q
    obtain ⟨q1, q2, e1, e2, -⟩ := axis_spec D .x h.cellsX _ _ _ _
      (fits_side h 0 (by omega) .x fun a b => by have := h.wallX 0 (by omega) a b; show (2 : ℤ) ≤ _; omega)
      (fits_side h 1 (by omega) .x fun a b => by have := h.wallX 1 (by omega) a b; show (2 : ℤ) ≤ _; omega) q
    obtain ⟨q3, q4, e3, e4, -⟩ := axis_spec D .y h.cellsY _ _ _ _
      (fits_side h 2 (by omega) .y fun a b => by have := h.wallY 2 (by omega) a b; show (3 : ℤ) ≤ _; omega)
      (fits_side h 3 (by omega) .y fun a b => by have := h.wallY 3 (by omega) a b; show (3 : ℤ) ≤ _; omega) q2
    rw [conv _ (by omega)] at e1 e2 e3 e4
    have e5 : lower D .z (code bm it 4) q4 = .stop := by
      show lower D .z (bm 4) q4 = .stop
      rw [h4]; rfl
    unfold bc3Default
    rw [e1]
    simp only [Out.bind]
    rw [e2]
    simp only
    rw [e3]
    simp only
    rw [e4]
    simp only
    rw [e5]
  unfold bc3
  cases t
  · show (bc3Default D (code bm it) g.q).bind _ = _
    rw [key]; rfl
  · show (bc3Default D (code bm it) g.interp).bind _ = _
    rw [key]; rfl

/-- **C89** does not hold for the code 2 (periodic) at a side that has no neighbour: other than in two dimensions (C66) the
program goes on, and the ghost cells keep whatever they hold. -/
theorem C89_periodic_counterexample : ∃ (D : Dims3) (bm : Nat → ℤ) (q : Grid3 ℚ), (∀ k, 1 ≤ bm k ∧ bm k ≤ 3) ∧ inBox3 D (0, 1, 1, 1) = true ∧
    (∀ c, 1 ≤ c.1 → q c = 0) ∧ ∀ g' : Grids, bc3 D bm (fun _ => true) false ⟨q, q⟩ = .ok g' → g'.q (0, 1, 1, 1) = 7 := by
  refine ⟨{ mx := 1, my := 1, mbc := 1, meqn := 1, mz := 1 }, fun k => if k < 4 then 2 else 1, fun c => if c.1 < 1 then 7 else 0,
    fun k => by dsimp only; split <;> omega, by decide, fun c hc => if_neg (by omega), fun g' e => ?_⟩
  have : (0 : ℤ) < 1 := by decide
  have key : ∀ q : Grid3 ℚ, q (0, 1, 1, 1) = 7 →
      ∀ g : Grids, bc3 { mx := 1, my := 1, mbc := 1, meqn := 1, mz := 1 } (fun k => if k < 4 then 2 else 1) (fun _ => true) false ⟨q, q⟩ = .ok g →
        g.q (0, 1, 1, 1) = 7 := by
    intro q hq g e
    have hu : Usable { mx := 1, my := 1, mbc := 1, meqn := 1, mz := 1 } (fun k => if k < 4 then 2 else 1) (fun _ => false) :=
      { cellsX := by decide, cellsY := by decide, cellsZ := by decide, codes := fun _ _ h => absurd h (by decide)
        codesZ := by rintro k (rfl | rfl) <;> simp
        wallX := fun _ _ h => absurd h (by decide), wallY := fun _ _ h => absurd h (by decide)
        wallZ := by rintro k (rfl | rfl) h <;> simp at h }
    have e' : bc3 { mx := 1, my := 1, mbc := 1, meqn := 1, mz := 1 } (fun k => if k < 4 then 2 else 1) (fun _ => false) false ⟨q, q⟩ = .ok g := by
      rw [← e]; rfl
    rw [C89_frame hu _ g e' 0 1 1 1 (by decide) (fun h => absurd h (by decide)) (fun h => absurd h (by decide))
      (fun h => absurd h (by decide)) (fun h => absurd h (by decide)) (by decide) (by decide)]
    exact hq
  exact key _ (by simp) g' e

/-- Codes beyond 3 are not rejected, and leave the ghost cells without values: nothing checks the option. -/
theorem C89_code_counterexample : ∃ (D : Dims3) (bm : Nat → ℤ), ∀ g : Grids, bc3 D bm (fun _ => true) false g = .ok g :=
  ⟨{ mx := 2, my := 2, mbc := 1, meqn := 1, mz := 2 }, fun _ => 4, fun _ => rfl⟩

/-- A solid wall above with three components writes outside of the array: nothing checks the number of components. -/
theorem C89_wall_counterexample : ∃ (D : Dims3) (bm : Nat → ℤ) (g : Grids), 1 ≤ D.mz ∧ D.mbc ≤ D.mz ∧ D.meqn = 3 ∧
    bc3 D bm (fun _ => false) false g = .bad :=
  ⟨{ mx := 1, my := 1, mbc := 1, meqn := 3, mz := 1 }, fun k => if k = 5 then 3 else 1, ⟨fun _ => 0, fun _ => 0⟩,
    by decide, by decide, rfl, rfl⟩

/-! ### Example: wall at the left, extrapolation at the back, neighbours elsewhere; periodic in z -/

def exDims : Dims3 := { mx := 4, my := 3, mbc := 2, meqn := 4, mz := 5 }
def exMthbc : Nat → ℤ := fun k => if k = 0 then 3 else if k = 3 then 1 else 2
def exSides : Nat → Bool := fun k => decide (k = 0) || decide (k = 3)

theorem exUsable : Usable exDims exMthbc exSides where
  cellsX := by decide
  cellsY := by decide
  cellsZ := by decide
  codes := by
    intro k hk hi
    interval_cases k <;> simp_all [exSides, exMthbc]
  codesZ := by rintro k (rfl | rfl) <;> simp [exMthbc]
  wallX := by intros; decide
  wallY := by intros; decide
  wallZ := by intros; decide

example := C89_partial exUsable true ⟨fun c => c.1, fun c => c.1 + 10 * c.2.1⟩
/-- In a corner all three are applied. -/
example : filled exDims (kind exMthbc exSides) (fun c => c.1 + 10 * c.2.1 + 100 * c.2.2.1) (-1, 5, 6, 2) = -132 := by
  decide +kernel
/-- A case for the last theorems. -/
example (g : Grids) : ∃ g', bc3 exDims exMthbc exSides false g = .ok g' ∧ g'.q (-1, 5, 6, 2) = g'.q (-1, 5, 1, 2) := by
  obtain ⟨g', e, -⟩ := C89_partial exUsable false g
  exact ⟨g', e, C89_periodic exUsable g g' e rfl rfl (-1) 5 1 2 (by decide) (by decide)⟩
example (g : Grids) : bc3 exDims (fun k => if k = 4 then 0 else exMthbc k) exSides false g = .stop :=
  C89_stop false g rfl
    { exUsable with
      codes := by
        intro k hk hi
        interval_cases k <;> simp_all [exSides, exMthbc]
      codesZ := by rintro k (rfl | rfl) <;> simp
      wallX := by intros; decide
      wallY := by intros; decide
      wallZ := by intros; decide }

end Fclaw.Bc3

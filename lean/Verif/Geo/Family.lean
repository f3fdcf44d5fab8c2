import Verif.Geo.Interp
/-
Helpers for C82: what the transfer between a patch and its four children writes.
-/
set_option autoImplicit false
set_option linter.unusedSimpArgs false
set_option linter.unusedVariables false
namespace Fclaw.Geo

open Fort Transform CopyGhost Transfer CoarseFine

theorem sub_quadrant {d : Dims} (hE : Even2 d) {g I J : ℤ} (hg : 0 ≤ g ∧ g ≤ 3) (h : interior d I J) :
    subPatch d (I, J) = g ↔
      (1 ≤ I - g % 2 * ((d.mx : ℤ) / 2) ∧ I - g % 2 * ((d.mx : ℤ) / 2) ≤ (d.mx : ℤ) / 2) ∧
      (1 ≤ J - g / 2 * ((d.my : ℤ) / 2) ∧ J - g / 2 * ((d.my : ℤ) / 2) ≤ (d.my : ℤ) / 2) := by
  obtain ⟨e1, e2, e3, e4⟩ := hE
  obtain ⟨h1, h2, h3, h4⟩ := h
  obtain ⟨g0, g1⟩ := hg
  unfold subPatch
  dsimp only
  interval_cases g <;>
    simp only [Int.reduceMod, Int.reduceDiv, zero_mul, one_mul, Int.zero_emod, Int.zero_ediv] <;>
    split_ifs <;> omega

theorem subCell_eq {d : Dims} (hE : Even2 d) {g I J : ℤ} (hg : 0 ≤ g ∧ g ≤ 3) (h : interior d I J)
    (hs : subPatch d (I, J) = g) (x y : Nat) :
    subCell d (I, J) x y = (2 * (I - g % 2 * ((d.mx : ℤ) / 2)) - 1 + x, 2 * (J - g / 2 * ((d.my : ℤ) / 2)) - 1 + y) := by
  have hs' := (sub_quadrant hE hg h).1 hs
  obtain ⟨e1, e2, e3, e4⟩ := hE
  obtain ⟨h1, h2, h3, h4⟩ := h
  obtain ⟨g0, g1⟩ := hg
  unfold subCell
  dsimp only
  rw [Prod.mk.injEq]
  interval_cases g <;>
    simp only [Int.reduceMod, Int.reduceDiv, zero_mul, one_mul, Int.zero_emod, Int.zero_ediv] at hs' ⊢ <;>
    split_ifs <;> omega

theorem subPatch_range (d : Dims) (C : ℤ × ℤ) : 0 ≤ subPatch d C ∧ subPatch d C ≤ 3 := by
  unfold subPatch
  split_ifs <;> omega

theorem subCell_interior {d : Dims} (hE : Even2 d) {I J : ℤ} (h : interior d I J) {x y : Nat} (hx : x < 2) (hy : y < 2) :
    interior d (subCell d (I, J) x y).1 (subCell d (I, J) x y).2 := by
  obtain ⟨e1, e2, e3, e4⟩ := hE
  obtain ⟨h1, h2, h3, h4⟩ := h
  unfold subCell interior
  dsimp only
  split_ifs <;> omega

theorem average2coarse_writes {d : Dims} (hE : Even2 d) {P : Params} {auxC auxF qf : Grid ℚ}
    (hs : Safe d P qf auxF auxC (interior d)) (g : ℤ) (hg : 0 ≤ g ∧ g ≤ 3) :
    Writes (fun e => interior d e.1 e.2.1 ∧ subPatch d (e.1, e.2.1) = g ∧ 1 ≤ e.2.2 ∧ e.2.2 ≤ 3)
      (fun e => (expected P auxC auxF qf (fun i j => subCell d (i, j)) e.1 e.2.1).comp e.2.2)
      (average2coarse d P auxC auxF g qf) := by
  have E1 := ig_eq g d.mx hg hE.2.2.1
  have E2 := jg_eq g d.my hg hE.2.2.2
  unfold average2coarse
  dsimp only
  rw [E1, E2]
  refine (Writes.doLoop (fun j e => ∃ i : ℤ, 1 ≤ i ∧ i ≤ (d.mx : ℤ) / 2 ∧ (e.1 = i + g % 2 * ((d.mx : ℤ) / 2) ∧
    e.2.1 = j + g / 2 * ((d.my : ℤ) / 2) ∧ 1 ≤ e.2.2 ∧ e.2.2 ≤ 3)) _ _ _ _ fun j j1 j2 =>
    Writes.doLoop (fun i e => e.1 = i + g % 2 * ((d.mx : ℤ) / 2) ∧ e.2.1 = j + g / 2 * ((d.my : ℤ) / 2) ∧
      1 ≤ e.2.2 ∧ e.2.2 ≤ 3) _ _ _ _ fun i i1 i2 => ?_).congr ?_
  · have hin : interior d (i + g % 2 * ((d.mx : ℤ) / 2)) (j + g / 2 * ((d.my : ℤ) / 2)) := by
      obtain ⟨e1, e2, e3, e4⟩ := hE
      obtain ⟨g0, g1⟩ := hg
      unfold interior
      interval_cases g <;>
        simp only [Int.reduceMod, Int.reduceDiv, zero_mul, one_mul, Int.zero_emod, Int.zero_ediv] <;> omega
    have hsub : subPatch d (i + g % 2 * ((d.mx : ℤ) / 2), j + g / 2 * ((d.my : ℤ) / 2)) = g := by
      rw [sub_quadrant hE hg hin]
      omega
    refine averageStore_writes hs _ (fun i j => subCell d (i, j)) ?_ (fun x y hx hy => subCell_interior hE hin hx hy)
      (interior_inPatch hin) hin
    intro x y hx hy
    rw [subCell_eq hE hg hin hsub]
    have ex : ((x : ℤ) + 2 * y) % 2 = x := by omega
    have ey : ((x : ℤ) + 2 * y) / 2 = y := by omega
    unfold fineI fineJ
    rw [ex, ey, Prod.mk.injEq]
    constructor <;> ring
  · rintro ⟨I, J, m⟩
    constructor
    · rintro ⟨j, j1, j2, i, i1, i2, e1, e2, m1, m2⟩
      dsimp only at e1 e2 m1 m2 ⊢
      have hin : interior d I J := by
        rw [e1, e2]
        obtain ⟨e1, e2, e3, e4⟩ := hE
        obtain ⟨g0, g1⟩ := hg
        unfold interior
        interval_cases g <;>
          simp only [Int.reduceMod, Int.reduceDiv, zero_mul, one_mul, Int.zero_emod, Int.zero_ediv] <;> omega
      refine ⟨hin, (sub_quadrant hE hg hin).2 ?_, m1, m2⟩
      rw [e1, e2]
      omega
    · rintro ⟨hin, hsub, m1, m2⟩
      dsimp only at hin hsub m1 m2
      obtain ⟨⟨a, b⟩, c, e⟩ := (sub_quadrant hE hg hin).1 hsub
      exact ⟨_, c, e, _, a, b, by ring, by ring, m1, m2⟩

/-- The water expected in a coarse cell from the four children. -/
def expectedFamily (d : Dims) (P : Params) (auxC : Grid ℚ) (auxF qf : ℤ → Grid ℚ) (C : ℤ × ℤ) : Water :=
  merged P.dryTolerance (fun x y => waterAt (qf (subPatch d C)) (subCell d C x y))
    (fun x y => groundAt P (auxF (subPatch d C)) (subCell d C x y)) (groundAt P auxC C)

theorem coarsen_writes {d : Dims} (hE : Even2 d) {P : Params} {auxC : Grid ℚ} {auxF qf : ℤ → Grid ℚ}
    (hs : ∀ g, 0 ≤ g → g ≤ 3 → Safe d P (qf g) (auxF g) auxC (interior d)) :
    Writes (fun e => interior d e.1 e.2.1 ∧ 1 ≤ e.2.2 ∧ e.2.2 ≤ 3)
      (fun e => (expectedFamily d P auxC auxF qf (e.1, e.2.1)).comp e.2.2) (coarsen d P auxC auxF qf) := by
  unfold coarsen
  refine (Writes.doLoop (fun g e => interior d e.1 e.2.1 ∧ subPatch d (e.1, e.2.1) = g ∧ 1 ≤ e.2.2 ∧ e.2.2 ≤ 3) _ _ _ _
    fun g g0 g1 => Writes.value (average2coarse_writes hE (hs g g0 g1) g ⟨g0, g1⟩) ?_).congr ?_
  · rintro e ⟨_, h, _⟩
    unfold expected expectedFamily
    rw [h]
  · intro e
    constructor
    · rintro ⟨g, _, _, h1, _, h2, h3⟩; exact ⟨h1, h2, h3⟩
    · rintro ⟨h1, h2, h3⟩
      obtain ⟨a, b⟩ := subPatch_range d (e.1, e.2.1)
      exact ⟨_, a, b, h1, rfl, h2, h3⟩

/-! ### To the children -/

/-- The value in cell `c` of child `g`. -/
def childValue (d : Dims) (P : Params) (q auxC auxF : Grid ℚ) (g : ℤ) (c : Cell) : ℚ :=
  let C := parent d (g, c.1, c.2.1)
  if c.2.2 = 1 then refinedDepth P q auxC C.1 C.2 (half c.1) (half c.2.1) (auxF (c.1, c.2.1, 1))
  else reconstruct q C.1 C.2 c.2.2 (half c.1) (half c.2.1)

theorem interpCell_writes {d : Dims} {P : Params} (hz : Sizes d P) (hE : Even2 d) (hb : 2 ≤ d.mbc) (g : ℤ)
    (hg : 0 ≤ g ∧ g ≤ 3) (q auxC auxF : Grid ℚ) {mq i j : ℤ} (hm : comp d mq)
    (hi : 1 - g % 2 ≤ i ∧ i ≤ (d.mx : ℤ) / 2 + (1 - g % 2)) (hj : 1 - g / 2 ≤ j ∧ j ≤ (d.my : ℤ) / 2 + (1 - g / 2)) :
    Writes (fun c => ∃ ii, 1 ≤ ii ∧ ii ≤ 2 ∧ ∃ jj, 1 ≤ jj ∧ jj ≤ 2 ∧ c = ((i - 1) * 2 + ii, (j - 1) * 2 + jj, mq))
      (childValue d P q auxC auxF g)
      (interpCell d P q auxC auxF mq (i + g % 2 * ((d.mx : ℤ) / 2)) (j + g / 2 * ((d.my : ℤ) / 2)) i j) := by
  have hmq := hz.meqn
  have hax := hz.maux
  obtain ⟨e1, e2, e3, e4⟩ := hE
  have hin : interior d (i + g % 2 * ((d.mx : ℤ) / 2)) (j + g / 2 * ((d.my : ℤ) / 2)) := by
    obtain ⟨g0, g1⟩ := hg
    unfold interior
    interval_cases g <;>
      simp only [Int.reduceMod, Int.reduceDiv, zero_mul, one_mul, Int.zero_emod, Int.zero_ediv] at hi hj ⊢ <;> omega
  have hpar : ∀ ii jj : ℤ, 1 ≤ ii → ii ≤ 2 → 1 ≤ jj → jj ≤ 2 → parent d (g, (i - 1) * 2 + ii, (j - 1) * 2 + jj) =
      (i + g % 2 * ((d.mx : ℤ) / 2), j + g / 2 * ((d.my : ℤ) / 2)) ∧ (half ((i - 1) * 2 + ii) : ℤ) = ii - 1 ∧
      (half ((j - 1) * 2 + jj) : ℤ) = jj - 1 ∧ inPatch d ((i - 1) * 2 + ii) ((j - 1) * 2 + jj) := by
    intro ii jj h1 h2 h3 h4
    refine ⟨?_, ?_, ?_, ?_⟩
    · unfold parent
      dsimp only
      rw [show ((i - 1) * 2 + ii + 1) / 2 = i by omega, show ((j - 1) * 2 + jj + 1) / 2 = j by omega, Prod.mk.injEq]
      constructor <;> ring
    · unfold half; omega
    · unfold half; omega
    · obtain ⟨g0, g1⟩ := hg
      unfold inPatch
      interval_cases g <;>
        simp only [Int.reduceMod, Int.reduceDiv, zero_mul, one_mul, Int.zero_emod, Int.zero_ediv] at hi hj ⊢ <;> omega
  generalize i + g % 2 * ((d.mx : ℤ) / 2) = I at hin hpar ⊢
  generalize j + g / 2 * ((d.my : ℤ) / 2) = J at hin hpar ⊢
  obtain ⟨E, a1, a2⟩ := surfaces_spec hz q auxC (i := I) (j := J) (by
    intro a b h1 h2 h3 h4
    obtain ⟨_, _, _, _⟩ := hin
    unfold inPatch; omega)
  have cast : ∀ (x : Nat) (z : ℤ), (x : ℤ) = z → (x : ℚ) = (z : ℚ) := by
    intro x z h; rw [← h]; push_cast; rfl
  unfold interpCell
  rw [a1]
  simp only [Option.bind_some]
  by_cases h1 : mq = 1
  · subst h1
    simp only [if_true]
    refine Writes.doLoop (fun ii c => ∃ jj, 1 ≤ jj ∧ jj ≤ 2 ∧ c = ((i - 1) * 2 + ii, (j - 1) * 2 + jj, 1)) _ _ _ _ ?_
    intro ii h1 h2
    refine Writes.doLoop (fun jj c => c = ((i - 1) * 2 + ii, (j - 1) * 2 + jj, 1)) _ _ _ _ ?_
    intro jj h3 h4
    obtain ⟨p1, p2, p3, p4⟩ := hpar ii jj h1 h2 h3 h4
    rw [rdAux_in auxF p4 (by omega) (by omega : (1 : ℤ) ≤ P.maux)]
    simp only [Option.bind_some]
    refine Writes.wr d _ _ _ ?_ ?_
    · rw [inBox_iff]
      obtain ⟨_, _, _, _⟩ := p4
      omega
    · unfold childValue
      dsimp only
      rw [if_pos rfl, p1]
      unfold refinedDepth
      dsimp only
      rw [← a2, cast _ _ p2, cast _ _ p3]
      unfold Transfer.shift
      push_cast
      ring
  · simp only [if_neg h1]
    obtain ⟨sl, b1, b2⟩ := slopes_spec (by omega) q hin hm
    rw [b1]
    simp only [Option.bind_some]
    refine Writes.doLoop (fun ii c => ∃ jj, 1 ≤ jj ∧ jj ≤ 2 ∧ c = ((i - 1) * 2 + ii, (j - 1) * 2 + jj, mq)) _ _ _ _ ?_
    intro ii h1' h2
    refine Writes.doLoop (fun jj c => c = ((i - 1) * 2 + ii, (j - 1) * 2 + jj, mq)) _ _ _ _ ?_
    intro jj h3 h4
    obtain ⟨p1, p2, p3, p4⟩ := hpar ii jj h1' h2 h3 h4
    refine Writes.wr d _ _ _ ?_ ?_
    · rw [inBox_iff]
      obtain ⟨_, _, _, _⟩ := p4
      obtain ⟨_, _⟩ := hm
      omega
    · unfold childValue
      dsimp only
      rw [if_neg h1, p1, ← b2, cast _ _ p2, cast _ _ p3]
      unfold Transfer.shift
      push_cast
      ring

theorem interpolate2fine_writes {d : Dims} {P : Params} (hz : Sizes d P) (hE : Even2 d) (hb : 2 ≤ d.mbc) (g : ℤ)
    (hg : 0 ≤ g ∧ g ≤ 3) (q auxC auxF : Grid ℚ) :
    Writes (fun c => window d g c.1 c.2.1 ∧ comp d c.2.2) (childValue d P q auxC auxF g)
      (interpolate2fine d P auxC auxF g q) := by
  have E1 := ig_eq g d.mx hg hE.2.2.1
  have E2 := jg_eq g d.my hg hE.2.2.2
  have E3 : (g - g % 2) / 2 = g / 2 := by omega
  unfold interpolate2fine
  dsimp only
  rw [E2, E3, E1]
  refine (Writes.doLoop _ _ _ _ _ fun mq m1 m2 => Writes.doLoop _ _ _ _ _ fun i i1 i2 => Writes.doLoop _ _ _ _ _ fun j j1 j2 =>
    interpCell_writes hz hE hb g hg q auxC auxF ⟨m1, m2⟩ ⟨i1, i2⟩ ⟨j1, j2⟩).congr ?_
  obtain ⟨e1, e2, e3, e4⟩ := hE
  rintro ⟨I, J, mq⟩
  unfold window comp
  simp only [Prod.mk.injEq]
  constructor
  · rintro ⟨k, k1, k2, i, i1, i2, j, j1, j2, ii, a1, a2, jj, a3, a4, rfl, rfl, rfl⟩
    omega
  · rintro ⟨⟨i1, i2, j1, j2⟩, k1, k2⟩
    refine ⟨mq, k1, k2, (I + 1) / 2, by omega, by omega, (J + 1) / 2, by omega, by omega, I - ((I + 1) / 2 - 1) * 2,
      by omega, by omega, J - ((J + 1) / 2 - 1) * 2, by omega, by omega, by omega, by omega, rfl⟩

theorem refine_spec {d : Dims} {P : Params} (hz : Sizes d P) (hE : Even2 d) (hb : 2 ≤ d.mbc) (q auxC : Grid ℚ)
    (auxF fs : ℤ → Grid ℚ) :
    ∃ fs', refine d P auxC auxF q fs = some fs' ∧ (∀ g, 0 ≤ g → g ≤ 3 →
      (∀ c : Cell, window d g c.1 c.2.1 ∧ comp d c.2.2 → fs' g c = childValue d P q auxC (auxF g) g c) ∧
      ∀ c : Cell, ¬ (window d g c.1 c.2.1 ∧ comp d c.2.2) → fs' g c = fs g c) := by
  obtain ⟨q0, a0, b0, c0⟩ := interpolate2fine_writes hz hE hb 0 (by omega) q auxC (auxF 0) (fs 0)
  obtain ⟨q1, a1, b1, c1⟩ := interpolate2fine_writes hz hE hb 1 (by omega) q auxC (auxF 1) (fs 1)
  obtain ⟨q2, a2, b2, c2⟩ := interpolate2fine_writes hz hE hb 2 (by omega) q auxC (auxF 2) (fs 2)
  obtain ⟨q3, a3, b3, c3⟩ := interpolate2fine_writes hz hE hb 3 (by omega) q auxC (auxF 3) (fs 3)
  unfold refine
  simp only [doLoop_zero_three, a0, Option.map_some, Option.bind_some]
  norm_num [a1, a2, a3]
  intro g g0 g3
  have : g = 0 ∨ g = 1 ∨ g = 2 ∨ g = 3 := by omega
  rcases this with rfl | rfl | rfl | rfl
  · refine ⟨fun c c' c'' x y => ?_, fun c c' c'' x => ?_⟩
    · simpa using b0 (c, c', c'') ⟨x, y⟩
    · simpa using c0 (c, c', c'') fun h => x h.1 h.2
  · refine ⟨fun c c' c'' x y => ?_, fun c c' c'' x => ?_⟩
    · simpa using b1 (c, c', c'') ⟨x, y⟩
    · simpa using c1 (c, c', c'') fun h => x h.1 h.2
  · refine ⟨fun c c' c'' x y => ?_, fun c c' c'' x => ?_⟩
    · simpa using b2 (c, c', c'') ⟨x, y⟩
    · simpa using c2 (c, c', c'') fun h => x h.1 h.2
  · refine ⟨fun c c' c'' x y => ?_, fun c c' c'' x => ?_⟩
    · simpa using b3 (c, c', c'') ⟨x, y⟩
    · simpa using c3 (c, c', c'') fun h => x h.1 h.2

end Fclaw.Geo

import Verif.Topo.Patch
/-
All of `setaux`.
-/
set_option autoImplicit false
set_option linter.unusedVariables false
namespace Fclaw.Topo

open MeasureTheory Fort
open scoped Classical

/-- The values of the loop variables of two nested loops over all cells, `jj` outside. -/
def Patch.keys (P : Patch) : List (ℤ × ℤ) :=
  (range (1 - (P.d.mbc : ℤ)) (P.d.my + P.d.mbc)).flatMap fun jj =>
    (range (1 - (P.d.mbc : ℤ)) (P.d.mx + P.d.mbc)).map fun ii => (jj, ii)

/-- The same, `ii` outside. -/
def Patch.keys' (P : Patch) : List (ℤ × ℤ) :=
  (range (1 - (P.d.mbc : ℤ)) (P.d.mx + P.d.mbc)).flatMap fun ii =>
    (range (1 - (P.d.mbc : ℤ)) (P.d.my + P.d.mbc)).map fun jj => (ii, jj)

theorem mem_keys (P : Patch) (k : ℤ × ℤ) : k ∈ P.keys ↔ P.HasCell k.2 k.1 := by
  unfold Patch.keys
  rw [mem_flat, mem_range, mem_range]
  unfold Patch.HasCell
  tauto

theorem mem_keys' (P : Patch) (k : ℤ × ℤ) : k ∈ P.keys' ↔ P.HasCell k.1 k.2 := by
  unfold Patch.keys'
  rw [mem_flat, mem_range, mem_range]
  unfold Patch.HasCell
  tauto

theorem cells_flat (P : Patch) (f : ℤ → ℤ → Grid ℝ → Option (Grid ℝ)) (aux : Grid ℝ) :
    P.cells f aux = loop P.keys (fun k => f k.2 k.1) aux := by
  unfold Patch.cells doLoop Patch.keys
  rw [loop_flat]

/-! ### First loop -/

theorem setauxCheck_eq (w : World) (P : Patch) (hA : Accepts w P) (aux : Grid ℝ) :
    setauxCheck w P aux = some (fun c =>
      if w.coord = 1 ∧ P.HasCell c.1 c.2.1 ∧ P.MustSet c.1 c.2.1 ∧ c.2.2 = 2 ∧ 2 ≤ P.d.meqn then 1 else aux c) := by
  unfold setauxCheck
  rcases hA with ⟨h1, h2, h3⟩ | ⟨h1, h2, h3⟩
  · rw [if_neg (by omega), if_pos h1, if_neg (by omega)]
    by_cases hm : P.d.meqn > 1
    · rw [if_pos hm, cells_flat]
      rw [loop_set P.keys _ (fun k c => P.MustSet k.2 k.1 ∧ c = (k.2, k.1, 2)) (fun _ => False) aux (fun _ => 1)]
      · congr 1
        funext c
        by_cases h : w.coord = 1 ∧ P.HasCell c.1 c.2.1 ∧ P.MustSet c.1 c.2.1 ∧ c.2.2 = 2 ∧ 2 ≤ P.d.meqn
        · rw [if_pos h, if_pos]
          obtain ⟨_, h4, h5, h6, _⟩ := h
          refine ⟨(c.2.1, c.1), (mem_keys P _).mpr h4, h5, ?_⟩
          obtain ⟨c1, c2, c3⟩ := c
          simp only at h6
          rw [h6]
        · rw [if_neg h, if_neg]
          rintro ⟨k, hk, h4, rfl⟩
          exact h ⟨h1, (mem_keys P k).mp hk, h4, rfl, by omega⟩
      · intro k hk a _
        have hk := (mem_keys P k).mp hk
        obtain ⟨b1, b2, b3, b4⟩ := hk
        by_cases hs : P.skip k.2 k.1 = true
        · rw [if_pos hs]
          congr 1
          funext c
          rw [if_neg]
          exact fun h => (skip_iff P _ _).mp hs h.1
        · have hset : P.MustSet k.2 k.1 := by
            by_contra h; exact hs ((skip_iff P _ _).mpr h)
          rw [if_neg hs, wr_some b1 b2 b3 b4 (by omega) (by omega)]
          congr 1
          funext c
          by_cases hc : c = (k.2, k.1, 2)
          · rw [if_pos hc, if_pos ⟨hset, hc⟩]
          · rw [if_neg hc, if_neg (fun h => hc h.2)]
      · intro _ _ _ _ h; exact h
      · intro _ h; exact h.elim
    · rw [if_neg hm]
      congr 1
      funext c
      rw [if_neg (by omega)]
  · rw [if_neg (by rintro ⟨_, h | h⟩ <;> omega), if_neg (by omega)]
    congr 1
    funext c
    rw [if_neg (by omega)]

/-! ### Copies -/

/-- The element from which `setaux` copies. -/
def source (N M I0 J0 : ℤ) (c : Cell) : Cell :=
  (nearest N (I0 + c.1) - I0, nearest M (J0 + c.2.1) - J0, 1)

section
variable {D : Domain} {P : Patch} {N M I0 J0 : ℤ} (hP : Placed D P N M I0 J0)
include hP

theorem source_inDom (c : Cell) : InDom N M I0 J0 (source N M I0 J0 c) := by
  have h1 := hP.left; have h2 := hP.right; have h3 := hP.bottom; have h4 := hP.top
  have h5 := hP.mx; have h6 := hP.my
  unfold InDom source nearest
  simp only
  omega

theorem source_hasCell (i j : ℤ) (h : P.HasCell i j) :
    P.HasCell (source N M I0 J0 (i, j, 1)).1 (source N M I0 J0 (i, j, 1)).2.1 := by
  have h1 := hP.left; have h2 := hP.right; have h3 := hP.bottom; have h4 := hP.top
  have h5 := hP.mx; have h6 := hP.my
  unfold Patch.HasCell source nearest at *
  simp only
  omega

theorem setauxCopy_eq (i j : ℤ) (h : P.HasCell i j) (hm : 1 ≤ P.d.meqn) (aux : Grid ℝ) :
    setauxCopy D P i j aux =
      some (fun c => if c = (i, j, 1) then aux (source N M I0 J0 (i, j, 1)) else aux c) := by
  unfold setauxCopy
  simp only [ilo_eq hP, jlo_eq hP]
  rw [hP.xhi, hP.yhi, ceil_low hP.dx, ceil_low hP.dy, ceil_high hP.dx, ceil_high hP.dy]
  have e1 : i + max 0 (1 - (I0 + i)) - max 0 (I0 + i - N) = (source N M I0 J0 (i, j, 1)).1 := by
    have h2 := hP.left; have h3 := hP.right; have h5 := hP.mx
    unfold source nearest
    simp only
    omega
  have e2 : j + max 0 (1 - (J0 + j)) - max 0 (J0 + j - M) = (source N M I0 J0 (i, j, 1)).2.1 := by
    have h2 := hP.bottom; have h3 := hP.top; have h5 := hP.my
    unfold source nearest
    simp only
    omega
  rw [e1, e2]
  obtain ⟨s1, s2, s3, s4⟩ := source_hasCell hP i j h
  obtain ⟨b1, b2, b3, b4⟩ := h
  rw [rd_some s1 s2 s3 s4 (by omega) (by omega)]
  simp only [Option.bind_some]
  rw [wr_some b1 b2 b3 b4 (by omega) (by omega)]
  rfl

theorem rows_eq (hm : 1 ≤ P.d.meqn) (base : Grid ℝ) :
    setauxRows D P base = some (fun c =>
      if P.HasCell c.1 c.2.1 ∧ P.MustSet c.1 c.2.1 ∧ c.2.2 = 1 ∧ (J0 + c.2.1 ≤ 0 ∨ M < J0 + c.2.1)
      then base (source N M I0 J0 c) else base c) := by
  unfold setauxRows doLoop
  simp only [loop_if, jlo_eq hP]
  rw [loop_flat]
  change loop P.keys _ base = _
  rw [loop_set P.keys _ (fun k c => P.MustSet k.2 k.1 ∧ c = (k.2, k.1, 1) ∧ (J0 + k.1 ≤ 0 ∨ M < J0 + k.1))
    (fun c => InDom N M I0 J0 c) base (fun c => base (source N M I0 J0 c))]
  · congr 1
    funext c
    by_cases h : P.HasCell c.1 c.2.1 ∧ P.MustSet c.1 c.2.1 ∧ c.2.2 = 1 ∧ (J0 + c.2.1 ≤ 0 ∨ M < J0 + c.2.1)
    · rw [if_pos h, if_pos]
      obtain ⟨h4, h5, h6, h7⟩ := h
      refine ⟨(c.2.1, c.1), (mem_keys P _).mpr h4, h5, ?_, h7⟩
      obtain ⟨c1, c2, c3⟩ := c
      simp only at h6
      rw [h6]
    · rw [if_neg h, if_neg]
      rintro ⟨k, hk, h4, rfl, h5⟩
      exact h ⟨(mem_keys P k).mp hk, h4, rfl, h5⟩
  · intro k hk aux ha
    have hk := (mem_keys P k).mp hk
    have hcond : (D.ylo + (((J0 + k.1 : ℤ) : ℝ) - 1 / 2) * P.dy < D.ylo ∨
        D.ylo + (((J0 + k.1 : ℤ) : ℝ) - 1 / 2) * P.dy > D.yhi) ↔ (J0 + k.1 ≤ 0 ∨ M < J0 + k.1) := by
      rw [hP.yhi, above_iff hP.dy, below_iff hP.dy]
    by_cases hout : J0 + k.1 ≤ 0 ∨ M < J0 + k.1
    · rw [if_pos (hcond.mpr hout)]
      by_cases hs : P.skip k.2 k.1 = true
      · rw [if_pos hs]
        congr 1
        funext c
        rw [if_neg]
        exact fun h => (skip_iff P _ _).mp hs h.1
      · have hset : P.MustSet k.2 k.1 := by
          by_contra h; exact hs ((skip_iff P _ _).mpr h)
        rw [if_neg hs, setauxCopy_eq hP _ _ hk hm]
        congr 1
        funext c
        by_cases hc : c = (k.2, k.1, 1)
        · rw [if_pos hc, if_pos ⟨hset, hc, hout⟩, hc, ha _ (source_inDom hP _)]
        · rw [if_neg hc, if_neg (fun h => hc h.2.1)]
    · rw [if_neg (fun h => hout (hcond.mp h))]
      congr 1
      funext c
      rw [if_neg (fun h => hout h.2.2)]
  · rintro k _ c ⟨_, rfl, h⟩ hd
    unfold InDom at hd
    simp only at hd
    omega
  · intro _ _; rfl

theorem cols_eq (hm : 1 ≤ P.d.meqn) (base : Grid ℝ) :
    setauxCols D P base = some (fun c =>
      if P.HasCell c.1 c.2.1 ∧ P.MustSet c.1 c.2.1 ∧ c.2.2 = 1 ∧ (I0 + c.1 ≤ 0 ∨ N < I0 + c.1)
      then base (source N M I0 J0 c) else base c) := by
  unfold setauxCols doLoop
  simp only [loop_if, ilo_eq hP]
  rw [loop_flat]
  change loop P.keys' _ base = _
  rw [loop_set P.keys' _ (fun k c => P.MustSet k.1 k.2 ∧ c = (k.1, k.2, 1) ∧ (I0 + k.1 ≤ 0 ∨ N < I0 + k.1))
    (fun c => InDom N M I0 J0 c) base (fun c => base (source N M I0 J0 c))]
  · congr 1
    funext c
    by_cases h : P.HasCell c.1 c.2.1 ∧ P.MustSet c.1 c.2.1 ∧ c.2.2 = 1 ∧ (I0 + c.1 ≤ 0 ∨ N < I0 + c.1)
    · rw [if_pos h, if_pos]
      obtain ⟨h4, h5, h6, h7⟩ := h
      refine ⟨(c.1, c.2.1), (mem_keys' P _).mpr h4, h5, ?_, h7⟩
      obtain ⟨c1, c2, c3⟩ := c
      simp only at h6
      rw [h6]
    · rw [if_neg h, if_neg]
      rintro ⟨k, hk, h4, rfl, h5⟩
      exact h ⟨(mem_keys' P k).mp hk, h4, rfl, h5⟩
  · intro k hk aux ha
    have hk := (mem_keys' P k).mp hk
    have hcond : (D.xlo + (((I0 + k.1 : ℤ) : ℝ) - 1 / 2) * P.dx < D.xlo ∨
        D.xlo + (((I0 + k.1 : ℤ) : ℝ) - 1 / 2) * P.dx > D.xhi) ↔ (I0 + k.1 ≤ 0 ∨ N < I0 + k.1) := by
      rw [hP.xhi, above_iff hP.dx, below_iff hP.dx]
    by_cases hout : I0 + k.1 ≤ 0 ∨ N < I0 + k.1
    · rw [if_pos (hcond.mpr hout)]
      by_cases hs : P.skip k.1 k.2 = true
      · rw [if_pos hs]
        congr 1
        funext c
        rw [if_neg]
        exact fun h => (skip_iff P _ _).mp hs h.1
      · have hset : P.MustSet k.1 k.2 := by
          by_contra h; exact hs ((skip_iff P _ _).mpr h)
        rw [if_neg hs, setauxCopy_eq hP _ _ hk hm]
        congr 1
        funext c
        by_cases hc : c = (k.1, k.2, 1)
        · rw [if_pos hc, if_pos ⟨hset, hc, hout⟩, hc, ha _ (source_inDom hP _)]
        · rw [if_neg hc, if_neg (fun h => hc h.2.1)]
    · rw [if_neg (fun h => hout (hcond.mp h))]
      congr 1
      funext c
      rw [if_neg (fun h => hout h.2.2)]
  · rintro k _ c ⟨_, rfl, h⟩ hd
    unfold InDom at hd
    simp only at hd
    omega
  · intro _ _; rfl

/-- A cell outside of the domain is set: so is the cell from which it is copied. -/
theorem source_mustSet (hmint : 1 ≤ P.mint) (i j : ℤ) (h : P.MustSet i j)
    (hout : ¬ InDom N M I0 J0 (i, j, 1)) :
    P.MustSet (source N M I0 J0 (i, j, 1)).1 (source N M I0 J0 (i, j, 1)).2.1 := by
  have h1 := hP.left; have h2 := hP.right; have h3 := hP.bottom; have h4 := hP.top
  have h5 := hP.mx; have h6 := hP.my
  intro hg
  have := h hg
  unfold InDom source nearest at *
  simp only at *
  omega

end

theorem bath_eq (w : World) (F : Files) (D : Domain) (P : Patch) (N M I0 J0 : ℤ) (S : ℝ × ℝ → ℝ)
    (hP : Placed D P N M I0 J0) (hA : Accepts w P) (hF : F.Valid) (hC : D.set ⊆ F.covered)
    (hS : F.IsGround S) (aux : Grid ℝ) :
    P.cells (setauxCell w F.ordered D P) aux = some (fun c =>
      if P.HasCell c.1 c.2.1 ∧ cellWrites w P N M I0 J0 (c.2.1, c.1) c then cellVal w D P I0 J0 S c else aux c) := by
  rw [cells_flat]
  rw [loop_set P.keys _ (cellWrites w P N M I0 J0) (fun _ => False) aux (cellVal w D P I0 J0 S)]
  · congr 1
    funext c
    by_cases h : P.HasCell c.1 c.2.1 ∧ cellWrites w P N M I0 J0 (c.2.1, c.1) c
    · rw [if_pos h, if_pos ⟨(c.2.1, c.1), (mem_keys P _).mpr h.1, h.2⟩]
    · rw [if_neg h, if_neg]
      rintro ⟨k, hk, hw⟩
      have e : k = (c.2.1, c.1) := by
        obtain ⟨_, e1, e2, _⟩ := hw
        rw [Prod.ext_iff]; exact ⟨e2.symm, e1.symm⟩
      rw [e] at hk hw
      exact h ⟨(mem_keys P _).mp hk, hw⟩
  · intro k hk a _
    exact setauxCell_eq w F D P N M I0 J0 S hP hA hF hC hS k.2 k.1 ((mem_keys P k).mp hk) a
  · intro _ _ _ _ h; exact h
  · intro _ h; exact h.elim

end Fclaw.Topo

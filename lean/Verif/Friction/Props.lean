import Verif.Friction.Lemmas
import Verif.GeoStep.Model
/-
C106: The friction coefficient of a cell is the one that the last region that has one says.
-/
set_option autoImplicit false
set_option linter.unusedSimpArgs false
set_option linter.unusedVariables false
namespace Fclaw.Friction

open Fort

noncomputable section

/-- For all regions, overlapping or not, and all patches: a cell that is set by `setaux` (all cells of a patch, a layer of cells of a ghost
patch) gets the coefficient for the height of its ground over sea level from the last region with its centre and with an interval with this
height. It is zero if there is none. Nothing else but the height of the ground is changed, and no array is accessed outside of its bounds.

Partial: the description of the module says that the constant coefficient is used where there is no region: see `C106_default_counterexample`. -/
theorem C106_partial (S : Settings) (P : Topo.Patch) (hS : S.Valid P) (ground : ℤ → ℤ → ℝ) (aux : Grid ℝ) :
    ∃ aux', setaux S P ground aux = some aux' ∧
      (∀ i j, P.HasCell i j → P.skip i j = false →
        (∀ m c, S.Says (centre P i j) (ground i j - S.seaLevel) m c →
          (∀ m' c', m < m' → ¬ S.Says (centre P i j) (ground i j - S.seaLevel) m' c') → aux' (i, j, S.index) = c) ∧
        ((∀ m c, ¬ S.Says (centre P i j) (ground i j - S.seaLevel) m c) → aux' (i, j, S.index) = 0)) ∧
      (∀ i j, aux' (i, j, 1) = ground i j) ∧
      (∀ i j m, m ≠ 1 → ¬ (P.HasCell i j ∧ P.skip i j = false ∧ m = S.index) → aux' (i, j, m) = aux (i, j, m)) := by
  have hidx := hS.index
  obtain ⟨a, e, h1, h2⟩ := clear_acts S P hS aux
  beta_reduce at h1 h2
  obtain ⟨a', e', k1, k2⟩ := regions_eq S P hS (fun c => if c.2.2 = 1 then ground c.1 c.2.1 else a c)
  refine ⟨a', ?_, ?_, ?_, ?_⟩
  · unfold setaux
    rw [e]
    simp only [Option.bind_some]
    rw [if_pos (by omega), e']
  · intro i j hc hs
    obtain ⟨g1, g2⟩ := k2 i j hc hs
    simp only [if_true] at g1 g2
    refine ⟨g1, ?_⟩
    intro hno
    rw [g2 hno, if_neg (by omega), h1 (i, j, S.index) hc, if_pos ⟨rfl, hs⟩]
  · intro i j
    rw [k1 (i, j, 1) (by rintro ⟨_, _, h⟩; simp only at h; omega)]
    simp
  · intro i j m hm hn
    rw [k1 (i, j, m) hn]
    simp only [if_neg hm]
    by_cases hc : P.HasCell i j
    · rw [h1 (i, j, m) hc]
      rw [if_neg (fun h => hn ⟨hc, h.2, h.1⟩)]
    · exact h2 (i, j, m) hc

/-- The coefficient is determined: two regions' answers for the same cell differ only if the regions are different. -/
theorem C106_unique (S : Settings) (P : Topo.Patch) (hS : S.Valid P) (p : ℝ × ℝ) (h : ℝ) (m : ℕ) (c c' : ℝ) (h1 : S.Says p h m c)
    (h2 : S.Says p h m c') : c = c' := by
  obtain ⟨R, eR, _, hg⟩ := h1
  obtain ⟨R', eR', _, hg'⟩ := h2
  rw [eR] at eR'
  obtain rfl := Option.some.inj eR'
  exact gives_unique R (hS.regions R (List.mem_of_getElem? eR)) h c c' hg hg'

/-- Without regions nothing is set. -/
theorem C106_off (S : Settings) (P : Topo.Patch) (hS : S.useRegions = false) (ground : ℤ → ℤ → ℝ) (aux : Grid ℝ) :
    ∃ aux', setaux S P ground aux = some aux' ∧ ∀ i j m, m ≠ 1 → aux' (i, j, m) = aux (i, j, m) := by
  refine ⟨fun c => if c.2.2 = 1 then ground c.1 c.2.1 else aux c, ?_, ?_⟩
  · unfold setaux clear setFrictionField
    simp [hS]
  · intro i j m hm
    simp only [if_neg hm]

/-! ### An example -/

/-- Two regions; land and sea have different coefficients in the first one. -/
def sample : Settings :=
  ⟨0, true, 2, [⟨0, 0, 2, 2, [⊤, 0, ⊥], [3, 2]⟩, ⟨1, 0, 2, 2, [⊤, ⊥], [5]⟩], 0⟩

/-- Four times one cells of size 1. -/
def samplePatch : Topo.Patch := ⟨⟨4, 1, 0, 2⟩, 0, 0, 1, 1, false, 0, 0, 0⟩

theorem sample_valid : sample.Valid samplePatch where
  useRegions := rfl
  regions := by
    intro R hR
    simp [sample] at hR
    rcases hR with rfl | rfl
    · exact ⟨by simp, rfl⟩
    · exact ⟨by simp, rfl⟩
  files := rfl
  index := by simp [sample, samplePatch]

theorem sample_cell (i : ℤ) (h1 : 1 ≤ i) (h2 : i ≤ 4) : samplePatch.HasCell i 1 ∧ samplePatch.skip i 1 = false := by
  constructor
  · unfold Topo.Patch.HasCell samplePatch; simp; omega
  · simp [Topo.Patch.skip, samplePatch]

/-- In the sea of the first region, in both regions, and outside. -/
example : ∃ aux', setaux sample samplePatch (fun _ _ => -1) (fun _ => 7) = some aux' ∧ aux' (1, 1, 2) = 2 ∧ aux' (2, 1, 2) = 5 := by
  obtain ⟨aux', e, h, _⟩ := C106_partial sample samplePatch sample_valid (fun _ _ => -1) (fun _ => 7)
  refine ⟨aux', e, ?_, ?_⟩
  · obtain ⟨hc, hs⟩ := sample_cell 1 (by norm_num) (by norm_num)
    refine (h 1 1 hc hs).1 0 2 ⟨_, rfl, ?_, 1, 0, ⊥, rfl, rfl, rfl, bot_le, ?_⟩ ?_
    · constructor <;> constructor <;> simp [centre, samplePatch] <;> norm_num
    · simp [sample]
    · rintro m' c' hm ⟨R, eR, hmem, _⟩
      have : m' = 1 := by
        have := (List.getElem?_eq_some_iff.1 eR).1
        simp [sample] at this
        omega
      subst this
      simp [sample] at eR
      subst eR
      have := hmem.1.1
      simp [centre, samplePatch] at this
      norm_num at this
  · obtain ⟨hc, hs⟩ := sample_cell 2 (by norm_num) (by norm_num)
    refine (h 2 1 hc hs).1 1 5 ⟨_, rfl, ?_, 0, ⊤, ⊥, rfl, rfl, rfl, bot_le, ?_⟩ ?_
    · constructor <;> constructor <;> simp [centre, samplePatch] <;> norm_num
    · exact EReal.coe_lt_top _
    · rintro m' c' hm ⟨R, eR, _⟩
      have := (List.getElem?_eq_some_iff.1 eR).1
      simp [sample] at this
      omega

/-- Parameters of the source term: one coefficient, 1/40, for all heights below 10. -/
def sampleSource (useRegions : Bool) : GeoStep.Source :=
  ⟨true, true, 100, useRegions, 2, 1, fun _ => 10, fun _ => 1 / 40, false, 0, 0⟩

/-- A cell outside of all regions has no friction at all, instead of the constant coefficient, which is what it has if the regions are not
used. -/
theorem C106_default_counterexample : ∃ (S : Settings) (P : Topo.Patch) (ground : ℤ → ℤ → ℝ) (aux aux' : Grid ℝ) (i j : ℤ) (A B : GeoStep.Source),
    S.Valid P ∧ setaux S P ground aux = some aux' ∧ (1 ≤ i ∧ i ≤ P.d.mx) ∧ (1 ≤ j ∧ j ≤ P.d.my) ∧
    (∀ (m : ℕ) (R : Region), S.regions[m]? = some R → centre P i j ∉ R.set) ∧ A.variableFriction = true ∧ A.frictionIndex = S.index ∧
    A = { B with variableFriction := true } ∧ B.variableFriction = false ∧
    ∀ init, GeoStep.frictionCoeff A (fun m i j => aux' (i, j, m)) i j init = 0 ∧
      GeoStep.frictionCoeff B (fun m i j => aux' (i, j, m)) i j init = 1 / 40 := by
  obtain ⟨aux', e, h, hg, _⟩ := C106_partial sample samplePatch sample_valid (fun _ _ => -1) (fun _ => 7)
  have hout : ∀ (m : ℕ) R, sample.regions[m]? = some R → centre samplePatch 3 1 ∉ R.set := by
    rintro m R eR ⟨⟨_, h⟩, _⟩
    have hm := List.mem_of_getElem? eR
    simp [sample] at hm
    rcases hm with rfl | rfl
    · simp [centre, samplePatch] at h; norm_num at h
    · simp [centre, samplePatch] at h; norm_num at h
  obtain ⟨hc, hs⟩ := sample_cell 3 (by norm_num) (by norm_num)
  refine ⟨sample, samplePatch, fun _ _ => -1, fun _ => 7, aux', 3, 1, sampleSource true, sampleSource false, sample_valid, e, ?_, ?_, hout, rfl, rfl,
    rfl, rfl, ?_⟩
  · simp [samplePatch]
  · simp [samplePatch]
  · intro init
    constructor
    · unfold GeoStep.frictionCoeff sampleSource
      simp only [if_true]
      exact (h 3 1 hc hs).2 (by rintro m c ⟨R, eR, hm, _⟩; exact hout m R eR hm)
    · unfold GeoStep.frictionCoeff sampleSource GeoStep.manning
      simp [hg]
      norm_num

end

end Fclaw.Friction

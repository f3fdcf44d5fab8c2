import Verif.Elliptic.Energy
import Mathlib.LinearAlgebra.FiniteDimensional.Lemmas
import Mathlib.LinearAlgebra.FiniteDimensional.Basic
/-
The equation on a single patch has exactly one solution.
-/
set_option autoImplicit false
set_option linter.unusedSimpArgs false
set_option linter.unusedVariables false
namespace Fclaw.Elliptic

open Fort

variable {I : Info} {op : Op}

/-- The operator on a single patch. -/
def single (I : Info) (op : Op) (u : Grid ℚ) (c : Cell) : ℚ := discrete I op (alone I op u) u c.1 c.2.1 c.2.2

theorem single_add (u v : Grid ℚ) (c : Cell) : single I op (fun c => u c + v c) c = single I op u c + single I op v c := by
  unfold single discrete across
  simp only [alone_eq, Finset.sum_range_succ, Finset.sum_range_zero]
  split_ifs <;> ring

theorem single_smul (a : ℚ) (u : Grid ℚ) (c : Cell) : single I op (fun c => a * u c) c = a * single I op u c := by
  unfold single discrete across
  simp only [alone_eq, Finset.sum_range_succ, Finset.sum_range_zero]
  split_ifs <;> ring

/-- Values of the cells only. -/
abbrev Vec (I : Info) := Fin I.d.mx × Fin I.d.my × Fin I.d.meqn → ℚ

def cellOf (I : Info) (k : Fin I.d.mx × Fin I.d.my × Fin I.d.meqn) : Cell :=
  ((k.1 : ℤ) + 1, (k.2.1 : ℤ) + 1, (k.2.2 : ℤ) + 1)

theorem cellOf_body (k : Fin I.d.mx × Fin I.d.my × Fin I.d.meqn) : Body I (cellOf I k) := by
  obtain ⟨a, b, c⟩ := k
  simp only [Body, Inside, Field, cellOf]
  omega

theorem exists_cellOf (c : Cell) (h : Body I c) : ∃ k, cellOf I k = c := by
  obtain ⟨i, j, m⟩ := c
  simp only [Body, Inside, Field] at h
  refine ⟨(⟨(i - 1).toNat, by omega⟩, ⟨(j - 1).toNat, by omega⟩, ⟨(m - 1).toNat, by omega⟩), ?_⟩
  simp only [cellOf, Prod.mk.injEq]
  omega

theorem cellOf_inj (k l : Fin I.d.mx × Fin I.d.my × Fin I.d.meqn) (h : cellOf I k = cellOf I l) : k = l := by
  obtain ⟨a, b, c⟩ := k
  obtain ⟨a', b', c'⟩ := l
  simp only [cellOf, Prod.mk.injEq] at h
  ext <;> simp only <;> omega

open Classical in
/-- An array with these values. -/
noncomputable def spread (I : Info) (w : Vec I) (c : Cell) : ℚ := if h : ∃ k, cellOf I k = c then w h.choose else 0

theorem spread_cell (w : Vec I) (k : Fin I.d.mx × Fin I.d.my × Fin I.d.meqn) : spread I w (cellOf I k) = w k := by
  unfold spread
  have h : ∃ l, cellOf I l = cellOf I k := ⟨k, rfl⟩
  rw [dif_pos h, cellOf_inj _ _ h.choose_spec]

theorem spread_add (w w' : Vec I) : spread I (w + w') = fun c => spread I w c + spread I w' c := by
  funext c
  unfold spread
  by_cases h : ∃ k, cellOf I k = c
  · rw [dif_pos h, dif_pos h, dif_pos h]; rfl
  · rw [dif_neg h, dif_neg h, dif_neg h, add_zero]

theorem spread_smul (a : ℚ) (w : Vec I) : spread I (a • w) = fun c => a * spread I w c := by
  funext c
  unfold spread
  by_cases h : ∃ k, cellOf I k = c
  · rw [dif_pos h, dif_pos h]; rfl
  · rw [dif_neg h, dif_neg h, mul_zero]

noncomputable def linear (I : Info) (op : Op) : Vec I →ₗ[ℚ] Vec I where
  toFun w k := single I op (spread I w) (cellOf I k)
  map_add' w w' := by
    funext k
    rw [spread_add, single_add]
    rfl
  map_smul' a w := by
    funext k
    rw [spread_smul, single_smul]
    rfl

theorem single_zero (hok : Ok I op) (hc : Cells I) (hd : Definite I op) (m : ℤ) (u : Grid ℚ)
    (h : ∀ i j : ℤ, Inside I i j → single I op u (i, j, m) = 0) : ∀ i j : ℤ, Inside I i j → u (i, j, m) = 0 := by
  refine form_pos hok hc hd m u ?_
  have := form_eq (op := op) hc m u u
  rw [Finset.sum_eq_zero] at this
  · linarith
  · intro j hj
    refine Finset.sum_eq_zero fun i hi => ?_
    rw [Finset.mem_Icc] at hi hj
    have := h i j ⟨hi, hj⟩
    unfold single at this
    rw [this, mul_zero]

theorem single_unique (hok : Ok I op) (hc : Cells I) (hd : Definite I op) (m : ℤ) (u v : Grid ℚ)
    (h : ∀ i j : ℤ, Inside I i j → single I op u (i, j, m) = single I op v (i, j, m)) :
    ∀ i j : ℤ, Inside I i j → u (i, j, m) = v (i, j, m) := by
  intro i j hij
  have := single_zero hok hc hd m (fun c => u c + (-1) * v c) (by
    intro i j hij
    rw [single_add u fun c => -1 * v c, single_smul, h i j hij]; ring) i j hij
  beta_reduce at this
  linarith

theorem single_exists (hok : Ok I op) (hc : Cells I) (hd : Definite I op) (g : Grid ℚ) :
    ∃ u : Grid ℚ, ∀ c, Body I c → single I op u c = g c := by
  have hinj : Function.Injective (linear I op) := by
    refine (injective_iff_map_eq_zero _).2 fun w hw => ?_
    funext k
    rw [← spread_cell w k]
    refine single_zero hok hc hd (cellOf I k).2.2 (spread I w) (fun i j hij => ?_) _ _ (cellOf_body k).1
    obtain ⟨l, hl⟩ := exists_cellOf (i, j, (cellOf I k).2.2) ⟨hij, (cellOf_body k).2⟩
    rw [← hl]
    exact congrFun hw l
  have hsurj := LinearMap.surjective_of_injective hinj
  obtain ⟨w, hw⟩ := hsurj fun k => g (cellOf I k)
  refine ⟨spread I w, fun c hcc => ?_⟩
  obtain ⟨k, rfl⟩ := exists_cellOf c hcc
  exact congrFun hw k

end Fclaw.Elliptic

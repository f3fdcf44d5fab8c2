import Verif.BlockFace.Spec
import Mathlib.Tactic.Ring
import Mathlib.Tactic.Linarith
import Mathlib.Tactic.FieldSimp
import Mathlib.Tactic.NormNum
import Mathlib.Tactic.Positivity

set_option autoImplicit false
set_option linter.unusedSimpArgs false

namespace Fclaw.BlockFace

/-- The bits of the flags are independent of each other. -/
theorem bits (c : Fin 8) (s p g f0 f1 f2 f3 f4 f5 : Bool) :
    let F := orIf f5 FACE_5 (orIf f4 FACE_4 (orIf f3 FACE_3 (orIf f2 FACE_2 (orIf f1 FACE_1 (orIf f0 FACE_0
      (orIf g IS_GHOST (orIf p ON_PARALLEL_BOUNDARY (orIf s FIRST_SIBLING c.1))))))))
    F &&& CHILDID = c ∧ decide (F &&& FIRST_SIBLING ≠ 0) = s ∧ decide (F &&& ON_PARALLEL_BOUNDARY ≠ 0) = p ∧
    decide (F &&& IS_GHOST ≠ 0) = g ∧
    [FACE_0, FACE_1, FACE_2, FACE_3, FACE_4, FACE_5].map (fun b => decide (F &&& b ≠ 0))
      = [f0, f1, f2, f3, f4, f5] := by
  revert c s p g f0 f1 f2 f3 f4 f5
  decide +kernel

/-- Positions counted in lengths of the patch. -/
def count (a : Nat) : List Nat → Nat
  | [] => 0
  | c :: cs => side a c * 2 ^ cs.length + count a cs

theorem lowerEnd_count (a : Nat) (path : List Nat) :
    lowerEnd a path = count a path / 2 ^ path.length := by
  induction path with
  | nil => simp [lowerEnd, count]
  | cons c cs ih =>
    simp only [lowerEnd, count, ih, List.length_cons, pow_succ]
    push_cast
    field_simp

theorem count_lt (a : Nat) (path : List Nat) : count a path < 2 ^ path.length := by
  induction path with
  | nil => simp [count]
  | cons c cs ih =>
    simp only [count, List.length_cons, pow_succ]
    have : side a c ≤ 1 := by unfold side; omega
    have : side a c * 2 ^ cs.length ≤ 1 * 2 ^ cs.length := Nat.mul_le_mul_right _ this
    omega

theorem count_append (a : Nat) (path : List Nat) (c : Nat) :
    count a (path ++ [c]) = 2 * count a path + side a c := by
  induction path with
  | nil => simp [count]
  | cons x path ih =>
    simp only [List.cons_append, count, ih, List.length_append, List.length_singleton, pow_succ]
    ring

theorem at_count (L : Nat) (path : List Nat) (q : Quad) (h : At L path q) (hL : path.length ≤ L)
    (a : Nat) : q.x a = count a path * 2 ^ (L - path.length) := by
  have e := h.2 a
  rw [lowerEnd_count, div_eq_div_iff (by positivity) (by positivity)] at e
  have e2 : (2 : ℚ) ^ L = 2 ^ (L - path.length) * 2 ^ path.length := by
    rw [← pow_add]; congr 1; omega
  rw [e2, ← mul_assoc] at e
  have e3 := mul_right_cancel₀ (by positivity : (2 : ℚ) ^ path.length ≠ 0) e
  exact_mod_cast e3

theorem width_pos (path : List Nat) : 0 < width path := by unfold width; positivity

theorem lower_zero (L : Nat) (path : List Nat) (q : Quad) (h : At L path q) (a : Nat) :
    q.x a = 0 ↔ lowerEnd a path = 0 := by
  rw [← h.2 a]
  constructor
  · intro e; rw [e]; simp
  · intro e
    have : (q.x a : ℚ) = 0 := by
      rcases div_eq_zero_iff.1 e with e | e
      · exact e
      · exact absurd e (by positivity)
    exact_mod_cast this

theorem upper_eq (L : Nat) (path : List Nat) (q : Quad) (h : At L path q) (hL : path.length ≤ L)
    (a : Nat) : ((q.x a + quadLen L q.level : ℤ) : ℚ) / 2 ^ L = upperEnd a path := by
  unfold upperEnd quadLen width
  rw [h.1]
  push_cast
  rw [add_div, h.2 a]
  congr 1
  rw [div_eq_div_iff (by positivity) (by positivity), one_mul, ← pow_add]
  congr 1
  omega

theorem upper_one (L : Nat) (path : List Nat) (q : Quad) (h : At L path q) (hL : path.length ≤ L)
    (a : Nat) : q.x a + quadLen L q.level = rootLen L ↔ upperEnd a path = 1 := by
  rw [← upper_eq L path q h hL a, div_eq_one_iff_eq (by positivity)]
  unfold rootLen
  constructor
  · intro e; rw [e]; push_cast; rfl
  · intro e; exact_mod_cast e

theorem bit_eq (L : Nat) (path : List Nat) (c : Nat) (q : Quad) (h : At L (path ++ [c]) q)
    (hL : (path ++ [c]).length ≤ L) (a : Nat) :
    (q.x a / quadLen L q.level % 2).toNat = side a c := by
  rw [at_count L _ q h hL a, h.1]
  unfold quadLen
  rw [Int.mul_ediv_cancel _ (by positivity), count_append]
  have : side a c ≤ 1 := by unfold side; omega
  push_cast
  omega

theorem side_bits (c : Fin 8) : side 0 c ||| side 1 c <<< 1 ||| side 2 c <<< 2 = c.1 := by
  revert c; decide

theorem side_bits2 (c : Fin 4) : side 0 c ||| side 1 c <<< 1 = c.1 := by
  revert c; decide

/-- `p4est_quadrant_child_id` finds the last child number. -/
theorem childId_eq (dim3 : Bool) (L : Nat) (path : List Nat) (q : Quad) (h : At L path q)
    (hL : path.length ≤ L) (hc : ∀ c ∈ path, c < children dim3) :
    childId dim3 L q = path.getLastD 0 := by
  unfold childId
  rcases List.eq_nil_or_concat path with rfl | ⟨p, c, e⟩
  · rw [if_pos (show q.level = 0 from h.1)]; rfl
  · rw [List.concat_eq_append] at e
    subst e
    rw [if_neg (by rw [h.1]; simp)]
    dsimp only
    rw [bit_eq L p c q h hL, bit_eq L p c q h hL, bit_eq L p c q h hL, List.getLastD_concat]
    have hc := hc c (by simp)
    cases dim3 with
    | true =>
      rw [if_pos rfl]
      exact side_bits ⟨c, hc⟩
    | false =>
      rw [if_neg (by simp), Nat.or_zero]
      exact side_bits2 ⟨c, hc⟩

theorem last_lt (dim3 : Bool) (path : List Nat) (hc : ∀ c ∈ path, c < children dim3) :
    path.getLastD 0 < 8 := by
  have h8 : children dim3 ≤ 8 := by unfold children; split <;> omega
  rcases List.eq_nil_or_concat path with rfl | ⟨p, c, e⟩
  · decide
  · rw [List.concat_eq_append] at e
    subst e
    rw [List.getLastD_concat]
    exact lt_of_lt_of_le (hc c (by simp)) h8

end Fclaw.BlockFace

import Verif.CellAve.Lemmas
import Verif.CellAve.Spec
import Verif.CellAve.Line
import Mathlib.Tactic.NormNum
import Mathlib.Data.Rat.Cast.Order
/-
C110: fractions of cells.
-/
set_option autoImplicit false
set_option linter.unusedSectionVars false
set_option linter.unusedSimpArgs false
set_option linter.unusedVariables false
namespace Fclaw.CellAve

variable {K : Type} [Field K] [LinearOrder K] [IsStrictOrderedRing K]

/-- **C110.** The fraction is 1 if all corners are on the left side, and 0 if none is. -/
theorem C110_whole (find : (K → K) → Option K) (fdisc : Pt K → K) (xlow ylow dx dy : K) :
    ((∀ x ∈ [xlow, xlow + dx], ∀ y ∈ [ylow, ylow + dy], fdisc (x, y) < 0) → cellave2 find fdisc xlow ylow dx dy = some 1) ∧
    ((∀ x ∈ [xlow, xlow + dx], ∀ y ∈ [ylow, ylow + dy], 0 ≤ fdisc (x, y)) → cellave2 find fdisc xlow ylow dx dy = some 0) := by
  constructor
  · intro h
    unfold cellave2 corners
    simp [h]
  · intro h
    have h1 : ∀ x ∈ [xlow, xlow + dx], ∀ y ∈ [ylow, ylow + dy], ¬ fdisc (x, y) < 0 := fun x hx y hy => not_lt.2 (h x hx y hy)
    unfold cellave2 corners
    simp [h1]

/-- **C110.** `zeroin` never divides by zero, and if it comes to an end, then with a zero of the function, or with a point and another one, not further away than
twice its tolerance, between which the function changes its sign. -/
theorem C110_zeroin (f : K → K) (eps tol ax bx : K) (n : ℕ) (h : f ax * f bx ≤ 0) :
    zeroin eps n f ax bx tol ≠ .divisionByZero ∧
    ∀ x, zeroin eps n f ax bx tol = .value x → f x = 0 ∨ ∃ c, |c - x| ≤ 2 * (2 * eps * |x| + tol / 2) ∧ f c * f x < 0 := by
  obtain ⟨h1, h2⟩ := run_spec f eps tol n _ (start_inv f ax bx h)
  refine ⟨h1, fun x hx => ?_⟩
  rcases h2 x hx with h3 | ⟨c, h3, h4⟩
  · exact Or.inl h3
  · refine Or.inr ⟨c, ?_, h4⟩
    unfold tol1 at h3
    have : tol / 2 = 1 / 2 * tol := by ring
    rw [this]
    exact h3

/-- One of the four edges. -/
theorem find_or (find : (K → K) → Option K) (R : K → Prop) (fdisc : Pt K → K) (p q : Pt K)
    (h : Separates fdisc p q → ∃ s, find (fss fdisc p q) = some s ∧ R s) :
    ∃ s, Separates fdisc p q → find (fss fdisc p q) = some s ∧ R s := by
  by_cases hs : Separates fdisc p q
  · obtain ⟨s, e⟩ := h hs
    exact ⟨s, fun _ => e⟩
  · exact ⟨0, fun h => absurd h hs⟩

/-- Half of a product of two numbers between 0 and 1. -/
theorem half_mul {a b : K} (ha : 0 ≤ a ∧ a ≤ 1) (hb : 0 ≤ b ∧ b ≤ 1) : 0 ≤ a * b / 2 ∧ a * b / 2 ≤ 1 / 2 := by
  have h1 := mul_nonneg ha.1 hb.1
  have h2 := mul_le_one₀ ha.2 hb.1 hb.2
  constructor <;> linarith

theorem comp {a : K} (ha : 0 ≤ a ∧ a ≤ 1) : 0 ≤ 1 - a ∧ 1 - a ≤ 1 := ⟨by linarith [ha.2], by linarith [ha.1]⟩

/-- **C110 (partial).** If the points that are found are on the edges of the cell, the fraction is between 0 and 1, so that initial values are
between the two states. Missing: `zeroin` can find points elsewhere. -/
theorem C110_range_partial (find : (K → K) → Option K) (fdisc : Pt K → K) (xlow ylow dx dy : K) (hx : 0 < dx) (hy : 0 < dy)
    (h : Found find (fun s => 0 ≤ s ∧ s ≤ 1) fdisc xlow ylow dx dy) :
    ∃ w, cellave2 find fdisc xlow ylow dx dy = some w ∧ 0 ≤ w ∧ w ≤ 1 := by
  obtain ⟨s1, H1⟩ := find_or find (fun s => 0 ≤ s ∧ s ≤ 1) fdisc (xlow, ylow) (xlow, ylow + dy) h.left
  obtain ⟨s2, H2⟩ := find_or find (fun s => 0 ≤ s ∧ s ≤ 1) fdisc (xlow, ylow + dy) (xlow + dx, ylow + dy) h.top
  obtain ⟨s3, H3⟩ := find_or find (fun s => 0 ≤ s ∧ s ≤ 1) fdisc (xlow + dx, ylow + dy) (xlow + dx, ylow) h.right
  obtain ⟨s4, H4⟩ := find_or find (fun s => 0 ≤ s ∧ s ≤ 1) fdisc (xlow + dx, ylow) (xlow, ylow) h.bottom
  have key : ∀ A w : K, A = w * (dx * dy) → 0 ≤ w → w ≤ 1 → 0 ≤ A / (dx * dy) ∧ A / (dx * dy) ≤ 1 := by
    intro A w e h0 h1
    have : (0 : K) < dx * dy := mul_pos hx hy
    rw [e, mul_div_assoc, div_self this.ne', mul_one]
    exact ⟨h0, h1⟩
  unfold Separates at H1 H2 H3 H4
  by_cases c1 : fdisc (xlow, ylow) < 0 <;> by_cases c2 : fdisc (xlow, ylow + dy) < 0 <;>
  by_cases c3 : fdisc (xlow + dx, ylow + dy) < 0 <;> by_cases c4 : fdisc (xlow + dx, ylow) < 0 <;>
  simp only [c1, c2, c3, c4, not_true_eq_false, not_false_eq_true, iff_true, true_iff, iff_false, false_iff, false_imp_iff, true_imp_iff, forall_const] at H1 H2 H3 H4 <;>
  simp only [cellave2, corners, side, c1, c2, c3, c4, H1, H2, H3, H4, decide_true, decide_false, Bool.and_true, Bool.true_and, Bool.and_false,
    Bool.false_and, Bool.not_true, Bool.not_false, if_true, if_false, ne_eq, not_true_eq_false, not_false_eq_true, Bool.true_eq_false,
    Bool.false_eq_true, Option.bind_some, List.nil_append, List.cons_append, List.append_nil, areaFrom, term, Option.some.injEq, exists_eq_left'] <;>
  first
  | exact ⟨le_refl _, zero_le_one⟩
  | exact ⟨zero_le_one, le_refl _⟩
  | skip
  all_goals
    first
    | (refine key _ (s1 * (1 - s4) / 2) ?_ ?_ ?_
       · ring1
       · linarith [(half_mul H1.2 (comp H4.2)).1, (half_mul H1.2 (comp H4.2)).2]
       · linarith [(half_mul H1.2 (comp H4.2)).1, (half_mul H1.2 (comp H4.2)).2])
    | (refine key _ ((1 - s1) * s2 / 2) ?_ ?_ ?_
       · ring1
       · linarith [(half_mul (comp H1.2) H2.2).1, (half_mul (comp H1.2) H2.2).2]
       · linarith [(half_mul (comp H1.2) H2.2).1, (half_mul (comp H1.2) H2.2).2])
    | (refine key _ ((1 - s2) * s3 / 2) ?_ ?_ ?_
       · ring1
       · linarith [(half_mul (comp H2.2) H3.2).1, (half_mul (comp H2.2) H3.2).2]
       · linarith [(half_mul (comp H2.2) H3.2).1, (half_mul (comp H2.2) H3.2).2])
    | (refine key _ ((1 - s3) * s4 / 2) ?_ ?_ ?_
       · ring1
       · linarith [(half_mul (comp H3.2) H4.2).1, (half_mul (comp H3.2) H4.2).2]
       · linarith [(half_mul (comp H3.2) H4.2).1, (half_mul (comp H3.2) H4.2).2])
    | (refine key _ ((s2 + 1 - s4) / 2) ?_ ?_ ?_
       · ring1
       · linarith [(H2.2).1, (H2.2).2, (H4.2).1, (H4.2).2]
       · linarith [(H2.2).1, (H2.2).2, (H4.2).1, (H4.2).2])
    | (refine key _ ((1 - s1 + s3) / 2) ?_ ?_ ?_
       · ring1
       · linarith [(H1.2).1, (H1.2).2, (H3.2).1, (H3.2).2]
       · linarith [(H1.2).1, (H1.2).2, (H3.2).1, (H3.2).2])
    | (refine key _ ((1 - s2 + s4) / 2) ?_ ?_ ?_
       · ring1
       · linarith [(H2.2).1, (H2.2).2, (H4.2).1, (H4.2).2]
       · linarith [(H2.2).1, (H2.2).2, (H4.2).1, (H4.2).2])
    | (refine key _ ((s1 + 1 - s3) / 2) ?_ ?_ ?_
       · ring1
       · linarith [(H1.2).1, (H1.2).2, (H3.2).1, (H3.2).2]
       · linarith [(H1.2).1, (H1.2).2, (H3.2).1, (H3.2).2])
    | (refine key _ (1 - s1 * (1 - s4) / 2) ?_ ?_ ?_
       · ring1
       · linarith [(half_mul H1.2 (comp H4.2)).1, (half_mul H1.2 (comp H4.2)).2]
       · linarith [(half_mul H1.2 (comp H4.2)).1, (half_mul H1.2 (comp H4.2)).2])
    | (refine key _ (1 - (1 - s1) * s2 / 2) ?_ ?_ ?_
       · ring1
       · linarith [(half_mul (comp H1.2) H2.2).1, (half_mul (comp H1.2) H2.2).2]
       · linarith [(half_mul (comp H1.2) H2.2).1, (half_mul (comp H1.2) H2.2).2])
    | (refine key _ (1 - (1 - s2) * s3 / 2) ?_ ?_ ?_
       · ring1
       · linarith [(half_mul (comp H2.2) H3.2).1, (half_mul (comp H2.2) H3.2).2]
       · linarith [(half_mul (comp H2.2) H3.2).1, (half_mul (comp H2.2) H3.2).2])
    | (refine key _ (1 - (1 - s3) * s4 / 2) ?_ ?_ ?_
       · ring1
       · linarith [(half_mul (comp H3.2) H4.2).1, (half_mul (comp H3.2) H4.2).2]
       · linarith [(half_mul (comp H3.2) H4.2).1, (half_mul (comp H3.2) H4.2).2])
    | (refine key _ (1 - (1 - s1) * s2 / 2 - (1 - s3) * s4 / 2) ?_ ?_ ?_
       · ring1
       · linarith [(half_mul (comp H1.2) H2.2).1, (half_mul (comp H1.2) H2.2).2, (half_mul (comp H3.2) H4.2).1, (half_mul (comp H3.2) H4.2).2]
       · linarith [(half_mul (comp H1.2) H2.2).1, (half_mul (comp H1.2) H2.2).2, (half_mul (comp H3.2) H4.2).1, (half_mul (comp H3.2) H4.2).2])
    | (refine key _ (1 - s1 * (1 - s4) / 2 - (1 - s2) * s3 / 2) ?_ ?_ ?_
       · ring1
       · linarith [(half_mul H1.2 (comp H4.2)).1, (half_mul H1.2 (comp H4.2)).2, (half_mul (comp H2.2) H3.2).1, (half_mul (comp H2.2) H3.2).2]
       · linarith [(half_mul H1.2 (comp H4.2)).1, (half_mul H1.2 (comp H4.2)).2, (half_mul (comp H2.2) H3.2).1, (half_mul (comp H2.2) H3.2).2])

theorem line_p1 {f1 f2 f4 s1 s4 : ℝ} (E1 : f1 + s1 * (f2 - f1) = 0) (E4 : f4 + s4 * (f1 - f4) = 0) :
    s1 * (1 - s4) * ((f4 - f1) * (f2 - f1)) = f1 ^ 2 := by
  linear_combination (f4 - f1 - s4 * (f4 - f1)) * E1 - f1 * E4

theorem line_p2 {f1 f2 f3 f4 s1 s2 : ℝ} (E1 : f1 + s1 * (f2 - f1) = 0) (E2 : f2 + s2 * (f3 - f2) = 0) (S : f1 + f3 = f2 + f4) :
    (1 - s1) * s2 * ((f4 - f1) * (f2 - f1)) = -f2 ^ 2 := by
  have : f3 = f2 + f4 - f1 := by linarith
  subst this
  linear_combination (f2 - f1 - s1 * (f2 - f1)) * E2 + f2 * E1

theorem line_p3 {f1 f2 f3 f4 s2 s3 : ℝ} (E2 : f2 + s2 * (f3 - f2) = 0) (E3 : f3 + s3 * (f4 - f3) = 0) (S : f1 + f3 = f2 + f4) :
    (1 - s2) * s3 * ((f4 - f1) * (f2 - f1)) = f3 ^ 2 := by
  have : f3 = f2 + f4 - f1 := by linarith
  subst this
  linear_combination -(f4 - f1 - s2 * (f4 - f1)) * E3 - (f2 + f4 - f1) * E2

theorem line_p4 {f1 f2 f3 f4 s3 s4 : ℝ} (E3 : f3 + s3 * (f4 - f3) = 0) (E4 : f4 + s4 * (f1 - f4) = 0) (S : f1 + f3 = f2 + f4) :
    (1 - s3) * s4 * ((f4 - f1) * (f2 - f1)) = -f4 ^ 2 := by
  have : f3 = f2 + f4 - f1 := by linarith
  subst this
  linear_combination -(f2 - f1 - s3 * (f2 - f1)) * E4 + f4 * E3

/-- **C110.** For a straight line, if the points that are found are the zeros, the fraction is exact: it is the area of the part of the cell on
which the function is negative, divided by the area of the cell. -/
theorem C110_line (find : (ℝ → ℝ) → Option ℝ) (A B C x0 y0 dx dy : ℝ) (hx : 0 < dx) (hy : 0 < dy)
    (hz : ∀ g s, find g = some s → g s = 0) (h : Found find (fun _ => True) (fun p => A + B * p.1 + C * p.2) x0 y0 dx dy) :
    ∃ w, cellave2 find (fun p => A + B * p.1 + C * p.2) x0 y0 dx dy = some w ∧
      w * (dx * dy) = ∫ x in x0..x0 + dx, ∫ y in y0..y0 + dy, if A + B * x + C * y < 0 then (1 : ℝ) else 0 := by
  obtain ⟨f, hf⟩ : ∃ f : Pt ℝ → ℝ, f = fun p => A + B * p.1 + C * p.2 := ⟨_, rfl⟩
  rw [← hf] at h ⊢
  obtain ⟨s1, H1⟩ := find_or find (fun _ => True) f (x0, y0) (x0, y0 + dy) h.left
  obtain ⟨s2, H2⟩ := find_or find (fun _ => True) f (x0, y0 + dy) (x0 + dx, y0 + dy) h.top
  obtain ⟨s3, H3⟩ := find_or find (fun _ => True) f (x0 + dx, y0 + dy) (x0 + dx, y0) h.right
  obtain ⟨s4, H4⟩ := find_or find (fun _ => True) f (x0 + dx, y0) (x0, y0) h.bottom
  have zero : ∀ (p q : Pt ℝ) (s : ℝ), find (fss f p q) = some s → f p + s * (f q - f p) = 0 := by
    intro p q s e
    have := hz _ _ e
    rw [fss, hf] at this
    rw [hf]
    dsimp only at this ⊢
    linarith
  have sum : f (x0, y0) + f (x0 + dx, y0 + dy) = f (x0, y0 + dy) + f (x0 + dx, y0) := by rw [hf]; ring
  have Z1 := fun q => zero _ _ s1 (H1 q).1
  have Z2 := fun q => zero _ _ s2 (H2 q).1
  have Z3 := fun q => zero _ _ s3 (H3 q).1
  have Z4 := fun q => zero _ _ s4 (H4 q).1
  have key := area_corners A B C x0 y0 dx dy hx hy (f (x0, y0)) (f (x0, y0 + dy)) (f (x0 + dx, y0 + dy)) (f (x0 + dx, y0)) (by rw [hf])
    (by rw [hf]) (by rw [hf]) (by rw [hf])
  have hp : dx * dy ≠ 0 := (mul_pos hx hy).ne'
  have key2 : ∀ P w : ℝ, P = w * (dx * dy) →
      w * (dx * dy) = (∫ x in x0..x0 + dx, ∫ y in y0..y0 + dy, if A + B * x + C * y < 0 then (1 : ℝ) else 0) →
      P / (dx * dy) * (dx * dy) = ∫ x in x0..x0 + dx, ∫ y in y0..y0 + dy, if A + B * x + C * y < 0 then (1 : ℝ) else 0 := by
    intro P w e1 e2
    rw [div_mul_cancel₀ _ hp, e1, e2]
  generalize hI : (∫ x in x0..x0 + dx, ∫ y in y0..y0 + dy, if A + B * x + C * y < 0 then (1 : ℝ) else 0) = I at key key2 ⊢
  clear hI hz zero h hf
  unfold Separates at H1 H2 H3 H4 Z1 Z2 Z3 Z4
  by_cases c1 : f (x0, y0) < 0 <;> by_cases c2 : f (x0, y0 + dy) < 0 <;>
  by_cases c3 : f (x0 + dx, y0 + dy) < 0 <;> by_cases c4 : f (x0 + dx, y0) < 0 <;>
  simp only [c1, c2, c3, c4, not_true_eq_false, not_false_eq_true, iff_true, true_iff, iff_false, false_iff, false_imp_iff, true_imp_iff, forall_const]
    at H1 H2 H3 H4 Z1 Z2 Z3 Z4 <;>
  simp only [cellave2, corners, side, c1, c2, c3, c4, H1, H2, H3, H4, decide_true, decide_false, Bool.and_true, Bool.true_and, Bool.and_false,
    Bool.false_and, Bool.not_true, Bool.not_false, if_true, if_false, ne_eq, not_true_eq_false, not_false_eq_true, Bool.true_eq_false,
    Bool.false_eq_true, Option.bind_some, List.nil_append, List.cons_append, List.append_nil, areaFrom, term, Option.some.injEq, exists_eq_left']
  all_goals
    (simp only [neg_if, c1, c2, c3, c4, if_true, if_false] at key)
  all_goals
    generalize f (x0, y0) = g1 at key Z1 Z2 Z3 Z4 sum c1 c2 c3 c4
    generalize f (x0, y0 + dy) = g2 at key Z1 Z2 Z3 Z4 sum c1 c2 c3 c4
    generalize f (x0 + dx, y0 + dy) = g3 at key Z1 Z2 Z3 Z4 sum c1 c2 c3 c4
    generalize f (x0 + dx, y0) = g4 at key Z1 Z2 Z3 Z4 sum c1 c2 c3 c4
  · refine key 1 ?_ ?_ ?_ ?_
    · intro _ _
      linear_combination -(g3 + g2 + g4 - g1) * sum
    · intro _ _; ring
    · intro _ _; ring
    · intro _ _; rfl
  · refine key2 _ (1 - (1 - s3) * s4 / 2) (by ring) (key _ ?_ ?_ ?_ ?_)
    · intro _ _
      linear_combination -(line_p4 Z3 Z4 sum) - (g3 + g2 + g4 - g1) * sum
    · intro q _; exfalso; linarith
    · intro q _; exfalso; linarith
    · intro q _; exfalso; linarith
  · refine key2 _ (1 - (1 - s2) * s3 / 2) (by ring) (key _ ?_ ?_ ?_ ?_)
    · intro _ _
      linear_combination -(line_p3 Z2 Z3 sum) - (g3 + g2 + g4 - g1) * sum
    · intro q _; exfalso; linarith
    · intro q _; exfalso; linarith
    · intro q _; exfalso; linarith
  · have l2 : s2 * (g4 - g1) = -g2 := by linear_combination Z2 - s2 * sum
    have l4 : s4 * (g4 - g1) = g4 := by linear_combination -Z4
    refine key2 _ ((s2 + 1 - s4) / 2) (by ring) (key _ ?_ ?_ ?_ ?_)
    · intro _ _
      linear_combination (g2 - g1) * (l2 - l4)
    · intro q _
      linear_combination (l2 - l4) / 2 - q / 2
    · intro q _
      exfalso; linarith
    · intro q _; exfalso; linarith
  · refine key2 _ (1 - (1 - s1) * s2 / 2) (by ring) (key _ ?_ ?_ ?_ ?_)
    · intro _ _
      linear_combination -(line_p2 Z1 Z2 sum) - (g3 + g2 + g4 - g1) * sum
    · intro q _; exfalso; linarith
    · intro q _; exfalso; linarith
    · intro q _; exfalso; linarith
  · exfalso
    linarith
  · have l1 : s1 * (g2 - g1) = -g1 := by linear_combination Z1
    have l3 : s3 * (g2 - g1) = g3 := by linear_combination -Z3 - s3 * sum
    refine key2 _ ((s1 + 1 - s3) / 2) (by ring) (key _ ?_ ?_ ?_ ?_)
    · intro _ _
      linear_combination (g4 - g1) * (l1 - l3) - (g4 - g1) * sum
    · intro q _
      exfalso; linarith
    · intro q _
      linear_combination (l1 - l3) / 2 - (sum + q) / 2
    · intro q _; exfalso; linarith
  · refine key2 _ (s1 * (1 - s4) / 2) (by ring) (key _ ?_ ?_ ?_ ?_)
    · intro _ _
      linear_combination line_p1 Z1 Z4
    · intro q _; exfalso; linarith
    · intro q _; exfalso; linarith
    · intro q _; exfalso; linarith
  · refine key2 _ (1 - s1 * (1 - s4) / 2) (by ring) (key _ ?_ ?_ ?_ ?_)
    · intro _ _
      linear_combination -(line_p1 Z1 Z4) - (g3 + g2 + g4 - g1) * sum
    · intro q _; exfalso; linarith
    · intro q _; exfalso; linarith
    · intro q _; exfalso; linarith
  · have l1 : s1 * (g2 - g1) = -g1 := by linear_combination Z1
    have l3 : s3 * (g2 - g1) = g3 := by linear_combination -Z3 - s3 * sum
    refine key2 _ ((1 - s1 + s3) / 2) (by ring) (key _ ?_ ?_ ?_ ?_)
    · intro _ _
      linear_combination (g4 - g1) * (l3 - l1) - (g3 + g2) * sum
    · intro q _
      exfalso; linarith
    · intro q _
      linear_combination (l3 - l1) / 2 + (sum + q) / 2
    · intro q _; exfalso; linarith
  · exfalso
    linarith
  · refine key2 _ ((1 - s1) * s2 / 2) (by ring) (key _ ?_ ?_ ?_ ?_)
    · intro _ _
      linear_combination line_p2 Z1 Z2 sum
    · intro q _; exfalso; linarith
    · intro q _; exfalso; linarith
    · intro q _; exfalso; linarith
  · have l2 : s2 * (g4 - g1) = -g2 := by linear_combination Z2 - s2 * sum
    have l4 : s4 * (g4 - g1) = g4 := by linear_combination -Z4
    refine key2 _ ((1 - s2 + s4) / 2) (by ring) (key _ ?_ ?_ ?_ ?_)
    · intro _ _
      linear_combination (g2 - g1) * (l4 - l2) - (g3 + g4 + g2 - g1) * sum
    · intro q _
      linear_combination (l4 - l2) / 2 + q / 2
    · intro q _
      exfalso; linarith
    · intro q _; exfalso; linarith
  · refine key2 _ ((1 - s2) * s3 / 2) (by ring) (key _ ?_ ?_ ?_ ?_)
    · intro _ _
      linear_combination line_p3 Z2 Z3 sum
    · intro q _; exfalso; linarith
    · intro q _; exfalso; linarith
    · intro q _; exfalso; linarith
  · refine key2 _ ((1 - s3) * s4 / 2) (by ring) (key _ ?_ ?_ ?_ ?_)
    · intro _ _
      linear_combination line_p4 Z3 Z4 sum
    · intro q _; exfalso; linarith
    · intro q _; exfalso; linarith
    · intro q _; exfalso; linarith
  · refine key 0 ?_ ?_ ?_ ?_
    · intro _ _; ring
    · intro _ _; ring
    · intro _ _; ring
    · intro _ _; rfl

/-- The line `x + y = 1/2` crosses the unit cell in the middles of two edges. -/
example : ∃ find : (ℝ → ℝ) → Option ℝ, (∀ g s, find g = some s → g s = 0) ∧
    Found find (fun _ => True) (fun p => -1 / 2 + 1 * p.1 + 1 * p.2) 0 0 1 1 := by
  classical
  refine ⟨fun g => if g (1 / 2) = 0 then some (1 / 2) else none, ?_, ?_⟩
  · intro g s e
    by_cases q : g (1 / 2) = 0
    · simp only [q, if_true, Option.some.injEq] at e
      rw [← e]; exact q
    · simp only [q, if_false] at e
      cases e
  · constructor
    · intro _; exact ⟨1 / 2, by norm_num, trivial⟩
    · intro q; exact absurd (by norm_num) q
    · intro q; exact absurd (by norm_num) q
    · intro _; exact ⟨1 / 2, by norm_num, trivial⟩

theorem flip_sign {a : K} (h : a ≠ 0) : -a < 0 ↔ ¬ a < 0 := by
  rw [neg_lt_zero, not_lt]
  exact ⟨le_of_lt, fun q => lt_of_le_of_ne q (Ne.symm h)⟩

theorem flip_fss (eps tol : K) (n : ℕ) (fdisc : Pt K → K) (p q : Pt K) :
    call eps tol n (fss (fun p => -fdisc p) p q) = call eps tol n (fss fdisc p q) := flip_call eps tol n (fss fdisc p q)

/-- **C110.** The fractions for both sides add up to 1, whatever points are found, unless opposite corners are on the same side. -/
theorem C110_both (eps tol : K) (n : ℕ) (fdisc : Pt K → K) (xlow ylow dx dy : K) (hx : 0 < dx) (hy : 0 < dy)
    (h0 : ∀ x ∈ [xlow, xlow + dx], ∀ y ∈ [ylow, ylow + dy], fdisc (x, y) ≠ 0) (hs : ¬ Saddle fdisc xlow ylow dx dy)
    (h : Found (call eps tol n) (fun _ => True) fdisc xlow ylow dx dy) :
    ∃ w, cellave2 (call eps tol n) fdisc xlow ylow dx dy = some w ∧
      cellave2 (call eps tol n) (fun p => -fdisc p) xlow ylow dx dy = some (1 - w) := by
  have hp : dx * dy ≠ 0 := (mul_pos hx hy).ne'
  obtain ⟨s1, H1⟩ := find_or (call eps tol n) (fun _ => True) fdisc (xlow, ylow) (xlow, ylow + dy) h.left
  obtain ⟨s2, H2⟩ := find_or (call eps tol n) (fun _ => True) fdisc (xlow, ylow + dy) (xlow + dx, ylow + dy) h.top
  obtain ⟨s3, H3⟩ := find_or (call eps tol n) (fun _ => True) fdisc (xlow + dx, ylow + dy) (xlow + dx, ylow) h.right
  obtain ⟨s4, H4⟩ := find_or (call eps tol n) (fun _ => True) fdisc (xlow + dx, ylow) (xlow, ylow) h.bottom
  have n1 : -fdisc (xlow, ylow) < 0 ↔ ¬ fdisc (xlow, ylow) < 0 := flip_sign (h0 _ (by simp) _ (by simp))
  have n2 : -fdisc (xlow, ylow + dy) < 0 ↔ ¬ fdisc (xlow, ylow + dy) < 0 := flip_sign (h0 _ (by simp) _ (by simp))
  have n3 : -fdisc (xlow + dx, ylow + dy) < 0 ↔ ¬ fdisc (xlow + dx, ylow + dy) < 0 := flip_sign (h0 _ (by simp) _ (by simp))
  have n4 : -fdisc (xlow + dx, ylow) < 0 ↔ ¬ fdisc (xlow + dx, ylow) < 0 := flip_sign (h0 _ (by simp) _ (by simp))
  have key : ∀ A B : K, A + B = dx * dy → B / (dx * dy) = 1 - A / (dx * dy) := by
    intro A B e
    rw [eq_sub_iff_add_eq, ← add_div, add_comm, e, div_self hp]
  unfold Saddle Separates at hs
  unfold Separates at H1 H2 H3 H4
  by_cases c1 : fdisc (xlow, ylow) < 0 <;> by_cases c2 : fdisc (xlow, ylow + dy) < 0 <;>
  by_cases c3 : fdisc (xlow + dx, ylow + dy) < 0 <;> by_cases c4 : fdisc (xlow + dx, ylow) < 0 <;>
  simp only [c1, c2, c3, c4, not_true_eq_false, not_false_eq_true, iff_true, true_iff, iff_false, false_iff, false_imp_iff, true_imp_iff, forall_const,
    and_true, true_and, and_false, false_and] at H1 H2 H3 H4 hs n1 n2 n3 n4 <;>
  simp only [cellave2, corners, side, c1, c2, c3, c4, n1, n2, n3, n4, H1, H2, H3, H4, flip_fss, decide_true, decide_false, Bool.and_true,
    Bool.true_and, Bool.and_false, Bool.false_and, Bool.not_true, Bool.not_false, if_true, if_false, ne_eq, not_true_eq_false, not_false_eq_true,
    Bool.true_eq_false, Bool.false_eq_true, Option.bind_some, List.nil_append, List.cons_append, List.append_nil, areaFrom, term, Option.some.injEq,
    exists_eq_left'] <;>
  first
  | exact (sub_zero _).symm
  | exact (sub_self _).symm
  | exact key _ _ (by ring)

/-! A straight line through a cell: it cuts off a corner. -/

/-- Negative below the line. -/
def exLine (p : Pt ℚ) : ℚ := p.1 + 2 * p.2 - 5 / 2

theorem ex_found (R : ℚ → Prop) (hR : R (1 / 2) ∧ R (1 / 4)) : Found (call (1 / 2 ^ 53) (1 / 10 ^ 14) 9) R exLine 0 0 1 1 := by
  refine ⟨?_, ?_, ?_, ?_⟩
  · intro h
    exact absurd h (by unfold Separates; decide +kernel)
  · intro _
    exact ⟨1 / 2, by decide +kernel, hR.1⟩
  · intro _
    exact ⟨1 / 4, by decide +kernel, hR.2⟩
  · intro h
    exact absurd h (by unfold Separates; decide +kernel)

example : ∃ w, cellave2 (call (1 / 2 ^ 53) (1 / 10 ^ 14) 9) exLine 0 0 1 1 = some w ∧ 0 ≤ w ∧ w ≤ 1 :=
  C110_range_partial _ _ 0 0 1 1 (by norm_num) (by norm_num) (ex_found _ (by norm_num))

example : cellave2 (call (1 / 2 ^ 53) (1 / 10 ^ 14) 9) exLine 0 0 1 1 = some (15 / 16) := by decide +kernel

example : ∃ w, cellave2 (call (1 / 2 ^ 53) (1 / 10 ^ 14) 9) exLine 0 0 1 1 = some w ∧
    cellave2 (call (1 / 2 ^ 53) (1 / 10 ^ 14) 9) (fun p => -exLine p) 0 0 1 1 = some (1 - w) := by
  refine C110_both _ _ _ _ 0 0 1 1 (by norm_num) (by norm_num) ?_ ?_ (ex_found _ ⟨trivial, trivial⟩)
  · intro x hx y hy
    simp only [List.mem_cons, List.not_mem_nil, or_false, zero_add] at hx hy
    rcases hx with rfl | rfl <;> rcases hy with rfl | rfl <;> norm_num [exLine]
  · unfold Saddle Separates
    decide +kernel

example : (fun s : ℚ => exLine (s, 1)) 0 * (fun s : ℚ => exLine (s, 1)) 1 ≤ 0 ∧
    zeroin (1 / 2 ^ 53) 9 (fun s => exLine (s, 1)) 0 1 (1 / 10 ^ 14) = .value (1 / 2) := by decide +kernel

example : cellave2 (fun _ => none) exLine (-1) (-1) 1 1 = some 1 :=
  (C110_whole _ exLine (-1) (-1) 1 1).1 (by decide +kernel)

/-! A smooth function for which the fraction is more than 1. -/

/-- A polynomial. On the left edge it has zeros at 1 - 10⁻¹⁵ and at 3/2, which is outside of the cell. -/
def exDisc (p : Pt ℚ) : ℚ := (1 - p.1) * (-(p.2 - (1 - 1 / 10 ^ 15)) * (p.2 - 3 / 2)) + p.1 * ((4 * p.2 - 3) / 3)

/-- **C110 (counterexample).** On the left edge of the unit square, on which there is a zero, `zeroin` finds one outside of the edge; `cellave2` then gives
the fraction 9/8. The tolerance and the precision are those of the program. -/
theorem C110_range_counterexample :
    exDisc (0, 0) < 0 ∧ 0 < exDisc (0, 1) ∧ exDisc (0, 1 - 1 / 10 ^ 15) = 0 ∧
    zeroin (1 / 2 ^ 53) 2 (fun s => exDisc (0, s)) 0 1 (1 / 10 ^ 14) = .value (3 / 2) ∧
    cellave2 (call (1 / 2 ^ 53) (1 / 10 ^ 14) 2) exDisc 0 0 1 1 = some (9 / 8) := by
  refine ⟨by decide +kernel, by decide +kernel, by decide +kernel, ?_, ?_⟩
  · decide +kernel
  · decide +kernel

end Fclaw.CellAve

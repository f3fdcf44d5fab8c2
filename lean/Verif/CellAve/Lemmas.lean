import Verif.CellAve.Model
import Mathlib.Tactic.Linarith
import Mathlib.Tactic.Ring
import Mathlib.Tactic.FieldSimp
import Mathlib.Algebra.Order.Ring.Abs
/-
Helpers for C110.
-/
set_option autoImplicit false
set_option linter.unusedSectionVars false
namespace Fclaw.CellAve

variable {K : Type} [Field K] [LinearOrder K] [IsStrictOrderedRing K]

/-- What holds at label 30. -/
structure Inv (f : K → K) (s : St K) : Prop where
  fa : s.fa = f s.a
  fb : s.fb = f s.b
  fc : s.fc = f s.c
  sign : s.fb * s.fc ≤ 0

theorem inv_at30 (f : K → K) (s : St K) (h : Inv f s) : Inv f (at30 s) ∧ |(at30 s).fb| ≤ |(at30 s).fc| := by
  unfold at30
  split_ifs with hc
  · exact ⟨h, hc⟩
  · refine ⟨⟨h.fb, h.fc, h.fb, ?_⟩, le_of_lt (not_le.1 hc)⟩
    have := h.sign
    dsimp only
    rwa [mul_comm]

theorem quot_ne (x y : K) (h : y ≠ 0) : quot x y = some (x / y) := by
  unfold quot
  rw [if_neg h]

theorem correction_some (s : St K) (t : K) (hb : s.fb ≠ 0) (hc : s.fc ≠ 0) : ∃ de, correction s t = some de := by
  unfold correction
  split_ifs with h1 h2
  · exact ⟨_, rfl⟩
  · exact ⟨_, rfl⟩
  · have ha : s.fa ≠ 0 := by
      intro e
      rw [e, abs_zero] at h2
      exact h2 (abs_nonneg _)
    obtain ⟨pq, e⟩ : ∃ pq, interpolation s = some pq := by
      unfold interpolation
      rw [quot_ne _ _ hc, quot_ne _ _ hc, quot_ne _ _ ha]
      split_ifs
      · exact ⟨_, rfl⟩
      · exact ⟨_, rfl⟩
    rw [e, Option.bind_some]
    unfold accept
    dsimp only
    generalize hq : (if pq.1 > 0 then -pq.2 else pq.2) = q
    split_ifs with h3 h4
    · exact ⟨_, rfl⟩
    · exact ⟨_, rfl⟩
    · have : q ≠ 0 := by
        intro e
        rw [e] at h3
        refine h3 ?_
        have := abs_nonneg pq.1
        simp
      rw [quot_ne _ _ this]
      exact ⟨_, rfl⟩

theorem move_inv (f : K → K) (s : St K) (t d e : K) (h : Inv f s) (hb : s.fb ≠ 0) (hc : s.fc ≠ 0) :
    ∃ s', move f s t d e = some s' ∧ Inv f s' := by
  have hl : s.fb * s.fc < 0 := lt_of_le_of_ne h.sign (mul_ne_zero hb hc)
  unfold move
  rw [quot_ne _ _ (abs_ne_zero.2 hc), Option.bind_some]
  dsimp only
  split_ifs with h1
  · refine ⟨_, rfl, ⟨h.fb, rfl, h.fb, ?_⟩⟩
    dsimp only [at20]
    rcases lt_or_gt_of_ne hc with c | c
    · rw [abs_of_neg c, div_neg, div_self hc] at h1
      have : 0 < s.fb := pos_of_mul_neg_left hl c.le
      have h2 : f (newB s t d) < 0 := by linarith
      exact (mul_neg_of_neg_of_pos h2 this).le
    · rw [abs_of_pos c, div_self hc] at h1
      have : s.fb < 0 := by
        by_contra q
        exact absurd hl (not_lt.2 (mul_nonneg (not_lt.1 q) c.le))
      have h2 : 0 < f (newB s t d) := by linarith
      exact (mul_neg_of_pos_of_neg h2 this).le
  · refine ⟨_, rfl, ⟨h.fb, rfl, h.fc, ?_⟩⟩
    dsimp only
    rcases lt_or_gt_of_ne hc with c | c
    · rw [abs_of_neg c, div_neg, div_self hc] at h1
      have h2 : 0 ≤ f (newB s t d) := by linarith
      exact mul_nonpos_of_nonneg_of_nonpos h2 c.le
    · rw [abs_of_pos c, div_self hc] at h1
      have h2 : f (newB s t d) ≤ 0 := by linarith
      exact mul_nonpos_of_nonpos_of_nonneg h2 c.le

/-- The result of `zeroin`. -/
theorem run_spec (f : K → K) (eps tol : K) (n : ℕ) (s : St K) (h : Inv f s) :
    run f eps tol n s ≠ .divisionByZero ∧
    ∀ x, run f eps tol n s = .value x → f x = 0 ∨ ∃ c, |c - x| ≤ 2 * tol1 eps tol x ∧ f c * f x < 0 := by
  induction n generalizing s with
  | zero => exact ⟨by simp [run], by intro x hx; simp [run] at hx⟩
  | succ n ih =>
    obtain ⟨hi, ha⟩ := inv_at30 f s h
    unfold run
    dsimp only
    generalize at30 s = u at hi ha ⊢
    split_ifs with h1 h2
    · refine ⟨by simp, ?_⟩
      intro x hx
      cases hx
      by_cases hb : u.fb = 0
      · exact Or.inl (by rw [← hi.fb, hb])
      · refine Or.inr ⟨u.c, ?_, ?_⟩
        · unfold St.xm at h1
          rw [abs_mul, abs_of_pos (by norm_num : (0 : K) < 1 / 2)] at h1
          linarith
        · have hc : u.fc ≠ 0 := by
            intro e
            rw [e, abs_zero] at ha
            exact hb (abs_eq_zero.1 (le_antisymm ha (abs_nonneg _)))
          rw [← hi.fb, ← hi.fc, mul_comm]
          exact lt_of_le_of_ne hi.sign (mul_ne_zero hb hc)
    · refine ⟨by simp, ?_⟩
      intro x hx
      cases hx
      exact Or.inl (by rw [← hi.fb, h2])
    · have hc : u.fc ≠ 0 := by
        intro e
        rw [e, abs_zero] at ha
        exact h2 (abs_eq_zero.1 (le_antisymm ha (abs_nonneg _)))
      obtain ⟨de, e1⟩ := correction_some u (tol1 eps tol u.b) h2 hc
      obtain ⟨s', e2, hs⟩ := move_inv f u (tol1 eps tol u.b) de.1 de.2 hi h2 hc
      rw [e1, Option.bind_some, e2]
      exact ih s' hs

theorem start_inv (f : K → K) (ax bx : K) (h : f ax * f bx ≤ 0) : Inv f (start f ax bx) :=
  ⟨rfl, rfl, rfl, by rw [mul_comm]; exact h⟩

/-! The same for the function with the opposite sign. -/

/-- The variables for the function with the opposite sign. -/
def St.flip (s : St K) : St K := { s with fa := -s.fa, fb := -s.fb, fc := -s.fc }

theorem flip_at30 (s : St K) : at30 s.flip = (at30 s).flip := by
  unfold at30 St.flip
  simp only [abs_neg]
  split_ifs <;> rfl

theorem quot_neg (x y : K) : quot (-x) (-y) = quot x y := by
  unfold quot
  simp only [neg_eq_zero, neg_div_neg_eq]

theorem flip_correction (s : St K) (t : K) : correction s.flip t = correction s t := by
  unfold correction interpolation accept St.flip St.xm
  simp only [abs_neg, quot_neg]

theorem flip_move (f : K → K) (s : St K) (t d e : K) : move (fun x => -f x) s.flip t d e = (move f s t d e).map St.flip := by
  unfold move quot newB St.flip St.xm at20
  simp only [abs_neg]
  by_cases h : |s.fc| = 0
  · simp [h]
  · simp only [if_neg h, Option.bind_some, neg_div, neg_mul_neg]
    split_ifs <;> rfl

theorem flip_run (f : K → K) (eps tol : K) (n : ℕ) (s : St K) : run (fun x => -f x) eps tol n s.flip = run f eps tol n s := by
  induction n generalizing s with
  | zero => rfl
  | succ n ih =>
    unfold run
    rw [flip_at30]
    generalize at30 s = u
    have e1 : u.flip.b = u.b := rfl
    have e2 : u.flip.xm = u.xm := rfl
    have e3 : u.flip.fb = 0 ↔ u.fb = 0 := by simp [St.flip]
    simp only [e1, e2, e3, flip_correction]
    split_ifs
    · rfl
    · rfl
    · rcases correction u (tol1 eps tol u.b) with _ | de
      · rfl
      · simp only [Option.bind_some, flip_move]
        rcases move f u (tol1 eps tol u.b) de.1 de.2 with _ | s'
        · rfl
        · simp only [Option.map_some]
          exact ih s'

theorem flip_call (eps tol : K) (n : ℕ) (f : K → K) : call eps tol n (fun x => -f x) = call eps tol n f := by
  unfold call zeroin
  have : start (fun x => -f x) 0 1 = (start f 0 1).flip := rfl
  rw [this, flip_run]

end Fclaw.CellAve

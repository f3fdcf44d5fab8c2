import Verif.Edge.Spec
import Verif.Transform.Lemmas
import Mathlib.Tactic.IntervalCases
import Mathlib.Tactic.Linarith
set_option autoImplicit false
namespace Fclaw.Edge

open Fclaw.Transform

/-- Translation between blocks along axis `a`. -/
def blockShift (e : Nat) (bd : Bool) (a : Nat) : ℤ := if bd then - edgeStep e a else 0

theorem xyzShift_eq (e : Nat) (he : e < 12) (bd : Bool) :
    ∃ s, xyzShift e bd = some s ∧ ∀ a, a < 3 → s a = blockShift e bd a := by
  cases bd with
  | false => exact ⟨_, rfl, by intro a _; simp [blockShift]⟩
  | true =>
    interval_cases e <;> refine ⟨_, rfl, ?_⟩ <;> intro a ha <;> interval_cases a <;>
      simp [blockShift, edgeStep, edgeEnd, edgeEnds, upd, and1, and2]

theorem edgeOk_of (e : Nat) (he : e < 12) (bd : Bool) (op : Patch) (s : Nat → ℚ)
    (hs : ∀ a, a < 3 → s a = blockShift e bd a)
    (h : bd = true → ∀ e', Opposite e e' → TouchesEdge e' op) : ¬ (bd = true ∧ edgeOk op s = false) := by
  rintro ⟨hb, hf⟩
  subst hb
  have hopp : ∃ e', Opposite e e' := by
    refine ⟨xor3 e, ?_, ?_⟩
    · unfold xor3; omega
    · intro a ha
      interval_cases e <;> interval_cases a <;> rfl
  obtain ⟨e', he'⟩ := hopp
  have ht := h rfl e' he'
  have : edgeOk op s = true := by
    unfold edgeOk
    rw [List.all_eq_true]
    intro a ha
    have ha3 : a < 3 := by
      simp only [List.mem_cons, List.not_mem_nil, or_false] at ha
      omega
    have h1 := ht a ha3
    rw [he'.2 a ha3] at h1
    rw [hs a ha3]
    cases hE : edgeEnd e a <;> rw [hE] at h1 <;>
      simp only [End.opposite] at h1 <;> simp [blockShift, edgeStep, hE]
    · rw [one_div] at h1; left; linarith
    · right; linarith
  rw [this] at hf
  cases hf

theorem samePoint_of (e : Nat) (bd : Bool) (p p' : Nat → ℚ)
    (h : ∀ a, a < 3 → p' a = p a + blockShift e bd a) : EdgeSamePoint e bd p p' := by
  intro a ha
  have h1 := h a ha
  cases bd with
  | false => simpa [blockShift] using h1
  | true =>
    rw [if_pos rfl]
    cases hE : edgeEnd e a <;> simp [blockShift, edgeStep, hE, inside, outside] at h1 ⊢ <;> linarith

theorem of_samePoint (e : Nat) (bd : Bool) (p p' : Nat → ℚ) (h : EdgeSamePoint e bd p p') :
    ∀ a, a < 3 → p' a = p a + blockShift e bd a := by
  intro a ha
  have h1 := h a ha
  cases bd with
  | false => simpa [blockShift] using h1
  | true =>
    rw [if_pos rfl] at h1
    cases hE : edgeEnd e a <;> rw [hE] at h1 <;>
      simp [blockShift, edgeStep, hE, inside, outside] at h1 ⊢ <;> linarith

theorem sizes_true {m : Nat → Nat} {based : Nat} (h : Sizes m based) : Transform.Sizes true m based := by
  refine ⟨h.1, ?_⟩
  intro a ha
  apply h.2
  simp only [axes, if_true, List.mem_cons, List.not_mem_nil, or_false] at ha
  omega

theorem opposite_exists (e : Nat) (he : e < 12) : Opposite e (xor3 e) := by
  refine ⟨?_, ?_⟩
  · unfold xor3; omega
  · intro a ha
    interval_cases e <;> interval_cases a <;> rfl

theorem opposite_unique (e e' : Nat) (he : e < 12) (h : Opposite e e') : e' = xor3 e := by
  obtain ⟨h1, h2⟩ := h
  have a0 := h2 0 (by omega)
  have a1 := h2 1 (by omega)
  have a2 := h2 2 (by omega)
  clear h2
  interval_cases e <;> interval_cases e' <;> first | rfl | (revert a0 a1 a2; decide)

theorem opposite_symm (e e' : Nat) (he : e < 12) (h : Opposite e e') : Opposite e' e := by
  refine ⟨he, ?_⟩
  intro a ha
  rw [h.2 a ha]
  cases edgeEnd e a <;> rfl

theorem blockShift_opposite (e e' : Nat) (h : Opposite e e') (bd : Bool) (a : Nat) (ha : a < 3) :
    blockShift e' bd a = - blockShift e bd a := by
  have := h.2 a ha
  cases bd with
  | false => simp [blockShift]
  | true =>
    simp only [blockShift, if_true, edgeStep, this]
    cases edgeEnd e a <;> simp [End.opposite]

end Fclaw.Edge

/-
Helpers for C33: counting visits.
-/
import Verif.GhostFill.Spec
import Mathlib.Data.List.Nodup
import Mathlib.Tactic.Ring
import Mathlib.Tactic.Tauto

set_option autoImplicit false
set_option linter.unusedSimpArgs false
set_option linter.unusedVariables false
set_option linter.unusedSectionVars false
namespace Fclaw.GhostFill

theorem countP_range {α : Type} (P : α → Bool) (g : Nat → List α) (i0 : Nat) (n : Nat)
    (h : ∀ i, i ≠ i0 → (g i).countP P = 0) :
    ((List.range n).flatMap g).countP P = if i0 < n then (g i0).countP P else 0 := by
  induction n with
  | zero => simp
  | succ n ih =>
    rw [List.range_succ, List.flatMap_append, List.countP_append, ih]
    simp only [List.flatMap_cons, List.flatMap_nil, List.append_nil]
    by_cases e : n = i0
    · subst e; simp
    · rw [h n e]
      by_cases h1 : i0 < n
      · rw [if_pos h1, if_pos (by omega)]; rfl
      · rw [if_neg h1, if_neg (by omega)]

theorem count_overLevels (P : Visit → Bool) (f : Int → Bool → List Visit) (lo hi L : Int) (ti : Bool) (c : Nat)
    (h0 : ∀ l t, l ≠ L → (f l t).countP P = 0) (hc : ∀ t, (f L t).countP P = c) (hh : lo - 1 ≤ hi) :
    (overLevels f lo hi ti).countP P = if inRange lo hi ti L then c else 0 := by
  unfold overLevels downTo
  rw [List.countP_append, List.flatMap_map]
  by_cases hL : L ≤ hi
  · rw [countP_range P _ (hi - L).toNat]
    · rw [show hi - ((hi - L).toNat : Int) = L by omega, hc]
      unfold inRange
      cases ti with
      | false =>
        simp only [Bool.false_eq_true, if_false, List.countP_nil, Nat.add_zero]
        by_cases h1 : lo ≤ L
        · rw [if_pos (by omega)]; simp [h1, hL]
        · rw [if_neg (by omega)]; simp [h1]
      | true =>
        simp only [if_true]
        by_cases h1 : lo ≤ L
        · rw [if_pos (by omega), h0 (lo - 1) true (by omega)]
          rw [if_pos (by simp; omega)]; rfl
        · rw [if_neg (by omega), Nat.zero_add]
          by_cases h2 : L = lo - 1
          · subst h2; rw [hc, if_pos (by simp; omega)]
          · rw [h0 (lo - 1) true (fun h => h2 h.symm), if_neg (by simp; omega)]
    · intro i hi'
      exact h0 _ _ (by omega)
  · have hz : ((List.range (hi - lo + 1).toNat).flatMap fun (i : Nat) => f (hi - (i : Int)) false).countP P = 0 := by
      rw [List.countP_eq_zero]
      intro v hv
      rw [List.mem_flatMap] at hv
      obtain ⟨i, _, hv⟩ := hv
      have h5 := h0 (hi - (i : Int)) false (by omega)
      rw [List.countP_eq_zero] at h5
      exact h5 v hv
    rw [hz, Nat.zero_add]
    unfold inRange
    cases ti with
    | false => simp; omega
    | true => simp only [if_true]; rw [h0 (lo - 1) true (by omega), if_neg (by simp; omega)]

theorem count_faces (kind : Kind) (coarse : Bool) (x : Nat) (e : Info) (L : List Nat) :
    (L.map (Visit.face e)).countP (faceVisit kind coarse x) =
      if e.kind = kind ∧ e.coarse = coarse then L.count x else 0 := by
  rw [List.countP_map]
  by_cases h : e.kind = kind ∧ e.coarse = coarse
  · rw [if_pos h]
    rw [List.count, List.countP_congr]
    intro y _
    simp [faceVisit, h.1, h.2]
  · rw [if_neg h, List.countP_eq_zero]
    intro y _
    simp only [Function.comp, faceVisit, Bool.and_eq_true, decide_eq_true_eq]
    rintro ⟨h1, _⟩; exact h h1

theorem count_corners (kind : Kind) (coarse : Bool) (x : Nat) (e : Info) (L : List Nat) :
    (L.map (Visit.corner e)).countP (cornerVisit kind coarse x) =
      if e.kind = kind ∧ e.coarse = coarse then L.count x else 0 := by
  rw [List.countP_map]
  by_cases h : e.kind = kind ∧ e.coarse = coarse
  · rw [if_pos h]
    rw [List.count, List.countP_congr]
    intro y _
    simp [cornerVisit, h.1, h.2]
  · rw [if_neg h, List.countP_eq_zero]
    intro y _
    simp only [Function.comp, cornerVisit, Bool.and_eq_true, decide_eq_true_eq]
    rintro ⟨h1, _⟩; exact h h1

theorem count_faces_corner (kind : Kind) (coarse : Bool) (x : Nat) (e : Info) (L : List Nat) :
    (L.map (Visit.corner e)).countP (faceVisit kind coarse x) = 0 := by
  rw [List.countP_map, List.countP_eq_zero]; intro y _; simp [faceVisit]

theorem count_corners_face (kind : Kind) (coarse : Bool) (x : Nat) (e : Info) (L : List Nat) :
    (L.map (Visit.face e)).countP (cornerVisit kind coarse x) = 0 := by
  rw [List.countP_map, List.countP_eq_zero]; intro y _; simp [cornerVisit]

theorem count_faces_phys (kind : Kind) (coarse : Bool) (x : Nat) (t : Bool) (L : List Nat) :
    (L.map (Visit.phys t)).countP (faceVisit kind coarse x) = 0 := by
  rw [List.countP_map, List.countP_eq_zero]; intro y _; simp [faceVisit]

theorem count_corners_phys (kind : Kind) (coarse : Bool) (x : Nat) (t : Bool) (L : List Nat) :
    (L.map (Visit.phys t)).countP (cornerVisit kind coarse x) = 0 := by
  rw [List.countP_map, List.countP_eq_zero]; intro y _; simp [cornerVisit]

theorem count_iter (M : Mesh) (hn : M.patches.Nodup) (p x : Nat) (hx : x ∈ M.patches) (ho : M.owner x = p) (l : Int) (m : Mode) :
    (iter M p l m).count x = if M.level x = l ∧ modeOk M p m x = true then 1 else 0 := by
  unfold iter
  rw [(hn.filter _).count]
  simp [List.mem_filter, hx, ho]

theorem count_iterInterface (M : Mesh) (hn : M.patches.Nodup) (p x : Nat) (hx : x ∈ M.patches) (ho : M.owner x = p)
    (l : Int) (m : Mode) :
    (iterInterface M p l m).count x =
      if M.level x = l ∧ modeOk M p m x = true ∧ onInterface M x = true then 1 else 0 := by
  unfold iterInterface iter
  rw [((hn.filter _).filter _).count]
  have h : (x ∈ List.filter (fun x => onInterface M x) (List.filter (fun x => decide (M.owner x = p) &&
      decide (M.level x = l) && modeOk M p m x) M.patches)) ↔
      (M.level x = l ∧ modeOk M p m x = true ∧ onInterface M x = true) := by
    simp [List.mem_filter, hx, ho]; tauto
  by_cases h2 : M.level x = l ∧ modeOk M p m x = true ∧ onInterface M x = true
  · rw [if_pos h2, if_pos (h.2 h2)]
  · rw [if_neg h2, if_neg (fun h3 => h2 (h.1 h3))]

section

variable {M : Mesh} (hn : M.patches.Nodup) {p x : Nat} (hx : x ∈ M.patches) (ho : M.owner x = p)
  (minl hi : Int) (ti : Bool) (rp : Bool) (m : Mode) (hh : minl - 1 ≤ hi)

/-- Either way of telling visits of a kind, role and patch. -/
inductive Which where
  | face | corner

def which (w : Which) (kind : Kind) (coarse : Bool) (x : Nat) : Visit → Bool :=
  match w with
  | .face => faceVisit kind coarse x
  | .corner => cornerVisit kind coarse x

include hn hx ho hh

theorem count_copyPhase (w : Which) (kind : Kind) (coarse : Bool) :
    (overLevels (copy2ghost M p rp m) minl hi ti).countP (which w kind coarse x) =
      if inRange minl hi ti (M.level x) then
        (if kind = .copy ∧ coarse = true ∧ modeOk M p m x = true then 1 else 0) else 0 := by
  refine count_overLevels _ _ minl hi (M.level x) ti _ ?_ ?_ hh
  · intro l t hl
    cases w <;> simp only [which, copy2ghost, List.countP_append, count_faces, count_corners, count_faces_corner,
      count_corners_face, count_iter M hn p x hx ho] <;>
      rw [if_neg (fun h : M.level x = l ∧ _ => hl h.1.symm)] <;> simp
  · intro t
    cases w <;> simp only [which, copy2ghost, List.countP_append, count_faces, count_corners, count_faces_corner,
      count_corners_face, count_iter M hn p x hx ho] <;> cases kind <;> cases coarse <;> simp

theorem count_averageCoarse (w : Which) (kind : Kind) :
    (overLevels (average2ghost M p rp m) minl hi ti).countP (which w kind true x) =
      if inRange minl hi ti (M.level x) then
        (if kind = .average ∧ modeOk M p m x = true ∧ onInterface M x = true then 1 else 0) else 0 := by
  refine count_overLevels _ _ minl hi (M.level x) ti _ ?_ ?_ hh
  · intro l t hl
    cases w <;> cases rp <;> simp only [which, average2ghost, List.countP_append, count_faces, count_corners, count_faces_corner,
      count_corners_face, count_iterInterface M hn p x hx ho, if_true, if_false, Bool.false_eq_true, List.countP_nil] <;>
      rw [if_neg (fun h : M.level x = l ∧ _ => hl h.1.symm)] <;> simp
  · intro t
    cases w <;> cases rp <;> simp only [which, average2ghost, List.countP_append, count_faces, count_corners, count_faces_corner,
      count_corners_face, count_iterInterface M hn p x hx ho, if_true, if_false, Bool.false_eq_true, List.countP_nil] <;>
      cases kind <;> simp

theorem count_averageFine (w : Which) (kind : Kind) (hk : kind ≠ .average) :
    (overLevels (average2ghost M p rp m) minl hi ti).countP (which w kind false x) = 0 := by
  rw [count_overLevels _ _ minl hi (M.level x) ti 0 ?_ ?_ hh]
  · simp
  all_goals
    intros
    cases w <;> cases rp <;> simp only [which, average2ghost, List.countP_append, count_faces, count_corners, count_faces_corner,
      count_corners_face, if_true, if_false, Bool.false_eq_true, List.countP_nil] <;>
      cases kind <;> simp at hk ⊢

theorem count_interpCoarse (w : Which) (kind : Kind) :
    (overLevels (interpolate2ghost M p rp m) minl hi ti).countP (which w kind true x) =
      if inRange minl hi ti (M.level x) then
        (if kind = .interp ∧ modeOk M p m x = true ∧ onInterface M x = true then 1 else 0) else 0 := by
  refine count_overLevels _ _ minl hi (M.level x) ti _ ?_ ?_ hh
  · intro l t hl
    cases w <;> simp only [which, interpolate2ghost, List.countP_append, count_faces, count_corners, count_faces_corner,
      count_corners_face, count_iterInterface M hn p x hx ho] <;>
      rw [if_neg (fun h : M.level x = l ∧ _ => hl h.1.symm)] <;> simp
  · intro t
    cases w <;> simp only [which, interpolate2ghost, List.countP_append, count_faces, count_corners, count_faces_corner,
      count_corners_face, count_iterInterface M hn p x hx ho] <;>
      cases kind <;> simp

theorem count_interpFine (w : Which) (kind : Kind) :
    (overLevels (interpolate2ghost M p rp m) minl hi ti).countP (which w kind false x) =
      if inRange minl hi ti (M.level x - 1) then
        (if kind = .interp ∧ modeOk M p m x = true ∧ onInterface M x = true then 1 else 0) else 0 := by
  refine count_overLevels _ _ minl hi (M.level x - 1) ti _ ?_ ?_ hh
  · intro l t hl
    have hl2 : ¬ (M.level x = l + 1) := by omega
    cases w <;> simp only [which, interpolate2ghost, List.countP_append, count_faces, count_corners, count_faces_corner,
      count_corners_face, count_iterInterface M hn p x hx ho, hl2] <;> cases kind <;> simp
  · intro t
    cases w <;> simp only [which, interpolate2ghost, List.countP_append, count_faces, count_corners, count_faces_corner,
      count_corners_face, count_iterInterface M hn p x hx ho] <;>
      cases kind <;> simp

end

theorem count_physPhase (M : Mesh) (p x : Nat) (lo hi : Int) (ti : Bool) (m : Mode) (w : Which) (kind : Kind) (coarse : Bool) :
    (overLevels (setphysical M p m) lo hi ti).countP (which w kind coarse x) = 0 := by
  rw [List.countP_eq_zero]
  intro v hv
  unfold overLevels at hv
  rw [List.mem_append, List.mem_flatMap] at hv
  rcases hv with ⟨l, _, hv⟩ | hv
  · simp only [setphysical, List.mem_map] at hv
    obtain ⟨y, _, rfl⟩ := hv
    cases w <;> simp [which, faceVisit, cornerVisit]
  · split at hv
    · simp only [setphysical, List.mem_map] at hv
      obtain ⟨y, _, rfl⟩ := hv
      cases w <;> simp [which, faceVisit, cornerVisit]
    · simp at hv

end Fclaw.GhostFill

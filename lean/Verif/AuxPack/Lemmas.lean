/-
The loops over auxiliary data as a list of locations.
-/
import Verif.AuxPack.Model
import Verif.GhostPack.Lemmas

set_option autoImplicit false
set_option linter.unusedVariables false

namespace Fclaw.AuxPack

open Fclaw.GhostPack
open Fort

/-- A patch with two layers of ghost cells. -/
def two (d : Dims) : Dims := { d with mbc := 2 }

/-- The order in which the loops go over the auxiliary data. -/
def auxLocs (d : Dims) (mint : ℤ) : List Loc :=
  (range 1 d.meqn).flatMap fun mq => ringLocs (two d) mint fun i j => .q i j mq

theorem ring2_eq {α : Type} (d : Dims) (mint n : ℤ) (pack : Bool) (mq : ℤ) (s : St α) :
    ring2 d mint n pack mq s = loop (ringLocs (two d) mint fun i j => .q i j mq) (move d n pack) s := by
  unfold ring2 ringLocs
  simp only [loop_append]
  simp only [← loop_box]
  rfl

theorem localGhostPackAux_eq {α : Type} (d : Dims) (mint auxsize n packmode : ℤ) (s : St α)
    (h : packmode = 0 ∨ packmode = 1 ∨ packmode = 2 ∨ packmode = 3) :
    localGhostPackAux d mint auxsize n packmode s =
      (loop (auxLocs d mint) (move d n (decide (packmode = 0 ∨ packmode = 2))) s).bind fun s' =>
        some (s', if s'.k - s.k ≠ auxsize then 2 else 0) := by
  unfold localGhostPackAux
  rw [if_neg (by omega)]
  unfold auxLocs
  rw [loop_flatMap]
  unfold doLoop
  dsimp only
  rw [loop_congr _ _ _ s (fun mq _ s => ring2_eq d mint n (decide (packmode = 0 ∨ packmode = 2)) mq s)]

theorem length_auxLocs (d : Dims) (mint : ℤ) (h0 : 0 ≤ mint) (hx : mint ≤ d.mx + 2) (hy : mint ≤ d.my + 2) :
    ((auxLocs d mint).length : ℤ) =
      ((4 + (d.mx : ℤ)) * (4 + d.my) - (d.mx - 2 * mint) * (d.my - 2 * mint)) * d.meqn := by
  have e : ∀ mq : ℤ, (ringLocs (two d) mint fun i j => .q i j mq).length = (ringLocs (two d) mint .area).length := by
    intro mq
    have h1 := length_ring (two d) mint (fun i j => .q i j mq) h0 hx hy
    have h2 := length_ring (two d) mint .area h0 hx hy
    omega
  unfold auxLocs
  rw [length_flatMap_const _ _ (ringLocs (two d) mint .area).length (fun mq _ => e mq), length_range, Nat.cast_mul,
    length_ring (two d) mint _ h0 hx hy, Int.toNat_of_nonneg (by omega)]
  simp only [whole, two]
  push_cast
  ring

theorem mem_auxLocs (d : Dims) (mint : ℤ) (l : Loc) : l ∈ auxLocs d mint ↔
    ∃ i j mq, InRing (two d) mint i j ∧ (1 ≤ mq ∧ mq ≤ (d.meqn : ℤ)) ∧ l = .q i j mq := by
  unfold auxLocs
  simp only [List.mem_flatMap, mem_range, mem_ringLocs]
  constructor
  · rintro ⟨mq, hm, i, j, hr, e⟩
    exact ⟨i, j, mq, hr, hm, e.symm⟩
  · rintro ⟨i, j, mq, hr, hm, e⟩
    exact ⟨mq, hm, i, j, hr, e.symm⟩

theorem auxLocs_valid (d : Dims) (mint : ℤ) (hb : 2 ≤ d.mbc) (h0 : 0 ≤ mint) (hx : mint ≤ d.mx) (hy : mint ≤ d.my) (l : Loc)
    (h : l ∈ auxLocs d mint) : valid d l = true := by
  obtain ⟨i, j, mq, hr, hm, rfl⟩ := (mem_auxLocs d mint l).1 h
  have := inRing_box (two d) mint i j h0 hx hy hr
  simp only [two] at this
  simp only [valid, inBox, Bool.and_eq_true, decide_eq_true_eq]
  omega

theorem loop_invalid {α : Type} (d : Dims) (n : ℤ) (pack : Bool) (l : Loc) (hl : valid d l ≠ true) (L : List Loc) :
    ∀ s : St α, l ∈ L → loop L (move d n pack) s = none := by
  induction L with
  | nil => intro s h; simp at h
  | cons a L ih =>
    intro s h
    simp only [loop]
    by_cases ha : a = l
    · have : move d n pack a s = none := by
        unfold move
        rw [if_neg (fun h => hl (ha ▸ h.1))]
      rw [this]
      rfl
    · have hL : l ∈ L := by
        rcases List.mem_cons.1 h with h | h
        · exact absurd h.symm ha
        · exact h
      cases hm : move d n pack a s with
      | none => rfl
      | some s' => exact ih s' hL

/-- There are cells beside the hole. -/
theorem size_pos (mx my m w : ℤ) (hm : 0 ≤ m) (hw : 1 ≤ w) (hx : 2 * m ≤ mx) (hy : 2 * m ≤ my) :
    0 < (w + mx) * (w + my) - (mx - 2 * m) * (my - 2 * m) := by
  nlinarith

end Fclaw.AuxPack

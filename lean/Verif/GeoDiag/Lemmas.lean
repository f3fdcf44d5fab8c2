/-
The loops of the conservation check.
-/
import Verif.GeoDiag.Model
import Verif.Diag.Lemmas

set_option autoImplicit false
set_option linter.unusedVariables false

namespace Fclaw.GeoDiag

open Fclaw.Fort
open Fclaw.Diag

/-- The options without a mapping. -/
def plain : Opts := ⟨false, true, false, false⟩

theorem plainCells_eq (d : Dims) (p : Patch) (m : Nat) (hm : m < d.meqn) (L : List (ℤ × ℤ))
    (hL : ∀ x ∈ L, Interior d x.2 x.1) : ∀ s : St,
    loop L (fun x => plainCell d p ((m + 1 : Nat) : ℤ) x.2 x.1) s = some { s with
      sum := setAt s.sum m (s.sum m + (L.map fun x => cellArea plain p x.2 x.1 * p.q (x.2, x.1, m + 1)).sum) } := by
  have hi : idx ((m : ℤ) + 1) = m := by unfold idx; omega
  have e : ((m + 1 : Nat) : ℤ) = (m : ℤ) + 1 := by push_cast; rfl
  induction L with
  | nil =>
    intro s
    simp only [loop, List.map_nil, List.sum_nil, add_zero, setAt_same]
  | cons x L ih =>
    intro s
    have hc : plainCell d p ((m + 1 : Nat) : ℤ) x.2 x.1 s = some { s with
        sum := setAt s.sum m (s.sum m + cellArea plain p x.2 x.1 * p.q (x.2, x.1, m + 1)) } := by
      have hb := interior_inBox d x.2 x.1 (hL x (by simp)) m hm
      unfold plainCell
      simp only [rd, e, hb, if_true, Option.map_some, hi]
      congr 4
      show _ = p.dx * p.dy * _
      ring
    simp only [loop, hc, Option.bind_some]
    rw [ih (fun y hy => hL y (List.mem_cons_of_mem _ hy))]
    dsimp only
    rw [setAt_setAt]
    have : setAt s.sum m (s.sum m + cellArea plain p x.2 x.1 * p.q (x.2, x.1, (m : ℤ) + 1)) m
        = s.sum m + cellArea plain p x.2 x.1 * p.q (x.2, x.1, (m : ℤ) + 1) := by simp [setAt]
    rw [this, List.map_cons, List.sum_cons, add_assoc]

theorem consCheck_plain (d : Dims) (p : Patch) (sum : Nat → ℚ) :
    consCheck false d p sum =
      some fun m => if m < d.meqn then sum m + mass plain d [p] m else sum m := by
  have key : ∀ n, n ≤ d.meqn → loop (range 1 (n : ℤ)) (fun m => doLoop 1 d.my fun j =>
      doLoop 1 d.mx fun i => plainCell d p m i j) ⟨sum, none⟩ = some
        ⟨fun m => if m < n then sum m + mass plain d [p] m else sum m, none⟩ := by
    intro n
    induction n with
    | zero => intro _; simp [range, loop]
    | succ n ih =>
      intro hn
      rw [range_one_succ, loop_append, ih (by omega)]
      simp only [Option.bind_some, loop]
      have e : ∀ s', doLoop 1 (d.my : ℤ) (fun j => doLoop 1 (d.mx : ℤ) fun i =>
          plainCell d p ((n + 1 : Nat) : ℤ) i j) s'
          = loop (cells d) (fun x => plainCell d p ((n + 1 : Nat) : ℤ) x.2 x.1) s' :=
        loop_flat _ _ (fun j i => plainCell d p ((n + 1 : Nat) : ℤ) i j)
      rw [e, plainCells_eq d p n (by omega) (cells d) (fun x hx => (mem_cells d x).1 hx)]
      simp only [Option.bind_some]
      congr 1
      simp only [St.mk.injEq, and_true]
      funext k
      unfold setAt
      by_cases hk : k = n
      · subst hk
        dsimp only
        rw [if_pos rfl, if_neg (Nat.lt_irrefl k), if_pos (Nat.lt_succ_self k)]
        congr 1
        unfold mass
        rw [List.map_cons, List.map_nil, List.sum_cons, List.sum_nil, add_zero, ← cells_sum]
      · rw [if_neg hk]
        dsimp only
        by_cases hk' : k < n
        · rw [if_pos hk', if_pos (by omega)]
        · rw [if_neg hk', if_neg (by omega)]
  have := key d.meqn le_rfl
  unfold consCheck checkLoops
  simp only [Bool.false_eq_true, if_false]
  unfold doLoop at this ⊢
  rw [this]
  rfl

theorem loop_none {ι σ : Type} (L : List ι) (f : ι → σ → Option σ) (k : ι) (hk : k ∈ L) (h : ∀ s, f k s = none) :
    ∀ s, loop L f s = none := by
  induction L with
  | nil => simp at hk
  | cons a L ih =>
    intro s
    simp only [loop]
    rcases List.mem_cons.1 hk with e | e
    · rw [← e, h]
      rfl
    · cases f a s with
      | none => rfl
      | some s' => exact ih e s'

end Fclaw.GeoDiag

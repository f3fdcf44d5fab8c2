/-
Lemmas about nested loops.
-/
import Verif.Fort.Basic
import Mathlib.Data.List.Basic
import Mathlib.Algebra.BigOperators.Group.Finset.Basic
import Mathlib.Order.Interval.Finset.Basic
import Mathlib.Data.Int.Interval

set_option autoImplicit false

namespace Fclaw.Fort

theorem loop_append {ι σ : Type} (a b : List ι) (f : ι → σ → Option σ) :
    ∀ s, loop (a ++ b) f s = (loop a f s).bind (loop b f) := by
  induction a with
  | nil => intro s; rfl
  | cons k a ih =>
    intro s
    simp only [List.cons_append, loop]
    cases f k s with
    | none => rfl
    | some s' => simpa using ih s'

theorem loop_map {ι κ σ : Type} (l : List κ) (g : κ → ι) (f : ι → σ → Option σ) :
    ∀ s, loop (l.map g) f s = loop l (fun k => f (g k)) s := by
  induction l with
  | nil => intro s; rfl
  | cons k l ih =>
    intro s
    simp only [List.map_cons, loop]
    cases f (g k) s with
    | none => rfl
    | some s' => simpa using ih s'

theorem loop_flat {ι κ σ : Type} (l : List ι) (m : List κ) (f : ι → κ → σ → Option σ) :
    ∀ s, loop l (fun a => loop m (f a)) s
      = loop (l.flatMap fun a => m.map fun b => (a, b)) (fun x => f x.1 x.2) s := by
  induction l with
  | nil => intro s; rfl
  | cons a l ih =>
    intro s
    rw [List.flatMap_cons, loop_append, loop_map]
    simp only [loop]
    cases loop m (f a) s with
    | none => rfl
    | some s' => simpa using ih s'

theorem mem_flat {ι κ : Type} (l : List ι) (m : List κ) (x : ι × κ) :
    x ∈ (l.flatMap fun a => m.map fun b => (a, b)) ↔ x.1 ∈ l ∧ x.2 ∈ m := by
  obtain ⟨a, b⟩ := x
  simp only [List.mem_flatMap, List.mem_map, Prod.mk.injEq]
  constructor
  · rintro ⟨a', h1, b', h2, rfl, rfl⟩; exact ⟨h1, h2⟩
  · rintro ⟨h1, h2⟩; exact ⟨a, h1, b, h2, rfl, rfl⟩


theorem range_one_succ (n : Nat) : range 1 ((n + 1 : Nat) : ℤ) = range 1 (n : ℤ) ++ [((n + 1 : Nat) : ℤ)] := by
  unfold range
  have e1 : (((n + 1 : Nat) : ℤ) + 1 - 1).toNat = n + 1 := by omega
  have e2 : ((n : ℤ) + 1 - 1).toNat = n := by omega
  rw [e1, e2, List.range_succ, List.map_append]
  congr 1
  simp only [List.map_cons, List.map_nil, List.cons.injEq, and_true]
  omega

theorem range_nodup (lo hi : ℤ) : (range lo hi).Nodup := by
  unfold range
  refine List.Nodup.map ?_ List.nodup_range
  intro a b h
  dsimp only at h
  omega

/-- The sum over the values of a loop variable. -/
theorem range_sum {M : Type} [AddCommMonoid M] (lo hi : ℤ) (f : ℤ → M) :
    ((range lo hi).map f).sum = ∑ k ∈ Finset.Icc lo hi, f k := by
  have e : Finset.Icc lo hi = (range lo hi).toFinset := by
    ext k
    rw [List.mem_toFinset, mem_range, Finset.mem_Icc]
  rw [e, List.sum_toFinset _ (range_nodup lo hi)]

theorem flat_sum {M : Type} [AddCommMonoid M] (l : List ℤ) (m : List ℤ) (f : ℤ × ℤ → M) :
    ((l.flatMap fun a => m.map fun b => (a, b)).map f).sum
      = (l.map fun a => (m.map fun b => f (a, b)).sum).sum := by
  induction l with
  | nil => rfl
  | cons a l ih =>
    rw [List.flatMap_cons, List.map_append, List.sum_append, ih, List.map_cons, List.sum_cons,
      List.map_map]
    rfl

end Fclaw.Fort

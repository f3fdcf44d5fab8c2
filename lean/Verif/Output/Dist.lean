/-
The patches of a process, in order.
-/
import Verif.Output.Spec
import Mathlib.Order.Basic
import Mathlib.Algebra.Order.Group.Nat

set_option autoImplicit false
set_option linter.unusedSimpArgs false

namespace Fclaw.Output

open Fclaw.ParFile (Distribution Outcome)

theorem bind_ok {α β : Type} (a : α) (f : α → Outcome β) : (Outcome.ok a).bind f = f a := rfl

/-- The pieces of a numbered list one after the other. -/
def flatIdx {α γ : Type} (f : Nat → α → List γ) : Nat → List α → List γ
  | _, [] => []
  | n, x :: xs => f n x ++ flatIdx f (n + 1) xs

theorem flatIdx_append {α γ : Type} (f : Nat → α → List γ) (l l' : List α) : ∀ n,
    flatIdx f n (l ++ l') = flatIdx f n l ++ flatIdx f (n + l.length) l' := by
  induction l with
  | nil => intro n; simp [flatIdx]
  | cons x xs ih =>
    intro n
    simp only [List.cons_append, flatIdx, ih, List.length_cons, List.append_assoc]
    rw [show n + 1 + xs.length = n + (xs.length + 1) by omega]

theorem flatIdx_congr {α γ : Type} (f f' : Nat → α → List γ) (l : List α) : ∀ n n',
    (∀ j x, l[j]? = some x → f (n + j) x = f' (n' + j) x) → flatIdx f n l = flatIdx f' n' l := by
  induction l with
  | nil => intro n n' _; rfl
  | cons x xs ih =>
    intro n n' h
    simp only [flatIdx]
    have h0 := h 0 x rfl
    simp only [Nat.add_zero] at h0
    rw [h0, ih (n + 1) (n' + 1) (fun j y hj => by
      have := h (j + 1) y (by simpa using hj)
      rw [show n + 1 + j = n + (j + 1) by omega, show n' + 1 + j = n' + (j + 1) by omega]
      exact this)]

theorem flatIdx_map {α β γ : Type} (f : Nat → β → List γ) (g : α → β) (l : List α) : ∀ n,
    flatIdx f n (l.map g) = flatIdx (fun j x => f j (g x)) n l := by
  induction l with
  | nil => intro n; rfl
  | cons x xs ih => intro n; simp only [List.map_cons, flatIdx, ih]

theorem catIdx_ok {α γ : Type} (f : Nat → α → Outcome (List γ)) (E : Nat → α → List γ)
    (l : List α) : ∀ n, (∀ j x, l[j]? = some x → f (n + j) x = .ok (E (n + j) x)) →
    catIdx f n l = .ok (flatIdx E n l) := by
  induction l with
  | nil => intro n _; rfl
  | cons x xs ih =>
    intro n h
    have h0 := h 0 x rfl
    simp only [Nat.add_zero] at h0
    simp only [catIdx, flatIdx]
    rw [h0, bind_ok, ih (n + 1) (fun j y hj => by
      rw [show n + 1 + j = n + (j + 1) by omega]
      exact h (j + 1) y (by simpa using hj)), bind_ok]

theorem patches_length {α : Type} (F : Forest α) : ∀ k, (Forest.patches k F).length = F.count := by
  induction F with
  | nil => intro k; rfl
  | cons blk rest ih =>
    intro k
    simp only [Forest.patches, List.length_append, List.length_map, ih, Forest.count,
      List.map_cons, List.sum_cons]

/-- The patches with global numbers from `a` up to `b`, of a list that begins
with number `s`. -/
def window {α : Type} (a b s : Nat) (l : List α) : List α := (l.take (b - s)).drop (a - s)

theorem window_length {α : Type} (a b s : Nat) (l : List α) :
    (window a b s l).length = min (b - s) l.length - (a - s) := by
  simp [window]

theorem window_append {α : Type} (a b s : Nat) (l l' : List α) :
    window a b s (l ++ l') = window a b s l ++ window a b (s + l.length) l' := by
  unfold window
  rw [List.take_append, List.drop_append]
  congr 1
  rw [List.length_take]
  by_cases h : l.length ≤ b - s
  · rw [min_eq_right h, Nat.sub_sub, Nat.sub_sub]
  · rw [show b - s - l.length = 0 by omega, show b - (s + l.length) = 0 by omega]
    simp

theorem window_map {α β : Type} (f : α → β) (a b s : Nat) (l : List α) :
    window a b s (l.map f) = (window a b s l).map f := by
  simp [window, List.map_take, List.map_drop]

theorem window_get {α : Type} {a b s : Nat} {l : List α} {j : Nat} {x : α}
    (h : (window a b s l)[j]? = some x) : l[a - s + j]? = some x ∧ a - s + j < b - s := by
  unfold window at h
  rw [List.getElem?_drop] at h
  have hlt : a - s + j < (l.take (b - s)).length := by
    by_contra hc
    rw [List.getElem?_eq_none (by omega)] at h
    exact absurd h (by simp)
  rw [List.length_take] at hlt
  rw [List.getElem?_take_of_lt (by omega)] at h
  exact ⟨h, by omega⟩

/-- The patches of a process one after the other. -/
theorem body_eq {α γ : Type} (a b : Nat) (f : Nat → LocalBlock α → Nat → α → Outcome (List γ))
    (E : Nat → Nat × α → List γ) (hab : a ≤ b) (F : Forest α) : ∀ k s nb,
    nb = min b s - a →
    (∀ (lb : LocalBlock α) (j g : Nat) (x : Nat × α), a + lb.numPatchesBefore + j = g →
      s ≤ g → a ≤ g → g < b → (Forest.patches k F)[g - s]? = some x →
      f x.1 lb j x.2 = .ok (E g x)) →
    catIdx (fun blockno lb => catIdx (fun j pt => f blockno lb j pt) 0 lb.patches) k
      (localBlocks a b s nb F)
      = .ok (flatIdx E (s + (a - s)) (window a b s (Forest.patches k F))) := by
  induction F with
  | nil => intro k s nb _ _; simp [localBlocks, catIdx, Forest.patches, window, flatIdx]
  | cons blk rest ih =>
    intro k s nb hnb hf
    have hml : (window a b s blk).length = min (b - s) blk.length - (a - s) := window_length ..
    have hrest := ih (k + 1) (s + blk.length) (nb + (window a b s blk).length)
      (by rw [hml, hnb]; omega)
      (fun lb j g x hg hs ha hb hx => hf lb j g x hg (by omega) ha hb (by
        simp only [Forest.patches]
        rw [List.getElem?_append_right (by simp; omega)]
        rw [show g - s - (blk.map fun pt => (k, pt)).length = g - (s + blk.length) by
          simp; omega]
        exact hx))
    have hfirst : catIdx (fun j pt => f k ⟨window a b s blk, nb⟩ j pt) 0 (window a b s blk)
        = .ok (flatIdx (fun j pt => E (s + (a - s) + j) (k, pt)) 0 (window a b s blk)) := by
      refine catIdx_ok _ _ _ 0 (fun j pt hj => ?_)
      obtain ⟨h1, h2⟩ := window_get hj
      have hlt : a - s + j < blk.length := by
        by_contra hc
        rw [List.getElem?_eq_none (by omega)] at h1
        exact absurd h1 (by simp)
      have e : s + (a - s) + (0 + j) - s = a - s + j := by omega
      refine hf ⟨window a b s blk, nb⟩ (0 + j) _ (k, pt) ?_ (by omega) (by omega) (by omega) ?_
      · simp only; omega
      · simp only [Forest.patches]
        rw [e, List.getElem?_append_left (by simp; omega), List.getElem?_map, h1]
        rfl
    simp only [localBlocks, catIdx]
    change (catIdx (fun j pt => f k ⟨window a b s blk, nb⟩ j pt) 0 (window a b s blk)).bind _ = _
    rw [hfirst]
    change (catIdx _ (k + 1) (localBlocks a b (s + blk.length)
      (nb + (window a b s blk).length) rest)).bind _ = _
    rw [hrest]
    simp only [bind_ok]
    congr 1
    simp only [Forest.patches]
    rw [window_append, flatIdx_append, window_map, flatIdx_map, List.length_map, List.length_map]
    congr 1
    · exact flatIdx_congr _ _ _ _ _ (fun j x _ => by simp)
    · refine flatIdx_congr _ _ _ _ _ (fun j x hj => ?_)
      obtain ⟨_, h2⟩ := window_get hj
      rw [hml]
      congr 1
      omega

/-- What process `r` does for its patches. -/
def part {α γ : Type} (F : Forest α) (D : Distribution F.count) (E : Nat → Nat × α → List γ)
    (r : Nat) : List γ :=
  flatIdx E (D.gfq r) (window (D.gfq r) (D.gfq (r + 1)) 0 (Forest.patches 0 F))

theorem iterate_eq {α γ : Type} {F : Forest α} {D : Distribution F.count}
    (f : Nat → LocalBlock α → Nat → α → Outcome (List γ)) (E : Nat → Nat × α → List γ) {r : Nat}
    (hr : r < D.mpisize)
    (h : ∀ (lb : LocalBlock α) (j g : Nat) (x : Nat × α), D.gfq r + lb.numPatchesBefore + j = g →
      Owns D r g → (Forest.patches 0 F)[g]? = some x → f x.1 lb j x.2 = .ok (E g x)) :
    iteratePatches f (localDom F D r) = .ok (part F D E r) := by
  have := body_eq (D.gfq r) (D.gfq (r + 1)) f E (D.mono r hr) F 0 0 0 (by simp)
    (fun lb j g x hg _ ha hb hx => h lb j g x hg ⟨hr, ha, hb⟩ (by simpa using hx))
  unfold iteratePatches part
  simpa [localDom] using this

theorem gfq_mono {n : Nat} (D : Distribution n) {r t : Nat} (h : r ≤ t) (ht : t ≤ D.mpisize) :
    D.gfq r ≤ D.gfq t := by
  induction t with
  | zero => rw [show r = 0 by omega]
  | succ t ih =>
    by_cases he : r = t + 1
    · rw [he]
    · exact le_trans (ih (by omega) (by omega)) (D.mono t (by omega))

theorem gfq_le {n : Nat} (D : Distribution n) {r : Nat} (h : r ≤ D.mpisize) : D.gfq r ≤ n := by
  have := gfq_mono D h (le_refl _)
  rw [D.last] at this
  exact this

/-- All processes up to `P`. -/
theorem parts_eq {α γ : Type} {F : Forest α} {D : Distribution F.count}
    (E : Nat → Nat × α → List γ) : ∀ P, P ≤ D.mpisize →
    (List.range P).flatMap (part F D E) = flatIdx E 0 ((Forest.patches 0 F).take (D.gfq P)) := by
  intro P
  induction P with
  | zero => intro _; simp [D.first, flatIdx]
  | succ P ih =>
    intro hP
    have hm := D.mono P (by omega)
    rw [List.range_succ, List.flatMap_append, ih (by omega)]
    simp only [List.flatMap_cons, List.flatMap_nil, List.append_nil]
    have hw : window (D.gfq P) (D.gfq (P + 1)) 0 (Forest.patches 0 F)
        = ((Forest.patches 0 F).drop (D.gfq P)).take (D.gfq (P + 1) - D.gfq P) := by
      simp [window, List.drop_take]
    have hsplit : (Forest.patches 0 F).take (D.gfq (P + 1))
        = (Forest.patches 0 F).take (D.gfq P)
          ++ ((Forest.patches 0 F).drop (D.gfq P)).take (D.gfq (P + 1) - D.gfq P) := by
      conv_lhs => rw [show D.gfq (P + 1) = D.gfq P + (D.gfq (P + 1) - D.gfq P) by omega]
      rw [List.take_add]
    rw [hsplit, flatIdx_append, part, hw]
    congr 2
    have := gfq_le D (r := P) (by omega)
    rw [List.length_take, patches_length]
    omega

/-- All processes together. -/
theorem parts_all {α γ : Type} {F : Forest α} {D : Distribution F.count}
    (E : Nat → Nat × α → List γ) :
    (List.range D.mpisize).flatMap (part F D E) = flatIdx E 0 (Forest.patches 0 F) := by
  rw [parts_eq E _ (le_refl _), D.last, List.take_of_length_le (by rw [patches_length])]

end Fclaw.Output

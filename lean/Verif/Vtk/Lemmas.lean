/-
Helper lemmas for the VTK output: pieces of equal size, the patches of a
process, and what all processes write together.
-/
import Verif.Vtk.Spec
import Verif.ParFile.Lemmas
import Mathlib.Data.List.Perm.Basic

set_option autoImplicit false
set_option linter.unusedSimpArgs false
set_option linter.unusedVariables false

namespace Fclaw.Vtk

open Fclaw.ParFile (Byte File Outcome Distribution writesAt applyWrites writeAt writesAt_append
  writesAt_nodup applyWrites_perm Holds holds_writeAt fileOf holds_fileOf)

/-! ### Sequencing -/

@[simp] theorem bind_ok {α β : Type} (a : α) (f : α → Outcome β) :
    (Outcome.ok a).bind f = f a := rfl

theorem cat_ok (l : List (List Byte)) : cat (l.map Outcome.ok) = .ok l.flatten := by
  induction l with
  | nil => rfl
  | cons a l ih => simp [cat, ih]

/-- The pieces `f n x` of a numbered list one after the other. -/
def flatIdx {α : Type} (f : Nat → α → List Byte) : Nat → List α → List Byte
  | _, [] => []
  | n, x :: xs => f n x ++ flatIdx f (n + 1) xs

theorem catIdx_ok {α : Type} (f : Nat → α → Outcome (List Byte)) (g : Nat → α → List Byte)
    (l : List α) : ∀ n, (∀ (j : Nat) x, l[j]? = some x → f (n + j) x = .ok (g (n + j) x)) →
    catIdx f n l = .ok (flatIdx g n l) := by
  induction l with
  | nil => intro n _; rfl
  | cons x xs ih =>
    intro n h
    have h0 := h 0 x (by simp)
    simp only [Nat.add_zero] at h0
    have h1 := ih (n + 1) (fun j y hj => by
      have := h (j + 1) y (by simpa using hj)
      rw [show n + 1 + j = n + (j + 1) by omega]; exact this)
    simp [catIdx, flatIdx, h0, h1]

theorem flatIdx_append {α : Type} (f : Nat → α → List Byte) (l l' : List α) : ∀ n,
    flatIdx f n (l ++ l') = flatIdx f n l ++ flatIdx f (n + l.length) l' := by
  induction l with
  | nil => intro n; simp [flatIdx]
  | cons x xs ih =>
    intro n
    simp only [List.cons_append, flatIdx, ih, List.append_assoc, List.length_cons]
    rw [show n + 1 + xs.length = n + (xs.length + 1) by omega]

theorem flatIdx_congr {α : Type} (f g : Nat → α → List Byte) (l : List α) : ∀ n m,
    (∀ (j : Nat) x, l[j]? = some x → f (n + j) x = g (m + j) x) →
    flatIdx f n l = flatIdx g m l := by
  induction l with
  | nil => intro n m _; rfl
  | cons x xs ih =>
    intro n m h
    have h0 := h 0 x (by simp)
    simp only [Nat.add_zero] at h0
    rw [flatIdx, flatIdx, h0, ih (n + 1) (m + 1) (fun j y hj => by
      have := h (j + 1) y (by simpa using hj)
      rw [show n + 1 + j = n + (j + 1) by omega, show m + 1 + j = m + (j + 1) by omega]
      exact this)]

theorem flatIdx_map {α β : Type} (f : Nat → β → List Byte) (h : α → β) (l : List α) : ∀ n,
    flatIdx f n (l.map h) = flatIdx (fun n x => f n (h x)) n l := by
  induction l with
  | nil => intro n; rfl
  | cons x xs ih => intro n; simp [flatIdx, ih]

theorem flatIdx_length {α : Type} (f : Nat → α → List Byte) (P : Nat) (l : List α) : ∀ n,
    (∀ (j : Nat) x, l[j]? = some x → (f (n + j) x).length = P) →
    (flatIdx f n l).length = l.length * P := by
  induction l with
  | nil => intro n _; simp [flatIdx]
  | cons x xs ih =>
    intro n h
    have h0 := h 0 x (by simp)
    simp only [Nat.add_zero] at h0
    rw [flatIdx, List.length_append, h0, ih (n + 1) (fun j y hj => by
      have := h (j + 1) y (by simpa using hj)
      rw [show n + 1 + j = n + (j + 1) by omega]; exact this)]
    simp only [List.length_cons]; ring

/-- Piece `g` of pieces of equal size. -/
theorem split_flatIdx {α : Type} (f : Nat → α → List Byte) (P : Nat) (l : List α) : ∀ n g x,
    (∀ (j : Nat) x, l[j]? = some x → (f (n + j) x).length = P) → l[g]? = some x →
    ∃ pre rest, flatIdx f n l = pre ++ (f (n + g) x ++ rest) ∧ pre.length = g * P := by
  induction l with
  | nil => intro n g x _ h; simp at h
  | cons y ys ih =>
    intro n g x hlen hg
    have h0 := hlen 0 y (by simp)
    simp only [Nat.add_zero] at h0
    cases g with
    | zero =>
      simp only [List.getElem?_cons_zero, Option.some.injEq] at hg
      subst hg
      exact ⟨[], _, by simp [flatIdx]; rfl, by simp⟩
    | succ g =>
      simp only [List.getElem?_cons_succ] at hg
      obtain ⟨pre, rest, hr, hp⟩ := ih (n + 1) g x (fun j y hj => by
        have := hlen (j + 1) y (by simpa using hj)
        rw [show n + 1 + j = n + (j + 1) by omega]; exact this) hg
      refine ⟨f n y ++ pre, rest, ?_, ?_⟩
      · rw [flatIdx, hr, show n + 1 + g = n + (g + 1) by omega, List.append_assoc]
      · rw [List.length_append, h0, hp, Nat.add_mul, Nat.one_mul, Nat.add_comm]

theorem split_flatMap {α : Type} (f : α → List Byte) (P : Nat) (l : List α) (g : Nat) (x : α)
    (hlen : ∀ x ∈ l, (f x).length = P) (hg : l[g]? = some x) :
    ∃ pre rest, l.flatMap f = pre ++ (f x ++ rest) ∧ pre.length = g * P := by
  have hgl : g < l.length := by
    by_contra hc
    rw [List.getElem?_eq_none (by omega)] at hg
    exact absurd hg (by simp)
  have hx : l[g] = x := by
    rw [List.getElem?_eq_getElem hgl] at hg; exact Option.some.inj hg
  refine ⟨(l.take g).flatMap f, (l.drop (g + 1)).flatMap f, ?_, ?_⟩
  · conv_lhs => rw [← List.take_append_drop g l, List.drop_eq_getElem_cons hgl, hx]
    rw [List.flatMap_append, List.flatMap_cons]
  · rw [List.length_flatMap]
    have : (l.take g).map (fun a => (f a).length) = List.replicate g P := by
      rw [List.eq_replicate_iff]
      refine ⟨by simp; omega, ?_⟩
      intro b hb
      obtain ⟨a, ha, rfl⟩ := List.mem_map.1 hb
      exact hlen a (List.mem_of_mem_take ha)
    rw [this]; simp

/-- A slice within one of several pieces. -/
theorem slice_of_split {l pre x rest : List Byte} {a o m : Nat} (h : l = pre ++ (x ++ rest))
    (hp : pre.length = a) (hom : o + m ≤ x.length) :
    slice l (a + o) m = slice x o m := by
  subst h hp
  unfold slice
  rw [if_pos (by simp only [List.length_append]; omega), if_pos hom]
  congr 1
  rw [← List.drop_drop, List.drop_left, List.drop_append, List.take_append]
  have : m - (x.drop o).length = 0 := by rw [List.length_drop]; omega
  rw [this, List.take_zero, List.append_nil]

theorem slice_all (x : List Byte) : slice x 0 x.length = some x := by
  simp [slice]

/-! ### Numbers -/

theorem le_length (w : Nat) : ∀ n, (le w n).length = w := by
  induction w with
  | zero => intro n; rfl
  | succ w ih => intro n; simp [le, ih]

theorem ofLe_le (w : Nat) : ∀ n, n < 256 ^ w → ofLe (le w n) = n := by
  induction w with
  | zero => intro n h; simp at h; subst h; rfl
  | succ w ih =>
    intro n h
    have h1 : n / 256 < 256 ^ w := by
      rw [Nat.div_lt_iff_lt_mul (by norm_num), ← Nat.pow_succ]; exact h
    simp only [le, ofLe, ih _ h1]
    have : (UInt8.ofNat (n % 256)).toNat = n % 256 := by
      simp
    rw [this]; omega

/-! ### The cells of a patch -/

/-- The points of a box, the first index fastest. -/
def box (nx ny nz : Nat) : List (Nat × Nat × Nat) :=
  (List.range nz).flatMap fun k => (List.range ny).flatMap fun j =>
    (List.range nx).map fun i => (i, j, k)

theorem getElem_flatMap {α β : Type} (f : α → List β) (P : Nat) (l : List α) : ∀ (g o : Nat) (x : α),
    (∀ x ∈ l, (f x).length = P) → l[g]? = some x → o < P →
    (l.flatMap f)[g * P + o]? = (f x)[o]? := by
  induction l with
  | nil => intro g o x _ h; simp at h
  | cons y ys ih =>
    intro g o x hlen hg ho
    have h0 := hlen y (by simp)
    rw [List.flatMap_cons]
    cases g with
    | zero =>
      simp only [List.getElem?_cons_zero, Option.some.injEq] at hg
      subst hg
      rw [Nat.zero_mul, Nat.zero_add, List.getElem?_append_left (by omega)]
    | succ g =>
      simp only [List.getElem?_cons_succ] at hg
      have hge : (f y).length ≤ (g + 1) * P + o := by
        rw [h0, Nat.add_mul]; omega
      rw [List.getElem?_append_right hge, h0,
        show (g + 1) * P + o - P = g * P + o by rw [Nat.add_mul]; omega]
      exact ih g o x (fun x hx => hlen x (List.mem_cons_of_mem _ hx)) hg ho

theorem box_row_length (nx ny k : Nat) :
    ((List.range ny).flatMap fun j => (List.range nx).map fun i => (i, j, k)).length
      = nx * ny := by
  rw [List.length_flatMap]
  simp [Nat.mul_comm]

theorem box_length (nx ny nz : Nat) : (box nx ny nz).length = nx * ny * nz := by
  unfold box
  rw [List.length_flatMap]
  simp only [box_row_length]
  simp [Nat.mul_comm]

theorem box_get {nx ny nz i j k : Nat} (hi : i < nx) (hj : j < ny) (hk : k < nz) :
    (box nx ny nz)[i + nx * (j + ny * k)]? = some (i, j, k) := by
  have h1 : j * nx + i < nx * ny := by
    calc j * nx + i < j * nx + nx := by omega
      _ = (j + 1) * nx := by ring
      _ ≤ ny * nx := Nat.mul_le_mul_right _ hj
      _ = nx * ny := Nat.mul_comm _ _
  have := getElem_flatMap (fun k => (List.range ny).flatMap fun j =>
    (List.range nx).map fun i => (i, j, k)) (nx * ny) (List.range nz) k (j * nx + i) k
    (fun x _ => box_row_length nx ny x) (by simp [hk]) h1
  rw [show i + nx * (j + ny * k) = k * (nx * ny) + (j * nx + i) by ring]
  unfold box
  rw [this, getElem_flatMap (fun j => (List.range nx).map fun i => (i, j, k)) nx (List.range ny)
    j i j (fun x _ => by simp) (by simp [hj]) hi]
  simp [hi]

theorem mem_box {nx ny nz : Nat} {c : Nat × Nat × Nat} (h : c ∈ box nx ny nz) :
    c.1 < nx ∧ c.2.1 < ny ∧ c.2.2 < nz := by
  unfold box at h
  simp only [List.mem_flatMap, List.mem_map, List.mem_range] at h
  obtain ⟨k, hk, j, hj, i, hi, rfl⟩ := h
  exact ⟨hi, hj, hk⟩

theorem box_flatMap {β : Type} (nx ny nz : Nat) (f : Nat → Nat → Nat → List β) :
    ((List.range nz).flatMap fun k => (List.range ny).flatMap fun j =>
      (List.range nx).flatMap fun i => f i j k)
      = (box nx ny nz).flatMap fun c => f c.1 c.2.1 c.2.2 := by
  unfold box
  simp only [List.flatMap_assoc, List.flatMap_map]

theorem kCells_eq (p : Params) : kCells p = List.range p.layers := by
  unfold kCells Params.layers
  cases p.mz <;> simp

/-- The number of layers of points in the third direction. -/
def pointLayers (p : Params) : Nat := match p.mz with | none => 1 | some mz => mz + 1

theorem kPoints_eq (p : Params) : kPoints p = List.range (pointLayers p) := by
  unfold kPoints pointLayers
  cases p.mz <;> simp

theorem cells_eq (p : Params) : p.cells = p.mx * p.my * p.layers := by
  unfold Params.cells Params.layers; cases p.mz <;> rfl

theorem points_eq (p : Params) : p.points = (p.mx + 1) * (p.my + 1) * pointLayers p := by
  unfold Params.points pointLayers; cases p.mz <;> rfl

/-! ### The patches of a process -/

theorem patches_length {R : Type} (F : Forest R) : ∀ k, (Forest.patches k F).length = F.count := by
  induction F with
  | nil => intro k; rfl
  | cons blk rest ih =>
    intro k
    simp only [Forest.patches, List.length_append, List.length_map, ih, Forest.count,
      List.map_cons, List.sum_cons]

theorem patches_mem {R : Type} (F : Forest R) : ∀ k x, x ∈ Forest.patches k F →
    k ≤ x.1 ∧ x.1 < k + F.length ∧ ∃ blk ∈ F, x.2 ∈ blk := by
  induction F with
  | nil => intro k x h; simp [Forest.patches] at h
  | cons blk rest ih =>
    intro k x h
    simp only [Forest.patches, List.mem_append, List.mem_map] at h
    rcases h with ⟨pt, hpt, rfl⟩ | h
    · exact ⟨le_refl _, by simp, blk, by simp, hpt⟩
    · obtain ⟨h1, h2, b, hb, hx⟩ := ih (k + 1) x h
      exact ⟨by omega, by simp only [List.length_cons]; omega, b, by simp [hb], hx⟩

/-- The patches with global numbers from `a` up to `b`, of a list that begins
with number `s`. -/
def window {α : Type} (a b s : Nat) (l : List α) : List α := (l.take (b - s)).drop (a - s)

theorem window_length {α : Type} (a b s : Nat) (l : List α) :
    (window a b s l).length = min (b - s) l.length - (a - s) := by
  simp [window]

theorem window_append {α : Type} (a b s : Nat) (l l' : List α) :
    window a b s (l ++ l') = window a b s l ++ window a b (s + l.length) l' := by
  unfold window
  rw [List.take_append, List.drop_append]
  congr 1
  rw [List.length_take]
  by_cases h : l.length ≤ b - s
  · rw [min_eq_right h, Nat.sub_sub, Nat.sub_sub]
  · rw [show b - s - l.length = 0 by omega, show b - (s + l.length) = 0 by omega]
    simp

theorem window_map {α β : Type} (f : α → β) (a b s : Nat) (l : List α) :
    window a b s (l.map f) = (window a b s l).map f := by
  simp [window, List.map_take, List.map_drop]

theorem window_get {α : Type} {a b s : Nat} {l : List α} {j : Nat} {x : α}
    (h : (window a b s l)[j]? = some x) : l[a - s + j]? = some x ∧ a - s + j < b - s := by
  unfold window at h
  rw [List.getElem?_drop] at h
  have hlt : a - s + j < (l.take (b - s)).length := by
    by_contra hc
    rw [List.getElem?_eq_none (by omega)] at h
    exact absurd h (by simp)
  rw [List.length_take] at hlt
  rw [List.getElem?_take_of_lt (by omega)] at h
  exact ⟨h, by omega⟩

/-- The patches of a process one after the other. -/
theorem body_eq {R : Type} (a b : Nat) (f : Nat → LocalBlock R → Nat → Patch R → Outcome (List Byte))
    (E : Nat → Nat × Patch R → List Byte) (hab : a ≤ b) (F : Forest R) : ∀ k s nb,
    nb = min b s - a →
    (∀ (lb : LocalBlock R) (j g : Nat) (x : Nat × Patch R), a + lb.numPatchesBefore + j = g →
      s ≤ g → a ≤ g → g < b → (Forest.patches k F)[g - s]? = some x →
      f x.1 lb j x.2 = .ok (E g x)) →
    catIdx (fun blockno lb => catIdx (fun j pt => f blockno lb j pt) 0 lb.patches) k
      (localBlocks a b s nb F)
      = .ok (flatIdx E (s + (a - s)) (window a b s (Forest.patches k F))) := by
  induction F with
  | nil => intro k s nb _ _; simp [localBlocks, catIdx, Forest.patches, window, flatIdx]
  | cons blk rest ih =>
    intro k s nb hnb hf
    have hml : (window a b s blk).length = min (b - s) blk.length - (a - s) := window_length ..
    have hrest := ih (k + 1) (s + blk.length) (nb + (window a b s blk).length)
      (by rw [hml, hnb]; omega)
      (fun lb j g x hg hs ha hb hx => hf lb j g x hg (by omega) ha hb (by
        simp only [Forest.patches]
        rw [List.getElem?_append_right (by simp; omega)]
        rw [show g - s - (blk.map fun pt => (k, pt)).length = g - (s + blk.length) by
          simp; omega]
        exact hx))
    have hfirst : catIdx (fun j pt => f k ⟨window a b s blk, nb⟩ j pt) 0 (window a b s blk)
        = .ok (flatIdx (fun j pt => E (s + (a - s) + j) (k, pt)) 0 (window a b s blk)) := by
      refine catIdx_ok _ _ _ 0 (fun j pt hj => ?_)
      obtain ⟨h1, h2⟩ := window_get hj
      have hlt : a - s + j < blk.length := by
        by_contra hc
        rw [List.getElem?_eq_none (by omega)] at h1
        exact absurd h1 (by simp)
      have e : s + (a - s) + (0 + j) - s = a - s + j := by omega
      refine hf ⟨window a b s blk, nb⟩ (0 + j) _ (k, pt) ?_ (by omega) (by omega) (by omega) ?_
      · simp only; omega
      · simp only [Forest.patches]
        rw [e, List.getElem?_append_left (by simp; omega), List.getElem?_map, h1]
        rfl
    simp only [localBlocks, catIdx]
    change (catIdx (fun j pt => f k ⟨window a b s blk, nb⟩ j pt) 0 (window a b s blk)).bind _ = _
    rw [hfirst]
    change (catIdx _ (k + 1) (localBlocks a b (s + blk.length)
      (nb + (window a b s blk).length) rest)).bind _ = _
    rw [hrest]
    simp only [bind_ok]
    congr 1
    simp only [Forest.patches]
    rw [window_append, flatIdx_append, window_map, flatIdx_map, List.length_map, List.length_map]
    congr 1
    · exact flatIdx_congr _ _ _ _ _ (fun j x _ => by simp)
    · refine flatIdx_congr _ _ _ _ _ (fun j x hj => ?_)
      obtain ⟨_, h2⟩ := window_get hj
      rw [hml]
      congr 1
      omega

/-! ### All processes together -/

theorem flatMap_swap {α β γ : Type} (l : List α) (l' : List β) (f : α → β → List γ) :
    (l.flatMap fun a => l'.flatMap fun b => f a b).Perm
      (l'.flatMap fun b => l.flatMap fun a => f a b) := by
  induction l with
  | nil => simp
  | cons a l ih =>
    simp only [List.flatMap_cons]
    exact ((List.Perm.refl _).append ih).trans
      (List.flatMap_append_perm l' (fun b => f a b) (fun b => l.flatMap fun a => f a b))

end Fclaw.Vtk

import Verif.Partition.TransferLemmas
/- Counting lemmas for property C10. -/
set_option autoImplicit false
namespace Fclaw.Partition

theorem range'_map (lo n : Nat) : (List.range n).map (fun j => lo + j) = List.range' lo n := by
  rw [List.range'_eq_map_range]

theorem count_block (a b c d B n : Nat) :
    (List.range (min d (B + n) - max c B)).countP
        (fun j => decide (a ≤ max c B + j ∧ max c B + j < b))
      = (List.range (min b (B + n) - max a B)).countP
        (fun j => decide (c ≤ max a B + j ∧ max a B + j < d)) := by
  have h : ∀ (a b c d : Nat), (List.range (min d (B + n) - max c B)).countP
        (fun j => decide (a ≤ max c B + j ∧ max c B + j < b))
      = (List.range' B n).countP fun x => decide (a ≤ x ∧ x < b) && decide (c ≤ x ∧ x < d) := by
    intro a b c d
    rw [← List.countP_filter, filter_range', ← range'_map, List.countP_map]
    rfl
  rw [h a b c d, h c d a b]
  congr 1
  funext x
  exact Bool.and_comm _ _

theorem count_positions {α : Type} (g : List (List α)) (a b c d : Nat) :
    (positions g c d).countP (fun p => (callAt g a b c p).oldPatchno.isSome)
      = (positions g a b).countP (fun p =>
          decide (c ≤ max a (blockStart g p.1) + p.2 ∧ max a (blockStart g p.1) + p.2 < d)) := by
  unfold positions
  rw [List.countP_flatMap, List.countP_flatMap]
  congr 1
  apply List.map_congr_left
  intro i _
  simp only [Function.comp, List.countP_map]
  refine Eq.trans ?_ (count_block a b c d (blockStart g i) ((g[i]?.getD []).length))
  congr 1
  funext j
  simp only [Function.comp, callAt]
  split
  · rename_i h; simp [h]
  · rename_i h; simp [h]

theorem old_positions {α : Type} (g : List (List α)) (a b : Nat) (hab : a ≤ b) :
    ((localPart a b 0 g).zipIdx.flatMap fun x => (List.range x.1.length).map fun j => (x.2, j))
      = positions g a b := by
  have gen : ∀ (g : List (List α)) (B o : Nat),
      ((localPart a b B g).zipIdx o).flatMap (fun x => (List.range x.1.length).map fun j => (x.2, j))
      = (List.range g.length).flatMap fun i =>
          (List.range (min b (B + blockStart g i + (g[i]?.getD []).length)
            - max a (B + blockStart g i))).map fun j => (o + i, j) := by
    intro g
    induction g with
    | nil => intro B o; rfl
    | cons x g ih =>
      intro B o
      simp only [localPart, List.zipIdx_cons, List.flatMap_cons, slice_length x a b B hab,
        List.length_cons, List.range_succ_eq_map, List.flatMap_map]
      rw [ih]
      congr 1
      congr 1
      funext i
      have e2 : B + x.length + blockStart g i = B + blockStart (x :: g) (i + 1) := by
        simp [blockStart]; omega
      rw [e2, show o + 1 + i = o + (i + 1) by omega]
      simp
  rw [gen g 0 0]
  unfold positions
  simp

theorem localPart_flatten {α : Type} (a b : Nat) (hab : a ≤ b) (g : List (List α)) : ∀ B,
    (localPart a b B g).flatten = (g.flatten.drop (a - B)).take (b - max a B) := by
  induction g with
  | nil => intro B; simp [localPart]
  | cons x g ih =>
    intro B
    simp only [localPart, List.flatten_cons, ih]
    rw [List.drop_append, List.take_append]
    congr 1
    · by_cases h : b ≤ B + x.length
      · rw [show min b (B + x.length) - max a B = b - max a B by omega]
      · rw [List.take_of_length_le (by simp; omega), List.take_of_length_le (by simp; omega)]
    · simp only [List.length_drop]
      rw [show a - (B + x.length) = a - B - x.length by omega]
      congr 1
      omega

theorem cuts_flatten {α : Type} (l : List α) (cut : Nat → Nat) (hmono : ∀ p, cut p ≤ cut (p + 1)) :
    ∀ n, ((List.range n).flatMap fun p => (l.drop (cut p)).take (cut (p + 1) - cut p))
      = (l.take (cut n)).drop (cut 0) := by
  intro n
  induction n with
  | zero => simp
  | succ n ih =>
    have hle : cut 0 ≤ cut n := by
      clear ih
      induction n with
      | zero => exact Nat.le_refl _
      | succ n ih => exact Nat.le_trans ih (hmono n)
    have hs := hmono n
    rw [List.range_succ, List.flatMap_append, ih]
    simp only [List.flatMap_cons, List.flatMap_nil, List.append_nil]
    have : l.take (cut (n + 1)) = l.take (cut n) ++ (l.drop (cut n)).take (cut (n + 1) - cut n) := by
      conv => lhs; rw [show cut (n + 1) = cut n + (cut (n + 1) - cut n) by omega]
      rw [List.take_add]
    rw [this, List.drop_append]
    congr 1
    by_cases h : cut 0 ≤ (l.take (cut n)).length
    · rw [show cut 0 - (l.take (cut n)).length = 0 by omega]; simp
    · have : l.drop (cut n) = [] := by
        apply List.drop_of_length_le
        simp at h; omega
      simp [this]

end Fclaw.Partition

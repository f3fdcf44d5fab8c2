import Verif.Partition.CountLemmas
import Verif.Partition.Props
/- Repartitioning when packing does not keep all of the data. -/
set_option autoImplicit false
namespace Fclaw.Partition

variable {U D : Type}

theorem process_general (pack : U → D) (unpack : D → U)
    (data : List (List U)) (a b c d : Nat) (hab : a ≤ b) (hcd : c ≤ d) (oldSet oldDelete : Int) :
    ∃ s, partitionDomain pack unpack data a b c d oldSet oldDelete = some s ∧
      ∀ i j, s.new i j = (((localPart c d 0 data)[i]?.getD [])[j]?).map fun u =>
        if a ≤ max c (blockStart data i) + j ∧ max c (blockStart data i) + j < b then u else unpack (pack u) := by
  unfold partitionDomain
  rw [C09_callbacks data a b c d hab hcd, wanted_eq, wantedFrom_positions]
  obtain ⟨h1, _⟩ := transfer_spec (U := U) unpack
    (fun i => ((infos 0 (localPart c d 0 data))[i]?.map BlockInfo.before).getD 0)
    (received pack data c d) (callAt data a b c) (fun _ => ⟨rfl, rfl⟩) (positions data c d)
    ⟨users data a b, fun _ _ => none, oldSet, oldDelete, 0⟩ (positions_nodup data c d)
    (callAt_inj data a b c d)
  dsimp only at h1
  refine ⟨_, rfl, ?_⟩
  intro i j
  rw [h1 (i, j)]
  have hu := users_getElem data c d i j
  unfold users at hu
  rw [hu]
  by_cases hp : (i, j) ∈ positions data c d
  · rw [if_pos hp]
    obtain ⟨blk, hi, hj⟩ := (mem_positions data c d (i, j)).1 hp
    simp only at hi hj
    have hbef := infos_before data c d hcd 0 i blk hi
    simp only [Nat.zero_add, Nat.min_zero, Nat.sub_self] at hbef
    rw [hi]
    simp only [hj, ↓reduceIte, callAt]
    by_cases hc : a ≤ max c (blockStart data i) + j ∧ max c (blockStart data i) + j < b
    · simp only [hc, and_self, if_true]
      rw [users_getElem, hi]
      simp only
      rw [if_pos (by omega)]
      rw [show max a (blockStart data i) + (max c (blockStart data i) + j - max a (blockStart data i)) = max c (blockStart data i) + j by omega]
      simp
    · simp only [if_neg hc]
      have hb2 : (((infos 0 (localPart c d 0 data))[i]?.map BlockInfo.before).getD 0)
          = min d (blockStart data i) - min c (blockStart data i) := by
        rw [hbef]; rfl
      rw [hb2]
      unfold received
      rw [if_pos (by omega), Option.map_map]
      rw [show c + (min d (blockStart data i) - min c (blockStart data i) + j)
        = max c (blockStart data i) + j by omega]
      rfl
  · rw [if_neg hp]
    cases hi : data[i]? with
    | none => rfl
    | some blk =>
      simp only
      rw [if_neg]
      · rfl
      intro hj
      exact hp ((mem_positions data c d (i, j)).2 ⟨blk, hi, hj⟩)

end Fclaw.Partition

import Verif.Partition.CountLemmas
/-
Property C09: repartitioning calls back once per new patch and pairs retained patches with
themselves.  Property C10: repartitioning moves every patch's data to its new owner unchanged.

`g` is the global forest, a list of blocks of patches. The process considered owned the patches
with global numbers in `[a, b)` before and owns `[c, d)` after the partition.
-/
set_option autoImplicit false
namespace Fclaw.Partition

variable {α U D : Type}

/-- C09: no assertion fails and the callbacks are exactly the wanted ones. -/
theorem C09_callbacks (g : List (List α)) (a b c d : Nat) (hab : a ≤ b) (hcd : c ≤ d) :
    iteratePartitioned g a b c d = some (wanted g a b c d) := by
  rw [wanted_eq]
  have := blocksCalls_eq a b c d hab hcd g 0 0
  simpa [iteratePartitioned] using this

/-- C09: one callback per new local patch, in order. -/
theorem C09_each_new_once (g : List (List α)) (a b c d : Nat) (hcd : c ≤ d) :
    (wanted g a b c d).map (fun x => (x.blockno, x.newPatchno))
      = (localPart c d 0 g).zipIdx.flatMap fun x => (List.range x.1.length).map fun j => (x.2, j) := by
  rw [wanted_eq, wantedFrom_positions, old_positions g c d hcd, List.map_map]
  conv => rhs; rw [← List.map_id (positions g c d)]
  rfl

/-- C09: the new patch of a callback is the patch with global number `n` for some `c ≤ n < d`; the
callback has an old patch exactly if `n` was local before, and then the old patch is this patch. -/
theorem C09_same_patch (g : List (List α)) (a b c d : Nat) (x : TCall)
    (hx : x ∈ wanted g a b c d) :
    ∃ n, c ≤ n ∧ n < d ∧ n < g.flatten.length ∧
      ((localPart c d 0 g)[x.blockno]?.getD [])[x.newPatchno]? = g.flatten[n]? ∧
      (x.oldPatchno.isSome ↔ a ≤ n ∧ n < b) ∧
      ∀ o, x.oldPatchno = some o → ((localPart a b 0 g)[x.blockno]?.getD [])[o]? = g.flatten[n]? := by
  rw [wanted_eq, wantedFrom_positions, List.mem_map] at hx
  obtain ⟨p, hp, rfl⟩ := hx
  obtain ⟨blk, hi, hj⟩ := (mem_positions g c d p).1 hp
  have hlen := flatten_length g p.1 blk hi
  refine ⟨max c (blockStart g p.1) + p.2, by omega, by omega, by omega,
    local_entry c d g p.1 p.2 blk hi hj, ?_, ?_⟩
  · simp only [callAt]
    split
    · rename_i h; simp [h]
    · rename_i h; simp only [Option.isSome_none, Bool.false_eq_true, false_iff]; exact h
  · intro o ho
    simp only [callAt] at ho ⊢
    split at ho
    · rename_i h
      simp only [Option.some.injEq] at ho
      subst ho
      rw [local_entry a b g p.1 _ blk hi (by omega)]
      congr 1; omega
    · simp at ho

/-- C09: a patch that was local before and still is appears as the old patch of exactly one
callback. -/
theorem C09_each_retained_once (g : List (List α)) (a b c d : Nat) (i : Nat) (blk : List α)
    (hi : g[i]? = some blk) (n : Nat) (hn1 : blockStart g i ≤ n) (hn2 : n < blockStart g i + blk.length)
    (hold : a ≤ n ∧ n < b) (hnew : c ≤ n ∧ n < d) :
    ((wanted g a b c d).filter fun x =>
      decide (x.blockno = i ∧ x.oldPatchno = some ((globalNumbers g a b i).idxOf n))).length = 1 := by
  have hidx : (globalNumbers g a b i).idxOf n = n - max a (blockStart g i) := by
    rw [globalNumbers_eq, hi]
    simp only [Option.getD_some]
    exact idxOf_range' _ _ _ (by omega) (by omega)
  rw [hidx, wanted_eq, wantedFrom_positions, List.filter_map, List.length_map]
  have hmem : (i, n - max c (blockStart g i)) ∈ positions g c d := by
    rw [mem_positions]; exact ⟨blk, hi, by simp only; omega⟩
  have hfil : (positions g c d).filter ((fun x : TCall =>
      decide (x.blockno = i ∧ x.oldPatchno = some (n - max a (blockStart g i)))) ∘ callAt g a b c)
      = (positions g c d).filter fun p => decide (p = (i, n - max c (blockStart g i))) := by
    apply List.filter_congr
    intro p hp
    rw [Function.comp, decide_eq_decide]
    constructor
    · rintro ⟨h1, h2⟩
      simp only [callAt] at h1 h2
      subst h1
      split at h2
      · simp only [Option.some.injEq] at h2
        exact Prod.ext rfl (by simp only; omega)
      · simp at h2
    · rintro rfl
      refine ⟨rfl, ?_⟩
      simp only [callAt]
      rw [if_pos (by omega)]
      congr 1; omega
  rw [hfil]
  have hnd := positions_nodup g c d
  rw [← List.countP_eq_length_filter]
  have : (positions g c d).countP (fun p => decide (p = (i, n - max c (blockStart g i))))
      = (positions g c d).count (i, n - max c (blockStart g i)) := by
    unfold List.count
    congr 1
    funext p
    rw [Bool.eq_iff_iff, beq_iff_eq, decide_eq_true_iff]
  rw [this, List.count_eq_one_of_mem hnd hmem]

/-- C10, one process: after the transfer the new patches hold exactly the data of the patches with
their global numbers, for any lossless pack/unpack pair; patches that left keep their data in the
old domain (deleted at its reset), patches that stayed are handed over, none is shared; the
counters of the new domain and of the old domain are right. -/
theorem C10_process (pack : U → D) (unpack : D → U) (hrt : ∀ u, unpack (pack u) = u)
    (data : List (List U)) (a b c d : Nat) (hab : a ≤ b) (hcd : c ≤ d) (oldSet oldDelete : Int) :
    ∃ s, partitionDomain pack unpack data a b c d oldSet oldDelete = some s ∧
      (∀ i j, s.new i j = ((localPart c d 0 data)[i]?.getD [])[j]?) ∧
      (∀ i j, s.old i j =
        if c ≤ max a (blockStart data i) + j ∧ max a (blockStart data i) + j < d then none
        else ((localPart a b 0 data)[i]?.getD [])[j]?) ∧
      s.newSet = ((localPart c d 0 data).map List.length).sum ∧
      s.oldSet = oldSet ∧
      resetDelete (localPart a b 0 data) s = oldDelete + ((localPart a b 0 data).map List.length).sum := by
  have hposlen : ∀ (x y : Nat), x ≤ y →
      (positions data x y).length = ((localPart x y 0 data).map List.length).sum := by
    intro x y hxy
    rw [← old_positions data x y hxy]
    rw [List.length_flatMap]
    have gen : ∀ (l : List (List U)) (o : Nat),
        ((l.zipIdx o).map fun x => ((List.range x.1.length).map fun j => (x.2, j)).length)
          = l.map List.length := by
      intro l
      induction l with
      | nil => intro o; rfl
      | cons z l ih => intro o; simp only [List.zipIdx_cons, List.map_cons, ih]; simp
    rw [gen]
  unfold partitionDomain
  rw [C09_callbacks data a b c d hab hcd, wanted_eq, wantedFrom_positions]
  obtain ⟨h1, h2, h3, h4, h5⟩ := transfer_spec (U := U) unpack
    (fun i => ((infos 0 (localPart c d 0 data))[i]?.map BlockInfo.before).getD 0)
    (received pack data c d) (callAt data a b c) (fun _ => ⟨rfl, rfl⟩) (positions data c d)
    ⟨users data a b, fun _ _ => none, oldSet, oldDelete, 0⟩ (positions_nodup data c d)
    (callAt_inj data a b c d)
  dsimp only at h1 h2 h3 h4 h5
  have hold : ∀ i j, (transferAll unpack
      (fun i => ((infos 0 (localPart c d 0 data))[i]?.map BlockInfo.before).getD 0)
      (received pack data c d) ⟨users data a b, fun _ _ => none, oldSet, oldDelete, 0⟩
      ((positions data c d).map (callAt data a b c))).old i j =
        if c ≤ max a (blockStart data i) + j ∧ max a (blockStart data i) + j < d then none
        else users data a b i j := by
    intro i j
    rw [h2]
    by_cases hex : ∃ p ∈ positions data c d, p.1 = i ∧ (callAt data a b c p).oldPatchno = some j
    · rw [if_pos hex]
      obtain ⟨p, hp, rfl, ho⟩ := hex
      obtain ⟨blk, hi, hj⟩ := (mem_positions data c d p).1 hp
      simp only [callAt] at ho
      split at ho
      · simp only [Option.some.injEq] at ho
        rw [if_pos (by omega)]
      · simp at ho
    · rw [if_neg hex]
      split
      · rename_i hc
        rw [users_getElem]
        cases hi : data[i]? with
        | none => rfl
        | some blk =>
          simp only
          rw [if_neg]
          intro hj
          apply hex
          refine ⟨(i, max a (blockStart data i) + j - max c (blockStart data i)), ?_, rfl, ?_⟩
          · rw [mem_positions]; exact ⟨blk, hi, by simp only; omega⟩
          · simp only [callAt]
            rw [if_pos (by omega)]
            congr 1; omega
      · rfl
  refine ⟨_, rfl, ?_, ?_, ?_, h4, ?_⟩
  · intro i j
    rw [h1 (i, j)]
    have hu := users_getElem data c d i j
    unfold users at hu
    rw [hu]
    by_cases hp : (i, j) ∈ positions data c d
    · rw [if_pos hp]
      obtain ⟨blk, hi, hj⟩ := (mem_positions data c d (i, j)).1 hp
      simp only at hi hj
      have hbef := infos_before data c d hcd 0 i blk hi
      simp only [Nat.zero_add, Nat.min_zero, Nat.sub_self] at hbef
      rw [hi]
      simp only [hj, ↓reduceIte, callAt]
      by_cases hc : a ≤ max c (blockStart data i) + j ∧ max c (blockStart data i) + j < b
      · rw [if_pos hc]
        simp only
        rw [users_getElem, hi]
        simp only
        rw [if_pos (by omega)]
        congr 1; omega
      · rw [if_neg hc]
        simp only
        have hb2 : (((infos 0 (localPart c d 0 data))[i]?.map BlockInfo.before).getD 0)
            = min d (blockStart data i) - min c (blockStart data i) := by
          rw [hbef]; rfl
        rw [hb2]
        unfold received
        rw [if_pos (by omega), Option.map_map]
        rw [show c + (min d (blockStart data i) - min c (blockStart data i) + j)
          = max c (blockStart data i) + j by omega]
        have : unpack ∘ pack = id := funext hrt
        rw [this]; simp
    · rw [if_neg hp]
      cases hi : data[i]? with
      | none => rfl
      | some blk =>
        simp only
        rw [if_neg]
        intro hj
        exact hp ((mem_positions data c d (i, j)).2 ⟨blk, hi, hj⟩)
  · exact hold
  · rw [h3, hposlen c d hcd]; simp
  · unfold resetDelete
    rw [old_positions data a b hab, foldl_count (fun p => _), h5]
    simp only
    have hsplit := List.length_eq_countP_add_countP (l := positions data a b)
      (fun p => decide (c ≤ max a (blockStart data p.1) + p.2 ∧ max a (blockStart data p.1) + p.2 < d))
    rw [count_positions, ← hposlen a b hab]
    have : (positions data a b).countP (fun p => (((transferAll unpack
      (fun i => ((infos 0 (localPart c d 0 data))[i]?.map BlockInfo.before).getD 0)
      (received pack data c d) ⟨users data a b, fun _ _ => none, oldSet, oldDelete, 0⟩
      ((positions data c d).map (callAt data a b c))).old p.1 p.2).isSome))
      = (positions data a b).countP (fun p => decide ¬ decide
        (c ≤ max a (blockStart data p.1) + p.2 ∧ max a (blockStart data p.1) + p.2 < d)) := by
      apply List.countP_congr
      intro p hp
      rw [hold]
      obtain ⟨blk, hi, hj⟩ := (mem_positions data a b p).1 hp
      have hl := flatten_length data p.1 blk hi
      split
      · rename_i hc; simp [hc]
      · rename_i hc
        rw [users_getElem, hi]
        simp only
        rw [if_pos hj, List.getElem?_eq_getElem (by omega)]
        simp [hc]
    rw [this]
    omega

/-- C10, all processes: for any number of processes and any distribution, the local patches of all
processes together are all patches of the forest in order: by `C10_process` no data is lost or
duplicated. -/
theorem C10_all (data : List (List U)) (nproc : Nat) (cut : Nat → Nat)
    (hmono : ∀ p, cut p ≤ cut (p + 1)) (h0 : cut 0 = 0) (hend : cut nproc = data.flatten.length) :
    ((List.range nproc).flatMap fun p => (localPart (cut p) (cut (p + 1)) 0 data).flatten)
      = data.flatten := by
  have : ∀ p, (localPart (cut p) (cut (p + 1)) 0 data).flatten
      = (data.flatten.drop (cut p)).take (cut (p + 1) - cut p) := by
    intro p
    rw [localPart_flatten _ _ (hmono p)]
    simp
  simp only [this]
  rw [cuts_flatten _ cut hmono, h0, hend, List.take_of_length_le (Nat.le_refl _)]
  rfl

/-! Non-vacuity: three blocks (one of them not on this process), window shifts to the right. -/

example : iteratePartitioned [[10, 11], [20, 21, 22], [30]] 1 4 3 6
    = some [⟨1, some 1, 0⟩, ⟨1, none, 1⟩, ⟨2, none, 0⟩] := by
  rw [C09_callbacks _ 1 4 3 6 (by decide) (by decide)]; decide

example : ∃ s : TState Nat, partitionDomain (fun n => n + 7) (fun n => n - 7)
    [[10, 11], [20, 21, 22], [30]] 1 4 3 6 3 0 = some s ∧ s.new 1 1 = some 22 ∧ s.new 1 0 = some 21 ∧
    s.old 1 1 = none ∧ s.old 0 0 = some 11 := by
  obtain ⟨s, h1, h2, h3, -⟩ := C10_process (fun n : Nat => n + 7) (fun n => n - 7) (fun u => by simp)
    [[10, 11], [20, 21, 22], [30]] 1 4 3 6 (by decide) (by decide) 3 0
  exact ⟨s, h1, by rw [h2]; decide, by rw [h2]; decide, by rw [h3]; decide, by rw [h3]; decide⟩

end Fclaw.Partition

/-
C23: tagging for regridding respects the level bounds.
-/
import Verif.Regrid.Model
import Verif.Domain.Props
import Verif.Smooth.Props

set_option autoImplicit false
set_option linter.unusedSimpArgs false
namespace Fclaw.Regrid
open Fclaw.Domain Fclaw.Smooth

theorem levelAt_eq (P : Params) (mirrors : List Nat) (hsort : mirrors.Pairwise (· < ·))
    (blocks : List (List (Path 4)))
    (hlev : ∀ qs ∈ blocks, ∀ q ∈ qs, q.length ≤ P.possibleMaxlevel)
    (i j : Nat) (qs : List (Path 4)) (hi : blocks[i]? = some qs) :
    levelAt (domainNew 4 P mirrors blocks) (i, j) = qs[j]?.map List.length := by
  obtain ⟨_, h⟩ := C06_blocks (by decide : 0 < 4) P mirrors hsort blocks hlev
  obtain ⟨blk, h1, _, _, h2, _⟩ := h i qs hi
  unfold levelAt
  simp only [h1]
  have := congrArg (fun l : List (Nat × Nat) => l[j]?.map Prod.fst) h2
  simp only [List.getElem?_map, Option.map_map, Function.comp_def] at this
  exact this

theorem mem_zip {β : Type} (blocks : List (List (Path 4))) (f : List (Path 4) × Nat → List β)
    (x : β) : x ∈ blocks.zipIdx.flatMap f ↔ ∃ (i : Nat) (qs : List (Path 4)),
      blocks[i]? = some qs ∧ x ∈ f (qs, i) := by
  simp only [List.mem_flatMap]
  constructor
  · rintro ⟨⟨qs, i⟩, h, hx⟩
    rw [List.mem_zipIdx_iff_getElem?] at h
    exact ⟨i, qs, h, hx⟩
  · rintro ⟨i, qs, h, hx⟩
    exact ⟨(qs, i), by rw [List.mem_zipIdx_iff_getElem?]; exact h, hx⟩

theorem last_append (xs ys : List Bool) (hx : ∀ x ∈ xs, x = false) (hy : ∀ y ∈ ys, y = true) :
    (xs ++ ys).getLast? = if true ∈ ys then some true else if false ∈ xs then some false else none := by
  by_cases h : true ∈ ys
  · rw [if_pos h]
    have hne : ys ≠ [] := by rintro rfl; simp at h
    rw [List.getLast?_append_of_ne_nil _ hne, List.getLast?_eq_some_getLast hne]
    rw [hy _ (List.getLast_mem hne)]
  · rw [if_neg h]
    have hnil : ys = [] := by
      cases ys with
      | nil => rfl
      | cons y ys => exact absurd (by rw [hy y (by simp)]; simp) h
    subst hnil
    simp only [List.append_nil]
    by_cases h2 : false ∈ xs
    · rw [if_pos h2]
      have hne : xs ≠ [] := by rintro rfl; simp at h2
      rw [List.getLast?_eq_some_getLast hne, hx _ (List.getLast_mem hne)]
    · rw [if_neg h2]
      cases xs with
      | nil => rfl
      | cons x xs => exact absurd (by rw [hx x (by simp)]; simp) h2

section
variable (P : Params) (mirrors : List Nat) (hsort : mirrors.Pairwise (· < ·))
  (blocks : List (List (Path 4)))
  (hlev : ∀ qs ∈ blocks, ∀ q ∈ qs, q.length ≤ P.possibleMaxlevel)
include hsort hlev

/-- Which patches are marked for refinement. -/
theorem mem_refine (maxlevel : Int) (tagR : Ptr → Int) (i j : Nat) (b : Bool) :
    ((i, j), b) ∈ (iteratePatches (domainNew 4 P mirrors blocks)).flatMap
        (tag4refinement (domainNew 4 P mirrors blocks) maxlevel tagR) ↔
      b = true ∧ ∃ qs q, blocks[i]? = some qs ∧ qs[j]? = some q ∧ (q.length : Int) < maxlevel ∧
        tagR (i, j) = 1 := by
  rw [C07_iterate_patches (by decide : 0 < 4) P mirrors hsort blocks]
  rw [List.mem_flatMap]
  constructor
  · rintro ⟨⟨i', j'⟩, h1, h2⟩
    rw [mem_zip] at h1
    obtain ⟨i'', qs, hqs, h1⟩ := h1
    simp only [blockPtrs, List.mem_map, List.mem_range, Prod.mk.injEq] at h1
    obtain ⟨j'', hj'', rfl, rfl⟩ := h1
    unfold tag4refinement at h2
    rw [levelAt_eq P mirrors hsort blocks hlev _ _ qs hqs] at h2
    rw [List.getElem?_eq_getElem hj''] at h2
    simp only [Option.map_some] at h2
    split at h2
    · split at h2
      · simp only [List.mem_singleton, Prod.mk.injEq] at h2
        obtain ⟨⟨rfl, rfl⟩, rfl⟩ := h2
        rename_i h3 h4
        exact ⟨rfl, qs, qs[j], hqs, List.getElem?_eq_getElem hj'', h3, h4⟩
      · simp at h2
    · simp at h2
  · rintro ⟨rfl, qs, q, hqs, hq, h3, h4⟩
    refine ⟨(i, j), ?_, ?_⟩
    · rw [mem_zip]
      have := (List.getElem?_eq_some_iff.mp hq).1
      exact ⟨i, qs, hqs, by simp [blockPtrs, this]⟩
    · unfold tag4refinement
      rw [levelAt_eq P mirrors hsort blocks hlev _ _ qs hqs, hq]
      simp [h3, h4]

/-- Which patches are marked for coarsening. -/
theorem mem_coarsen (minlevel : Int) (tagC : Ptr → Int) (i j : Nat) (b : Bool) :
    ((i, j), b) ∈ (iterateFamilies 4 (domainNew 4 P mirrors blocks)).flatMap
        (tag4coarsening (domainNew 4 P mirrors blocks) minlevel tagC) ↔
      b = false ∧ ∃ qs q j0, blocks[i]? = some qs ∧ FamilyAt qs j0 ∧ j0 ≤ j ∧ j < j0 + 4 ∧
        qs[j]? = some q ∧ minlevel < q.length ∧ tagC (i, j0) = 1 := by
  rw [C07_iterate_families (by decide : 0 < 4) P mirrors hsort blocks]
  rw [List.mem_flatMap]
  have hfamlen : ∀ (qs : List (Path 4)) (j0 j : Nat), FamilyAt qs j0 → j0 ≤ j → j < j0 + 4 →
      ∃ q q0, qs[j]? = some q ∧ qs[j0]? = some q0 ∧ q.length = q0.length := by
    intro qs j0 j hF h1 h2
    obtain ⟨par, hk⟩ := hF
    have e1 := hk ⟨j - j0, by omega⟩
    have e0 := hk ⟨0, by omega⟩
    simp only [Nat.add_zero, Nat.add_sub_cancel' h1] at e0 e1
    exact ⟨_, _, e1, e0, by simp⟩
  constructor
  · rintro ⟨⟨i', j'⟩, h1, h2⟩
    rw [mem_zip] at h1
    obtain ⟨i'', qs, hqs, h1⟩ := h1
    simp only [List.mem_map, List.mem_filter, List.mem_range, Prod.mk.injEq, decide_eq_true_eq] at h1
    obtain ⟨j0, ⟨hj0, hF⟩, rfl, rfl⟩ := h1
    unfold tag4coarsening at h2
    rw [levelAt_eq P mirrors hsort blocks hlev _ _ qs hqs] at h2
    rw [List.getElem?_eq_getElem hj0] at h2
    simp only [Option.map_some] at h2
    split at h2
    · split at h2
      · simp only [List.mem_map, List.mem_range, Prod.mk.injEq] at h2
        obtain ⟨k, hk, ⟨rfl, rfl⟩, rfl⟩ := h2
        rename_i h3 h4
        obtain ⟨q, q0, e1, e0, e2⟩ := hfamlen qs j0 (j0 + k) hF (by omega) (by omega)
        rw [List.getElem?_eq_getElem hj0] at e0
        obtain rfl := Option.some.inj e0
        exact ⟨rfl, qs, q, j0, hqs, hF, by omega, by omega, e1, by rw [e2]; exact h3, h4⟩
      · simp at h2
    · simp at h2
  · rintro ⟨rfl, qs, q, j0, hqs, hF, h1, h2, hq, h3, h4⟩
    obtain ⟨q', q0, e1, e0, e2⟩ := hfamlen qs j0 j hF h1 h2
    rw [hq] at e1
    obtain rfl := Option.some.inj e1
    refine ⟨(i, j0), ?_, ?_⟩
    · rw [mem_zip]
      have := (List.getElem?_eq_some_iff.mp e0).1
      refine ⟨i, qs, hqs, ?_⟩
      simp only [List.mem_map, List.mem_filter, List.mem_range, decide_eq_true_eq, Prod.mk.injEq]
      exact ⟨j0, ⟨this, hF⟩, trivial, rfl⟩
    · unfold tag4coarsening
      rw [levelAt_eq P mirrors hsort blocks hlev _ _ qs hqs, e0]
      simp only [Option.map_some]
      rw [if_pos (by omega), if_pos h4]
      simp only [List.mem_map, List.mem_range, Prod.mk.injEq]
      exact ⟨j - j0, by omega, ⟨trivial, by omega⟩, trivial⟩

/-- **C23.** Whatever the tagging functions answer: the level requested for a patch stays within
the bounds and differs by at most one from its level; the patch is requested to be refined exactly
if it is below the maximum level and tagged, whether or not its family is tagged for coarsening;
it is requested to be coarsened exactly if this is not the case and it belongs to a complete local
family above the minimum level that is tagged. -/
theorem C23_levels (qmax minlevel maxlevel : Int) (hmin : 0 ≤ minlevel) (hmax : maxlevel ≤ qmax)
    (tagC tagR : Ptr → Int) (i j : Nat) (qs : List (Path 4)) (q : Path 4)
    (hqs : blocks[i]? = some qs) (hq : qs[j]? = some q)
    (hlo : minlevel ≤ q.length) (hhi : (q.length : Int) ≤ maxlevel) :
    ∃ t, targetAfter qmax (domainNew 4 P mirrors blocks)
        (tagging (domainNew 4 P mirrors blocks) minlevel maxlevel tagC tagR) (i, j) = some t ∧
      minlevel ≤ t ∧ t ≤ maxlevel ∧ t - q.length ≤ 1 ∧ q.length - t ≤ 1 ∧
      (t = q.length + 1 ↔ (q.length : Int) < maxlevel ∧ tagR (i, j) = 1) ∧
      (t = q.length - 1 ↔ ¬ ((q.length : Int) < maxlevel ∧ tagR (i, j) = 1) ∧
        ∃ j0, FamilyAt qs j0 ∧ j0 ≤ j ∧ j < j0 + 4 ∧ minlevel < q.length ∧ tagC (i, j0) = 1) := by
  have hrefine := mem_refine P mirrors hsort blocks hlev maxlevel tagR i j
  have hcoarsen := mem_coarsen P mirrors hsort blocks hlev minlevel tagC i j
  unfold targetAfter
  rw [levelAt_eq P mirrors hsort blocks hlev _ _ qs hqs, hq]
  simp only [Option.map_some]
  refine ⟨_, rfl, ?_⟩
  unfold tagging targetLevel
  dsimp only
  rw [foldl_last, List.filter_append, List.map_append]
  rw [last_append]
  rotate_left
  · intro x hx
    simp only [List.mem_map, List.mem_filter, decide_eq_true_eq] at hx
    obtain ⟨⟨p, b⟩, ⟨h1, rfl⟩, rfl⟩ := hx
    exact ((hcoarsen b).mp h1).1
  · intro x hx
    simp only [List.mem_map, List.mem_filter, decide_eq_true_eq] at hx
    obtain ⟨⟨p, b⟩, ⟨h1, rfl⟩, rfl⟩ := hx
    exact ((hrefine b).mp h1).1
  have hmemf : ∀ (l : List MarkCall) (b : Bool),
      b ∈ (l.filter fun c => decide (c.1 = (i, j))).map (·.2) ↔ ((i, j), b) ∈ l := by
    intro l b
    simp only [List.mem_map, List.mem_filter, decide_eq_true_eq]
    constructor
    · rintro ⟨⟨p, b'⟩, ⟨h1, rfl⟩, rfl⟩; exact h1
    · intro h; exact ⟨_, ⟨h, rfl⟩, rfl⟩
  simp only [hmemf]
  have hR : (((i, j), true) ∈ (iteratePatches (domainNew 4 P mirrors blocks)).flatMap
        (tag4refinement (domainNew 4 P mirrors blocks) maxlevel tagR)) ↔
      ((q.length : Int) < maxlevel ∧ tagR (i, j) = 1) := by
    rw [hrefine]
    constructor
    · rintro ⟨_, qs', q', h1, h2, h3, h4⟩
      rw [hqs] at h1
      obtain rfl := Option.some.inj h1
      rw [hq] at h2
      obtain rfl := Option.some.inj h2
      exact ⟨h3, h4⟩
    · rintro ⟨h3, h4⟩
      exact ⟨rfl, qs, q, hqs, hq, h3, h4⟩
  have hC : (((i, j), false) ∈ (iterateFamilies 4 (domainNew 4 P mirrors blocks)).flatMap
        (tag4coarsening (domainNew 4 P mirrors blocks) minlevel tagC)) ↔
      ∃ j0, FamilyAt qs j0 ∧ j0 ≤ j ∧ j < j0 + 4 ∧ minlevel < q.length ∧ tagC (i, j0) = 1 := by
    rw [hcoarsen]
    constructor
    · rintro ⟨_, qs', q', j0, h1, h2, h3, h4, h5, h6, h7⟩
      rw [hqs] at h1
      obtain rfl := Option.some.inj h1
      rw [hq] at h5
      obtain rfl := Option.some.inj h5
      exact ⟨j0, h2, h3, h4, h6, h7⟩
    · rintro ⟨j0, h2, h3, h4, h6, h7⟩
      exact ⟨rfl, qs, q, j0, hqs, h2, h3, h4, hq, h6, h7⟩
  by_cases h1 : (q.length : Int) < maxlevel ∧ tagR (i, j) = 1
  · rw [if_pos (hR.mpr h1)]
    simp only [if_true]
    have e : min ((q.length : Int) + 1) qmax = q.length + 1 := Int.min_eq_left (by omega)
    rw [e]
    refine ⟨by omega, by omega, by omega, by omega, ⟨fun _ => h1, fun _ => rfl⟩, ⟨fun h => ?_, fun h => absurd h1 h.1⟩⟩
    omega
  · rw [if_neg (fun h => h1 (hR.mp h))]
    by_cases h2 : ∃ j0, FamilyAt qs j0 ∧ j0 ≤ j ∧ j < j0 + 4 ∧ minlevel < q.length ∧ tagC (i, j0) = 1
    · have h3 : minlevel < q.length := by obtain ⟨_, _, _, _, h, _⟩ := h2; exact h
      rw [if_pos (hC.mpr h2)]
      simp only [Bool.false_eq_true, if_false]
      have e : max ((q.length : Int) - 1) 0 = q.length - 1 := Int.max_eq_left (by omega)
      rw [e]
      refine ⟨by omega, by omega, by omega, by omega, ⟨fun h => ?_, fun h => absurd h h1⟩,
        ⟨fun _ => ⟨h1, h2⟩, fun _ => rfl⟩⟩
      omega
    · rw [if_neg (fun h => h2 (hC.mp h))]
      simp only
      refine ⟨hlo, hhi, by omega, by omega, ⟨fun h => ?_, fun h => absurd h h1⟩,
        ⟨fun h => ?_, fun h => absurd h.2 h2⟩⟩
      · omega
      · omega

/-- **C23, families.** Every call of the tagging phase is for an existing patch, and if one member
of a family is marked for coarsening then all four members of this complete local family are. -/
theorem C23_families (minlevel maxlevel : Int) (tagC tagR : Ptr → Int) (i j : Nat) (b : Bool)
    (h : ((i, j), b) ∈ tagging (domainNew 4 P mirrors blocks) minlevel maxlevel tagC tagR) :
    (∃ qs q, blocks[i]? = some qs ∧ qs[j]? = some q) ∧
    (b = false → ∃ qs j0, blocks[i]? = some qs ∧ FamilyAt qs j0 ∧ j0 ≤ j ∧ j < j0 + 4 ∧
      ∀ k, k < 4 → ((i, j0 + k), false) ∈
        tagging (domainNew 4 P mirrors blocks) minlevel maxlevel tagC tagR) := by
  unfold tagging at h ⊢
  rcases List.mem_append.mp h with h | h
  · obtain ⟨rfl, qs, q, j0, h1, h2, h3, h4, h5, h6, h7⟩ :=
      (mem_coarsen P mirrors hsort blocks hlev minlevel tagC i j b).mp h
    refine ⟨⟨qs, q, h1, h5⟩, fun _ => ⟨qs, j0, h1, h2, h3, h4, ?_⟩⟩
    intro k hk
    refine List.mem_append_left _ ?_
    rw [mem_coarsen P mirrors hsort blocks hlev]
    obtain ⟨par, hpar⟩ := h2
    have e1 := hpar ⟨k, hk⟩
    have e2 := hpar ⟨j - j0, by omega⟩
    simp only [Nat.add_sub_cancel' h3] at e1 e2
    rw [h5] at e2
    have e3 := Option.some.inj e2
    rw [e3] at h6
    refine ⟨rfl, qs, _, j0, h1, ⟨par, hpar⟩, by omega, by omega, e1, ?_, h7⟩
    simpa using h6
  · obtain ⟨rfl, qs, q, h1, h2, _⟩ :=
      (mem_refine P mirrors hsort blocks hlev maxlevel tagR i j b).mp h
    exact ⟨⟨qs, q, h1, h2⟩, fun h => by simp at h⟩
end

/-! ### Example: one tree refined once, all tagged for coarsening, patch 2 for refinement -/

def exBlocks : List (List (Path 4)) := [[[0], [1], [2], [3]]]

example : ∀ qs ∈ exBlocks, ∀ q ∈ qs, q.length ≤ (⟨8⟩ : Params).possibleMaxlevel := by decide

example : ((List.range 4).map fun j => targetAfter 29 (domainNew 4 ⟨8⟩ [] exBlocks)
    (tagging (domainNew 4 ⟨8⟩ [] exBlocks) 0 2 (fun _ => 1) (fun p => if p.2 = 2 then 1 else 0))
    (0, j)) = [some 0, some 0, some 2, some 0] := by decide +kernel

example : ((List.range 4).map fun j => targetAfter 29 (domainNew 4 ⟨8⟩ [] exBlocks)
    (tagging (domainNew 4 ⟨8⟩ [] exBlocks) 1 1 (fun _ => 1) (fun p => if p.2 = 2 then 1 else 0))
    (0, j)) = [some 1, some 1, some 1, some 1] := by decide +kernel

end Fclaw.Regrid

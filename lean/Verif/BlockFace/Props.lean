/-
C55: block boundary flags and physical boundaries.
-/
import Verif.BlockFace.Lemmas
import Verif.FaceNbr.Props
import Mathlib.Tactic.IntervalCases

set_option autoImplicit false
set_option linter.unusedSimpArgs false

namespace Fclaw.BlockFace

/-- What a patch with given flags before `setBoundary` answers. -/
theorem setBoundary_spec (dim3 : Bool) (L : Nat) (path : List Nat) (q : Quad) (h : At L path q)
    (hL : path.length ≤ L) (hc : ∀ c ∈ path, c < children dim3) (s p g : Bool) :
    let P := setBoundary dim3 L q (orIf g IS_GHOST (orIf p ON_PARALLEL_BOUNDARY
      (orIf s FIRST_SIBLING (childId dim3 L q))))
    patchChildid P = path.getLastD 0 ∧ isFirstSibling P = s ∧ onParallelBoundary P = p ∧
    isGhost P = g ∧ (blockBoundary dim3 P).length = faces dim3 ∧
    (∀ f, f < faces dim3 → ((blockBoundary dim3 P)[f]? = some true ↔ OnBlockFace path f)) ∧
    ∀ a, P.lower a = lowerEnd a path ∧ P.upper a = upperEnd a path := by
  intro P
  have hlow : ∀ a, P.lower a = lowerEnd a path ∧ P.upper a = upperEnd a path := by
    intro a
    constructor
    · rw [← h.2 a]
      show (q.x a : ℚ) * (1 / (rootLen L : ℤ)) = _
      unfold rootLen
      push_cast
      ring
    · rw [← upper_eq L path q h hL a]
      show ((q.x a + quadLen L q.level : ℤ) : ℚ) * (1 / (rootLen L : ℤ)) = _
      unfold rootLen
      push_cast
      ring
  have e0 := fun a => lower_zero L path q h a
  have e1 := fun a => upper_one L path q h hL a
  have hb := bits ⟨path.getLastD 0, last_lt dim3 path hc⟩ s p g (decide (q.x 0 = 0))
    (decide (q.x 0 + quadLen L q.level = rootLen L)) (decide (q.x 1 = 0))
    (decide (q.x 1 + quadLen L q.level = rootLen L))
  cases dim3 with
  | true =>
    obtain ⟨b1, b2, b3, b4, b5⟩ := hb (decide (q.x 2 = 0))
      (decide (q.x 2 + quadLen L q.level = rootLen L))
    have hF : P.flags = orIf (decide (q.x 2 + quadLen L q.level = rootLen L)) FACE_5
      (orIf (decide (q.x 2 = 0)) FACE_4
      (orIf (decide (q.x 1 + quadLen L q.level = rootLen L)) FACE_3 (orIf (decide (q.x 1 = 0)) FACE_2
      (orIf (decide (q.x 0 + quadLen L q.level = rootLen L)) FACE_1 (orIf (decide (q.x 0 = 0)) FACE_0
      (orIf g IS_GHOST (orIf p ON_PARALLEL_BOUNDARY (orIf s FIRST_SIBLING (path.getLastD 0))))))))) := by
      rw [← childId_eq true L path q h hL hc]
      rfl
    have hB : blockBoundary true P = [decide (q.x 0 = 0),
      (decide (q.x 0 + quadLen L q.level = rootLen L)), (decide (q.x 1 = 0)),
      (decide (q.x 1 + quadLen L q.level = rootLen L)), (decide (q.x 2 = 0)),
      (decide (q.x 2 + quadLen L q.level = rootLen L))] := by
      unfold blockBoundary
      rw [hF]
      exact b5
    refine ⟨?_, ?_, ?_, ?_, by rw [hB]; rfl, ?_, hlow⟩
    · unfold patchChildid; rw [hF]; exact b1
    · unfold isFirstSibling; rw [hF]; exact b2
    · unfold onParallelBoundary; rw [hF]; exact b3
    · unfold isGhost; rw [hF]; exact b4
    · intro f hf
      have hf : f < 6 := hf
      rw [hB]
      interval_cases f <;> simp [OnBlockFace, e0, e1]
  | false =>
    obtain ⟨b1, b2, b3, b4, b5⟩ := hb false false
    have hF : P.flags = orIf false FACE_5 (orIf false FACE_4
      (orIf (decide (q.x 1 + quadLen L q.level = rootLen L)) FACE_3 (orIf (decide (q.x 1 = 0)) FACE_2
      (orIf (decide (q.x 0 + quadLen L q.level = rootLen L)) FACE_1 (orIf (decide (q.x 0 = 0)) FACE_0
      (orIf g IS_GHOST (orIf p ON_PARALLEL_BOUNDARY (orIf s FIRST_SIBLING (path.getLastD 0))))))))) := by
      rw [← childId_eq false L path q h hL hc]
      rfl
    have hB : blockBoundary false P = [decide (q.x 0 = 0),
      (decide (q.x 0 + quadLen L q.level = rootLen L)), (decide (q.x 1 = 0)),
      (decide (q.x 1 + quadLen L q.level = rootLen L))] := by
      unfold blockBoundary
      rw [hF]
      have := congrArg (List.take 4) b5
      exact this
    refine ⟨?_, ?_, ?_, ?_, by rw [hB]; rfl, ?_, hlow⟩
    · unfold patchChildid; rw [hF]; exact b1
    · unfold isFirstSibling; rw [hF]; exact b2
    · unfold onParallelBoundary; rw [hF]; exact b3
    · unfold isGhost; rw [hF]; exact b4
    · intro f hf
      have hf : f < 4 := hf
      rw [hB]
      interval_cases f <;> simp [OnBlockFace, e0, e1]

/-- **C55**, flags.  For a local patch and for a ghost patch at any place and level of its block, in
two and three dimensions, the query for block boundaries marks exactly the sides that lie on the
boundary of the block; the coordinates are those of the patch; and the other flags, which share one
integer with them, are as they were set. -/
theorem C55_flags (dim3 : Bool) (L : Nat) (path : List Nat) (q : Quad) (h : At L path q)
    (hL : path.length ≤ L) (hc : ∀ c ∈ path, c < children dim3) (family mirror : Bool) :
    (∀ P ∈ [localPatch dim3 L q family mirror, ghostPatch dim3 L q],
      (blockBoundary dim3 P).length = faces dim3 ∧
      (∀ f, f < faces dim3 → ((blockBoundary dim3 P)[f]? = some true ↔ OnBlockFace path f)) ∧
      patchChildid P = path.getLastD 0 ∧
      ∀ a, P.lower a = lowerEnd a path ∧ P.upper a = upperEnd a path) ∧
    isFirstSibling (localPatch dim3 L q family mirror) = family ∧
    onParallelBoundary (localPatch dim3 L q family mirror) = mirror ∧
    isGhost (localPatch dim3 L q family mirror) = false ∧ isGhost (ghostPatch dim3 L q) = true := by
  obtain ⟨a1, a2, a3, a4, a5, a6, a7⟩ := setBoundary_spec dim3 L path q h hL hc family mirror false
  obtain ⟨b1, b2, b3, b4, b5, b6, b7⟩ := setBoundary_spec dim3 L path q h hL hc false false true
  refine ⟨?_, a2, a3, a4, b4⟩
  intro P hP
  simp only [List.mem_cons, List.not_mem_nil, or_false] at hP
  rcases hP with rfl | rfl
  · exact ⟨a5, a6, a1, a7⟩
  · exact ⟨b5, b6, b1, b7⟩

/-- **C55**, physical boundary.  On a mesh that agrees with the positions of patches and the
connectivity of blocks, the query for physical boundaries does not abort, and marks a side of a patch
exactly if the patch has no neighbour there; that is exactly if the block boundary query marks it and
the block is not connected there. -/
theorem C55_physical (dim3 : Bool) (L : Nat) (M : FaceNbr.Mesh) (hM : M.Ok) (c : Conn) (b p : Nat)
    (hp : p < M.num b) (path : List Nat) (q : Quad) (hq : At L path q) (hL : path.length ≤ L)
    (hc : ∀ c ∈ path, c < children dim3) (nbr : Nat → FaceNbr.Neighbor)
    (hn : ∀ f, f < faces dim3 → FaceNbr.Encodes (dimOf dim3) M (M.before b + p) f (nbr f))
    (ha : ∀ f, f < faces dim3 → Agrees c b path nbr f) (family mirror : Bool) :
    ∃ t, physicalGetBc (dimOf dim3) c M b p = some t ∧ t.length = faces dim3 ∧
      ∀ f, f < faces dim3 →
        (t[f]? = some true ↔ nbr f = .boundary) ∧
        (t[f]? = some true ↔ (blockBoundary dim3 (localPatch dim3 L q family mirror))[f]? = some true ∧
          isBoundary c b f = true) := by
  have hfaces : (dimOf dim3).faces = faces dim3 := by cases dim3 <;> rfl
  have hhalf : 2 ≤ (dimOf dim3).half := by cases dim3 <;> decide
  have hb := FaceNbr.C12_boundary_type (dimOf dim3) hhalf M hM b p hp nbr
    (fun f hf => hn f (hfaces ▸ hf))
  have hflag := ((C55_flags dim3 L path q hq hL hc family mirror).1
    (localPatch dim3 L q family mirror) (by simp)).2.1
  have hlen : (FaceNbr.boundaryType (dimOf dim3) M b p).length = faces dim3 := by
    unfold FaceNbr.boundaryType; rw [List.length_map, List.length_range, hfaces]
  have hnb : ∀ f, f < faces dim3 → (nbr f = .boundary ↔ OnBlockFace path f ∧ isBoundary c b f = true) := by
    intro f hf
    unfold isBoundary
    rw [decide_eq_true_iff]
    exact ha f hf
  have hid : (FaceNbr.boundaryType (dimOf dim3) M b p).map (fun x => decide (x = true))
      = FaceNbr.boundaryType (dimOf dim3) M b p := by
    conv_rhs => rw [← List.map_id (FaceNbr.boundaryType (dimOf dim3) M b p)]
    apply List.map_congr_left
    intro x _
    cases x <;> rfl
  refine ⟨FaceNbr.boundaryType (dimOf dim3) M b p, ?_, hlen, ?_⟩
  · unfold physicalGetBc boundaryType
    dsimp only
    rw [if_pos, Option.map_some, hid]
    rw [List.all_eq_true]
    intro f hf
    rw [List.mem_range] at hf
    by_cases ht : (FaceNbr.boundaryType (dimOf dim3) M b p)[f]? = some true
    · rw [((hnb f (hfaces ▸ hf)).1 ((hb f hf).1 ht)).2, Bool.or_true]
    · have : (FaceNbr.boundaryType (dimOf dim3) M b p).getD f false = false := by
        rw [List.getD_eq_getElem?_getD]
        cases hx : (FaceNbr.boundaryType (dimOf dim3) M b p)[f]? with
        | none => rfl
        | some x =>
          cases x with
          | true => exact absurd hx ht
          | false => rfl
      rw [this]; rfl
  · intro f hf
    refine ⟨hb f (hfaces ▸ hf), ?_⟩
    rw [hb f (hfaces ▸ hf), hnb f hf, hflag f hf]

/-! ### Example: one block, periodic in the second direction, with four patches -/

def exQuad : Quad := ⟨fun a => if a = 1 then 2 ^ 29 else 0, 1⟩
def exMesh : FaceNbr.Mesh where
  rank := 0
  localNum := 4
  ghostNum := 0
  quadToQuad _ f := if f = 0 then 2 else if f = 1 then 3 else 0
  quadToFace _ f := if f = 0 then 0 else if f = 1 then 0 else if f = 2 then 3 else 2
  quadToHalf _ _ := 0
  quadToTree _ := 0
  ghostToProc _ := 1
  ghostTree _ := 0
  before b := 4 * b
  num b := if b = 0 then 4 else 0
  quadToCorner _ _ := -1
  cornerOffset _ := 0
  cornerQuad _ := 0
  cornerCorner _ := 0
  level _ := 1
  ghostLevel _ := 0
def exConn : Conn := ⟨fun _ _ => 0, fun _ f => if f = 2 then 3 else if f = 3 then 2 else f⟩
def exNbr (f : Nat) : FaceNbr.Neighbor :=
  if f = 0 then .boundary else if f = 1 then .same (.here 0 3) 0 0
  else if f = 2 then .same (.here 0 0) 3 0 else .same (.here 0 0) 2 0

theorem exAt : At 30 [2] exQuad := by
  refine ⟨rfl, ?_⟩
  intro a
  by_cases h1 : a = 1
  · subst h1; simp [exQuad, lowerEnd, side]; norm_num
  · have hs : side a 2 = 0 := by
      unfold side
      rcases Nat.lt_or_ge a 2 with h | h
      · have : a = 0 := by omega
        subst this; rfl
      · have h4 : 2 ^ 2 ≤ 2 ^ a := Nat.pow_le_pow_right (by omega) h
        rw [Nat.div_eq_of_lt (by omega)]
    simp [exQuad, lowerEnd, h1, hs]

theorem exEncodes (f : Nat) (hf : f < 4) :
    FaceNbr.Encodes (dimOf false) exMesh (exMesh.before 0 + 2) f (exNbr f) := by
  interval_cases f
  · exact ⟨rfl, rfl⟩
  · exact ⟨by decide, by decide, by show 3 < 4; decide, by decide, rfl, rfl⟩
  · exact ⟨by decide, by decide, by show 0 < 4; decide, by decide, rfl, rfl⟩
  · exact ⟨by decide, by decide, by show 0 < 4; decide, by decide, rfl, rfl⟩

theorem exAgrees (f : Nat) (hf : f < 4) : Agrees exConn 0 [2] exNbr f := by
  unfold Agrees
  interval_cases f <;>
    simp [exNbr, exConn, OnBlockFace, lowerEnd, upperEnd, width, side]

/-- The patch in the upper left has a physical boundary at its left only. -/
example : physicalGetBc (dimOf false) exConn exMesh 0 2 = some [true, false, false, false] := by decide
example := C55_flags false 30 [2] exQuad exAt (by decide) (by decide) true true
example := C55_physical false 30 exMesh
  ⟨fun b p hp => by
      show 4 * b + p < 4
      simp only [exMesh] at hp
      split at hp <;> omega,
    fun b p hp => by
      simp only [exMesh] at hp ⊢
      split at hp
      · omega
      · omega,
    fun g hg => absurd hg (Nat.not_lt_zero g)⟩
  exConn 0 2 (by decide) [2] exQuad exAt (by decide) (by decide) exNbr exEncodes exAgrees true true

end Fclaw.BlockFace

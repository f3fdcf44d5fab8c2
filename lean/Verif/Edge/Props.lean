import Verif.Edge.Lemmas
import Verif.Transform.Props
import Verif.FaceNbr.Props
/-
C98: edges of three-dimensional patches. The query for the neighbour across an edge reports the one
that the mesh encodes, and the transformations of cell indices across an edge keep the physical
point.
-/
set_option autoImplicit false
namespace Fclaw.Edge

open Fclaw.Transform (Patch OnLattice location cellCentre childCentre patchCentre IsChild childNo trans_core
  trans_core2 children_in_order sizesOk_of location_inj)
open Fclaw.FaceNbr (Where SizeRel Rel relOfLevels_eq)

/-- C98, same size: the index is sent to the index of the same physical point in the edge neighbour,
within a block and across a block edge. -/
theorem C98_edge_point (ip op : Patch) (e : Nat) (he : e < 12) (bd : Bool) (hl : ip.level = op.level)
    (hi : OnLattice ip) (ho : OnLattice op) (m : Nat → Nat) (based : Nat) (hs : Sizes m based)
    (hc : bd = true → ∀ e', Opposite e e' → TouchesEdge e' op) (idx : Nat → ℤ) :
    ∃ idx', transformEdge ip op e bd m based idx = some idx' ∧
      EdgeSamePoint e bd (location ip m based idx) (location op m based idx') := by
  obtain ⟨s, h1, h2⟩ := xyzShift_eq e he bd
  unfold transformEdge
  rw [if_neg (by simp [hl, sizesOk_of (sizes_true hs)])]
  simp only [h1]
  rw [if_neg (edgeOk_of e he bd op s h2 hc)]
  refine ⟨_, rfl, samePoint_of _ _ _ _ ?_⟩
  intro a ha
  obtain ⟨X, hX⟩ := hi a
  obtain ⟨OX, hOX⟩ := ho a
  rw [← hl] at hOX
  have := trans_core X OX (blockShift e bd a) ip.level (m a) (hs.2 a ha) based (idx a) (ip.lower a)
    (op.lower a) hX hOX
  unfold location
  dsimp only
  rw [h2 a ha, ← this, ← hl]

/-- C98, half size: entry `childNo b` of the output is the fine cell of the edge neighbour whose
centre is the centre of child `b` of the given cell, and nothing else is written. -/
theorem C98_edge2_children (ip op : Patch) (e : Nat) (he : e < 12) (bd : Bool)
    (hl : ip.level + 1 = op.level) (hi : OnLattice ip) (ho : OnLattice op) (m : Nat → Nat) (based : Nat)
    (hs : Sizes m based) (hc : bd = true → ∀ e', Opposite e e' → TouchesEdge e' op) (idx : Nat → ℤ) :
    ∃ out, transformEdge2 ip op e bd m based idx = some out ∧
      (∀ b, IsChild true b → ∃ idx', out (childNo b) = some idx' ∧
        EdgeSamePoint e bd (childCentre ip m based idx b) (cellCentre op m based idx')) ∧
      ∀ k, out k ≠ none → k < 8 := by
  obtain ⟨s, h1, h2⟩ := xyzShift_eq e he bd
  unfold transformEdge2
  rw [if_neg (by simp [hl, sizesOk_of (sizes_true hs)])]
  simp only [h1]
  rw [if_neg (edgeOk_of e he bd op s h2 hc)]
  refine ⟨_, rfl, ?_, ?_⟩
  · intro b hb
    refine ⟨_, (children_in_order true _).1 b hb, samePoint_of _ _ _ _ ?_⟩
    intro a ha
    obtain ⟨X, hX⟩ := hi a
    obtain ⟨OX, hOX⟩ := ho a
    rw [← hl] at hOX
    have := trans_core2 X OX (blockShift e bd a) ip.level (m a) (hs.2 a ha) based (idx a) (b a)
      (ip.lower a) (op.lower a) hX hOX
    unfold cellCentre childCentre
    dsimp only
    rw [h2 a ha, ← this, ← hl]
  · intro k hk
    simpa using (children_in_order true _).2 k hk

/-- C98, inverse: seen from the neighbour, across the opposite edge, the transformation returns the
original index. -/
theorem C98_edge_inverse (ip op : Patch) (e e' : Nat) (he : e < 12) (hopp : Opposite e e') (bd : Bool)
    (hl : ip.level = op.level) (hi : OnLattice ip) (ho : OnLattice op) (m : Nat → Nat) (based : Nat)
    (hs : Sizes m based) (hc : bd = true → TouchesEdge e ip ∧ TouchesEdge e' op) (idx idx' : Nat → ℤ)
    (h : transformEdge ip op e bd m based idx = some idx') :
    ∃ idx'', transformEdge op ip e' bd m based idx' = some idx'' ∧ ∀ a, a < 3 → idx'' a = idx a := by
  have hsym := opposite_symm e e' he hopp
  obtain ⟨i1, g1, s1⟩ := C98_edge_point ip op e he bd hl hi ho m based hs (by
    intro hb e2 h2
    rw [opposite_unique e e2 he h2, ← opposite_unique e e' he hopp]
    exact (hc hb).2) idx
  rw [h] at g1
  cases g1
  obtain ⟨i2, g2, s2⟩ := C98_edge_point op ip e' hopp.1 bd hl.symm ho hi m based hs (by
    intro hb e2 h2
    rw [opposite_unique e' e2 hopp.1 h2, ← opposite_unique e' e hopp.1 hsym]
    exact (hc hb).1) idx'
  refine ⟨i2, g2, ?_⟩
  intro a ha
  have t1 := of_samePoint e bd _ _ s1 a ha
  have t2 := of_samePoint e' bd _ _ s2 a ha
  rw [blockShift_opposite e e' hopp bd a ha] at t2
  apply location_inj (hs.2 a ha) (p := ip) (b := based)
  push_cast at t2
  rw [t2, t1]
  ring

/-- C98, ghost cells: let `op` be the patch on the other side of edge `e`. A cell (or node) index
beyond the edge, within the extent of the neighbour patch, becomes an index of the neighbour's
interior, at the same distance from the edge. -/
theorem C98_ghost_interior (ip op : Patch) (e : Nat) (he : e < 12) (bd : Bool)
    (hl : ip.level = op.level) (hi : OnLattice ip) (ho : OnLattice op) (m : Nat → Nat) (based : Nat)
    (hs : Sizes m based) (hc : bd = true → ∀ e', Opposite e e' → TouchesEdge e' op)
    (hn : EdgeSamePoint e bd (patchCentre ip (edgeStep e)) (patchCentre op (fun _ => 0)))
    (idx idx' : Nat → ℤ) (h : transformEdge ip op e bd m based idx = some idx')
    (hidx : ∀ a, a < 3 → (based : ℤ) ≤ idx a - edgeStep e a * m a ∧ idx a - edgeStep e a * m a ≤ m a) :
    ∀ a, a < 3 → (based : ℤ) ≤ idx' a ∧ idx' a ≤ m a ∧
      (edgeEnd e a = .along → idx' a = idx a) ∧
      (∀ k : ℤ, edgeEnd e a = .hi → idx a = m a + k → idx' a = k) ∧
      (∀ k : ℤ, edgeEnd e a = .lo → idx a = based - k → idx' a = m a + based - k) := by
  obtain ⟨i1, g1, s1⟩ := C98_edge_point ip op e he bd hl hi ho m based hs hc idx
  rw [h] at g1
  cases g1
  intro a ha
  have t1 := of_samePoint e bd _ _ s1 a ha
  have t2 := of_samePoint e bd _ _ hn a ha
  have key : idx' a = idx a - edgeStep e a * m a := by
    unfold location at t1
    unfold patchCentre at t2
    rw [← hl] at t1 t2
    have hm' : (0 : ℚ) < m a := by exact_mod_cast hs.2 a ha
    have hw : (0 : ℚ) < 2 ^ ip.level := by positivity
    have hb : (blockShift e bd a : ℚ) = op.lower a - ip.lower a - edgeStep e a / 2 ^ ip.level := by
      field_simp at t2 ⊢
      push_cast at t2
      linarith
    rw [hb] at t1
    field_simp at t1
    have : (idx' a : ℚ) = idx a - edgeStep e a * m a := by linarith
    exact_mod_cast this
  have hb := hidx a ha
  rw [key]
  refine ⟨hb.1, hb.2, ?_, ?_, ?_⟩
  · intro hE; simp [edgeStep, hE]
  · intro k hE hk; simp [edgeStep, hE, hk]
  · intro k hE hk; simp [edgeStep, hE, hk]; ring

theorem edge_result (M : EdgeMesh) (h : M.base.Ok) (b p c : Nat) (hp : p < M.base.num b)
    (hc : c < 12) (w : Where) (hw : w.exists M.base) (rc : Nat) (r : Rel)
    (hq : edgeQuad M (M.base.before b + p) c = some (some (w.id M.base, rc)))
    (hrel : SizeRel (M.base.level (M.base.before b + p)) (w.level M.base) r) :
    edgeNeighbors M b p c =
      some ⟨r, some (w.proc M.base), some (w.block M.base), some w.patchno, rc⟩ := by
  unfold edgeNeighbors
  rw [if_neg (by unfold numEdges; omega)]
  simp only [hq]
  clear hq
  cases w with
  | here b' p' =>
    have h1 := h.inRange b' p' hw
    have h2 := h.tree b' p' hw
    simp only [Where.exists] at hw
    simp only [Where.id, h2]
    rw [if_pos h1, if_pos ⟨by omega, by omega⟩]
    rw [show M.base.level (M.base.before b' + p') = (Where.here b' p').level M.base from rfl,
      relOfLevels_eq hrel]
    simp [Where.proc, Where.block, Where.patchno]
  | ghost g =>
    simp only [Where.exists] at hw
    have e : M.base.localNum + g - M.base.localNum = g := by omega
    rw [show (Where.ghost g).id M.base = M.base.localNum + g from rfl]
    rw [if_neg (by omega)]
    simp only [e]
    rw [if_pos ⟨hw, h.remote g hw⟩]
    rw [show M.base.ghostLevel g = (Where.ghost g).level M.base from rfl, relOfLevels_eq hrel]
    simp [Where.proc, Where.block, Where.patchno]

/-- C98: the query reports the neighbour that the mesh encodes, with its process, block, patch
number, relative size and edge; where no block coordinates change this is the opposite edge. -/
theorem C98_edge_found (M : EdgeMesh) (h : M.base.Ok) (b p c : Nat) (hp : p < M.base.num b)
    (hc : c < 12) (w : Where) (r : Rel)
    (hrel : SizeRel (M.base.level (M.base.before b + p)) (w.level M.base) r) :
    (EncodesEdge M (M.base.before b + p) c (.inside w) → ∀ c', Opposite c c' →
      edgeNeighbors M b p c =
        some ⟨r, some (w.proc M.base), some (w.block M.base), some w.patchno, c'⟩) ∧
    (∀ rc, EncodesEdge M (M.base.before b + p) c (.across w rc) →
      edgeNeighbors M b p c =
        some ⟨r, some (w.proc M.base), some (w.block M.base), some w.patchno, rc⟩) := by
  have hlt : w.exists M.base → w.id M.base < M.base.localNum + M.base.ghostNum := by
    intro hw
    cases w with
    | here b' p' => have := h.inRange b' p' hw; simp only [Where.id]; omega
    | ghost g => simp only [Where.exists] at hw; simp only [Where.id]; omega
  constructor
  · rintro ⟨hw, hq⟩ c' hopp
    rw [opposite_unique c c' hc hopp]
    refine edge_result M h b p c hp hc w hw _ r ?_ hrel
    have := hlt hw
    simp only [edgeQuad, hq]
    rw [if_neg (by omega), Int.toNat_natCast, if_neg (by omega)]
  · rintro rc ⟨hw, hrc, k, hq, hoff, hquad, hcor⟩
    refine edge_result M h b p c hp hc w hw _ r ?_ hrel
    simp only [edgeQuad, hq]
    have e : M.base.localNum + M.base.ghostNum + k - (M.base.localNum + M.base.ghostNum) = k := by omega
    rw [if_neg (by omega), Int.toNat_natCast, if_pos (by omega), e, hoff, if_neg (by omega),
      if_pos rfl, hcor, if_pos (by unfold numEdges; omega), hquad]

/-- C98: at the physical boundary, in the middle of a longer edge, and where more than four blocks
meet (not supported), the query reports a boundary and writes no neighbour. -/
theorem C98_edge_boundary (M : EdgeMesh) (b p c : Nat) (hp : p < M.base.num b) (hc : c < 12)
    (hn : EncodesEdge M (M.base.before b + p) c .none ∨ EncodesEdge M (M.base.before b + p) c .several) :
    edgeNeighbors M b p c = some ⟨.boundary, none, none, none, -1⟩ := by
  have : edgeQuad M (M.base.before b + p) c = some none := by
    rcases hn with hn | ⟨k, hq, hoff⟩
    · simp only [EncodesEdge] at hn; simp only [edgeQuad]; rw [if_pos hn]
    · simp only [edgeQuad, hq]
      have e : M.base.localNum + M.base.ghostNum + k - (M.base.localNum + M.base.ghostNum) = k := by omega
      rw [if_neg (by omega), Int.toNat_natCast, if_pos (by omega), e, if_pos hoff]
  unfold edgeNeighbors
  rw [if_neg (by unfold numEdges; omega)]
  simp only [this]

/-- C98: every edge has exactly one opposite edge, and the change of perspective exchanges the edge
numbers of the two patches, so that doing it twice changes nothing. -/
theorem C98_edge_swap (e r : Nat) :
    edgeSwap (e, r) = (r, e) ∧ edgeSwap (edgeSwap (e, r)) = (e, r) ∧
    (e < 12 → ∃ e', Opposite e e' ∧ ∀ e2, Opposite e e2 → e2 = e') := by
  refine ⟨rfl, rfl, ?_⟩
  intro he
  exact ⟨xor3 e, opposite_exists e he, fun e2 h2 => opposite_unique e e2 he h2⟩

/-! Cases meeting the hypotheses: blocks that meet in an edge parallel to y (edge 7: upper x, upper
z), patches of level 1 with 8 x 4 x 8 cells. Cell (9, 3, 10) of the patch in the far edge is cell
(1, 3, 2) of the patch in the near edge of the other block. -/
def exIp : Patch := ⟨1, fun a => if a = 1 then 0 else 1 / 2⟩
def exOp : Patch := ⟨1, fun _ => 0⟩
def exM : Nat → Nat := fun a => if a = 1 then 4 else 8
def exIdx : Nat → ℤ := fun a => if a = 0 then 9 else if a = 1 then 3 else 10

example : OnLattice exIp ∧ OnLattice exOp ∧ Sizes exM 1 ∧ TouchesEdge 7 exIp ∧ Opposite 7 4 ∧
    TouchesEdge 4 exOp ∧ EdgeSamePoint 7 true (patchCentre exIp (edgeStep 7)) (patchCentre exOp fun _ => 0) ∧
    (∀ a, a < 3 → (1 : ℤ) ≤ exIdx a - edgeStep 7 a * exM a ∧ exIdx a - edgeStep 7 a * exM a ≤ exM a) ∧
    ((transformEdge exIp exOp 7 true exM 1 exIdx).map fun r => (r 0, r 1, r 2)) = some (1, 3, 2) ∧
    ((transformEdge2 exIp ⟨2, fun _ => 0⟩ 7 true exM 1 exIdx).map fun r =>
      (List.range 8).map fun k => (r k).map fun v => (v 0, v 1, v 2)) =
      some [some (1, 5, 3), some (2, 5, 3), some (1, 6, 3), some (2, 6, 3),
            some (1, 5, 4), some (2, 5, 4), some (1, 6, 4), some (2, 6, 4)] := by
  refine ⟨?_, ?_, ⟨by omega, ?_⟩, ?_, opposite_exists 7 (by omega), ?_, ?_, ?_, ?_, ?_⟩
  · intro a
    by_cases h : a = 1
    · exact ⟨0, by simp [exIp, h]⟩
    · exact ⟨1, by simp [exIp, h]⟩
  · intro a; exact ⟨0, by simp [exOp]⟩
  · intro a ha; interval_cases a <;> decide
  · intro a ha; interval_cases a <;> simp [edgeEnd, edgeEnds, exIp] <;> norm_num
  · intro a ha; interval_cases a <;> simp [edgeEnd, edgeEnds, exOp]
  · intro a ha
    interval_cases a <;>
      simp [edgeEnd, edgeEnds, exIp, exOp, patchCentre, edgeStep, Transform.inside, Transform.outside] <;> norm_num
  · intro a ha; interval_cases a <;> decide
  · decide +kernel
  · decide +kernel

/-- A mesh with an edge neighbour within the block and a double-size ghost across a block edge. -/
def exMesh : EdgeMesh where
  base := FaceNbr.exMesh
  quadToEdge := fun leaf e => if leaf = 0 ∧ e = 3 then 2 else if leaf = 0 ∧ e = 5 then 5 else -1
  edgeOffset := fun k => k
  edgeQuad := fun _ => 3
  edgeEdge := fun _ => 6

example : exMesh.base.Ok ∧ EncodesEdge exMesh 0 3 (.inside (.here 1 1)) ∧
    EncodesEdge exMesh 0 5 (.across (.ghost 0) 6) ∧ EncodesEdge exMesh 0 0 .none ∧
    edgeNeighbors exMesh 0 0 3 = some ⟨.sameSize, some 1, some 1, some 1, 0⟩ ∧
    edgeNeighbors exMesh 0 0 5 = some ⟨.doubleSize, some 0, some 0, some 0, 6⟩ ∧
    edgeNeighbors exMesh 0 0 0 = some ⟨.boundary, none, none, none, -1⟩ := by
  refine ⟨FaceNbr.exMesh_ok, ⟨by show 1 < 2; decide, rfl⟩,
    ⟨by show 0 < 2; decide, by decide, 0, rfl, rfl, rfl, rfl⟩, ?_, rfl, rfl, rfl⟩
  show (-1 : Int) < 0
  decide

end Fclaw.Edge

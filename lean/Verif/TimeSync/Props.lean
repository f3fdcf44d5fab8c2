/-
C35: conservative corrections are applied once, with registers that were not cleared before, and all
registers that are of no more use are cleared.
-/
import Verif.TimeSync.Lemmas
import Verif.TimeSync.Spec
import Verif.GhostFill.Example

set_option autoImplicit false
set_option linter.unusedSimpArgs false
set_option linter.unusedVariables false
namespace Fclaw.TimeSync

open GhostFill

theorem nbr_same (M : Mesh) (x f y rf : Nat) (hf : f < 4) (e : M.face x f = .same y rf) : y ∈ nbrs M x := by
  unfold nbrs
  rw [List.mem_append]
  left
  rw [List.mem_flatMap]
  exact ⟨f, (mem_numbers _).2 hf, by rw [e]; simp [faceList]⟩

theorem nbr_half (M : Mesh) (x f y0 y1 rf : Nat) (hf : f < 4) (e : M.face x f = .half y0 y1 rf) :
    y0 ∈ nbrs M x ∧ y1 ∈ nbrs M x := by
  unfold nbrs
  constructor <;>
  · rw [List.mem_append]
    left
    rw [List.mem_flatMap]
    exact ⟨f, (mem_numbers _).2 hf, by rw [e]; simp [faceList]⟩

/-- **C35**. In a synchronisation of the levels from `minl` on, by any process of any mesh: the registers of
its patches are zero afterwards wherever all patches at the face took part, and otherwise as before; the
corrections made at each face of a participating patch are exactly those due, each once, with the contents
the registers had before the synchronisation; other patches are not corrected. Across a face shared with a
patch of the same size on another process, that patch's copy is corrected too, once. -/
theorem C35 {V : Type} [Zero V] (M : Mesh) (hM : M.Ok) (hn : M.patches.Nodup) (minl top : Int)
    (htop : ∀ x ∈ M.patches, M.level x ≤ top) (p : Nat) (R init : Nat → Nat → V)
    (hinit : ∀ x f, Has M p x → init x f = R x f) :
    let s := run ⟨init, []⟩ (timeSync M p minl top)
    (∀ x ∈ M.patches, M.owner x = p → ∀ f < 4,
      (Done M minl x f → s.reg x f = 0) ∧ (¬ Done M minl x f → s.reg x f = R x f)) ∧
    (∀ x ∈ M.patches, M.owner x = p → ∀ f < 4,
      doneAt s x f = if minl ≤ M.level x then due M R x f else []) ∧
    (∀ x ∈ M.patches, M.owner x = p → ∀ f < 4, ∀ y rf, M.face x f = .same y rf → M.owner y ≠ p →
      doneAt s y rf = if minl ≤ M.level y then [⟨y, rf, x, f, R y rf, R x f⟩] else []) := by
  intro s
  have hlog : s.log = (timeSync M p minl top).filterMap (ev init) := by
    show (run _ _).log = _
    rw [run_log _ _ (timeSync_safe hM p minl top)]
    rfl
  have own : ∀ x ∈ M.patches, M.owner x = p → ∀ f, init x f = R x f := fun x hx ho f => hinit x f ⟨hx, Or.inl ho⟩
  have nbr : ∀ x ∈ M.patches, M.owner x = p → ∀ y ∈ nbrs M x, ∀ f, init y f = R y f :=
    fun x hx ho y hy f => hinit y f ⟨hM.closed x hx y hy, Or.inr ⟨x, hx, ho, hy⟩⟩
  refine ⟨?_, ?_, ?_⟩
  · intro x hx ho f hf
    have hreg : s.reg x f = if Step.clear x f ∈ timeSync M p minl top then 0 else init x f := run_reg _ _ x f
    have key : Step.clear x f ∈ timeSync M p minl top ↔ Done M minl x f := by
      have ht := htop x hx
      unfold timeSync Done
      rw [List.mem_append, List.mem_flatMap, List.mem_flatMap]
      constructor
      · rintro (⟨l, hl, h⟩ | ⟨l, hl, h⟩)
        · rw [mem_downTo] at hl
          rcases atLevel_clear p top l x f h with h' | h'
          · refine ⟨by rw [h'.2]; exact hl.1, fun y rf g hk e => ?_⟩
            unfold AtSame at h'
            rw [e] at h'
            simp [isSame] at h'
          · rcases h' with h' | h'
            · refine ⟨by rw [h'.2]; exact hl.1, fun y rf g hk e => ?_⟩
              rw [e] at h'
              simp [isHalf] at h'
            · refine ⟨by omega, fun y rf g hk e => ?_⟩
              have := double_level M hM x f y rf g hk hf e
              omega
        · rw [mem_downTo] at hl
          rw [mem_reset] at h
          obtain ⟨x', f', e, _, _, _, h1, h2⟩ := h
          rw [Step.clear.injEq] at e
          rw [← e.1] at h1 h2
          rw [← e.2] at h1
          refine ⟨by rcases h2 with h2 | h2 <;> omega, fun y rf g hk e => ?_⟩
          simp only [resetFlux] at h1
          rw [e] at h1
          simp [isBoundary] at h1
      · rintro ⟨h1, h2⟩
        cases e : M.face x f with
        | boundary =>
          right
          refine ⟨M.level x, (mem_downTo ..).2 ⟨h1, ht⟩, ?_⟩
          rw [mem_reset]
          exact ⟨x, f, rfl, hx, ho, hf, by simp [resetFlux, e, isBoundary], Or.inl rfl⟩
        | same y rf =>
          left
          refine ⟨M.level x, (mem_downTo ..).2 ⟨h1, ht⟩, ?_⟩
          unfold atLevel
          rw [List.mem_append, List.mem_append]
          left; right
          rw [mem_reset]
          exact ⟨x, f, rfl, hx, ho, hf, by simp [resetFlux, e, isSame], Or.inl rfl⟩
        | half y0 y1 rf =>
          left
          refine ⟨M.level x, (mem_downTo ..).2 ⟨h1, ht⟩, ?_⟩
          have hlv := hM.halfLevel x f y0 y1 rf hf e
          have hy := htop y0 (hM.closed x hx y0 (nbr_half M x f y0 y1 rf hf e).1)
          unfold atLevel
          rw [List.mem_append]
          right
          rw [if_pos (by omega), List.mem_append]
          right
          rw [mem_reset]
          exact ⟨x, f, rfl, hx, ho, hf, by simp [resetFlux, e, isHalf], Or.inl rfl⟩
        | double y rf g hk =>
          left
          have hlv := double_level M hM x f y rf g hk hf e
          have h3 := h2 y rf g hk e
          refine ⟨M.level y, (mem_downTo ..).2 ⟨h3, by omega⟩, ?_⟩
          unfold atLevel
          rw [List.mem_append]
          right
          rw [if_pos (by omega), List.mem_append]
          right
          rw [mem_reset]
          exact ⟨x, f, rfl, hx, ho, hf, by simp [resetFlux, e, isDoubleSize]; omega, Or.inr ⟨rfl, by omega⟩⟩
    constructor
    · intro h
      rw [hreg, if_pos (key.2 h)]
    · intro h
      rw [hreg, if_neg (fun h' => h (key.1 h')), own x hx ho]
  · intro x hx ho f hf
    unfold doneAt
    rw [hlog, filter_ev]
    rw [timeSync_filter hn p minl top x f x f hx ho hf (htop x hx)]
    · by_cases hm : minl ≤ M.level x
      · rw [if_pos hm, if_pos hm]
        unfold due faceSync
        cases e : M.face x f with
        | boundary => simp
        | double y rf g hk => simp
        | same y rf =>
          have hy := nbr x hx ho y (nbr_same M x f y rf hf e) rf
          by_cases hoy : M.owner y = p
          · simp [corrects, ev, hoy, own x hx ho, hy]
          · have : ¬ y = x := by rintro rfl; exact hoy ho
            simp [corrects, ev, hoy, own x hx ho, hy, this]
        | half y0 y1 rf =>
          have hb := nbr_half M x f y0 y1 rf hf e
          have hlv := hM.halfLevel x f y0 y1 rf hf e
          have hy := htop y0 (hM.closed x hx y0 hb.1)
          have h0 := nbr x hx ho y0 hb.1 rf
          have h1 := nbr x hx ho y1 hb.2 rf
          simp [corrects, ev, pick, own x hx ho, h0, h1, show M.level x < top by omega]
      · rw [if_neg hm, if_neg hm]
        rfl
    · intro e z f' hz hoz hf' hne
      unfold faceSync
      cases ef : M.face z f' with
      | boundary => simp
      | double y rf g hk => simp
      | same y rf =>
        by_cases hoy : M.owner y = p
        · cases e <;> simp [corrects, hoy]
          intro h; exact fun h' => hne ⟨h, h'⟩
        · have : ¬ y = x := by rintro rfl; exact hoy ho
          cases e <;> simp [corrects, hoy, this]
          intro h; exact fun h' => hne ⟨h, h'⟩
      | half y0 y1 rf =>
        cases e <;> simp [corrects]
        intro h; exact fun h' => hne ⟨h, h'⟩
  · intro x hx ho f hf y rf e hoy
    have hs := hM.sameSym x f y rf hf e
    have hlv := hM.sameLevel x f y rf hf e
    have hyx : ¬ x = y := by rintro rfl; exact hoy ho
    unfold doneAt
    rw [hlog, filter_ev]
    rw [timeSync_filter hn p minl top y rf x f hx ho hf (htop x hx)]
    · rw [hlv]
      by_cases hm : minl ≤ M.level x
      · rw [if_pos hm, if_pos hm]
        have hy := nbr x hx ho y (nbr_same M x f y rf hf e) rf
        unfold faceSync
        rw [e]
        simp [corrects, ev, hoy, hyx, own x hx ho, hy]
      · rw [if_neg hm, if_neg hm]
        rfl
    · intro e' z f' hz hoz hf' hne
      have hzy : ¬ z = y := by rintro rfl; exact hoy hoz
      unfold faceSync
      cases ef : M.face z f' with
      | boundary => simp
      | double _ _ g hk => simp
      | same y' rf' =>
        have hs' := hM.sameSym z f' y' rf' hf' ef
        have : ¬ (y' = y ∧ rf' = rf) := by
          rintro ⟨rfl, rfl⟩
          have := hs.2.symm.trans hs'.2
          rw [FaceNbr.same.injEq] at this
          exact hne ⟨this.1.symm, this.2.symm⟩
        by_cases h : M.owner y' = p
        · cases e' <;> simp [corrects, hzy, h]
        · cases e' <;> simp [corrects, hzy, h]
          intro h1 h2; exact this ⟨h1, h2⟩
      | half y0 y1 rf =>
        cases e' <;> simp [corrects, hzy]

/-- The mesh with three coarse and four fine patches meets the hypotheses … -/
example : lMesh.Ok ∧ lMesh.patches.Nodup ∧ ∀ x ∈ lMesh.patches, lMesh.level x ≤ 2 := ⟨lMesh_ok, by decide, by decide⟩

/-- … and on its process 1, when both levels are synchronised, patch 2 (coarse) is corrected at face 1 with
patches 3 and 5, and all registers of patches 2 and 3 are zero afterwards. If only the finer level is
synchronised, patch 2 keeps its registers and patch 3 those at faces 0 and 2, to coarser patches. -/
example :
    let s := run ⟨fun x f => (10 * x + f : Int), []⟩ (timeSync lMesh 1 1 2)
    ((doneAt s 2 1).map fun e => (e.y, e.rf, e.own, e.other)) = [(3, 0, 21, 30), (5, 0, 21, 50)] ∧
    ((doneAt s 3 1).map fun e => (e.y, e.rf, e.own, e.other)) = [(4, 0, 31, 40)] ∧
    ((doneAt s 4 0).map fun e => (e.y, e.rf, e.own, e.other)) = [(3, 1, 40, 31)] ∧
    (∀ f < 4, s.reg 2 f = 0 ∧ s.reg 3 f = 0) := by decide

example :
    let s := run ⟨fun x f => (10 * x + f : Int), []⟩ (timeSync lMesh 1 2 2)
    (∀ f < 4, s.reg 2 f = (20 + f : Int)) ∧ s.reg 3 0 = 30 ∧ s.reg 3 1 = 0 ∧ s.reg 3 2 = 32 ∧ s.reg 3 3 = 0 := by decide

end Fclaw.TimeSync

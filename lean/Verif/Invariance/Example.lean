/-
Examples for C76: a square with four patches of the same size (`uMesh`), which can be refined to `GhostFill.lMesh`; three blocks that meet in a
corner (`tMesh`).
-/
import Verif.Invariance.Lemmas

set_option autoImplicit false
set_option linter.unusedSimpArgs false
set_option linter.unusedVariables false
namespace Fclaw.Invariance

open Fort CopyGhost Transfer Adapt Metric Repopulate GhostFill
open Fclaw.Domain (Path)
open Transform (intra valid expand2 OnLattice)

def uMesh : Mesh where
  patches := [0, 1, 2, 3]
  owner x := 0
  level x := 1
  face x f := match x, f with
    | 0, 1 => .same 1 0
    | 0, 3 => .same 2 2
    | 1, 0 => .same 0 1
    | 1, 3 => .same 3 2
    | 2, 1 => .same 3 0
    | 2, 2 => .same 0 3
    | 3, 0 => .same 2 1
    | 3, 2 => .same 1 3
    | _, _ => .boundary
  corner x k := match x, k with
    | 0, 3 => .same 3 0
    | 1, 2 => .same 2 1
    | 2, 1 => .same 1 2
    | 3, 0 => .same 0 3
    | _, _ => .none

theorem uMesh_ok : uMesh.Ok := by
  have hfs : ∀ x < 4, ∀ f < 4, faceOk uMesh x f = true := by decide
  have hcs : ∀ x < 4, ∀ k < 4, cornerOk uMesh x k = true := by decide
  have far : ∀ x f, 4 ≤ x → uMesh.face x f = .boundary := by
    intro x f h
    have h0 : x ≠ 0 := by omega
    have h1 : x ≠ 1 := by omega
    have h2 : x ≠ 2 := by omega
    have h3 : x ≠ 3 := by omega
    unfold uMesh
    dsimp only
    split <;> first | rfl | (exfalso; simp_all)
  apply ok_of_check
  · intro x f hf
    by_cases h : x < 4
    · exact hfs x h f hf
    · simp [faceOk, far x f (by omega)]
  · intro x k hk
    by_cases h : x < 4
    · exact hcs x h k hk
    · simp [cornerOk, cornerNbr, far x _ (by omega), isBoundary]
  · decide

def uPatch (x : Nat) : Transform.Patch :=
  ⟨1, fun a => if a = 0 then (if x = 0 ∨ x = 2 then 0 else 1 / 2) else (if x ≤ 1 then 0 else 1 / 2)⟩

def uGeo : Geometry := ⟨uPatch, fun _ _ => intra, fun _ _ => intra, fun _ _ => false, fun _ _ => -1, fun _ _ _ => 0⟩

theorem u_lattice (x : Nat) : OnLattice (uPatch x) := by
  intro a
  by_cases ha : a = 0
  · by_cases h0 : x = 0 ∨ x = 2
    · exact ⟨0, by simp [uPatch, ha, h0]⟩
    · exact ⟨1, by simp [uPatch, ha, h0]⟩
  · by_cases h0 : x ≤ 1
    · exact ⟨0, by simp [uPatch, ha, h0]⟩
    · exact ⟨1, by simp [uPatch, ha, h0]⟩

theorem u_fits : CopyGhost.Fits exDims uMesh uGeo := by
  constructor
  · intro x f y rf hf h
    refine ⟨⟨rfl, u_lattice x, u_lattice y⟩, ?_⟩
    rw [if_pos (show uGeo.faceT x f 8 / 4 % 2 = 1 from (by decide : intra 8 / 4 % 2 = 1))]
    refine ⟨(by decide : valid false intra = true), ?_⟩
    unfold uMesh at h; dsimp only at h
    split at h <;> first
      | (cases h; intro a ha; simp [Transform.axes] at ha
         rcases ha with rfl | rfl <;> simp [uGeo, uPatch, faceStep] <;> norm_num)
      | cases h
  · intro x k y rk hk h
    have h' : uMesh.corner x k = .same y rk := by
      unfold cornerNbr at h; split at h
      · cases h
      · exact h
    refine ⟨⟨rfl, u_lattice x, u_lattice y⟩, rfl, (by decide : (-1 : ℤ) ≤ -1), ?_⟩
    rw [if_neg (show ¬ 0 ≤ (cornerData uGeo x k y).blockIface from (by decide : ¬ (0 : ℤ) ≤ -1)),
      if_neg (show ¬ (cornerData uGeo x k y).isBlockCorner = true from (by decide : ¬ false = true))]
    unfold uMesh at h'; dsimp only at h'
    split at h' <;> first
      | (cases h'; intro a ha; simp [Transform.axes] at ha
         rcases ha with rfl | rfl <;> simp [cornerData, uGeo, uPatch, cornerStep] <;> norm_num)
      | cases h'

def uSetup : GhostAll.Setup := ⟨uGeo, fun _ _ => 1, true, fun f => if f = 0 then 3 else 1⟩

theorem uSetup_fits : GhostAll.Fits exDims uMesh uSetup where
  face := u_fits.face
  corner := u_fits.corner
  half := by
    intro x f y0 y1 rf g _ _ h
    unfold uMesh at h; dsimp only at h
    split at h <;> cases h
  halfCorner := by
    intro x k y rk _ h
    have h' : uMesh.corner x k = .half y rk := by
      unfold cornerNbr at h; split at h
      · cases h
      · exact h
    unfold uMesh at h'; dsimp only at h'
    split at h' <;> cases h'
  oneFace := by
    intro x f y rf g f' y' rf' g' hk _ _ h
    unfold uMesh at h; dsimp only at h
    split at h <;> cases h
  area := fun _ x i j _ => by simp [uSetup]
  bc := fun x => by
    refine ⟨by decide, by decide, ?_, ?_, ?_⟩
    · intro k _ _
      by_cases h : k = 0
      · right; simp [uSetup, h]
      · left; simp [uSetup, h]
    · intro k _ _ _; decide
    · intro k _ _ _ _; decide

def uProblem : Parallel.Problem := { Parallel.exProblem with dx := fun _ => 1 / 16, dy := fun _ => 1 / 16, S := uSetup }

def uSched : Advance.Setup := ⟨true, false, false, 1, 3, 1, 1, 1⟩

theorem uGood : Parallel.Good uProblem uMesh uSched := by
  have hc : ∀ x ∈ uMesh.patches, ∀ k < 4, (isBoundary (uMesh.face x (faceX k)) || isBoundary (uMesh.face x (faceY k)) ||
      !decide (uMesh.corner x k = .none)) = true := by decide
  constructor
  · exact GhostAll.exS_sizes
  · decide
  · exact uMesh_ok
  · exact uSetup_fits
  · decide
  · decide
  · rfl
  · exact Parallel.exGood.usable
  · exact Parallel.exGood.setting
  · intro x _
    simp only [uProblem]
    norm_num
  · intro x _ t dt i j _ _
    simp only [uProblem, Parallel.exProblem]
    have := mul_self_nonneg t
    intro h
    linarith
  · intro x hx k hk h1 h2 h3
    have := hc x hx k hk
    simp [h1, h2, h3] at this

/-! ### Three blocks that meet in a corner

Block 1 is right of block 0 and block 2 above it; the upper side of block 1 is the right side of block 2. -/

def tDims : Dims := ⟨4, 4, 2, 1⟩

def tMesh : Mesh where
  patches := [0, 1, 2]
  owner x := 0
  level x := 0
  face x f := match x, f with
    | 0, 1 => .same 1 0
    | 0, 3 => .same 2 2
    | 1, 0 => .same 0 1
    | 1, 3 => .same 2 1
    | 2, 1 => .same 1 3
    | 2, 2 => .same 0 3
    | _, _ => .boundary
  corner _ _ := .none

theorem tMesh_ok : tMesh.Ok := by
  have hfs : ∀ x < 3, ∀ f < 4, faceOk tMesh x f = true := by decide
  have hcs : ∀ x < 3, ∀ k < 4, cornerOk tMesh x k = true := by decide
  have far : ∀ x f, 3 ≤ x → tMesh.face x f = .boundary := by
    intro x f h
    have h0 : x ≠ 0 := by omega
    have h1 : x ≠ 1 := by omega
    have h2 : x ≠ 2 := by omega
    unfold tMesh
    dsimp only
    split <;> first | rfl | (exfalso; simp_all)
  apply ok_of_check
  · intro x f hf
    by_cases h : x < 3
    · exact hfs x h f hf
    · simp [faceOk, far x f (by omega)]
  · intro x k hk
    by_cases h : x < 3
    · exact hcs x h k hk
    · simp [cornerOk, cornerNbr, far x _ (by omega), isBoundary]
  · decide

/-- The number of the face on the other side. -/
def tNbr (x f : Nat) : Nat := match x, f with
  | 0, 1 => 0
  | 0, 3 => 2
  | 1, 0 => 1
  | 1, 3 => 1
  | 2, 1 => 3
  | _, _ => 3

def tPatch : Transform.Patch := ⟨0, fun _ => 0⟩

def tGeo : Geometry := ⟨fun _ => tPatch, fun x f => expand2 f (tNbr x f), fun _ _ => intra, fun _ _ => false, fun _ _ => -1, fun _ _ _ => 0⟩

theorem t_lattice : OnLattice tPatch := fun a => ⟨0, by simp [tPatch]⟩

theorem t_face : ∀ x f y rf, f < 4 → tMesh.face x f = .same y rf → FaceLink tDims (tGeo.faceT x f) f (tGeo.patch x) (tGeo.patch y) := by
  intro x f y rf hf h
  refine ⟨⟨rfl, t_lattice, t_lattice⟩, ?_⟩
  unfold tMesh at h; dsimp only at h
  split at h <;> first
    | (cases h
       rw [if_neg (by decide)]
       refine ⟨(Transform.C13_gluing_2d _ _ (by decide) (by decide)).1, by simp [Transform.SizesMatch, sizes, tDims, tGeo, tNbr, expand2], ?_⟩
       constructor
       · simp [tGeo, tNbr, expand2, Transform.patchCentre, tPatch, faceStep]; try norm_num
       · simp
       · simp [tGeo, tNbr, expand2, Transform.patchCentre, tPatch, faceStep, Transform.inside, Transform.outside]; try norm_num)
    | cases h

def tSetup : GhostAll.Setup := ⟨tGeo, fun _ _ => 1, true, fun _ => 1⟩

theorem tSetup_fits : GhostAll.Fits tDims tMesh tSetup where
  face := t_face
  corner := by
    intro x k y rk _ h
    unfold cornerNbr at h; split at h <;> cases h
  half := by
    intro x f y0 y1 rf g _ _ h
    unfold tMesh at h; dsimp only at h
    split at h <;> cases h
  halfCorner := by
    intro x k y rk _ h
    unfold cornerNbr at h; split at h <;> cases h
  oneFace := by
    intro x f y rf g f' y' rf' g' hk _ _ h
    unfold tMesh at h; dsimp only at h
    split at h <;> cases h
  area := fun _ x i j _ => by simp [tSetup]
  bc := fun x => by
    refine ⟨by decide, by decide, ?_, ?_, ?_⟩
    · intro k _ _
      left; simp [tSetup]
    · intro k _ _ h; simp [tSetup] at h
    · intro k _ _ _ h; simp [tSetup] at h

def tProblem : Parallel.Problem where
  z := { mx := 4, my := 4, mbc := 2, meqn := 1, maux := 1, mwaves := 1 }
  o := { order := 2, trans := 2, lim := fun _ => 4, mcapa := 1 }
  R := fun _ => Wave.advection 1 1
  fw := false
  count := fun x k => if (x = 0 ∧ k = 3) ∨ (x = 1 ∧ k = 2) ∨ (x = 2 ∧ k = 1) then 3 else 4
  dx := fun _ => 1 / 4
  dy := fun _ => 1 / 4
  aux := fun x t dt i j k => 1
  width := 2
  S := tSetup

def tSched : Advance.Setup := ⟨true, false, false, 0, 1, 0, 0, 0⟩

theorem tGood : Parallel.Good tProblem tMesh tSched := by
  have hc : ∀ x ∈ tMesh.patches, ∀ k < 4, (isBoundary (tMesh.face x (faceX k)) || isBoundary (tMesh.face x (faceY k)) ||
      decide (tProblem.count x k = 3)) = true := by decide
  constructor
  · exact ⟨⟨by decide, by decide, by decide, by decide, by decide, by decide⟩, by decide, by decide⟩
  · decide
  · exact tMesh_ok
  · exact tSetup_fits
  · decide
  · decide
  · rfl
  · exact ⟨Or.inr rfl, ⟨by decide, by decide⟩, fun w _ _ => ⟨by simp [tProblem], by simp [tProblem]⟩⟩
  · exact ⟨by decide, Or.inr ⟨by decide, by decide⟩⟩
  · intro x _
    simp only [tProblem]
    norm_num
  · intro x _ t dt i j _ _
    simp [tProblem]
  · intro x hx k hk h1 h2 h3
    have := hc x hx k hk
    right
    simpa [h1, h2] using this

/-! ### A run -/

def uPlaces : Places := [[[0], [1], [2], [3]]]

def uPlace (x : Nat) : Nat × Path 4 := match x with
  | 0 => (0, [0])
  | 1 => (0, [1])
  | 2 => (0, [2])
  | _ => (0, [3])

def uFrom (q : Path 4) : Nat := match q with
  | [0] => 0
  | [1] => 1
  | [2] => 2
  | _ => 3

def uScene : Scene := ⟨uMesh, uPlace, uProblem, uSched⟩
def lScene : Scene := ⟨lMesh, Lifetime.exPlace, Parallel.exProblem, Parallel.exSched⟩

def rSetting : Setting ℚ (ℚ × ℚ) := { mapped with d := Parallel.exProblem.d, manifold := false, unit := 1, edge := fun _ _ _ _ => 1 }

theorem rSetting_ok : rSetting.Ok :=
  ⟨⟨by decide, by decide, by decide, by decide⟩, rfl, by decide, by norm_num [rSetting], fun h => (nomatch h), fun h => (nomatch h)⟩

theorem uScene_fits : uScene.Fits rSetting uPlaces := by
  refine ⟨uGood, rfl, by decide, fun i q => ?_⟩
  constructor
  · intro h
    match i with
    | 0 =>
      have : ∀ q ∈ uPlaces[0]?.getD [], uFrom q ∈ uScene.M.patches ∧ uScene.place (uFrom q) = (0, q) := by decide
      exact ⟨uFrom q, this q h⟩
    | _ + 1 => cases h
  · rintro ⟨x, hx, e⟩
    have : ∀ x ∈ uScene.M.patches, (uScene.place x).2 ∈ uPlaces[(uScene.place x).1]?.getD [] := by decide
    have h := this x hx
    rw [e] at h
    exact h

theorem lScene_fits : lScene.Fits rSetting Lifetime.exMesh := by
  refine ⟨Parallel.exGood, rfl, Lifetime.exShows.inj, Lifetime.exShows.all⟩

/-- Patch `[3]` is refined if the tagging routine of the library says so, and its children are merged if it says so; the criterion is
that variable 1 exceeds a value. -/
def rTags : Tag.Env := ⟨.value, 1, none⟩
def rShared (threshold : ℚ) : Tag.Shared := ⟨rSetting.d, 0, 1 / 8, 1 / 8, threshold, 0⟩

def rRules : Rules (ℚ × ℕ) where
  control := ⟨fun a => a.1, fun a => 1 / 2 ^ a.2, fun a c => if 1 < c then (true, (a.1, a.2 + 1)) else (false, (a.1 + 1 / 2 ^ a.2, a.2))⟩
  adaptNow a := if a.2 % 2 = 0 then some (a.1, a.2 + 1) else none
  refineTag _ _ _ g := decide (Tag.tag4refinement rTags (rShared 1) ⟨g, 0, 0⟩ = some 1)
  coarsenTag _ _ _ g := decide (Tag.tag4coarsening rTags (rShared (1 / 2)) ⟨g 0, 0, 0⟩ ⟨g 1, 0, 0⟩ ⟨g 2, 0, 0⟩ ⟨g 3, 0, 0⟩ = some true)
  adapt qs r c :=
    if qs = uPlaces then (if r 0 [3] then [[.keep [0], .keep [1], .keep [2], .refine [3]]] else [[.keep [0], .keep [1], .keep [2], .keep [3]]])
    else if c 0 [3] then [[.keep [0], .keep [1], .keep [2], .coarsen [3]]]
      else [[.keep [0], .keep [1], .keep [2], .keep [3, 0], .keep [3, 1], .keep [3, 2], .keep [3, 3]]]
  scene qs := if qs = uPlaces then uScene else lScene

def rOkay (qs : Places) : Prop := qs = uPlaces ∨ qs = Lifetime.exMesh

theorem l_ne : Lifetime.exMesh ≠ uPlaces := by decide

theorem rRules_ok : rRules.Ok rSetting rOkay := by
  have hl : rRules.scene Lifetime.exMesh = lScene := by simp only [rRules, if_neg l_ne]
  have hu : rRules.scene uPlaces = uScene := by simp only [rRules, if_true]
  refine ⟨fun a => ?_, ?_, ?_, ?_, ?_, ?_, ?_, ?_⟩
  · show (0 : ℚ) < 1 / 2 ^ a.2
    positivity
  · rintro qs (rfl | rfl)
    · rw [hu]; exact uScene_fits
    · rw [hl]; exact lScene_fits
  · rintro qs (rfl | rfl) i <;> match i with
      | 0 => decide
      | _ + 1 => exact List.nodup_nil
  · rintro qs (rfl | rfl) i <;> match i with
      | 0 => decide
      | _ + 1 => intro q hq; cases hq
  · rintro qs (rfl | rfl) r c
    · simp only [rRules, if_true]
      split <;> decide
    · simp only [rRules, if_neg l_ne]
      split <;> decide
  · rintro qs (rfl | rfl) r c
    · simp only [rRules, if_true]
      split
      · right; decide
      · left; decide
    · simp only [rRules, if_neg l_ne]
      split
      · left; decide
      · right; decide
  · have key : ∀ sc : Scene, Parallel.Good sc.B sc.M sc.sched → (∀ x k, sc.B.count x k ≠ 3) → sc.B.d = rSetting.d → ∀ x ∈ sc.M.patches,
        ∀ g g', sc.Same x g g' → Tag.tag4refinement rTags (rShared 1) ⟨g, 0, 0⟩ = Tag.tag4refinement rTags (rShared 1) ⟨g', 0, 0⟩ := by
      intro sc G hc hd x hx g g' h
      exact refine_same _ _ _ _ (by have := rd_same G hx (fun k _ => hc x k) h; rw [hd] at this; exact this) rfl rfl
    rintro qs (rfl | rfl) x hx g g' h
    · rw [hu] at hx h
      exact congrArg (fun t => decide (t = some 1)) (key uScene uGood (fun _ _ => (by decide : (4 : ℤ) ≠ 3)) rfl x hx g g' h)
    · rw [hl] at hx h
      exact congrArg (fun t => decide (t = some 1)) (key lScene Parallel.exGood (fun _ _ => (by decide : (4 : ℤ) ≠ 3)) rfl x hx g g' h)
  · have key : ∀ sc : Scene, Parallel.Good sc.B sc.M sc.sched → (∀ x k, sc.B.count x k ≠ 3) → sc.B.d = rSetting.d → ∀ x : Nat → Nat,
        (∀ n, n < 4 → x n ∈ sc.M.patches) → ∀ g g' : Nat → Grid ℚ, (∀ n, n < 4 → sc.Same (x n) (g n) (g' n)) →
        Tag.tag4coarsening rTags (rShared (1 / 2)) ⟨g 0, 0, 0⟩ ⟨g 1, 0, 0⟩ ⟨g 2, 0, 0⟩ ⟨g 3, 0, 0⟩ =
        Tag.tag4coarsening rTags (rShared (1 / 2)) ⟨g' 0, 0, 0⟩ ⟨g' 1, 0, 0⟩ ⟨g' 2, 0, 0⟩ ⟨g' 3, 0, 0⟩ := by
      intro sc G hc hd x hx g g' h
      refine coarsen_same rTags (rShared (1 / 2)) (fun n => ⟨g n, 0, 0⟩) (fun n => ⟨g' n, 0, 0⟩) (fun n hn => ⟨?_, rfl, rfl⟩)
      have := rd_same G (hx n hn) (fun k _ => hc _ k) (h n hn)
      rw [hd] at this
      exact this
    rintro qs (rfl | rfl) i q x hx g g' h
    · rw [hu] at hx h
      exact congrArg (fun t => decide (t = some true)) (key uScene uGood (fun _ _ => (by decide : (4 : ℤ) ≠ 3)) rfl x (fun n hn => (hx n hn).1) g g' h)
    · rw [hl] at hx h
      exact congrArg (fun t => decide (t = some true)) (key lScene Parallel.exGood (fun _ _ => (by decide : (4 : ℤ) ≠ 3)) rfl x (fun n hn => (hx n hn).1) g g' h)

/-- The solution at the beginning; `junk` is what happens to be outside of the patches. -/
def rWorld (junk : ℚ) : Repopulate.World := fun i q =>
  ⟨fun c => if inBox rSetting.d c then c.1 else junk, fun _ => 0,
    Correction.Regs.empty (alongFaces rSetting.d (rSetting.uniform (quadAt q))) (rSetting.edge i (quadAt q))⟩

theorem rReady (qs : Places) (junk : ℚ) : Ready rSetting qs (rWorld junk) := fun i q _ => ⟨fun h => (nomatch h), rfl⟩

end Fclaw.Invariance

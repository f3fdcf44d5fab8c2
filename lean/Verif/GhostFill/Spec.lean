/-
What a mesh has to be like, and which ghost regions a ghost update has to fill (C32).
-/
import Verif.GhostFill.Model

set_option autoImplicit false
namespace Fclaw.GhostFill

def isDouble : FaceNbr → Bool
  | .double _ _ _ _ => true
  | _ => false

/-- The patch at half `h` of face `f` of `x`, if it is not larger than `x`. -/
def across (M : Mesh) (x f h : Nat) : Option Nat :=
  match M.face x f with
  | .same y _ => some y
  | .half y0 y1 _ => some (pick y0 y1 h)
  | _ => none

/-- A mesh of patches that fit together and are balanced: sizes differ by a factor of at most two,
also across corners. -/
structure Mesh.Ok (M : Mesh) : Prop where
  /-- being neighbours is mutual -/
  sameSym : ∀ x f y rf, f < 4 → M.face x f = .same y rf → rf < 4 ∧ M.face y rf = .same x f
  halfSym : ∀ x f y0 y1 rf, f < 4 → M.face x f = .half y0 y1 rf →
    rf < 4 ∧ (∃ hk, hk < 4 ∧ M.face y0 rf = .double x f 0 hk) ∧ (∃ hk, hk < 4 ∧ M.face y1 rf = .double x f 1 hk)
  doubleSym : ∀ y rf x f g hk, rf < 4 → M.face y rf = .double x f g hk →
    f < 4 ∧ g < 2 ∧ ∃ y0 y1, M.face x f = .half y0 y1 rf ∧ pick y0 y1 g = y
  sameCorner : ∀ x k y rk, k < 4 → cornerNbr M x k = .same y rk → rk < 4 ∧ cornerNbr M y rk = .same x k
  halfCorner : ∀ x k y rk, k < 4 → cornerNbr M x k = .half y rk → rk < 4 ∧ cornerNbr M y rk = .double x k
  doubleCorner : ∀ y rk x k, rk < 4 → cornerNbr M y rk = .double x k → k < 4 ∧ cornerNbr M x k = .half y rk
  /-- levels -/
  sameLevel : ∀ x f y rf, f < 4 → M.face x f = .same y rf → M.level y = M.level x
  halfLevel : ∀ x f y0 y1 rf, f < 4 → M.face x f = .half y0 y1 rf →
    M.level y0 = M.level x + 1 ∧ M.level y1 = M.level x + 1
  sameCornerLevel : ∀ x k y rk, k < 4 → cornerNbr M x k = .same y rk → M.level y = M.level x
  halfCornerLevel : ∀ x k y rk, k < 4 → cornerNbr M x k = .half y rk → M.level y = M.level x + 1
  /-- all neighbours are patches -/
  closed : ∀ x ∈ M.patches, ∀ y ∈ nbrs M x, y ∈ M.patches
  /-- no larger patch around the corner from a smaller one -/
  balFace : ∀ c f y0 y1 rf g, f < 4 → g < 2 → M.face c f = .half y0 y1 rf →
    isDouble (M.face c (side f g)) = false
  balCorner : ∀ c k y rk, k < 4 → cornerNbr M c k = .half y rk →
    isDouble (M.face c (faceX k)) = false ∧ isDouble (M.face c (faceY k)) = false
  /-- patches that meet in a corner of `c` are neighbours -/
  siblings : ∀ c f y0 y1 rf, f < 4 → M.face c f = .half y0 y1 rf → y0 ∈ nbrs M y1 ∧ y1 ∈ nbrs M y0
  meetFace : ∀ c f y0 y1 rf g n, f < 4 → g < 2 → M.face c f = .half y0 y1 rf →
    across M c (side f g) (f % 2) = some n → n ∈ nbrs M (pick y0 y1 g)
  meetCornerX : ∀ c k y rk n, k < 4 → cornerNbr M c k = .half y rk →
    across M c (faceX k) (k / 2) = some n → n ∈ nbrs M y
  meetCornerY : ∀ c k y rk n, k < 4 → cornerNbr M c k = .half y rk →
    across M c (faceY k) (k % 2) = some n → n ∈ nbrs M y
  /-- a corner in the middle of a larger patch's face is not a corner of another patch -/
  hangingNone : ∀ x f y rf g hk, f < 4 → M.face x f = .double y rf g hk →
    hk < 4 → M.corner x hk = .none ∧
      isBoundary (M.face x (faceX hk)) = false ∧ isBoundary (M.face x (faceY hk)) = false

/-- Are values from the next coarser level to be had in this update? -/
def coarserInUse (M : Mesh) (minl : Int) (ti : Bool) (x : Nat) : Prop := minl < M.level x ∨ ti = true

/-- Strip `f` is to be filled: always, except if it borders a larger patch that takes no part in the
update. -/
def DueStrip (M : Mesh) (minl : Int) (ti : Bool) (x f : Nat) : Prop :=
  isDouble (M.face x f) = true → coarserInUse M minl ti x

/-- Corner `k` is to be filled: at a physical boundary if the strip next to it is; inside if there is a
neighbour (if larger, one that takes part), or if it is the middle of a larger patch's face. -/
def DueCorner (M : Mesh) (minl : Int) (ti : Bool) (x k : Nat) : Prop :=
  match isBoundary (M.face x (faceX k)), isBoundary (M.face x (faceY k)) with
  | true, true => True
  | true, false => DueStrip M minl ti x (faceY k)
  | false, true => DueStrip M minl ti x (faceX k)
  | false, false =>
    match M.corner x k with
    | .same _ _ => True
    | .half _ _ => True
    | .double _ _ => coarserInUse M minl ti x
    | .none => ∃ f y rf g, f < 4 ∧ M.face x f = .double y rf g k ∧ coarserInUse M minl ti x

def Op.isInterp : Op → Bool
  | .interpFace _ _ _ _ _ _ => true
  | .interpCorner _ _ _ _ _ => true
  | _ => false

def Op.isAverage : Op → Bool
  | .avgFace _ _ _ _ _ => true
  | .avgCorner _ _ _ _ => true
  | _ => false

def Op.isFaceCopy : Op → Bool
  | .copyFace _ _ _ _ => true
  | _ => false

def Op.isPhys : Op → Bool
  | .phys _ _ => true
  | _ => false

/-! ### Which patches are treated (C33) -/

/-- Is the visit one for faces of patch `x`, of this kind and role? -/
def faceVisit (kind : Kind) (coarse : Bool) (x : Nat) : Visit → Bool
  | .face e y => decide (e.kind = kind) && decide (e.coarse = coarse) && decide (y = x)
  | _ => false

def cornerVisit (kind : Kind) (coarse : Bool) (x : Nat) : Visit → Bool
  | .corner e y => decide (e.kind = kind) && decide (e.coarse = coarse) && decide (y = x)
  | _ => false

/-- The levels of an update: `minl` to `maxl`, and with time interpolation also `minl - 1`. -/
def inRange (minl maxl : Int) (ti : Bool) (l : Int) : Bool :=
  decide ((if ti then minl - 1 else minl) ≤ l) && decide (l ≤ maxl)

end Fclaw.GhostFill

/-
Model of what a synchronisation (Verif/TimeSync) does to the registers and the solution (2D, clawpack 4.6):
the calls of `fclaw2d_patch_time_sync_f2c` and `fclaw2d_patch_time_sync_samesize` in `cb_face_fill`
(src/fclaw2d_face_neighbors.c:334-346, 367-412) and `fclaw2d_clawpatch_time_sync_reset`
(src/patches/clawpatch/fclaw2d_clawpatch_conservation.c:206-277). The corrections themselves are in
Verif/Correction.
-/
import Verif.TimeSync.Model
import Verif.Correction.Model

set_option autoImplicit false
namespace Fclaw.Conserve

open Fort CopyGhost Correction GhostFill TimeSync

/-- Lines 255-275 of `fclaw2d_clawpatch_time_sync_reset`: the registers at face `k` are set to zero. The
loops run over all elements of the arrays; here they are functions. -/
def clearFace (r : Regs) (k : Nat) : Regs :=
  if k / 2 = 0 then
    { r with
      fm := fun s t m => if s = k then 0 else r.fm s t m
      fp := fun s t m => if s = k then 0 else r.fp s t m
      ef := fun f t m l => if f = k then 0 else r.ef f t m l }
  else
    { r with
      gm := fun s t m => if s = k - 2 then 0 else r.gm s t m
      gp := fun s t m => if s = k - 2 then 0 else r.gp s t m
      ef := fun f t m l => if f = k then 0 else r.ef f t m l }

/-- What a process has in memory: registers and solutions of its patches and of its ghost patches. -/
structure PState where
  reg : Nat → Regs
  q : Nat → Grid ℚ

/-- What the code finds out about pairs of neighbours: `transform_data` for patch `x`, its face `f` and the
neighbour `y`, and the neighbour face in the mesh, for `fclaw2d_patch_normal_match`. -/
structure Links where
  td : Nat → Nat → Nat → TData
  qtfi : Nat → Nat → ℤ

/-- One step. Which of the two corrections is made depends on the kind of neighbour, as in `faceSync`. -/
def act (d : Dims) (M : Mesh) (L : Links) (s : PState) : Step → Option PState
  | .use x f y _ =>
    (match M.face x f with
      | .half _ _ _ => f2c d (L.td x f y) f (normalMatch f (L.qtfi x f)) (s.reg x) (s.reg y) (s.q x)
      | .same _ _ => samesize d (L.td x f y) f (s.reg x) (s.reg y) (s.q x)
      | _ => none).bind fun g => some { s with q := fun z => if z = x then g else s.q z }
  | .clear x f => some { s with reg := fun z => if z = x then clearFace (s.reg x) f else s.reg z }

/-- All steps of a synchronisation by one process. -/
def actAll (d : Dims) (M : Mesh) (L : Links) (s : PState) : List Step → Option PState
  | [] => some s
  | a :: ss => (act d M L s a).bind fun s' => actAll d M L s' ss

/-- `fclaw2d_time_sync` on process `p`. -/
def syncProcess (d : Dims) (M : Mesh) (L : Links) (p : Nat) (minl top : Int) (s : PState) : Option PState :=
  actAll d M L s (timeSync M p minl top)

end Fclaw.Conserve

/-
Model of sending the auxiliary data (the ground) of patches to other processes, GeoClaw:

* src/solvers/fc2d_geoclaw/fclaw2d_source/fc2d_geoclaw_local_ghost_pack_aux_fort.f (below: "pack_aux.f")
* src/solvers/fc2d_geoclaw/fc2d_geoclaw.cpp: geoclaw_local_ghost_pack_aux (765-785), and 838-843
* src/patches/clawpatch/fclaw2d_clawpatch.cpp: clawpatch_ghost_comm (1159-1171), between the solution and the registers

What is simplified. Memory is that of `Verif.GhostPack.Model`: `Loc.q i j mq` stands for `auxdata(mq,i,j)` of the array
`aux(maux,1-mbc:mx+mbc,1-mbc:my+mbc)`, so that `Dims.meqn` is the number of auxiliary fields here. Access outside of the
array or of the buffer, failing assertions and a positive `ierror` (the program exits) are `none`. The position in the
buffer is counted from the start of the whole buffer of `n` values: the Fortran routine's `k` is relative to where the
solution ends.
-/
import Verif.GhostPack.Model

set_option autoImplicit false

namespace Fclaw.AuxPack

open Fclaw.GhostPack
open Fort

/-- pack_aux.f:28. -/
def nghost : ℤ := 2

/-- The four loops that go around the patch, pack_aux.f:32-79. -/
def ring2 {α : Type} (d : Dims) (mint n : ℤ) (pack : Bool) (mq : ℤ) (s : St α) : Option (St α) :=
  (doLoop (1 - nghost) (d.my - mint) (fun j => doLoop (1 - nghost) mint fun ibc => move d n pack (.q ibc j mq)) s).bind
    fun s =>
  (doLoop (1 - nghost) mint (fun jbc => doLoop (mint + 1) (d.mx + nghost) fun i => move d n pack (.q i jbc mq)) s).bind
    fun s =>
  (doLoop (mint + 1) (d.my + nghost) (fun j => doLoop (d.mx - mint + 1) (d.mx + nghost) fun ibc =>
    move d n pack (.q ibc j mq)) s).bind fun s =>
  doLoop (d.my - mint + 1) (d.my + nghost) (fun jbc => doLoop (1 - nghost) (d.mx - mint) fun i =>
    move d n pack (.q i jbc mq)) s

/-- `fc2d_geoclaw_local_ghost_pack_aux`, pack_aux.f:1-89: the new state and `ierror`. -/
def localGhostPackAux {α : Type} (d : Dims) (mint auxsize n packmode : ℤ) (s : St α) : Option (St α × ℤ) :=
  if packmode ≠ 0 ∧ packmode ≠ 1 ∧ packmode ≠ 2 ∧ packmode ≠ 3 then some (s, 1)
  else
    let pack := decide (packmode = 0 ∨ packmode = 2)
    (doLoop 1 d.meqn (fun mq => ring2 d mint n pack mq) s).bind fun s' =>
    some (s', if s'.k - s.k ≠ auxsize then 2 else 0)

/-- The number of extra fields, fc2d_geoclaw.cpp:838-843: all auxiliary fields if the option `ghost_patch_pack_aux` is
set, otherwise what the user says. -/
def numExtra (packAux : Bool) (maux user : ℤ) : ℤ := if packAux then maux else user

/-- fclaw2d_clawpatch.cpp:1159-1171. -/
def commAux {α : Type} (d : Dims) (refratio packextra n packmode : ℤ) (s : St α) : Option (St α) :=
  let mint := refratio * d.mbc
  let wg := (2 * (d.mbc : ℤ) + d.mx) * (2 * d.mbc + d.my)
  let hole := ((d.mx : ℤ) - 2 * mint) * (d.my - 2 * mint)
  let extrasize := (wg - hole) * packextra
  if packextra ≠ 0 then
    if ¬ 0 < extrasize then none
    else
      (localGhostPackAux d mint extrasize n packmode s).bind fun (s', ierror) =>
      if ierror ≠ 0 then none else some { s' with k := s.k + extrasize }
  else some s

end Fclaw.AuxPack

import Verif.Fort.Basic
/-
Model of packing patches for other processes and unpacking them there (2D, Clawpack 4.6 layout):

* src/patches/clawpatch/fort_4.6/fclaw2d_clawpatch46_local_ghost_pack.f
* src/patches/clawpatch/fclaw2d_clawpatch.cpp:1020-1215: clawpatch_ghost_pack_elems,
  clawpatch_ghost_comm, clawpatch_local_ghost_pack, clawpatch_remote_ghost_unpack
* src/patches/clawpatch/fclaw2d_clawpatch_conservation.c:111-196:
  fclaw2d_clawpatch_time_sync_pack_registers

All memory of a patch that takes part is one function from locations to values; a location outside of its
array is not `valid`, and accessing it, or the buffer outside of its announced size, is `none`. So are a
failing assertion and a positive `ierror` (the program exits).

Simplifications: no extra fields (ghost_patch_pack_numextrafields = 0; they are packed by code of the
user). `int` does not overflow. The position in the buffer is counted from the start of the buffer: the
Fortran routine's `k` is `k + 1` here, `cnt` is relative to the advanced pointer.
-/
set_option autoImplicit false
namespace Fclaw.GhostPack

open Fort

/-- Where values live in a patch: the solution, the cell areas, and the registers (struct
fclaw2d_clawpatch_registers, fclaw2d_clawpatch_conservation.h:53-77). -/
inductive Loc where
  | q (i j mq : ℤ)
  | area (i j : ℤ)
  | fm (k j : ℤ)
  | fp (k j : ℤ)
  | gm (k i : ℤ)
  | gp (k i : ℤ)
  | edgeFlux (k j : ℤ)
  | edgeLength (k j : ℤ)
  | edgeArea (k j : ℤ)
  deriving DecidableEq, Repr

/-- Cells along face `k`. -/
def along (d : Dims) (k : ℤ) : ℤ := if k < 2 then d.my else d.mx

/-- Bounds of the arrays: the declarations in local_ghost_pack.f:18-20 and the allocations in
fclaw2d_clawpatch_time_sync_new, fclaw2d_clawpatch_conservation.c:92-107. -/
def valid (d : Dims) : Loc → Bool
  | .q i j mq => inBox d (i, j, mq)
  | .area i j => decide (-(d.mbc : ℤ) ≤ i ∧ i ≤ d.mx + d.mbc + 1 ∧ -(d.mbc : ℤ) ≤ j ∧ j ≤ d.my + d.mbc + 1)
  | .fm k j => decide (0 ≤ k ∧ k < 2 ∧ 0 ≤ j ∧ j < d.my * d.meqn)
  | .fp k j => decide (0 ≤ k ∧ k < 2 ∧ 0 ≤ j ∧ j < d.my * d.meqn)
  | .gm k i => decide (0 ≤ k ∧ k < 2 ∧ 0 ≤ i ∧ i < d.mx * d.meqn)
  | .gp k i => decide (0 ≤ k ∧ k < 2 ∧ 0 ≤ i ∧ i < d.mx * d.meqn)
  | .edgeFlux k j => decide (0 ≤ k ∧ k < 4 ∧ 0 ≤ j ∧ j < 2 * along d k * d.meqn)
  | .edgeLength k j => decide (0 ≤ k ∧ k < 4 ∧ 0 ≤ j ∧ j < along d k)
  | .edgeArea k j => decide (0 ≤ k ∧ k < 4 ∧ 0 ≤ j ∧ j < along d k)

abbrev Data (α : Type) := Loc → α

abbrev Buf (α : Type) := ℤ → α

structure St (α : Type) where
  /-- next position in the buffer -/
  k : ℤ
  data : Data α
  buf : Buf α

/-- `qpack(k) = …` or `… = qpack(k)`, then `k = k + 1`. `n` is the size of the buffer. -/
def move {α : Type} (d : Dims) (n : ℤ) (pack : Bool) (l : Loc) (s : St α) : Option (St α) :=
  if valid d l = true ∧ 0 ≤ s.k ∧ s.k < n then
    if pack then some ⟨s.k + 1, s.data, fun p => if p = s.k then s.data l else s.buf p⟩
    else some ⟨s.k + 1, fun l' => if l' = l then s.buf s.k else s.data l', s.buf⟩
  else none

/-- The four loops that go around the patch, local_ghost_pack.f:46-88 (for the solution, `mk` says for which
component) and 101-147 (for the area). -/
def ring {α : Type} (d : Dims) (mint n : ℤ) (pack : Bool) (mk : ℤ → ℤ → Loc) (s : St α) : Option (St α) :=
  (doLoop (1 - d.mbc) (d.my - mint) (fun j => doLoop (1 - d.mbc) mint fun i => move d n pack (mk i j)) s).bind fun s =>
  (doLoop (1 - d.mbc) mint (fun j => doLoop (mint + 1) (d.mx + d.mbc) fun i => move d n pack (mk i j)) s).bind fun s =>
  (doLoop (mint + 1) (d.my + d.mbc) (fun j => doLoop (d.mx - mint + 1) (d.mx + d.mbc) fun i =>
    move d n pack (mk i j)) s).bind fun s =>
  doLoop (d.my - mint + 1) (d.my + d.mbc) (fun j => doLoop (1 - d.mbc) (d.mx - mint) fun i => move d n pack (mk i j)) s

/-- `fclaw2d_clawpatch46_fort_local_ghost_pack`: the new state and `ierror`. -/
def localGhostPack {α : Type} (d : Dims) (mint psize n packmode : ℤ) (s : St α) : Option (St α × ℤ) :=
  if packmode ≠ 0 ∧ packmode ≠ 1 ∧ packmode ≠ 2 ∧ packmode ≠ 3 then some (s, 1)
  else
    let pack := decide (packmode = 0 ∨ packmode = 2)
    (doLoop 1 d.meqn (fun mq => ring d mint n pack fun i j => .q i j mq) s).bind fun s =>
    if packmode ≠ 2 ∧ packmode ≠ 3 then some (s, if s.k ≠ psize then 2 else 0)
    else
      (ring d mint n pack .area s).bind fun s => some (s, if s.k ≠ psize then 2 else 0)

/-- `fclaw2d_clawpatch_time_sync_pack_registers`: the new state and `ierror`. -/
def packRegisters {α : Type} (d : Dims) (frsize n : ℤ) (pack : Bool) (s : St α) : Option (St α × ℤ) :=
  let start := s.k
  (doLoop 0 3 (fun k s =>
    if k / 2 = 0 then
      (doLoop 0 (d.meqn * d.my - 1) (fun j s =>
        (move d n pack (.fm k j) s).bind fun s =>
        (move d n pack (.fp k j) s).bind fun s =>
        (move d n pack (.edgeFlux k j) s).bind fun s =>
        move d n pack (.edgeFlux k (j + d.meqn * d.my)) s) s).bind fun s =>
      doLoop 0 (d.my - 1) (fun j s =>
        (move d n pack (.edgeLength k j) s).bind fun s => move d n pack (.edgeArea k j) s) s
    else if k / 2 = 1 then
      (doLoop 0 (d.meqn * d.mx - 1) (fun i s =>
        (move d n pack (.gm (k - 2) i) s).bind fun s =>
        (move d n pack (.gp (k - 2) i) s).bind fun s =>
        (move d n pack (.edgeFlux k i) s).bind fun s =>
        move d n pack (.edgeFlux k (i + d.meqn * d.mx)) s) s).bind fun s =>
      doLoop 0 (d.mx - 1) (fun i s =>
        (move d n pack (.edgeLength k i) s).bind fun s => move d n pack (.edgeArea k i) s) s
    else some s) s).bind fun s =>
  some (s, if s.k - start = frsize then 0 else 1)

/-- The options that matter. -/
structure Opts where
  refratio : ℤ
  /-- ghost_patch_pack_area -/
  packArea : Bool
  manifold : Bool
  timeSync : Bool
  deriving DecidableEq, Repr

/-- `ghost_patch_pack_area && manifold`. -/
def Opts.area (o : Opts) : ℤ := if o.packArea && o.manifold then 1 else 0

def whole (d : Dims) : ℤ := (2 * d.mbc + d.mx) * (2 * d.mbc + d.my)

def hole (d : Dims) (o : Opts) : ℤ := (d.mx - 2 * (o.refratio * d.mbc)) * (d.my - 2 * (o.refratio * d.mbc))

def frsize (d : Dims) (o : Opts) : ℤ := if o.timeSync then 2 * (4 * d.meqn + 2) * (d.mx + d.my) else 0

/-- `clawpatch_ghost_pack_elems`, fclaw2d_clawpatch.cpp:1020-1069: the announced size. -/
def packElems (d : Dims) (o : Opts) : Option ℤ :=
  if hole d o < 0 then none
  else
    let psize := (whole d - hole d o) * (d.meqn + o.area) + frsize d o
    if psize < 0 then none else some psize

/-- `clawpatch_ghost_comm`, fclaw2d_clawpatch.cpp:1072-1188, on a buffer of the size `packElems`. -/
def ghostComm {α : Type} (d : Dims) (o : Opts) (packmode : ℤ) (data : Data α) (buf : Buf α) :
    Option (Data α × Buf α) :=
  let packarea := packmode / 2
  let mint := o.refratio * d.mbc
  (packElems d o).bind fun n =>
  if hole d o < 0 then none
  else
    let psize := (whole d - hole d o) * (d.meqn + packarea) + frsize d o
    if ¬ 0 < psize then none
    else if psize ≠ n then none
    else
      let qareasize := (whole d - hole d o) * (d.meqn + packarea)
      (localGhostPack d mint qareasize n packmode ⟨0, data, buf⟩).bind fun (s, ierror) =>
      if ierror ≠ 0 then none
      else if o.timeSync then
        if ¬ 0 < frsize d o then none
        else
          (packRegisters d (frsize d o) n (decide (packmode % 2 = 0)) ⟨qareasize, s.data, s.buf⟩).bind fun (s, ierror) =>
          if ierror ≠ 0 then none else some (s.data, s.buf)
      else some (s.data, s.buf)

/-- `clawpatch_local_ghost_pack`: the buffer (and the data, which do not change). -/
def localPack {α : Type} (d : Dims) (o : Opts) (data : Data α) (buf : Buf α) : Option (Data α × Buf α) :=
  ghostComm d o (2 * o.area) data buf

/-- `clawpatch_remote_ghost_unpack`. -/
def remoteUnpack {α : Type} (d : Dims) (o : Opts) (data : Data α) (buf : Buf α) : Option (Data α × Buf α) :=
  ghostComm d o (2 * o.area + 1) data buf

end Fclaw.GhostPack

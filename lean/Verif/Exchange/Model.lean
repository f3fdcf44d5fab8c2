/-
Model of the exchange of ghost patch data: the buffers of
`fclaw2d_domain_allocate_before_exchange`, `fclaw2d_domain_ghost_exchange_begin` and `_end`
(src/forestclaw2d.c:1706-1811), and the packing and unpacking loops around them
(src/fclaw2d_exchange.c:103-133, 283-396).

Blocks of patches are given per process; the bytes written by `fclaw2d_patch_local_ghost_pack` are
a field of the patch. `none` is a failed assertion or an access outside an array.
-/
set_option autoImplicit false
set_option linter.unusedVariables false
namespace Fclaw.Exchange

/-- A local patch: its level, the flag `FCLAW2D_PATCH_ON_PARALLEL_BOUNDARY`, and the bytes that
`fclaw2d_patch_local_ghost_pack` writes for it (argument: `pack_time_interp`). -/
structure Patch where
  level : Int
  flag : Bool
  packed : Bool → List UInt8

/-- A ghost patch: owning process, number among the owner's local patches
(`piggy3.local_num` of the p4est ghost quadrant) and level. -/
structure Ghost where
  owner : Nat
  localNum : Nat
  level : Int

/-- `fclaw2d_domain_exchange_t`. `patchData` holds the contents of the buffers that the pointers
`patch_data[]` refer to, `ghostData` the pointers `ghost_data[]` as offsets into
`ghost_contiguous_memory`, `sent` what p4est has copied at the begin of an exchange together with
the level range (`none`: all levels), so that `async_state != NULL` is `sent.isSome`. -/
structure Exch where
  dataSize : Nat
  patchData : List (List UInt8)
  ghostData : List Nat
  memory : List UInt8
  byLevels : Bool
  insideAsync : Bool
  sent : Option (List (List UInt8) × Option (Int × Int))

/-- The loop over ghost patches, src/forestclaw2d.c:1725-1729; `m` is the moving pointer. -/
def ghostPtrs (dataSize : Nat) : Nat → Nat → List Nat
  | 0, _ => []
  | n + 1, m => m :: ghostPtrs dataSize n (m + dataSize)

/-- `fclaw2d_domain_allocate_before_exchange`, src/forestclaw2d.c:1706-1736, followed by the
allocation of the send buffers, src/fclaw2d_exchange.c:182-195. The contents of fresh memory are
the arguments `junk` and `junkMem`. -/
def allocateBeforeExchange (dataSize numExchange numGhost : Nat) (junk : List UInt8)
    (junkMem : Nat → UInt8) : Exch :=
  { dataSize := dataSize
    patchData := List.replicate numExchange junk
    ghostData := ghostPtrs dataSize numGhost 0
    memory := (List.range (numGhost * dataSize)).map junkMem
    byLevels := false
    insideAsync := false
    sent := none }

/-- Inner packing loop over the patches of a block, src/fclaw2d_exchange.c:299-318. -/
def packBlock (minlevel maxlevel : Int) (timeInterp : Bool) :
    List Patch → Nat × List (List UInt8) → Option (Nat × List (List UInt8))
  | [], s => some s
  | p :: ps, s =>
    if p.flag then
      if maxlevel < p.level then none                         -- assertion on line 307
      else if s.2.length ≤ s.1 then none                      -- write outside `patch_data`
      else packBlock minlevel maxlevel timeInterp ps
        (s.1 + 1, s.2.set s.1 (p.packed (timeInterp && decide (p.level = minlevel - 1))))
    else packBlock minlevel maxlevel timeInterp ps s

/-- Outer packing loop over the blocks, src/fclaw2d_exchange.c:296-319. -/
def packBlocks (minlevel maxlevel : Int) (timeInterp : Bool) :
    List (List Patch) → Nat × List (List UInt8) → Option (Nat × List (List UInt8))
  | [], s => some s
  | b :: bs, s =>
    (packBlock minlevel maxlevel timeInterp b s).bind (packBlocks minlevel maxlevel timeInterp bs)

/-- `fclaw2d_domain_ghost_exchange_begin`, src/forestclaw2d.c:1751-1791. -/
def exchangeBegin (globalMin globalMax : Int) (e : Exch) (lo hi : Int) : Option Exch :=
  if e.sent.isSome || e.insideAsync then none
  else if lo ≤ globalMin ∧ globalMax ≤ hi then
    some { e with byLevels := false, insideAsync := true, sent := some (e.patchData, none) }
  else
    some { e with byLevels := true, insideAsync := true, sent := some (e.patchData, some (lo, hi)) }

/-- `fclaw2d_exchange_ghost_patches_begin`, src/fclaw2d_exchange.c:281-344. -/
def ghostPatchesBegin (blocks : List (List Patch)) (globalMin globalMax : Int) (e : Exch)
    (minlevel maxlevel : Int) (timeInterp : Bool) : Option Exch :=
  (packBlocks minlevel maxlevel timeInterp blocks (0, e.patchData)).bind fun s =>
    exchangeBegin globalMin globalMax { e with patchData := s.2 }
      (if timeInterp then minlevel - 1 else minlevel) maxlevel

/-- Overwrite `bytes.length` bytes of a memory. -/
def writeAt (mem : List UInt8) (off : Nat) (bytes : List UInt8) : List UInt8 :=
  mem.take off ++ bytes ++ mem.drop (off + bytes.length)

def inRange : Option (Int × Int) → Int → Bool
  | none, _ => true
  | some (lo, hi), l => decide (lo ≤ l) && decide (l ≤ hi)

/-- `p4est_ghost_exchange_custom_end` and `p4est_ghost_exchange_custom_levels_end` (p4est,
external, by its documentation): slot `k` of the receiver's contiguous memory gets the data of the
mirror with the ghost's local number on the owner, if the level of the ghost is in the range.
`sent p` is what process `p` sent, `mirrors p` are the local numbers of its mirrors. `k` is the
number of the first remaining ghost. -/
def deliver (dataSize : Nat) (mirrors : Nat → List Nat) (sent : Nat → List (List UInt8))
    (range : Option (Int × Int)) : Nat → List Ghost → List UInt8 → List UInt8
  | _, [], mem => mem
  | k, g :: gs, mem =>
    deliver dataSize mirrors sent range (k + 1) gs
      (if inRange range g.level then
        writeAt mem (k * dataSize) ((sent g.owner)[(mirrors g.owner).idxOf g.localNum]?.getD [])
      else mem)

/-- `fclaw2d_domain_ghost_exchange_end`, src/forestclaw2d.c:1793-1813. -/
def exchangeEnd (mirrors : Nat → List Nat) (sent : Nat → List (List UInt8)) (ghosts : List Ghost)
    (e : Exch) : Option Exch :=
  match e.sent with
  | none => none
  | some (_, range) =>
    if e.insideAsync then
      some { e with memory := deliver e.dataSize mirrors sent range 0 ghosts e.memory,
                    insideAsync := false, sent := none }
    else none

/-- One call of `fclaw2d_patch_remote_ghost_unpack`. -/
structure Unpack where
  ghostNo : Nat
  bytes : List UInt8
  toTimeInterp : Bool
  deriving DecidableEq

/-- `unpack_remote_ghost_patches`, src/fclaw2d_exchange.c:103-133; the read of `dataSize` bytes at
`ghost_data[i]`. -/
def unpackLoop (e : Exch) (minlevel : Int) (timeInterp : Bool) : Nat → List Ghost → List Unpack
  | _, [] => []
  | i, g :: gs =>
    if minlevel - 1 ≤ g.level then
      ⟨i, (e.memory.drop (e.ghostData[i]?.getD 0)).take e.dataSize,
        timeInterp && decide (g.level = minlevel - 1)⟩ :: unpackLoop e minlevel timeInterp (i + 1) gs
    else unpackLoop e minlevel timeInterp (i + 1) gs

/-- All data needed to run an exchange on all processes. -/
structure World where
  nproc : Nat
  blocks : Nat → List (List Patch)
  mirrors : Nat → List Nat
  ghosts : Nat → List Ghost
  globalMin : Int
  globalMax : Int
  dataSize : Nat

/-- Begin on process `p` with the exchange structure `e`. -/
def beginOn (w : World) (e : Nat → Exch) (minlevel maxlevel : Int) (ti : Bool) (p : Nat) : Option Exch :=
  ghostPatchesBegin (w.blocks p) w.globalMin w.globalMax (e p) minlevel maxlevel ti

/-- The complete exchange, as seen by process `r`: all processes call
`fclaw2d_exchange_ghost_patches_begin`, then `r` completes `fclaw2d_exchange_ghost_patches_end`
(src/fclaw2d_exchange.c:347-396). Result: the exchange structure of `r` and its unpack calls. -/
def exchange (w : World) (e : Nat → Exch) (minlevel maxlevel : Int) (ti : Bool) (r : Nat) :
    Option (Exch × List Unpack) :=
  if (List.range w.nproc).all (fun p => (beginOn w e minlevel maxlevel ti p).isSome) then
    let sent := fun p => (((beginOn w e minlevel maxlevel ti p).bind Exch.sent).map Prod.fst).getD []
    (beginOn w e minlevel maxlevel ti r).bind fun er =>
      (exchangeEnd w.mirrors sent (w.ghosts r) er).map fun e' =>
        (e', unpackLoop e' minlevel ti 0 (w.ghosts r))
  else none

end Fclaw.Exchange

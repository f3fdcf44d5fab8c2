/-
Model of the matching of patches before and after a repartition,
`fclaw2d_domain_iterate_partitioned`, src/forestclaw2d.c:1564-1693, and of the transfer of patch
data, `fclaw2d_partition_domain` and its callbacks, src/fclaw2d_partition.c:36-193.

Local index ranges: in a global forest with blocks `g`, the process owning the global interval
`[a, b)` stores of block `k` the patches whose global number lies in the interval.
-/
set_option autoImplicit false
namespace Fclaw.Partition

/-- The arguments of one transfer callback: `blockno, old_patchno, new_patchno`;
`old_patch == NULL` and `old_patchno == -1` is `none`. -/
structure TCall where
  blockno : Nat
  oldPatchno : Option Nat
  newPatchno : Nat
  deriving DecidableEq, Repr

/-- `num_patches` and `num_patches_before` of a block (see `Verif.Domain`). -/
structure BlockInfo where
  num : Nat
  before : Nat
  deriving DecidableEq, Repr

/-- The clamped window of a block: lines 1606-1618 (new domain) and 1644-1656 (old domain):
`pre = max (first - skip, 0)`; `stay` is `num` if `pre >= num` and otherwise
`first + length - skip` clamped to `[0, num]`. Natural number subtraction is the clamped one. -/
def window (first length : Nat) (b : BlockInfo) : Nat × Nat :=
  let pre := first - b.before
  if b.num ≤ pre then (b.num, b.num)
  else (pre, min (first + length - b.before) b.num)

/-- The body of the loop over blocks, lines 1592-1691. `none`: one of the assertions on lines
1619, 1657, 1660, 1674 fails. -/
def blockCalls (uf ul uof : Nat) (i : Nat) (new old : BlockInfo) : Option (List TCall) :=
  if new.num = 0 then some []
  else
    let n := window uf ul new
    if n.2 < n.1 then none else
    let first := (List.range n.1).map fun nj => (⟨i, none, nj⟩ : TCall)
    if n.1 = new.num then some first
    else
      let o := window uof ul old
      if o.2 < o.1 ∨ o.2 - o.1 ≠ n.2 - n.1 then none
      else
        some (first
          ++ ((List.range (n.2 - n.1)).map fun k => (⟨i, some (o.1 + k), n.1 + k⟩ : TCall))
          ++ ((List.range (new.num - n.2)).map fun k => (⟨i, none, n.2 + k⟩ : TCall)))

/-- The loop over blocks. -/
def blocksCalls (uf ul uof : Nat) : Nat → List BlockInfo → List BlockInfo → Option (List TCall)
  | _, [], [] => some []
  | i, n :: ns, o :: os =>
    match blockCalls uf ul uof i n o with
    | none => none
    | some l =>
      match blocksCalls uf ul uof (i + 1) ns os with
      | none => none
      | some r => some (l ++ r)
  | _, _, _ => none

/-- `p4est_wrap_partition` (p4est, external): the window of patches that stay on the process,
from the global ranges `[preMe, preNext)` and `[postMe, postNext)` before and after:
`unchanged_first, unchanged_length, unchanged_old_first`. -/
def unchanged (preMe preNext postMe postNext : Nat) : Nat × Nat × Nat :=
  if preMe < postNext ∧ postMe < preNext then
    if preMe ≤ postMe then (0, min preNext postNext - postMe, postMe - preMe)
    else (preMe - postMe, min preNext postNext - preMe, 0)
  else (0, 0, 0)

/-- Local part `[a, b)` of the blocks of a global forest (p4est keeps trees in order); `B` is the
global number of the first patch of the remaining blocks. -/
def localPart {α : Type} (a b : Nat) : Nat → List (List α) → List (List α)
  | _, [] => []
  | B, blk :: rest =>
    ((blk.drop (a - B)).take (min b (B + blk.length) - max a B)) :: localPart a b (B + blk.length) rest

/-- `num_patches` and `num_patches_before` as set by `fclaw2d_domain_new`
(src/fclaw2d_convenience.c:183-189, proved in property C06). -/
def infos {α : Type} : Nat → List (List α) → List BlockInfo
  | _, [] => []
  | n, blk :: rest => ⟨blk.length, n⟩ :: infos (n + blk.length) rest

/-- `fclaw2d_domain_iterate_partitioned` on the process that owned `[preMe, preNext)` and now owns
`[postMe, postNext)` of the forest `g`. -/
def iteratePartitioned {α : Type} (g : List (List α)) (preMe preNext postMe postNext : Nat) :
    Option (List TCall) :=
  let u := unchanged preMe preNext postMe postNext
  blocksCalls u.1 u.2.1 u.2.2 0
    (infos 0 (localPart postMe postNext 0 g)) (infos 0 (localPart preMe preNext 0 g))

/-! Transfer of patch data. `U` is the type of patch data (`patch->user`), `D` that of packed
buffers. -/

/-- State of one process during the transfer: `user` pointers of the old and of the new patches
(`none` is NULL), by block and patch number, and the counters of both domains
(`count_set_patch`, `count_delete_patch`). -/
structure TState (U : Type) where
  old : Nat → Nat → Option U
  new : Nat → Nat → Option U
  oldSet : Int
  oldDelete : Int
  newSet : Int

def set2 {U : Type} (f : Nat → Nat → Option U) (i j : Nat) (u : Option U) : Nat → Nat → Option U :=
  fun x y => if x = i ∧ y = j then u else f x y

/-- `cb_partition_transfer`, src/fclaw2d_partition.c:57-106. `buf` is the array `patch_data`
indexed by local patch number (`none` outside the array), `before` the `num_patches_before` of the new domain, `unpack` is
`fclaw2d_patch_partition_unpack`, which builds a new patch (and so increments `count_set_patch` of
the domain in `glob`, the old one, src/fclaw2d_patch.c:92-93) and fills it from the buffer. -/
def transferOne {U D : Type} (unpack : D → U) (before : Nat → Nat) (buf : Nat → Option D)
    (s : TState U) (c : TCall) : TState U :=
  match c.oldPatchno with
  | some oj =>
    { s with
      new := set2 s.new c.blockno c.newPatchno (s.old c.blockno oj)
      old := set2 s.old c.blockno oj none
      oldDelete := s.oldDelete + 1
      newSet := s.newSet + 1 }
  | none =>
    { s with
      new := set2 s.new c.blockno c.newPatchno ((buf (before c.blockno + c.newPatchno)).map unpack)
      oldSet := s.oldSet + 1 - 1
      newSet := s.newSet + 1 }

/-- All callbacks of `fclaw2d_global_iterate_partitioned`. -/
def transferAll {U D : Type} (unpack : D → U) (before : Nat → Nat) (buf : Nat → Option D)
    (s : TState U) (cs : List TCall) : TState U :=
  cs.foldl (transferOne unpack before buf) s

/-- `patch->user` of the local patches of a process owning `[a, b)`, by block and patch number. -/
def users {U : Type} (data : List (List U)) (a b : Nat) : Nat → Nat → Option U :=
  fun i j => ((localPart a b 0 data)[i]?.getD [])[j]?

/-- The array `patch_data` after `fclaw2d_domain_retrieve_after_partition` on the process that now
owns `[c, d)`. Every process has packed each of its patches into the buffer attached to the
quadrant (`cb_partition_pack`, src/fclaw2d_partition.c:36-54), and `p4est_partition` (external)
moves that buffer with the quadrant: entry `k` is the packed data of global patch `c + k`. -/
def received {U D : Type} (pack : U → D) (data : List (List U)) (c d : Nat) : Nat → Option D :=
  fun k => if k < d - c then (data.flatten[c + k]?).map pack else none

/-- The part of `fclaw2d_partition_domain` after the call of `fclaw2d_domain_partition`,
src/fclaw2d_partition.c:167-178, on one process; the counters of the old domain are given.
`none` if an assertion fails. -/
def partitionDomain {U D : Type} (pack : U → D) (unpack : D → U) (data : List (List U))
    (a b c d : Nat) (oldSet oldDelete : Int) : Option (TState U) :=
  (iteratePartitioned data a b c d).map fun cs =>
    transferAll unpack (fun i => ((infos 0 (localPart c d 0 data))[i]?.map BlockInfo.before).getD 0)
      (received pack data c d) ⟨users data a b, fun _ _ => none, oldSet, oldDelete, 0⟩ cs

/-- `fclaw2d_domain_reset` on the old domain, src/fclaw2d_domain.c:227-239: deletes the data of all
patches of the old domain that still have some (src/fclaw2d_patch.c:117-138); the final value of
`count_delete_patch`. -/
def resetDelete {U : Type} (blocks : List (List U)) (s : TState U) : Int :=
  (blocks.zipIdx.flatMap fun x => (List.range x.1.length).map fun j => (x.2, j)).foldl
    (fun n p => if (s.old p.1 p.2).isSome then n + 1 else n) s.oldDelete

end Fclaw.Partition

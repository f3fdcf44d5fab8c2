/-
Model of the creation and deletion of patch data on one process: src/fclaw2d_patch.c
(patch_data_new, fclaw2d_patch_data_delete, fclaw2d_patch_remote_ghost_build / _delete),
src/fclaw2d_regrid.c (cb_fclaw2d_regrid_repopulate, fclaw2d_regrid), src/fclaw2d_partition.c
(cb_partition_transfer, fclaw2d_partition_domain), src/fclaw2d_domain.c (fclaw2d_domain_setup,
fclaw2d_domain_reset), src/fclaw2d_exchange.c (build_remote_ghost_patches,
delete_remote_ghost_patches) and the order of these in fclaw2d_initialize and fclaw2d_finalize.

A patch data structure is a number, never used twice (`FCLAW_ALLOC`); `patch->user` is such a number
or NULL. Local patches are numbered through all blocks (`num_patches_before + patchno`). Access
outside an array is the outcome `none`. The contents of the data are not modelled here (see C10),
nor the callbacks of solvers.
-/
set_option autoImplicit false
namespace Fclaw.Ledger

inductive Ev where
  /-- `patch_data_new`. -/
  | create (h : Nat)
  /-- `fclaw2d_patch_data_delete` or `fclaw2d_patch_remote_ghost_delete` of existing data. -/
  | delete (h : Nat)
  /-- The comparison in `fclaw2d_domain_reset`: `count_set_patch`, `count_delete_patch`. -/
  | compare (set del : Int)
  deriving DecidableEq, Repr

/-- The part of a domain that matters: `user` of local patches and of remote ghost patches, the
counters of `fclaw2d_domain_data_t`, and whether `domain_exchange` is set. -/
structure Dom where
  users : List (Option Nat)
  ghosts : List (Option Nat)
  set : Int
  del : Int
  exch : Bool
  deriving DecidableEq, Repr

/-- A domain with `np` local and `ng` ghost patches as made by the convenience layer (all `user`
pointers NULL), with new domain data, src/fclaw2d_domain.c:170-185, 200-219. -/
def Dom.fresh (np ng : Nat) : Dom := ⟨List.replicate np none, List.replicate ng none, 0, 0, false⟩

/-- The process: `glob->domain`, the next unused number and what has happened. -/
structure St where
  dom : Dom
  next : Nat
  log : List Ev
  deriving DecidableEq, Repr

/-- The process while patches go from the domain `old` in `glob` to a domain `new`. -/
structure Two where
  old : Dom
  new : Dom
  next : Nat
  log : List Ev
  deriving DecidableEq, Repr

/-- `patch_data_new` for patch `j` of the new domain, src/fclaw2d_patch.c:62-95: `glob->domain` is the
old domain, whose counter is incremented. -/
def Two.build (w : Two) (j : Nat) : Option Two :=
  if j < w.new.users.length then
    some { w with
      new := { w.new with users := w.new.users.set j (some w.next) }
      old := { w.old with set := w.old.set + 1 }
      next := w.next + 1
      log := w.log ++ [.create w.next] }
  else none

/-- `fclaw2d_patch_data_delete` for patch `j` of the old domain, src/fclaw2d_patch.c:117-138. -/
def Two.deleteOld (w : Two) (j : Nat) : Option Two :=
  match w.old.users[j]? with
  | none => none
  | some none => some w
  | some (some h) =>
    some { w with
      old := { w.old with users := w.old.users.set j none, del := w.old.del + 1 }
      log := w.log ++ [.delete h] }

/-- Moving the `user` pointer, src/fclaw2d_regrid.c:134-140 and src/fclaw2d_partition.c:75-80. -/
def Two.move (w : Two) (oj nj : Nat) : Option Two :=
  match w.old.users[oj]? with
  | none => none
  | some u =>
    if nj < w.new.users.length then
      some { w with
        new := { w.new with users := w.new.users.set nj u, set := w.new.set + 1 }
        old := { w.old with users := w.old.users.set oj none, del := w.old.del + 1 } }
    else none

/-- `--ddata_old->count_set_patch; ++ddata_new->count_set_patch;` -/
def Two.shift (w : Two) : Two :=
  { w with old := { w.old with set := w.old.set - 1 }, new := { w.new with set := w.new.set + 1 } }

/-- A loop over `i = 0, …, n - 1`. -/
def loop {σ : Type} (f : σ → Nat → Option σ) : Nat → Nat → σ → Option σ
  | 0, _, s => some s
  | n + 1, i, s =>
    match f s i with
    | none => none
    | some s => loop f n (i + 1) s

inductive Kind where
  | same | half | double
  deriving DecidableEq, Repr

/-- `cb_fclaw2d_regrid_repopulate`, src/fclaw2d_regrid.c:114-228. -/
def repopulate (w : Two) (k : Kind) (oj nj : Nat) : Option Two :=
  match k with
  | .same => w.move oj nj
  | .half =>
    match loop (fun w i => w.shift.build (nj + i)) 4 0 w with
    | none => none
    | some w => w.deleteOld oj
  | .double =>
    match w.shift.build nj with
    | none => none
    | some w => loop (fun w i => w.deleteOld (oj + i)) 4 0 w

def Kind.old : Kind → Nat
  | .same => 1
  | .half => 1
  | .double => 4

def Kind.new : Kind → Nat
  | .same => 1
  | .half => 4
  | .double => 1

/-- `fclaw2d_global_iterate_adapted` with this callback. The callbacks come one for each event of the
adaptation, with the positions of its patches (proved in C08). -/
def repopulateAll : List Kind → Nat → Nat → Two → Option Two
  | [], _, _, w => some w
  | k :: ks, oj, nj, w =>
    match repopulate w k oj nj with
    | none => none
    | some w => repopulateAll ks (oj + k.old) (nj + k.new) w

/-- `cb_partition_transfer`, src/fclaw2d_partition.c:57-106, for new patch `nj`; `oj` is the number
of the old patch if there is one. `fclaw2d_patch_partition_unpack` builds the patch. -/
def transfer (w : Two) (oj : Option Nat) (nj : Nat) : Option Two :=
  match oj with
  | some oj => w.move oj nj
  | none => w.shift.build nj

/-- `fclaw2d_global_iterate_partitioned` with this callback, on a process that owned the patches with
global numbers from `a` on, `n` of them, and will own those from `c` on: a callback for every new
patch, with the old patch that has the same global number, if it was here (proved in C09). -/
def transferAll (a n c : Nat) (w : Two) : Option Two :=
  loop (fun w k => transfer w (if a ≤ c + k ∧ c + k < a + n then some (c + k - a) else none) k)
    w.new.users.length 0 w

/-- `fclaw2d_patch_data_delete` or `fclaw2d_patch_remote_ghost_delete` for all patches of a list. -/
def deleteAll : List (Option Nat) → List Ev
  | [] => []
  | none :: us => deleteAll us
  | some h :: us => .delete h :: deleteAll us

/-- `fclaw2d_domain_reset`, src/fclaw2d_domain.c:221-259, with `fclaw2d_exchange_delete`,
src/fclaw2d_exchange.c:262-301: what happens. -/
def reset (d : Dom) : List Ev :=
  let e1 := deleteAll d.users
  let e2 := if d.exch then deleteAll d.ghosts else []
  e1 ++ e2 ++ [.compare d.set (d.del + (e1.length : Int) + (e2.length : Int))]

/-- Lines 288-307 of src/fclaw2d_regrid.c (and the same in fclaw2d_initialize): the adaptation has
made a domain with `np` patches. -/
def adapt (ks : List Kind) (np ng : Nat) (s : St) : Option St :=
  match repopulateAll ks 0 0 ⟨s.dom, Dom.fresh np ng, s.next, s.log⟩ with
  | none => none
  | some w => some ⟨w.new, w.next, w.log ++ reset w.old⟩

/-- `fclaw2d_partition_domain` with a changed partition, src/fclaw2d_partition.c:167-183. -/
def partition (a c np ng : Nat) (s : St) : Option St :=
  match transferAll a s.dom.users.length c ⟨s.dom, Dom.fresh np ng, s.next, s.log⟩ with
  | none => none
  | some w => some ⟨w.new, w.next, w.log ++ reset w.old⟩

/-- `patch_data_new` for the patches of `glob->domain` itself, one after the other. -/
def buildRange (next : Nat) (n : Nat) : List (Option Nat) × List Ev :=
  ((List.range n).map fun i => some (next + i), (List.range n).map fun i => .create (next + i))

/-- `fclaw2d_exchange_setup`: `build_remote_ghost_patches`, src/fclaw2d_exchange.c:86-121, 171-260. -/
def exchangeSetup (s : St) : St :=
  let n := s.dom.ghosts.length
  let b := buildRange s.next n
  ⟨{ s.dom with ghosts := b.1, set := s.dom.set + (n : Int), exch := true }, s.next + n, s.log ++ b.2⟩

/-- `fclaw2d_initialize` up to the first exchange: `cb_initialize` for every patch of the first
domain (all of them have the minimum level), src/fclaw2d_initialize.c:53-70, 125-138. -/
def initializeDomain (np ng : Nat) : St :=
  let d := Dom.fresh np ng
  let b := buildRange 0 np
  exchangeSetup ⟨{ d with users := b.1, set := d.set + (np : Int) }, np, b.2⟩

/-- One regridding that changes the domain, in `fclaw2d_regrid` or `fclaw2d_initialize`: the
adaptation, possibly a repartition, and the new exchange. -/
structure Regrid where
  kinds : List Kind
  np : Nat
  ng : Nat
  /-- `a`, `c`, new number of patches, new number of ghost patches. -/
  part : Option (Nat × Nat × Nat × Nat)
  deriving DecidableEq, Repr

def regrid (r : Regrid) (s : St) : Option St :=
  match adapt r.kinds r.np r.ng s with
  | none => none
  | some s =>
    match r.part with
    | none => some (exchangeSetup s)
    | some (a, c, np, ng) => (partition a c np ng s).map exchangeSetup

def regrids : List Regrid → St → Option St
  | [], s => some s
  | r :: rs, s =>
    match regrid r s with
    | none => none
    | some s => regrids rs s

/-- `fclaw2d_finalize`: the last domain is reset. -/
def finalize (s : St) : List Ev := s.log ++ reset s.dom

end Fclaw.Ledger

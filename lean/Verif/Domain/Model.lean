/-
Model of the construction of a domain, src/fclaw2d_convenience.c:90-311, and of the domain
iterators, src/forestclaw2d.c:223-294.

A p4est quadrant of a tree is represented by the path of child numbers leading to it from the
root (`Path C`, `C` = P4EST_CHILDREN, 4 in 2D and 8 in 3D): its level is the length of the path
and its child id the last entry. The forest (p4est) is input; the functions modelled here are
those of ForestClaw. Coordinates and block-face flags are in `Verif.BlockFace`.
A pointer to a patch is the pair (block number, index in the block's patch array).
-/
set_option autoImplicit false
namespace Fclaw.Domain

abbrev Path (C : Nat) := List (Fin C)
abbrev Ptr := Nat × Nat

/-- P4EST_QMAXLEVEL (p4est.h, p8est.h: 29 and 18); the model only needs that it is some number. -/
structure Params where
  possibleMaxlevel : Nat

/-- Fields of `fclaw2d_patch_t` set by `fclaw2d_domain_new` (src/forestclaw2d.h:108-140);
the bits of `flags` as separate fields. The link `u.next` is kept in `St.next`. -/
structure Patch where
  level : Nat
  childid : Nat
  firstSibling : Bool
  onParallelBoundary : Bool
  deriving DecidableEq

/-- `p4est_quadrant_is_familyv` (p4est): the first `C` quadrants of the array are the children of
one parent, in order. -/
def isFamilyv (C : Nat) (qs : List (Path C)) : Bool :=
  match qs with
  | [] => false
  | q :: _ => q ≠ [] && qs.take C == (List.finRange C).map (fun k => q.dropLast ++ [k])

/-- Variables that live across the loop over blocks. -/
structure St where
  next : Ptr → Option Ptr           -- `u.next` of every patch
  cur : Nat → Option Ptr            -- `currentbylevel`, uninitialised entries are `none`
  localNum : Nat                    -- `local_num_patches`
  nm : Nat
  mirrorNum : Option Nat            -- `mirror_quadrant_num`, `none` is -1
  exchange : List Ptr               -- `domain->exchange_patches`

/-- Variables of the current block. -/
structure BSt where
  head : Nat → Option Ptr           -- `block->patchbylevel`
  patches : List Patch              -- the patches set up so far
  minlevel : Int                    -- `tree_minlevel`
  maxlevel : Int                    -- `tree_maxlevel`

def upd {α β : Type} [DecidableEq α] (f : α → β) (a : α) (b : β) : α → β :=
  fun x => if x = a then b else f x

/-- Body of the loop over the patches of block `i`, src/fclaw2d_convenience.c:211-259, for the
patch with index `j`; `rest` are the quadrants from this one on, `num` is `block->num_patches`. -/
def patchStep (C : Nat) (mirrors : List Nat) (i num j : Nat) (q : Path C) (rest : List (Path C))
    (s : St) (b : BSt) : St × BSt :=
  let level := q.length
  let onBoundary : Bool := s.mirrorNum = some s.localNum
  let patch : Patch :=
    { level := level
      childid := match q.getLast? with | none => 0 | some c => c.val
      firstSibling := decide (j + C ≤ num) && isFamilyv C rest
      onParallelBoundary := onBoundary }
  let s1 : St :=
    if onBoundary then
      { s with exchange := s.exchange ++ [(i, j)], nm := s.nm + 1, mirrorNum := mirrors[s.nm + 1]? }
    else s
  let (s2, head) : St × (Nat → Option Ptr) :=
    match b.head level with
    | none => ({ s1 with cur := upd s1.cur level (some (i, j)) }, upd b.head level (some (i, j)))
    | some _ =>
      match s1.cur level with
      | none => (s1, b.head)      -- would dereference NULL (assertion on line 251)
      | some p => ({ s1 with next := upd s1.next p (some (i, j)),
                             cur := upd s1.cur level (some (i, j)) }, b.head)
  ({ s2 with localNum := s2.localNum + 1 },
   { head := head, patches := b.patches ++ [patch],
     minlevel := min b.minlevel level, maxlevel := max b.maxlevel level })

/-- The loop over the patches of block `i`. -/
def patchLoop (C : Nat) (mirrors : List Nat) (i num : Nat) :
    Nat → List (Path C) → St → BSt → St × BSt
  | _, [], s, b => (s, b)
  | j, q :: rest, s, b =>
    let r := patchStep C mirrors i num j q (q :: rest) s b
    patchLoop C mirrors i num (j + 1) rest r.1 r.2

/-- `fclaw2d_block_t` (src/forestclaw2d.h:142-180), the fields set by `fclaw2d_domain_new`. -/
structure Block where
  numPatchesBefore : Nat
  numPatches : Nat
  patches : List Patch
  head : Nat → Option Ptr
  minlevel : Int
  maxlevel : Int
  numExchange : Nat

/-- The loop over blocks, src/fclaw2d_convenience.c:163-271; returns the blocks in order and the
final loop variables, with the minimum and maximum level over all patches. -/
def blockLoop (C : Nat) (P : Params) (mirrors : List Nat) :
    Nat → List (List (Path C)) → St → Int → Int → List Block × St × Int × Int
  | _, [], s, lmin, lmax => ([], s, lmin, lmax)
  | i, qs :: more, s, lmin, lmax =>
    let r := patchLoop C mirrors i qs.length 0 qs s ⟨fun _ => none, [], P.possibleMaxlevel, -1⟩
    let blk : Block :=
      { numPatchesBefore := s.localNum
        numPatches := qs.length
        patches := r.2.patches
        head := r.2.head
        minlevel := r.2.minlevel
        maxlevel := r.2.maxlevel
        numExchange := r.1.nm - s.nm }
    let t := blockLoop C P mirrors (i + 1) more r.1 (min lmin r.2.minlevel) (max lmax r.2.maxlevel)
    (blk :: t.1, t.2)

/-- `fclaw2d_domain_t` (src/forestclaw2d.h:182-260), the fields set by `fclaw2d_domain_new`
except the global levels. -/
structure Domain where
  blocks : List Block
  next : Ptr → Option Ptr
  localNumPatches : Nat
  localMinlevel : Int
  localMaxlevel : Int
  exchangePatches : List Ptr

/-- `fclaw2d_domain_new`, src/fclaw2d_convenience.c:90-277, on one process. `blocks` are the local
quadrants of each tree, `mirrors` the local numbers of the mirror quadrants (p4est_ghost_t). -/
def domainNew (C : Nat) (P : Params) (mirrors : List Nat) (blocks : List (List (Path C))) : Domain :=
  let r := blockLoop C P mirrors 0 blocks
    ⟨fun _ => none, fun _ => none, 0, 0, mirrors[0]?, []⟩ P.possibleMaxlevel (-1)
  { blocks := r.1
    next := r.2.1.next
    localNumPatches := r.2.1.localNum
    localMinlevel := r.2.2.1
    localMaxlevel := r.2.2.2
    exchangePatches := r.2.1.exchange }

/-- Elementwise minimum over all processes: `sc_MPI_Allreduce (..., sc_MPI_MIN, ...)`.
There is at least one process. -/
def allreduceMin : List Int → Int
  | [] => 0
  | [x] => x
  | x :: xs => min x (allreduceMin xs)

/-- `global_minlevel`, src/fclaw2d_convenience.c:295-301. -/
def globalMinlevel (ds : List Domain) : Int := allreduceMin (ds.map (·.localMinlevel))
/-- `global_maxlevel`, src/fclaw2d_convenience.c:295-302: minus the minimum of the negatives. -/
def globalMaxlevel (ds : List Domain) : Int := - allreduceMin (ds.map (fun d => - d.localMaxlevel))

/-- Following the `u.next` links from `p`: the pointers visited, `none` if the list does not end
within `fuel` patches (a cycle: the C loop would not terminate). -/
def walk (next : Ptr → Option Ptr) : Nat → Option Ptr → Option (List Ptr)
  | _, none => some []
  | 0, some _ => none
  | fuel + 1, some p =>
    match walk next fuel (next p) with
    | none => none
    | some l => some (p :: l)

/-- Concatenation of the callbacks of successive loops; `none` if one of them does not end. -/
def concatAll : List (Option (List Ptr)) → Option (List Ptr)
  | [] => some []
  | none :: _ => none
  | some l :: rest =>
    match concatAll rest with
    | none => none
    | some r => some (l ++ r)

/-- `fclaw2d_domain_iterate_level`, src/forestclaw2d.c:223-244: the patches passed to the callback. -/
def iterateLevel (d : Domain) (level : Nat) : Option (List Ptr) :=
  concatAll (d.blocks.map fun b => walk d.next b.numPatches (b.head level))

/-- `fclaw2d_domain_iterate_patches`, src/forestclaw2d.c:246-263. -/
def iteratePatches (d : Domain) : List Ptr :=
  (d.blocks.zipIdx).flatMap fun e => (List.range e.1.numPatches).map fun j => (e.2, j)

/-- The loop over the patches of block `i` in `fclaw2d_domain_iterate_families`,
src/forestclaw2d.c:276-292: after a callback the index advances by P4EST_CHILDREN in total. -/
def familyLoop (C i : Nat) (j : Nat) (ps : List Patch) : List Ptr :=
  match ps with
  | [] => []
  | p :: rest =>
    if p.firstSibling then (i, j) :: familyLoop C i (j + 1 + (C - 1)) (rest.drop (C - 1))
    else familyLoop C i (j + 1) rest
  termination_by ps.length
  decreasing_by all_goals (simp only [List.length_drop, List.length_cons]; omega)

/-- `fclaw2d_domain_iterate_families`, src/forestclaw2d.c:265-294. -/
def iterateFamilies (C : Nat) (d : Domain) : List Ptr :=
  (d.blocks.zipIdx).flatMap fun e => familyLoop C e.2 0 e.1.patches

end Fclaw.Domain

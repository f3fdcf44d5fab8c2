/-
Model of smooth refinement: `fclaw2d_patch_mark_refine`, `fclaw2d_patch_mark_coarsen`
(src/forestclaw2d.c:1398-1450) and the part of `fclaw2d_domain_adapt` that propagates target levels
to neighbours and marks patches for p4est (src/fclaw2d_convenience.c:499-641), with
`domain->p.smooth_refine` set.

Every patch carries an identity `G` (its quadrant) that the code never looks at; it is used to say
which patch a neighbour query has returned. The answers of the neighbour queries (see C12, C58) are
input. Reading outside of an array is the outcome `none`. In 3D the code looks at face and corner
neighbours only ("edge neighbors ... to be implemented", line 600).
-/
set_option autoImplicit false
namespace Fclaw.Smooth

/-- A local patch; `calls` are the calls of mark_refine (`true`) and mark_coarsen (`false`) for it
since the domain was created, in order. -/
structure Patch (G : Type) where
  id : G
  level : Int
  calls : List Bool

/-- `patch->target_level` after the calls, src/forestclaw2d.c:1418-1419, 1439-1440; it starts as
the level (src/fclaw2d_convenience.c:218). `qmax` is P4EST_QMAXLEVEL. -/
def targetLevel (qmax : Int) (level : Int) (calls : List Bool) : Int :=
  calls.foldl (fun _ refine => if refine then min (level + 1) qmax else max (level - 1) 0) level

/-- A ghost patch; its owner and the place of the patch there are known to p4est's exchange. -/
structure Ghost (G : Type) where
  id : G
  level : Int
  owner : Nat
  ownerBlock : Nat
  ownerIdx : Nat

/-- A neighbour as returned by the queries: process, block, and the patch number in the block if
the process is the own one, else the ghost number. -/
structure Nbr where
  proc : Nat
  block : Nat
  num : Nat

inductive FaceAns where
  | same (n : Nbr)
  | double (n : Nbr)
  | half (ns : List Nbr)
  | boundary

structure Proc (G : Type) where
  blocks : List (List (Patch G))
  ghosts : List (Ghost G)
  face : Nat → Nat → List FaceAns           -- answers for all faces of a patch
  corner : Nat → Nat → List (Option Nbr)    -- answers for all corners of a patch

inductive Mark where
  | coarsen | keep | refine
  deriving DecidableEq

section
variable {G : Type} (qmax : Int) (W : List (Proc G))

def localPatch (r b i : Nat) : Option (Patch G) :=
  match W[r]? with
  | none => none
  | some P => match P.blocks[b]? with
    | none => none
    | some ps => ps[i]?

/-- The target level of a ghost patch after p4est_ghost_exchange_custom,
src/fclaw2d_convenience.c:523-534: the one of the patch on its owner. -/
def ghostTarget (g : Ghost G) : Option Int :=
  (localPatch W g.owner g.ownerBlock g.ownerIdx).map fun p => targetLevel qmax p.level p.calls

/-- `fclaw2d_domain_get_neighbor_patch` (src/fclaw2d_convenience.c:472-496): level and target level
of the neighbour patch. -/
def nbrLevels (r : Nat) (n : Nbr) : Option (Int × Int) :=
  if n.proc ≠ r then
    match W[r]? with
    | none => none
    | some P => match P.ghosts[n.num]? with
      | none => none
      | some g => (ghostTarget qmax W g).map fun t => (g.level, t)
  else (localPatch W r n.block n.num).map fun p => (p.level, targetLevel qmax p.level p.calls)

/-- `if (npatch->level >= domain->p.smooth_level) max_tlevel = SC_MAX (max_tlevel, ...)`. -/
def maxWith (smoothLevel : Int) (r : Nat) (mx : Int) (n : Nbr) : Option Int :=
  (nbrLevels qmax W r n).map fun lt => if lt.1 ≥ smoothLevel then max mx lt.2 else mx

/-- One face, src/fclaw2d_convenience.c:549-595. -/
def faceStep (smoothLevel : Int) (r : Nat) (mx : Int) : FaceAns → Option Int
  | .same n => maxWith qmax W smoothLevel r mx n
  | .double n => maxWith qmax W smoothLevel r mx n
  | .half ns => ns.foldlM (maxWith qmax W smoothLevel r) mx
  | .boundary => some mx

/-- Loop over the faces, src/fclaw2d_convenience.c:547-596; it ends when the maximum exceeds the
level. -/
def faceLoop (smoothLevel level : Int) (r : Nat) : List FaceAns → Int → Option Int
  | [], mx => some mx
  | a :: as, mx =>
    if mx ≤ level then
      match faceStep qmax W smoothLevel r mx a with
      | none => none
      | some mx => faceLoop smoothLevel level r as mx
    else some mx

/-- Loop over the corners, lines 604-622. -/
def cornerLoop (smoothLevel level : Int) (r : Nat) : List (Option Nbr) → Int → Option Int
  | [], mx => some mx
  | a :: as, mx =>
    if mx ≤ level then
      let m : Option Int := match a with
        | some n => maxWith qmax W smoothLevel r mx n
        | none => some mx
      match m with
      | none => none
      | some mx => cornerLoop smoothLevel level r as mx
    else some mx

/-- The mark that patch `i` of block `b` gets on process `r`, lines 540-639. -/
def smoothMark (smoothLevel : Int) (r b i : Nat) : Option Mark :=
  match W[r]?, localPatch W r b i with
  | some P, some p =>
    let level := p.level
    let mx := targetLevel qmax p.level p.calls
    match faceLoop qmax W smoothLevel level r (P.face b i) mx with
    | none => none
    | some mx =>
      match cornerLoop qmax W smoothLevel level r (P.corner b i) mx with
      | none => none
      | some mx =>
        if mx < level then some .coarsen
        else if mx > level then some .refine
        else some .keep
  | _, _ => none
end

end Fclaw.Smooth

/-
Model of the searches over the local part of the forest:
`fclaw2d_domain_search_points` (src/fclaw2d_convenience.c:927-1151) and
`fclaw2d_domain_integrate_rays` (src/fclaw2d_convenience.c:1153-1284).

Simplifications: real numbers given as `double` are rational numbers and their arithmetic is
exact (comparisons with quadrant coordinates are exact in the code, too, because
fclaw2d_smallest_h is a power of two); NaN is not modelled. An `sc_array` of results is a function
from the index. `p4est_search_local` is p4est code; it is modelled from its documentation.
-/
import Mathlib.Data.Rat.Defs
import Mathlib.Algebra.Order.Ring.Rat

set_option autoImplicit false
namespace Fclaw.Search

/-- The fields `p.which_tree`, `x`, `y`, (`z`) and `level` of a p4est quadrant in `d` dimensions. -/
structure Quad (d : Nat) where
  tree : Nat
  coord : Fin d → Int
  level : Nat

/-- P4EST_QUADRANT_LEN, `M` is P4EST_MAXLEVEL (30 in 2D and 19 in 3D). -/
def quadLen (M level : Nat) : Int := 2 ^ (M - level)

/-- `fclaw2d_smallest_h`, src/fclaw2d_convenience.c:30. -/
def smallestH (M : Nat) : ℚ := 1 / 2 ^ M

/-- The part of the forest `p4est_search_local` walks through: a list of quadrants, each either
a local leaf with its local number or an ancestor of local leaves with the quadrants below it. -/
inductive Forest (Q : Type) where
  | nil
  | leaf (q : Q) (num : Nat) (rest : Forest Q)
  | node (q : Q) (kids : Forest Q) (rest : Forest Q)

/-- The local leaves below, in the order of the search. -/
def Forest.leaves {Q : Type} : Forest Q → List (Q × Nat)
  | .nil => []
  | .leaf q n rest => (q, n) :: rest.leaves
  | .node _ kids rest => kids.leaves ++ rest.leaves

/-- One quadrant of the search: the callback is called for each remaining point, and the points
for which it returns true are kept. -/
def runPoints {S P : Type} (f : S → P → S × Bool) : S → List P → S × List P
  | s, [] => (s, [])
  | s, p :: ps =>
    let r := f s p
    let t := runPoints f r.1 ps
    (t.1, if r.2 then p :: t.2 else t.2)

/-- `p4est_search_local (p4est, 0, NULL, cb, points)`: depth-first search; `local_num` is `none`
(-1) for an ancestor; the points kept on an ancestor are searched below it; the return value on
a leaf is ignored. -/
def searchLocal {Q S P : Type} (cb : Q → Option Nat → S → P → S × Bool) :
    Forest Q → List P → S → S
  | .nil, _, s => s
  | .leaf q n rest, pts, s => searchLocal cb rest pts (runPoints (cb q (some n)) s pts).1
  | .node q kids rest, pts, s =>
    let r := runPoints (cb q none) s pts
    searchLocal cb rest pts (searchLocal cb kids r.2 r.1)

def upd {V : Type} (f : Nat → V) (k : Nat) (v : V) : Nat → V := fun x => if x = k then v else f x

/-- One process: the patches of each block, and the search forest over them. -/
structure Proc (d : Nat) where
  blocks : List (List (Quad d))
  forest : Forest (Quad d)

/-- `block->num_patches_before` (see the model of `fclaw2d_domain_new`, C06). -/
def numPatchesBefore {d : Nat} (P : Proc d) (b : Nat) : Nat := ((P.blocks.take b).map List.length).sum

/-- The comparisons of src/fclaw2d_convenience.c:969-993; `true` means that the function goes on. -/
def quadContains {d : Nat} (M : Nat) (q : Quad d) (x : Fin d → ℚ) : Bool :=
  (List.finRange d).all fun i =>
    !(decide (x i < q.coord i * smallestH M) ||
      decide (x i > ((q.coord i + quadLen M q.level : Int) : ℚ) * smallestH M))

/-- `search_point_fn`, src/fclaw2d_convenience.c:935-1038. The state is the array `results`. -/
def searchPointFn {d : Nat} (M : Nat) (P : Proc d) (coordinates : Nat → Fin d → ℚ)
    (q : Quad d) (localNum : Option Nat) (results : Nat → Int) (pentry : Nat × Nat) :
    (Nat → Int) × Bool :=
  let jb := pentry.1
  let ip := pentry.2
  if jb ≠ q.tree then (results, false)
  else if quadContains M q (coordinates ip) = false then (results, false)
  else
    match localNum with
    | none => (results, true)
    | some n =>
      let now : Int := (n : Int) - numPatchesBefore P jb
      let earlier := results ip
      let now := if earlier ≥ 0 then min earlier now else now
      (if now ≠ earlier then upd results ip now else results, true)

/-- The array `points`, src/fclaw2d_convenience.c:1090-1107. -/
def makePoints (offsets : List Nat) : Nat → Nat → List (Nat × Nat) :=
  match offsets with
  | [] => fun _ _ => []
  | pend :: more => fun jb pbegin =>
    (List.range' pbegin (pend - pbegin)).map (fun ip => (jb, ip)) ++ makePoints more (jb + 1) pend

/-- The process-local part of `fclaw2d_domain_search_points`; `offsets` are the entries of
`block_offsets` after the first, which is 0. -/
def searchPointsLocal {d : Nat} (M : Nat) (P : Proc d) (offsets : List Nat)
    (coordinates : Nat → Fin d → ℚ) : Nat → Int :=
  searchLocal (searchPointFn M P coordinates) P.forest (makePoints offsets 0 0) (fun _ => -1)

/-- MPI_Allreduce with MPI_MIN over a nonempty list of contributions. -/
def allreduceMin : List Nat → Nat
  | [] => 0
  | [a] => a
  | a :: as => min a (allreduceMin as)

/-- `fclaw2d_domain_search_points` on all processes, src/fclaw2d_convenience.c:1040-1151: the
`results` array of rank `r`. -/
def searchPoints {d : Nat} (M : Nat) (W : List (Proc d)) (offsets : List Nat)
    (coordinates : Nat → Fin d → ℚ) (r ip : Nat) : Int :=
  let resultsOf := fun (P : Proc d) => searchPointsLocal M P offsets coordinates
  let found := W.mapIdx fun rank P => if resultsOf P ip < 0 then W.length else rank
  match W[r]? with
  | none => -1
  | some P => if allreduceMin found ≠ r then -1 else resultsOf P ip

/-- `integrate_ray_fn`, src/fclaw2d_convenience.c:1166-1221. `intersect` is the user's callback
for (quadrant, local leaf number or none, ray) with its result and its `integral` output, which is
zero if it is not set. The state is the array `lints`. -/
def integrateRayFn {Q R : Type} (intersect : Q → Option Nat → R → Bool × ℚ)
    (q : Q) (localNum : Option Nat) (lints : Nat → ℚ) (ri : R × Nat) : (Nat → ℚ) × Bool :=
  let r := intersect q localNum ri.1
  (if localNum.isSome then upd lints ri.2 (lints ri.2 + r.2) else lints, r.1)

/-- `fclaw2d_domain_integrate_rays`, src/fclaw2d_convenience.c:1223-1284, on all processes with
MPI_Allreduce (MPI_SUM): the array `integrals` (the same on all processes). `W` holds the
search forest of each process. -/
def integrateRays {Q R : Type} (intersect : Q → Option Nat → R → Bool × ℚ) (W : List (Forest Q))
    (rays : List R) (i : Nat) : ℚ :=
  (W.map fun F => searchLocal (integrateRayFn intersect) F rays.zipIdx (fun _ => 0) i).sum

end Fclaw.Search

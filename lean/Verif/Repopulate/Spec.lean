/-
What C74 claims: regridding on any distribution of the patches.
-/
import Verif.Repopulate.Model
import Verif.Adapt.Spec
import Verif.Transfer.Spec

set_option autoImplicit false
namespace Fclaw.Repopulate

open Fort CopyGhost Transfer Adapt Metric
open Fclaw.Domain (Path)

variable {K P : Type} [Field K]

/-- Settings for which this works: the counterexamples of C37, C38 and C73 show that it does not for others. On
mapped grids all cells have positive areas. -/
structure Setting.Ok (S : Setting K P) : Prop where
  even : Even2 S.d
  square : S.d.mx = S.d.my
  mbc : 2 ≤ S.d.mbc
  unit : 0 < S.unit
  splits : S.manifold = true → ∀ i, Splits (S.map i)
  positive : S.manifold = true → ∀ i Q a, Built S.d (S.map i) S.maxlevel Q a → ∀ c ∈ coarseCells S.d, 0 < a c

/-- The data of all patches: by block and place in the tree. -/
abbrev World := Nat → Path 4 → Patch

/-- Areas of the cells of a patch. -/
def areaOf (S : Setting K P) (q : Path 4) (p : Patch) : Area := if S.manifold then p.area else S.uniform (quadAt q)

/-- Mass of component `m` in a patch. -/
def patchMass (S : Setting K P) (q : Path 4) (p : Patch) (m : ℤ) : ℚ :=
  ∑ c ∈ coarseCells S.d, coarseMass (areaOf S q p) p.q m c

/-- Child number `g` of `q` for `g = 0, 1, 2, 3`. -/
def childPath (q : Path 4) (g : ℤ) : Path 4 := q ++ [Fin.ofNat 4 g.toNat]

/-- The areas were computed as the library does it: from scratch or from finer ones. -/
def Valid (S : Setting K P) (i : Nat) (q : Path 4) (p : Patch) : Prop :=
  S.manifold = true → Built S.d (S.map i) S.maxlevel (quadAt q) p.area

/-- The areas of the cells along the faces; there are `len d f` cells along face `f`. -/
def alongFaces (d : Dims) (a : Area) : Nat → ℤ → ℚ := fun f t =>
  if 1 ≤ t ∧ t ≤ Correction.len d f then a (Correction.cellAt d f t) else 0

/-- A new patch has empty registers, with the areas of its cells. -/
def FreshReg (S : Setting K P) (i : Nat) (q : Path 4) (p : Patch) : Prop :=
  p.reg = Correction.Regs.empty (alongFaces S.d (areaOf S q p)) (S.edge i (quadAt q))

/-- What is to happen in an event: a patch that stays keeps all of its data. In every cell of a coarse patch
the mass is that of the four fine cells in it. -/
def Becomes (S : Setting K P) (i : Nat) (D N : Path 4 → Patch) : Event 4 → Prop
  | .keep q => N q = D q
  | .refine q => (∀ g : ℤ, 0 ≤ g → g ≤ 3 → Valid S i (childPath q g) (N (childPath q g)) ∧ FreshReg S i (childPath q g) (N (childPath q g))) ∧
      ∀ m, comp S.d m → ∀ C ∈ coarseCells S.d,
        massIn S.d (fun g => areaOf S (childPath q g) (N (childPath q g))) (fun g => (N (childPath q g)).q) m C =
          coarseMass (areaOf S q (D q)) (D q).q m C
  | .coarsen q => (Valid S i q (N q) ∧ FreshReg S i q (N q)) ∧
      ∀ m, comp S.d m → ∀ C ∈ coarseCells S.d,
        coarseMass (areaOf S q (N q)) (N q).q m C =
          massIn S.d (fun g => areaOf S (childPath q g) (D (childPath q g))) (fun g => (D (childPath q g)).q) m C

/-- `bes p` are the events on process `p`, for every block; in the order of the processes they are the events
`E` of the whole mesh. Families that are merged are on one process (p4est merges no others). -/
structure Distribution (nproc : Nat) (E : List (List (Event 4))) (bes : Nat → List (List (Event 4))) : Prop where
  blocks : ∀ p < nproc, (bes p).length = E.length
  all : ∀ i : Nat, E[i]?.getD [] = (List.range nproc).flatMap fun p => (bes p)[i]?.getD []

/-- All processes regrid, with arbitrary contents of new memory: the data was `D` and becomes `N`. -/
def Regridded (S : Setting K P) (init : Bool) (nproc : Nat) (bes : Nat → List (List (Event 4))) (mem : Nat → Nat → Nat → Memory P)
    (D N : World) : Prop :=
  ∀ p < nproc, ∃ st, regrid S init ((bes p).map oldPatches) ((bes p).map newPatches)
      (fun i j => ((oldPatches ((bes p)[i]?.getD []))[j]?).map (D i)) (mem p) = some st ∧
    (∀ i j, st.old i j = none) ∧ ∀ i j, st.new i j = ((newPatches ((bes p)[i]?.getD []))[j]?).map (N i)

/-- Adaptations that can occur: no place is taken twice, the data of old patches are in order, and no patch is
finer than the finest level, before and after (C23). -/
structure Legal (S : Setting K P) (E : List (List (Event 4))) (D : World) : Prop where
  once : ∀ i : Nat, (newPatches (E[i]?.getD [])).Nodup
  valid : ∀ i : Nat, ∀ q ∈ oldPatches (E[i]?.getD []), Valid S i q (D i q)
  levelOld : ∀ i : Nat, ∀ q ∈ oldPatches (E[i]?.getD []), q.length ≤ S.maxlevel
  level : ∀ i : Nat, ∀ q ∈ newPatches (E[i]?.getD []), q.length ≤ S.maxlevel

/-- Mass in a list of patches for each block. -/
def meshMass (S : Setting K P) (qs : List (List (Path 4))) (D : World) (m : ℤ) : ℚ :=
  ∑ i ∈ Finset.range qs.length, ((qs[i]?.getD []).map fun q => patchMass S q (D i q) m).sum

/-- A mesh and its data are regridded any number of times; the distribution, the number of processes and the contents
of new memory may be different each time. -/
inductive Regrids (S : Setting K P) : List (List (Path 4)) → World → List (List (Path 4)) → World → Prop
  | none (qs : List (List (Path 4))) (D : World) : Regrids S qs D qs D
  | more (qs : List (List (Path 4))) (D D1 D2 : World) (E : List (List (Event 4))) (nproc : Nat)
      (bes : Nat → List (List (Event 4))) (mem : Nat → Nat → Nat → Memory P) : Regrids S qs D (E.map oldPatches) D1 →
      Distribution nproc E bes → (∀ i : Nat, (newPatches (E[i]?.getD [])).Nodup) →
      (∀ i : Nat, ∀ q ∈ newPatches (E[i]?.getD []), q.length ≤ S.maxlevel) →
      Regridded S false nproc bes mem D1 D2 → Regrids S qs D (E.map newPatches) D2

/-- Interior cells and the ghost cells next to faces. -/
def nearby (d : Dims) (i j : ℤ) : Prop :=
  (0 ≤ i ∧ i ≤ d.mx + 1 ∧ 1 ≤ j ∧ j ≤ d.my) ∨ (1 ≤ i ∧ i ≤ d.mx ∧ 0 ≤ j ∧ j ≤ d.my + 1)

/-- The same solution in the interior, and the same registers. -/
structure SameInside (S : Setting K P) (p p' : Patch) : Prop where
  q : ∀ i j m, comp S.d m → interior S.d i j → p.q (i, j, m) = p'.q (i, j, m)
  reg : p.reg = p'.reg

/-- ... and in the ghost cells next to faces. -/
structure SameAround (S : Setting K P) (p p' : Patch) : Prop where
  q : ∀ i j m, comp S.d m → nearby S.d i j → p.q (i, j, m) = p'.q (i, j, m)
  reg : p.reg = p'.reg

end Fclaw.Repopulate

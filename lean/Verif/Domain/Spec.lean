import Verif.Domain.Model
/- Specification vocabulary for properties C06 and C07. -/
set_option autoImplicit false
namespace Fclaw.Domain

/-- The patches of level `l` of block `i`, in order. -/
def levelPtrs {C : Nat} (l i : Nat) (qs : List (Path C)) : List Ptr :=
  ((List.range qs.length).filter fun j => qs[j]?.map List.length == some l).map fun j => (i, j)

/-- All patches of block `i`, in order. -/
def blockPtrs {C : Nat} (i : Nat) (qs : List (Path C)) : List Ptr :=
  (List.range qs.length).map fun j => (i, j)

/-- The patches of a family lie at positions `j, ..., j+C-1` of the block. -/
def FamilyAt {C : Nat} (qs : List (Path C)) (j : Nat) : Prop :=
  ∃ parent : Path C, ∀ k : Fin C, qs[j + k.val]? = some (parent ++ [k])

/-- Running sum: number of patches in the blocks before block `i`. -/
def patchesBefore {C : Nat} (blocks : List (List (Path C))) (i : Nat) : Nat :=
  ((blocks.take i).map List.length).sum

/-- The child number of a quadrant in its parent; 0 for a root. -/
def childNumber {C : Nat} : Path C → Nat
  | [] => 0
  | [c] => c.val
  | _ :: q => childNumber q

/-- Number of mirror quadrants among the local quadrants `base, ..., base + n - 1`. -/
def mirrorsIn (mirrors : List Nat) (base n : Nat) : Nat :=
  mirrors.countP fun m => decide (base ≤ m ∧ m < base + n)

/-- `m` is the minimum of the levels in `qs`. -/
def IsMinLevel {C : Nat} (qs : List (Path C)) (m : Int) : Prop :=
  (∃ q ∈ qs, (q.length : Int) = m) ∧ ∀ q ∈ qs, m ≤ q.length

/-- `m` is the maximum of the levels in `qs`. -/
def IsMaxLevel {C : Nat} (qs : List (Path C)) (m : Int) : Prop :=
  (∃ q ∈ qs, (q.length : Int) = m) ∧ ∀ q ∈ qs, (q.length : Int) ≤ m

/-- Leaves of a forest in p4est's order: strictly increasing lexicographically, and no leaf is an
ancestor of another one. -/
def MortonSorted {C : Nat} (qs : List (Path C)) : Prop :=
  qs.Pairwise fun p q => List.Lex (· < ·) p q ∧ ¬ p <+: q

end Fclaw.Domain

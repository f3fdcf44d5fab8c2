/-
What the searches shall return, stated on the patches of the processes.
-/
import Verif.Search.Model

set_option autoImplicit false
namespace Fclaw.Search

/-- The point `x` is in the closed box of the quadrant; coordinates in the unit cube. -/
def InBox {d : Nat} (M : Nat) (q : Quad d) (x : Fin d → ℚ) : Prop :=
  ∀ i, (q.coord i : ℚ) / 2 ^ M ≤ x i ∧ x i ≤ (q.coord i + 2 ^ (M - q.level)) / 2 ^ M

/-- Patch `p` of block `b` on process `r` contains `x`. -/
def PatchHas {d : Nat} (M : Nat) (W : List (Proc d)) (r b p : Nat) (x : Fin d → ℚ) : Prop :=
  ∃ (P : Proc d) (qs : List (Quad d)) (q : Quad d),
    W[r]? = some P ∧ P.blocks[b]? = some qs ∧ qs[p]? = some q ∧ InBox M q x

/-- All patches of a process in order, each with its local number. -/
def Proc.allPatches {d : Nat} (P : Proc d) : List (Quad d × Nat) := P.blocks.flatten.zipIdx

/-- `k` is `q` or a descendant: in the same tree, and its box is part of the box of `q`. -/
def Quad.Under {d : Nat} (M : Nat) (k q : Quad d) : Prop :=
  k.tree = q.tree ∧ ∀ i, q.coord i ≤ k.coord i ∧
    k.coord i + 2 ^ (M - k.level) ≤ q.coord i + 2 ^ (M - q.level)

/-- Every leaf found below an ancestor is its descendant. -/
def Forest.Nested {d : Nat} (M : Nat) : Forest (Quad d) → Prop
  | .nil => True
  | .leaf _ _ rest => rest.Nested M
  | .node q kids rest => (∀ l ∈ kids.leaves, l.1.Under M q) ∧ kids.Nested M ∧ rest.Nested M

/-- p4est's guarantee for the search on one process: it visits the local leaves in order with
their numbers, under their ancestors; and the quadrants of block `b` are in tree `b`. -/
structure Proc.Ok {d : Nat} (M : Nat) (P : Proc d) : Prop where
  leaves : P.forest.leaves = P.allPatches
  nested : P.forest.Nested M
  trees : ∀ (b : Nat) (qs : List (Quad d)), P.blocks[b]? = some qs → ∀ q ∈ qs, q.tree = b

/-- Where a callback may stop: it reports no hit on an ancestor only if none of the leaves below
contributes to the ray. -/
def SoundStop {Q R : Type} (intersect : Q → Option Nat → R → Bool × ℚ) (ray : R) :
    Forest Q → Prop
  | .nil => True
  | .leaf _ _ rest => SoundStop intersect ray rest
  | .node q kids rest =>
    ((intersect q none ray).1 = false →
      ∀ l ∈ kids.leaves, (intersect l.1 (some l.2) ray).2 = 0) ∧
    SoundStop intersect ray kids ∧ SoundStop intersect ray rest

/-- The sum of the contributions of all leaves of all processes. -/
def totalIntegral {Q R : Type} (intersect : Q → Option Nat → R → Bool × ℚ) (W : List (Forest Q))
    (ray : R) : ℚ :=
  ((W.flatMap Forest.leaves).map fun l => (intersect l.1 (some l.2) ray).2).sum

end Fclaw.Search

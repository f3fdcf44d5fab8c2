import Verif.Adapt.Model
/- Specification of one step of adaptation, for property C08. -/
set_option autoImplicit false
namespace Fclaw.Adapt
open Fclaw.Domain (Path)

/-- The children of a quadrant in order. -/
def children {C : Nat} (q : Path C) : List (Path C) := (List.finRange C).map fun k => q ++ [k]

/-- What happens to (a group of) patches in one adaptation. -/
inductive Event (C : Nat) where
  | keep (q : Path C)
  | refine (q : Path C)
  | coarsen (parent : Path C)

/-- The patches an event consumes, in the old domain. -/
def Event.old {C : Nat} : Event C → List (Path C)
  | .keep q => [q]
  | .refine q => [q]
  | .coarsen p => children p

/-- The patches an event produces, in the new domain. -/
def Event.new {C : Nat} : Event C → List (Path C)
  | .keep q => [q]
  | .refine q => children q
  | .coarsen p => [p]

def Event.relation {C : Nat} : Event C → Relation
  | .keep _ => .sameSize
  | .refine _ => .halfSize
  | .coarsen _ => .doubleSize

def oldPatches {C : Nat} (es : List (Event C)) : List (Path C) := es.flatMap Event.old
def newPatches {C : Nat} (es : List (Event C)) : List (Path C) := es.flatMap Event.new

/-- The callbacks wanted for block `i`: one per event, in order, with the indices of the first
patch of the event in the old and in the new block. -/
def wanted {C : Nat} (i : Nat) (es : List (Event C)) : List Call :=
  (List.range es.length).filterMap fun k =>
    es[k]?.map fun e =>
      ⟨e.relation, i, (oldPatches (es.take k)).length, (newPatches (es.take k)).length⟩

/-- A refinement tree; `C` children per node. -/
inductive Tree (C : Nat) where
  | leaf
  | node (kids : Fin C → Tree C)

/-- The leaves below position `q`, in Morton order. -/
def Tree.leaves {C : Nat} : Tree C → Path C → List (Path C)
  | .leaf, q => [q]
  | .node kids, q => (List.finRange C).flatMap fun k => (kids k).leaves (q ++ [k])

/-- One adaptation of a tree: every leaf stays or is split once, families of leaves may be merged. -/
inductive Adapts {C : Nat} : Tree C → Tree C → Prop where
  | keep : Adapts .leaf .leaf
  | refine : Adapts .leaf (.node fun _ => .leaf)
  | coarsen : Adapts (.node fun _ => .leaf) .leaf
  | node (kids kids' : Fin C → Tree C) (h : ∀ k, Adapts (kids k) (kids' k)) :
      Adapts (.node kids) (.node kids')

end Fclaw.Adapt

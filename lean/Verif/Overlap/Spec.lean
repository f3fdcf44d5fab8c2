/-
What the overlap exchange shall return.
-/
import Verif.Overlap.Model

set_option autoImplicit false
namespace Fclaw.Overlap
open Fclaw.Search

/-- The producer process of a point: the lowest rank with a quadrant of the partition that the
callback accepts for the point. -/
def IsProducer {Q Pt : Type} (hit : Q → Option Nat → Pt → Bool) (part : Forest Q) (x : Pt)
    (r : Nat) : Prop :=
  (∃ q, (q, r) ∈ part.leaves ∧ hit q (some r) x = true) ∧
  ∀ q r', (q, r') ∈ part.leaves → hit q (some r') x = true → r ≤ r'

/-- The point after each patch of the list has added its contribution, in order. -/
def answer {Q Pt : Type} (interp : Q → Option Nat → Pt → Pt × Bool) (patches : List (Q × Nat))
    (x : Pt) : Pt :=
  patches.foldl (fun x l => (interp l.1 (some l.2) x).1) x

/-- The partition search: ranks increase along the space-filling curve, and the callback
rejects an ancestor only if it rejects all quadrants below. -/
def PartitionOk {Q Pt : Type} (hit : Q → Option Nat → Pt → Bool) (size : Nat)
    (part : Forest Q) : Prop :=
  (part.leaves.map Prod.snd).Pairwise (· ≤ ·) ∧ (∀ l ∈ part.leaves, l.2 < size) ∧
  go part
where
  go : Forest Q → Prop
  | .nil => True
  | .leaf _ _ rest => go rest
  | .node q kids rest =>
    (∀ x, hit q none x = false → ∀ l ∈ kids.leaves, hit l.1 (some l.2) x = false) ∧
    go kids ∧ go rest

/-- The callback on the producer side: it changes no point on an ancestor, and rejects an ancestor
only if the leaves below contribute nothing. -/
def InterpOk {Q Pt : Type} (interp : Q → Option Nat → Pt → Pt × Bool) (F : Forest Q) : Prop :=
  (∀ q x, (interp q none x).1 = x) ∧ go F
where
  go : Forest Q → Prop
  | .nil => True
  | .leaf _ _ rest => go rest
  | .node q kids rest =>
    (∀ x, (interp q none x).2 = false → ∀ l ∈ kids.leaves, (interp l.1 (some l.2) x).1 = x) ∧
    go kids ∧ go rest

/-- All messages of the other processes arrive, each once, in any order: `order` are the positions
in the list of `buffers` whose rank is not `self`. -/
def ArrivalOrder {α : Type} (self : Nat) (buffers : List (Nat × α)) (order : List Nat) : Prop :=
  order.Nodup ∧ ∀ i, i ∈ order ↔ ∃ b, buffers[i]? = some b ∧ b.1 ≠ self

end Fclaw.Overlap

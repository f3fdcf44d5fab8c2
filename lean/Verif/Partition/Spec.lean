import Verif.Partition.Model
/- Specification for properties C09 and C10. -/
set_option autoImplicit false
namespace Fclaw.Partition

/-- Global number of the first patch of block `i`. -/
def blockStart {α : Type} (g : List (List α)) (i : Nat) : Nat := ((g.take i).map List.length).sum

/-- The patches of block `i` with global number in `[a, b)`, in order, by global number. -/
def globalNumbers {α : Type} (g : List (List α)) (a b i : Nat) : List Nat :=
  (List.range' (blockStart g i) ((g[i]?.getD []).length)).filter fun n => decide (a ≤ n ∧ n < b)

/-- The callbacks wanted: for each block and each new local patch, in order: no old patch if its
global number was not local before, and otherwise its position among the patches of the block that
were local before. -/
def wanted {α : Type} (g : List (List α)) (preMe preNext postMe postNext : Nat) : List TCall :=
  (List.range g.length).flatMap fun i =>
    (globalNumbers g postMe postNext i).zipIdx.map fun x =>
      ⟨i, if preMe ≤ x.1 ∧ x.1 < preNext then some ((globalNumbers g preMe preNext i).idxOf x.1)
          else none, x.2⟩

end Fclaw.Partition

import Verif.PointerMap.Model
/-
Specification for property C04: histories of inserts, what `get` should return and which
destructor calls are owed. Does not use the model's helpers apart from `run`'s `insert`.
-/
set_option autoImplicit false
namespace Fclaw.PointerMap

variable {K P : Type} [DecidableEq K]

/-- One `fclaw_pointer_map_insert` call of the user. -/
structure Op (K P : Type) where
  key : K
  pointer : P
  destroy : Destroy

/-- The state after a history of inserts into a new map. -/
def run (ops : List (Op K P)) : State K P :=
  ops.foldl (fun s o => insert s o.key o.pointer o.destroy) new

/-! ### Specification (independent of the model's helpers) -/

/-- What a user expects `get` to return: the pointer of the last insert with that key. -/
def lastInserted (ops : List (Op K P)) (key : K) : Option P :=
  (ops.reverse.find? (fun o => decide (o.key = key))).map (·.pointer)

/-- The destructor calls owed for a history: one per insert with a non-NULL destructor. -/
def owed (ops : List (Op K P)) : List (Call P) :=
  ops.filterMap fun o => o.destroy.map fun f => ⟨f, o.pointer⟩

end Fclaw.PointerMap

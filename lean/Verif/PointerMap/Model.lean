/-
Model of src/fclaw_pointer_map.c.

`sc_keyvalue` (libsc, not in the repository) is assumed to be a finite map from C strings to
pointers whose `foreach` visits each entry once, in an unspecified order.
-/
set_option autoImplicit false
namespace Fclaw.PointerMap

/- `K`: keys (C strings, compared by content); `P`: what a user's `void*` points to. -/
variable {K P : Type} [DecidableEq K]

/-- A destructor function pointer; `none` is NULL. -/
abbrev Destroy := Option Nat

/-- `value_t`, src/fclaw_pointer_map.c:30-34. -/
structure Value (P : Type) where
  pointer : P
  destroy : Destroy
  deriving DecidableEq, Repr

/-- One call `destroy(pointer)` of a user supplied destructor. -/
structure Call (P : Type) where
  fn : Nat
  arg : P
  deriving DecidableEq, Repr

/-- The map (contents of the `sc_keyvalue`) and the log of the destructor calls made so far.
Keys are copied by the map (src/fclaw_pointer_map.c:93-94), hence are values here. -/
structure State (K P : Type) where
  entries : List (K × Value P)
  log : List (Call P)
  

/-- `fclaw_pointer_map_new`, src/fclaw_pointer_map.c:36-39. -/
def new : State K P := ⟨[], []⟩

/-- `sc_keyvalue_get_pointer (kv, key, NULL)` (libsc). -/
def lookup (es : List (K × Value P)) (key : K) : Option (Value P) :=
  match es with
  | [] => none
  | (k, v) :: rest => if k = key then some v else lookup rest key

/-- Overwrites the value record already stored under `key`
(the in-place update on src/fclaw_pointer_map.c:84-85). -/
def overwrite (es : List (K × Value P)) (key : K) (v : Value P) : List (K × Value P) :=
  match es with
  | [] => []
  | (k, w) :: rest => if k = key then (k, v) :: rest else (k, w) :: overwrite rest key v

/-- The destructor call made for a value, if its destructor is not NULL
(src/fclaw_pointer_map.c:50-51 and 81-83). -/
def callOf (v : Value P) : List (Call P) :=
  match v.destroy with
  | none => []
  | some f => [⟨f, v.pointer⟩]

/-- `fclaw_pointer_map_insert`, src/fclaw_pointer_map.c:70-99. -/
def insert (s : State K P) (key : K) (pointer : P) (destroy : Destroy) : State K P :=
  match lookup s.entries key with
  | some old =>
      { entries := overwrite s.entries key ⟨pointer, destroy⟩, log := s.log ++ callOf old }
  | none =>
      { entries := s.entries ++ [(key, ⟨pointer, destroy⟩)], log := s.log }

/-- `fclaw_pointer_map_get`, src/fclaw_pointer_map.c:101-111. `none` is NULL. -/
def get (s : State K P) (key : K) : Option P :=
  match lookup s.entries key with
  | none => none
  | some v => some v.pointer

/-- `fclaw_pointer_map_iterate`, src/fclaw_pointer_map.c:119-139: the callback receives
(key, pointer) for each entry, in the order `order` the hash table chooses. -/
def iterate (order : List (K × Value P)) : List (K × P) :=
  order.map fun e => (e.1, e.2.pointer)

/-- `fclaw_pointer_map_size`, src/fclaw_pointer_map.c:141-156: counts the visits of foreach. -/
def size (order : List (K × Value P)) : Nat :=
  order.foldl (fun n _ => n + 1) 0

/-- `fclaw_pointer_map_destroy`, src/fclaw_pointer_map.c:41-68: `destroy_iter` for each entry in
the order `order` the hash table chooses; returns the complete log of destructor calls. -/
def destroy (s : State K P) (order : List (K × Value P)) : List (Call P) :=
  order.foldl (fun log e => log ++ callOf e.2) s.log

end Fclaw.PointerMap

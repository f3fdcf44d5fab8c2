import Verif.Packing.Model
import Verif.PointerMap.Model
/-
Model of the packing functions of the global context, src/fclaw2d_global.c:134-217.

`Obj` is the type of option structures (what the `void*` in the option map points to).
Keys are C strings, represented by their characters.
Both undefined behaviour and program abort are `none`: in either case there is no result.
-/
set_option autoImplicit false
namespace Fclaw.Global
open Fclaw.Packing

abbrev Key := Bytes

/-- `fclaw_packing_vtable_t`, src/fclaw_packing.h:78-84. -/
structure VTable (Obj : Type) where
  pack : Obj → Packer
  unpack : Unpacker Obj
  size : Obj → Nat
  destroy : Nat

variable {Obj : Type}

/-- `fclaw_app_get_options_packing_vtable`, src/fclaw_base.c:940-946: the registered vtable or
NULL. The registry itself is a pointer map (property C04). -/
abbrev Registry (Obj : Type) := Key → Option (VTable Obj)

/-- Fields of `fclaw2d_global_t` that are packed. -/
structure Glob (Obj : Type) where
  currTime : UInt64
  currDt : UInt64
  options : PointerMap.State Key Obj

/-- Characters of the message on src/fclaw2d_global.c:140 apart from the `%s` and the NUL. -/
def msgLen : Nat := 42

/-- `check_vt`, src/fclaw2d_global.c:137-142. The `sprintf` into `char msg[1024]` is executed in
every call, so a long name overruns the stack buffer; then aborts if the vtable is NULL. -/
def checkVt (vt : Option (VTable Obj)) (name : Key) : Option (VTable Obj) :=
  if msgLen + name.length + 1 ≤ 1024 then vt else none

/-- `pack_iterator_callback`, src/fclaw2d_global.c:144-156. -/
def packEntry (reg : Registry Obj) (key : Key) (value : Obj) : Packer := fun buf =>
  match checkVt (reg key) key with
  | none => none
  | some vt => seqP (packString (some (key ++ [0]))) (vt.pack value) buf

/-- The calls of `pack_iterator_callback` made by `fclaw_pointer_map_iterate`. -/
def packEntries (reg : Registry Obj) : List (Key × Obj) → Packer
  | [] => doneP
  | (k, x) :: rest => seqP (packEntry reg k x) (packEntries reg rest)

/-- `fclaw2d_global_pack`, src/fclaw2d_global.c:158-171. `order` is the order in which the hash
table of the option map is traversed. -/
def globalPack (reg : Registry Obj) (g : Glob Obj) (order : List (Key × PointerMap.Value Obj)) :
    Packer :=
  seqP (packDouble g.currTime) (seqP (packDouble g.currDt)
    (seqP (packSizeT (UInt64.ofNat (PointerMap.size order)))
      (packEntries reg (PointerMap.iterate order))))

/-- `packsize_iterator_callback`, src/fclaw2d_global.c:173-180. -/
def packsizeEntry (reg : Registry Obj) (key : Key) (value : Obj) (acc : Nat) : Option Nat :=
  match checkVt (reg key) key with
  | none => none
  | some vt =>
    match packsizeString (some (key ++ [0])) with
    | none => none
    | some n => some (acc + (n + vt.size value))

def packsizeEntries (reg : Registry Obj) : List (Key × Obj) → Nat → Option Nat
  | [], acc => some acc
  | (k, x) :: rest, acc =>
    match packsizeEntry reg k x acc with
    | none => none
    | some acc' => packsizeEntries reg rest acc'

/-- `fclaw2d_global_packsize`, src/fclaw2d_global.c:182-188 (sizes as unbounded numbers). -/
def globalPacksize (reg : Registry Obj) (order : List (Key × PointerMap.Value Obj)) : Option Nat :=
  match packsizeEntries reg (PointerMap.iterate order) 8 with
  | none => none
  | some optionsSize => some (2 * 8 + optionsSize)

/-- Body of the loop in `fclaw2d_global_unpack`, src/fclaw2d_global.c:206-214. A NULL key is
dereferenced by the map lookup: undefined. -/
def unpackEntry (reg : Registry Obj) (m : PointerMap.State Key Obj) :
    Unpacker (PointerMap.State Key Obj) :=
  bindU unpackString fun key =>
    match key with
    | none => fun _ => none
    | some region =>
      match strlen region with
      | none => fun _ => none
      | some n =>
        let name := region.take n
        match checkVt (reg name) name with
        | none => fun _ => none
        | some vt => mapU (fun x => PointerMap.insert m name x (some vt.destroy)) vt.unpack

def unpackEntries (reg : Registry Obj) : Nat → PointerMap.State Key Obj →
    Unpacker (PointerMap.State Key Obj)
  | 0, m => doneU m
  | n + 1, m => bindU (unpackEntry reg m) (unpackEntries reg n)

/-- `fclaw2d_global_unpack`, src/fclaw2d_global.c:190-217. -/
def globalUnpack (reg : Registry Obj) : Unpacker (Glob Obj) :=
  bindU unpackDouble fun t =>
    bindU unpackDouble fun dt =>
      bindU unpackSizeT fun n =>
        mapU (fun m => ⟨t, dt, m⟩) (unpackEntries reg n.toNat PointerMap.new)

end Fclaw.Global

import Verif.Global.Model
import Verif.PointerMap.Spec
import Verif.Packing.Spec
/- Specification vocabulary for property C02. -/
set_option autoImplicit false
namespace Fclaw.Global
open Fclaw.Packing

variable {Obj : Type}

/-- The user's pack/unpack/size functions are lossless on the option structure `x`, up to the
equivalence `same`: packing writes some `size x` bytes from which unpacking recovers an
equivalent structure, whatever follows in the buffer. -/
def Lossless (vt : VTable Obj) (same : Obj → Obj → Prop) (x : Obj) : Prop :=
  ∃ w y, w.length = vt.size x ∧ Writes (vt.pack x) w ∧ Reads vt.unpack w y ∧ same x y

/-- Equal up to `same` as optional pointers. -/
def SameOpt (same : Obj → Obj → Prop) : Option Obj → Option Obj → Prop
  | none, none => True
  | some x, some y => same x y
  | _, _ => False

/-- The destructor calls which release the given (key, structure) pairs: each structure by the
`destroy` function registered for its key. -/
def releases (reg : Registry Obj) (es : List (Key × Obj)) : List (PointerMap.Call Obj) :=
  es.filterMap fun e => (reg e.1).map fun vt => ⟨vt.destroy, e.2⟩

/-- A key usable by the packing code: a C string (no interior NUL) of at most 981 characters. -/
def GoodKey (k : Key) : Prop := (0 : UInt8) ∉ k ∧ k.length ≤ 981

end Fclaw.Global

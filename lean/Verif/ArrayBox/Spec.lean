/-
What C43 claims: containers behave as values.
-/
import Verif.ArrayBox.Model

set_option autoImplicit false
namespace Fclaw.ArrayBox

variable {V : Type}

/-- A container as a value: its box, number of fields and elements. -/
structure Val (V : Type) where
  box : Box
  fields : Int
  cells : Cells V

/-- Containers and buffers, without memory. -/
structure Pure (V : Type) where
  vals : Nat → Option (Val V)
  bufs : Nat → Cells V

def Pure.init (bufs : Nat → Cells V) : Pure V := ⟨fun _ => none, bufs⟩

def Pure.put (s : Pure V) (i : Nat) (v : Option (Val V)) : Pure V := { s with vals := fun k => if k = i then v else s.vals k }

def Pure.val (s : Pure V) (i : Nat) : Res (Val V) :=
  match s.vals i with
  | some v => .ok v
  | none => .error .undefined

/-- Elements after a change of size: nothing is known of them unless the size is the same; in debug mode all
are nan. -/
def resize (dbg : Option V) (c : Cells V) (n : Nat) : Cells V :=
  match dbg with
  | some v => List.replicate n (some v)
  | none => if c.length = n then c else List.replicate n none

/-- What operations do to values. Copy construction is left out (see the counterexample). The only errors are
to use a container that does not exist or construct it twice, to access an element that does not exist, a
buffer that is too small, a box that is too large for `int`, and a negative size. -/
def Pure.exec (dbg : Option V) (s : Pure V) : Op V → Res (Pure V)
  | .construct i => if (s.vals i).isSome then .error .undefined else .ok (s.put i (some ⟨⟨[], []⟩, 0, []⟩))
  | .destroy i => do
    let _ ← s.val i
    .ok (s.put i none)
  | .copyConstruct _ _ => .error .undefined
  | .define i b fields => do
    let v ← s.val i
    let n ← boxSize b
    if n < 0 then .error .exit
    else do
      let n ← int32 (n * fields)
      if n < 0 then .error .exit
      else .ok (s.put i (some ⟨b, fields, resize dbg v.cells n.toNat⟩))
  | .assign i j => do
    let v ← s.val i
    let w ← s.val j
    .ok (s.put i (some (if i = j then { w with cells := resize dbg w.cells w.cells.length } else w)))
  | .toMemory i b => do
    let v ← s.val i
    if (s.bufs b).length < v.cells.length then .error .undefined
    else .ok { s with bufs := fun k => if k = b then v.cells ++ (s.bufs b).drop v.cells.length else s.bufs k }
  | .fromMemory i b => do
    let v ← s.val i
    if (s.bufs b).length < v.cells.length then .error .undefined
    else .ok (s.put i (some { v with cells := (s.bufs b).take v.cells.length }))
  | .setTo i x => do
    let v ← s.val i
    .ok (s.put i (some { v with cells := List.replicate v.cells.length (some x) }))
  | .write i k x => do
    let v ← s.val i
    if k < v.cells.length then .ok (s.put i (some { v with cells := v.cells.set k (some x) }))
    else .error .undefined

def Pure.run (dbg : Option V) (s : Pure V) (ops : List (Op V)) : Res (Pure V) := ops.foldlM (Pure.exec dbg) s

/-- What a program can see of a container. -/
def view (s : State V) (i : Nat) : Option (Res (Val V)) :=
  (s.objs i).map fun o => do
    let c ← s.heap.load o.data o.size
    .ok ⟨o.box, o.fields, c⟩

/-- Allocated memory. -/
def Allocated (s : State V) (n : Nat) : Prop := (s.heap.blocks n).isSome

def isCopy : Op V → Bool
  | .copyConstruct _ _ => true
  | _ => false

/-- Operations that can change container `k`. -/
def touches (k : Nat) : Op V → Bool
  | .construct i => decide (i = k)
  | .destroy i => decide (i = k)
  | .copyConstruct i _ => decide (i = k)
  | .define i _ _ => decide (i = k)
  | .assign i _ => decide (i = k)
  | .toMemory _ _ => false
  | .fromMemory i _ => decide (i = k)
  | .setTo i _ => decide (i = k)
  | .write i _ _ => decide (i = k)

end Fclaw.ArrayBox

/-
Model of the containers for grid data: src/fclaw2d_farraybox.cpp and .hpp, with the memory they use.

Blocks of memory have numbers that are never used again; `double`s are any type `V`, and an element is `none`
while it is not initialised. Undefined behaviour and `exit` are distinct outcomes.
Simplifications: `memcpy` of no bytes is allowed whatever the pointers; `new` never fails.
-/
import Mathlib.Algebra.Order.Group.Int

set_option autoImplicit false
namespace Fclaw.ArrayBox

inductive Stop where
  /-- `exit(1)` -/
  | exit
  /-- undefined behaviour -/
  | undefined
  deriving DecidableEq, Repr

abbrev Res (α : Type) := Except Stop α

/-- Pointers; `wild` is one that was never set. -/
inductive Ptr where
  | null
  | at (n : Nat)
  | wild
  deriving DecidableEq, Repr

/-- `Box`, lines 252-282: corners of an index box; the dimension is the number of their entries. -/
structure Box where
  ll : List Int
  ur : List Int
  deriving DecidableEq, Repr

/-- `FArrayBox`. -/
structure Obj where
  data : Ptr
  size : Int
  box : Box
  fields : Int
  deriving DecidableEq, Repr

variable {V : Type}

/-- Values in memory. -/
abbrev Cells (V : Type) := List (Option V)

structure Heap (V : Type) where
  blocks : Nat → Option (Cells V)
  next : Nat

/-- `new double[n]`. -/
def Heap.alloc (h : Heap V) (n : Int) : Heap V × Nat :=
  (⟨fun k => if k = h.next then some (List.replicate n.toNat none) else h.blocks k, h.next + 1⟩, h.next)

/-- `delete [] p`. -/
def Heap.free (h : Heap V) (p : Ptr) : Res (Heap V) :=
  match p with
  | .null => .ok h
  | .at n => if (h.blocks n).isSome then .ok { h with blocks := fun k => if k = n then none else h.blocks k } else .error .undefined
  | .wild => .error .undefined

/-- The memory from `p` on, if there are at least `n` elements. -/
def Heap.see (h : Heap V) (p : Ptr) (n : Nat) : Res (Cells V) :=
  match p with
  | .at b => match h.blocks b with
    | some c => if n ≤ c.length then .ok c else .error .undefined
    | none => .error .undefined
  | _ => .error .undefined

def Heap.set (h : Heap V) (p : Ptr) (c : Cells V) : Heap V :=
  match p with
  | .at b => { h with blocks := fun k => if k = b then some c else h.blocks k }
  | _ => h

/-- `for (i = 0; i < n; i++) p[i] = src[i]`, also `memcpy`. -/
def Heap.store (h : Heap V) (p : Ptr) (n : Int) (src : Cells V) : Res (Heap V) :=
  if n ≤ 0 then .ok h
  else do
    let c ← h.see p n.toNat
    .ok (h.set p (src.take n.toNat ++ c.drop n.toNat))

/-- Reading `n` elements. -/
def Heap.load (h : Heap V) (p : Ptr) (n : Int) : Res (Cells V) :=
  if n ≤ 0 then .ok []
  else do
    let c ← h.see p n.toNat
    .ok (c.take n.toNat)

/-- A result of `int` arithmetic. -/
def int32 (x : Int) : Res Int := if -2147483648 ≤ x ∧ x ≤ 2147483647 then .ok x else .error .undefined

/-- Lines 115-127 of `set_dataPtr`: memory of another size. -/
def reallocate (h : Heap V) (o : Obj) (a : Int) : Res (Heap V × Obj) :=
  if o.size ≠ a then (h.free o.data).bind fun h => .ok ((h.alloc a).1, { o with data := .at (h.alloc a).2 })
  else .ok (h, o)

/-- Lines 134-139: with `FCLAW_DEBUG`, all elements are set to the signaling nan `dbg`. -/
def fillDebug (dbg : Option V) (h : Heap V) (p : Ptr) (a : Int) : Res (Heap V) :=
  match dbg with
  | none => .ok h
  | some v => h.store p a (List.replicate a.toNat (some v))

/-- `FArrayBox::set_dataPtr`, lines 98-140. -/
def setDataPtr (dbg : Option V) (h : Heap V) (o : Obj) (a : Int) : Res (Heap V × Obj) :=
  if a < 0 then .error .exit
  else if a = 0 then (h.free o.data).bind fun h => .ok (h, { o with data := .null })
  else (reallocate h o a).bind fun (h, o) => (fillDebug dbg h o.data a).bind fun h => .ok (h, o)

/-- The product at the beginning of `FArrayBox::define`. -/
def boxSize (b : Box) : Res Int :=
  (b.ll.zip b.ur).foldlM (fun s (l, u) => do int32 (s * (← int32 (u - l + 1)))) 1

/-- `FArrayBox::define`, lines 142-164. -/
def defineBox (dbg : Option V) (h : Heap V) (o : Obj) (b : Box) (fields : Int) : Res (Heap V × Obj) := do
  let s ← boxSize b
  if s < 0 then .error .exit
  else
    let n ← int32 (s * fields)
    let (h, o) ← setDataPtr dbg h o n
    .ok (h, { o with size := n, fields := fields, box := b })

/-- The default constructor, lines 74-80. -/
def fresh : Obj := ⟨.null, 0, ⟨[], []⟩, 0⟩

/-- All containers of a program, memory, and buffers to pack into. -/
structure State (V : Type) where
  heap : Heap V
  objs : Nat → Option Obj
  bufs : Nat → Cells V

inductive Op (V : Type) where
  | construct (i : Nat)
  | destroy (i : Nat)
  | copyConstruct (i j : Nat)
  | define (i : Nat) (b : Box) (fields : Int)
  | assign (i j : Nat)
  | toMemory (i b : Nat)
  | fromMemory (i b : Nat)
  | setTo (i : Nat) (v : V)
  /-- `dataPtr()[k] = v` -/
  | write (i k : Nat) (v : V)

def State.put (s : State V) (h : Heap V) (i : Nat) (o : Option Obj) : State V :=
  { s with heap := h, objs := fun k => if k = i then o else s.objs k }

/-- A container must exist to be used. -/
def State.obj (s : State V) (i : Nat) : Res Obj :=
  match s.objs i with
  | some o => .ok o
  | none => .error .undefined

/-- … and not exist to be constructed. -/
def State.vacant (s : State V) (i : Nat) : Res Unit := if (s.objs i).isSome then .error .undefined else .ok ()

def exec (dbg : Option V) (s : State V) : Op V → Res (State V)
  | .construct i => do
    s.vacant i
    .ok (s.put s.heap i (some fresh))
  /- `~FArrayBox`, lines 82-89 -/
  | .destroy i => do
    let o ← s.obj i
    let h ← s.heap.free o.data
    .ok (s.put h i none)
  /- `FArrayBox(const FArrayBox& A)`, lines 91-98; `m_data` has not been set before -/
  | .copyConstruct i j => do
    s.vacant i
    let a ← s.obj j
    let (h, o) ← setDataPtr dbg s.heap ⟨.wild, a.size, a.box, a.fields⟩ a.size
    .ok (s.put h i (some o))
  | .define i b fields => do
    let o ← s.obj i
    let (h, o) ← defineBox dbg s.heap o b fields
    .ok (s.put h i (some o))
  /- `operator=`, lines 218-233 -/
  | .assign i j => do
    let o ← s.obj i
    let f ← s.obj j
    let (h, o) ← setDataPtr dbg s.heap o f.size
    let s := s.put h i (some { o with box := f.box, size := f.size, fields := f.fields })
    let o ← s.obj i
    let f ← s.obj j
    let c ← s.heap.load f.data f.size
    let h ← s.heap.store o.data f.size c
    .ok { s with heap := h }
  /- `copyToMemory`, lines 166-175 -/
  | .toMemory i b => do
    let o ← s.obj i
    let c ← s.heap.load o.data o.size
    if (s.bufs b).length < o.size then .error .undefined
    else .ok { s with bufs := fun k => if k = b then c ++ (s.bufs b).drop c.length else s.bufs k }
  /- `copyFromMemory`, lines 177-186 -/
  | .fromMemory i b => do
    let o ← s.obj i
    if (s.bufs b).length < o.size then .error .undefined
    else do
      let h ← s.heap.store o.data o.size (s.bufs b)
      .ok { s with heap := h }
  /- `set_to_value`, lines 188-195; `set_to_nan` and `set_to_big_number` are the same with a fixed value -/
  | .setTo i v => do
    let o ← s.obj i
    let h ← s.heap.store o.data o.size (List.replicate o.size.toNat (some v))
    .ok { s with heap := h }
  | .write i k v => do
    let o ← s.obj i
    let c ← s.heap.see o.data (k + 1)
    .ok { s with heap := s.heap.set o.data (c.set k (some v)) }

def run (dbg : Option V) (s : State V) (ops : List (Op V)) : Res (State V) := ops.foldlM (exec dbg) s

/-- Before anything is constructed; buffers of any lengths. -/
def State.init (bufs : Nat → Cells V) : State V := ⟨⟨fun _ => none, 0⟩, fun _ => none, bufs⟩

/-! ### Users -/

/-- The box in `clawpatch_define`, src/patches/clawpatch/fclaw2d_clawpatch.cpp:305-317. -/
def patchBox (mx my mbc : Int) : Box := ⟨[1 - mbc, 1 - mbc], [mx + mbc, my + mbc]⟩

/-- `clawpatch_partition_packsize`, lines 1266-1282, in doubles. -/
def partitionPacksize (mx my mbc meqn : Int) : Int := meqn * (2 * mbc + mx) * (2 * mbc + my)

end Fclaw.ArrayBox

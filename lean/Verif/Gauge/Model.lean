/-
Model of the gauges, src/fclaw_gauges.c, with the default functions of the solver that stores and prints samples,
src/solvers/fc2d_geoclaw/fc2d_geoclaw_gauges_default.c.

Times and positions are rational numbers. The number of gauges does not matter for sampling, since gauges do not
interact; one gauge is modelled, on any number of processes. Placement is modelled for all gauges together.
-/
import Verif.Brick.Model

set_option autoImplicit false
namespace Fclaw.Gauge

inductive Err where
  /-- a failed assertion -/
  | assertion
  /-- writing behind the buffer -/
  | overflow
  /-- printing an entry that was not set, or was freed -/
  | unset
  /-- `sc_array_index_int` with an index that is not in the array: a failed assertion, or memory corruption -/
  | index
  deriving DecidableEq, Repr

abbrev Res (A : Type) := Except Err A

/-! ### Sampling -/

/-- The constant fields of a gauge, `fclaw_gauge_t`, src/fclaw_gauges.h, and the option `gauge_buffer_length`. -/
structure Cfg where
  t1 : ℚ
  t2 : ℚ
  minIncrement : ℚ
  bufferLen : Nat

/-- The other fields, as one process has them. Entries of the buffer that were not set, or were freed, are `none`. -/
structure G (S : Type) where
  isLocal : Bool
  lastTime : ℚ
  buffer : Nat → Option S
  next : Nat

variable {S : Type}

/-- `gauge_initialize`, src/fclaw_gauges.c:108-116. `is_local` is not set; it has some value `junk`. -/
def initGauge (c : Cfg) (junk : Bool) : G S := { isLocal := junk, lastTime := c.t1, buffer := fun _ => none, next := 0 }

/-- The entries 0, …, kmax-1 of the buffer. -/
def collect (buffer : Nat → Option S) : Nat → Res (List S)
  | 0 => .ok []
  | k + 1 =>
    match collect buffer k with
    | .error e => .error e
    | .ok l =>
      match buffer k with
      | none => .error .unset
      | some s => .ok (l ++ [s])

/-- `geoclaw_print_gauges_default`, fc2d_geoclaw_gauges_default.c:275-310: entries are appended to the file of
the gauge and freed. `next_buffer_location` is left alone. -/
def printBuffer (g : G S) (file : List S) : Res (G S × List S) :=
  match collect g.buffer g.next with
  | .error e => .error e
  | .ok l => .ok ({ g with buffer := fun k => if k < g.next then none else g.buffer k }, file ++ l)

/-- `fclaw_gauge_set_buffer_entry`, src/fclaw_gauges.c:517-523. -/
def setEntry (c : Cfg) (g : G S) (s : S) : Res (G S) :=
  if g.next < c.bufferLen then .ok { g with buffer := fun k => if k = g.next then some s else g.buffer k }
  else .error .overflow

/-- `gauge_update`, lines 219-274, on one process, for the current time `t`; `s` is the sample this process
would take (`geoclaw_gauge_update_default`, lines 230-273 of the solver, stores it in the buffer). -/
def updateLocal (c : Cfg) (t : ℚ) (s : S) (g : G S) (file : List S) : Res (G S × List S) :=
  if t ≥ c.t1 ∧ t ≤ c.t2 ∧ t - g.lastTime ≥ c.minIncrement then
    let g := { g with lastTime := t }
    if g.isLocal then
      match setEntry c g s with
      | .error e => .error e
      | .ok g =>
        let g := { g with next := g.next + 1 }
        if g.next = c.bufferLen then
          match printBuffer g file with
          | .error e => .error e
          | .ok (g, file) => .ok ({ g with next := 0 }, file)
        else .ok (g, file)
    else if g.next = 0 then .ok (g, file)
    else .error .assertion
  else .ok (g, file)

/-- `fclaw_locate_gauges`, lines 277-323, on one process, after the search, which gave `patchno`. -/
def locateLocal (patchno : Int) (g : G S) (file : List S) : Res (G S × List S) :=
  let g := { g with isLocal := decide (patchno ≥ 0) }
  if g.isLocal = false ∧ g.next > 0 then
    match printBuffer g file with
    | .error e => .error e
    | .ok (g, file) => .ok ({ g with next := 0 }, file)
  else .ok (g, file)

/-- `gauge_finalize`, lines 325-365, on one process. -/
def finalizeLocal (g : G S) (file : List S) : Res (G S × List S) :=
  if g.isLocal then printBuffer g file else .ok (g, file)

/-- All processes, and the file of the gauge. -/
structure World (S : Type) where
  procs : Nat → G S
  file : List S

/-- All processes, in some order, do something with their gauge and the file. -/
def sweep (act : Nat → G S → List S → Res (G S × List S)) : List Nat → World S → Res (World S)
  | [], w => .ok w
  | r :: rs, w =>
    match act r (w.procs r) w.file with
    | .error e => .error e
    | .ok (g, f) => sweep act rs { procs := fun k => if k = r then g else w.procs k, file := f }

/-- What all processes do together. -/
inductive Op (V : Type) where
  /-- after regridding, line 327 of src/fclaw2d_regrid.c: the search gives each process a patch number -/
  | locate (patchno : Nat → Int)
  /-- `fclaw2d_diagnostics_gather` at time `t`, when the solution under the gauge is `v r` on process `r` -/
  | update (t : ℚ) (v : Nat → V)

/-- One operation; a sample consists of the time and the value. The processes get to the operation in any order, but all
have done it before the next one begins (they meet in collective communication in between). -/
def step {V : Type} (c : Cfg) (op : Op V) (order : List Nat) (w : World (ℚ × V)) : Res (World (ℚ × V)) :=
  match op with
  | .locate patchno => sweep (fun r => locateLocal (patchno r)) order w
  | .update t v => sweep (fun r => updateLocal c t (t, v r)) order w

/-- A whole run: the operations, each with the order of the processes, and finalisation. -/
def run {V : Type} (c : Cfg) : List (Op V × List Nat) → List Nat → World (ℚ × V) → Res (World (ℚ × V))
  | [], last, w => sweep (fun _ => finalizeLocal) last w
  | (op, order) :: ops, last, w =>
    match step c op order w with
    | .error e => .error e
    | .ok w => run c ops last w

/-- The state reached by a list of operations, before finalisation. -/
def steps {V : Type} (c : Cfg) : List (Op V × List Nat) → World (ℚ × V) → Res (World (ℚ × V))
  | [], w => .ok w
  | (op, order) :: ops, w =>
    match step c op order w with
    | .error e => .error e
    | .ok w => steps c ops w

/-! ### Placement -/

/-- The rectangle of block `nb`, lines 156-184: lower left and upper right corner; `brick` is the brick of the
mapping if it is one. -/
def rect (brick : Option Brick.Ll) (nb : Nat) : (ℚ × ℚ) × (ℚ × ℚ) :=
  match brick with
  | some bv =>
    let ll := Brick.c2m bv nb 0 0
    let ur := Brick.c2m bv nb 1 1
    ((ll.1, ll.2.1), (ur.1, ur.2.1))
  | none => ((0, 0), (1, 1))

/-- The test in line 192. -/
def inBlock (brick : Option Brick.Ll) (nb : Nat) (p : ℚ × ℚ) : Bool :=
  let r := rect brick nb
  decide (r.1.1 ≤ p.1) && decide (p.1 ≤ r.2.1) && decide (r.1.2 ≤ p.2) && decide (p.2 ≤ r.2.2)

/-- What the loops change: `number_of_gauges_set`, the arrays `coordinates` and `block_offsets` (without its first entry,
which is 0), and `blockno` and `location_in_results` of each gauge. -/
structure Pl where
  ng : Nat
  coords : Nat → ℚ × ℚ
  offsets : List Nat
  blockno : Nat → Int
  location : Nat → Int

/-- Before the loops, lines 108-116 and 151. -/
def Pl.init : Pl := { ng := 0, coords := fun _ => (0, 0), offsets := [], blockno := fun _ => -1, location := fun _ => -1 }

/-- Lines 195-209. -/
def write (mi mj : Nat) (brick : Option Brick.Ll) (pos : Nat → ℚ × ℚ) (nb i : Nat) (s : Pl) : Pl :=
  let ll := (rect brick nb).1
  { s with
    ng := s.ng + 1
    coords := fun k => if k = s.ng then (mi * ((pos i).1 - ll.1), mj * ((pos i).2 - ll.2)) else s.coords k
    blockno := fun k => if k = i then (nb : Int) else s.blockno k
    location := fun k => if k = i then (s.ng : Int) else s.location k }

/-- The loop over gauges for block `nb`, lines 185-211, up to gauge `k`. `num` is the number of gauges and the length of
the array of coordinates; `pos` are the normalised positions. -/
def placeGauges (num mi mj : Nat) (brick : Option Brick.Ll) (pos : Nat → ℚ × ℚ) (nb : Nat) : Nat → Pl → Res Pl
  | 0, s => .ok s
  | k + 1, s =>
    match placeGauges num mi mj brick pos nb k s with
    | .error e => .error e
    | .ok s =>
      if inBlock brick nb (pos k) then
        if s.ng < num then .ok (write mi mj brick pos nb k s) else .error .index
      else .ok s

/-- The loop over blocks, lines 156-214, up to block `n`. The array `block_offsets` has room for all entries. -/
def placeBlocks (num mi mj : Nat) (brick : Option Brick.Ll) (pos : Nat → ℚ × ℚ) : Nat → Res Pl
  | 0 => .ok Pl.init
  | n + 1 =>
    match placeBlocks num mi mj brick pos n with
    | .error e => .error e
    | .ok s =>
      match placeGauges num mi mj brick pos n num s with
      | .error e => .error e
      | .ok s => .ok { s with offsets := s.offsets ++ [s.ng] }

/-- Reading the result of the search for gauge `i`, `fclaw_locate_gauges`, lines 304-313: the patch number. -/
def lookup (num : Nat) (s : Pl) (results : Nat → Int) (i : Nat) : Res Int :=
  if 0 ≤ s.location i ∧ s.location i < num then .ok (results (s.location i).toNat) else .error .index

end Fclaw.Gauge

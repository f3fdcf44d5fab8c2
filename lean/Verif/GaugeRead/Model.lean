import Verif.OptArray.Model
import Mathlib.Data.Rat.Floor
/-
Model of how a GeoClaw program reads the file `gauges.data`:

* src/solvers/fc2d_geoclaw/fc2d_geoclaw_gauges_default.c: `geoclaw_read_gauges_data_default` (56-167)
* src/fclaw_gauges.c: `fclaw_gauge_set_data`

Simplifications: numbers are rational numbers without rounding. The file exists and its text has no NUL character. `strtod` is the model
in `OptArray`. Conversion of a number that is outside of the range of `int`, a negative number of gauges and use of a buffer
without content are the outcome `undefined`; `exit` is an outcome of its own. The file is not read in parts by others meanwhile.
-/
set_option autoImplicit false
namespace Fclaw.GaugeRead

open OptArray

/-- What a call leads to. -/
inductive Outcome (α : Type) where
  | ok (a : α)
  | exit
  | undefined

def Outcome.bind {α β : Type} : Outcome α → (α → Outcome β) → Outcome β
  | .ok a, f => f a
  | .exit, _ => .exit
  | .undefined, _ => .undefined

/-- The characters that the C function `fgets` stores if there is room for `n` of them before the NUL character, and what remains in the file: it
stops after the end of a line. -/
def fgets : ℕ → List Char → List Char × List Char
  | 0, f => ([], f)
  | _ + 1, [] => ([], [])
  | n + 1, c :: f => if c = '\n' then ([c], f) else (c :: (fgets n f).1, (fgets n f).2)

/-- `max_line_len` (line 78) -/
def maxLineLen : ℕ := 200

/-- The buffer `line` (`none`: without content yet) and the rest of the file. -/
structure Input where
  line : Option (List Char)
  rest : List Char

/-- `fgets(line, max_line_len, f_gauges_data)`. At the end of the file the buffer does not change. -/
def Input.next (s : Input) : Input :=
  if s.rest = [] then s else ⟨some (fgets (maxLineLen - 1) s.rest).1, (fgets (maxLineLen - 1) s.rest).2⟩

/-- Lines 89-99 -/
def header : ℕ → Input → Outcome Input
  | 0, s => .ok s
  | n + 1, s =>
    match s.next.line with
    | none => .undefined
    | some l => if l.head? = some '#' then header n s.next else .exit

/-- A loop that only skips lines (lines 136-139) -/
def skip : ℕ → Input → Input
  | 0, s => s
  | n + 1, s => skip n s.next

/-- The conversion of a `double` to an `int`: the fraction is dropped. -/
def toInt (q : ℚ) : Outcome ℤ :=
  if -2 ^ 31 - 1 < q ∧ q < 2 ^ 31 then .ok (if 0 ≤ q then ⌊q⌋ else ⌈q⌉) else .undefined

/-- The content of the buffer is used. -/
def Input.use (s : Input) : Outcome (List Char) :=
  match s.line with
  | none => .undefined
  | some l => .ok l

/-- `num[i]`, `xc[i]`, `yc[i]`, `t1[i]`, `t2[i]` -/
structure Info where
  num : ℤ
  xc : ℚ
  yc : ℚ
  t1 : ℚ
  t2 : ℚ

/-- Lines 126-131, from the text of a line. -/
def info (line : List Char) : Outcome Info :=
  let a := strtod line
  let x := strtod a.2
  let y := strtod x.2
  let t1 := strtod y.2
  let t2 := strtod t1.2
  (toInt a.1).bind fun k => .ok ⟨k, x.1, y.1, t1.1, t2.1⟩

/-- Lines 123-132 -/
def infos : ℕ → Input → Outcome (List Info × Input)
  | 0, s => .ok ([], s)
  | n + 1, s =>
    s.next.use.bind fun l => (info l).bind fun g => (infos n s.next).bind fun r => .ok (g :: r.1, r.2)

/-- Lines 143-147: the increments from a line; each `strtod` goes on where the one before has stopped. -/
def increments : ℕ → List Char → List ℚ
  | 0, _ => []
  | n + 1, s => (strtod s).1 :: increments n (strtod s).2

/-- What `fclaw_gauge_set_data` stores. -/
structure Gauge where
  num : ℤ
  xc : ℚ
  yc : ℚ
  t1 : ℚ
  t2 : ℚ
  minTimeIncrement : ℚ

/-- Lines 149-154 -/
def setData (g : Info) (dt : ℚ) : Gauge := ⟨g.num, g.xc, g.yc, g.t1, g.t2, dt⟩

/-- Lines 101-154: after the header. -/
def afterHeader (s : Input) : Outcome (List Gauge) :=
  let s := s.next
  let s := s.next
  s.use.bind fun l => (toInt (strtod l).1).bind fun n =>
  if n = 0 then .ok []
  else if n < 0 then .undefined
  else (infos n.toNat s).bind fun r =>
    let s := (skip 8 r.2).next
    s.use.bind fun l => .ok (r.1.zipWith setData (increments n.toNat l))

/-- `geoclaw_read_gauges_data_default`: the gauges, from the text of the file. -/
def readGauges (text : List Char) : Outcome (List Gauge) := (header 5 ⟨none, text⟩).bind afterHeader

end Fclaw.GaugeRead

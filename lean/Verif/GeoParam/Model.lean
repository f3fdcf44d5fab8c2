/-
Model of reading geoclaw.data: `set_geo`, src/solvers/fc2d_geoclaw/geolib_source/geoclaw_module.f90:56-160 (below:
"geoclaw.f90"), first call.

What is simplified. The file is what is left behind its comments and the blank line (see `Verif.DataFile.Model`), as a list
of lines, and a line as a list of tokens: the separation of a line into tokens and the conversion of digits are not
modelled. Reals are rational numbers. `none`: an error of input, `stop`, or an access outside of an array. What is written
to the parameter file is not modelled, nor is `earth_radius` checked.
-/
import Mathlib.Data.Rat.Defs

set_option autoImplicit false

namespace Fclaw.GeoParam

/-- What can stand in a line: real numbers, integers, logical values, the mark `=:` and words. -/
inductive Tok where
  | real (x : ℚ)
  | int (n : ℤ)
  | flag (b : Bool)
  | mark
  | word
deriving DecidableEq

/-- The lines that are left. -/
abbrev File := List (List Tok)

/-- List-directed input of `k` items, e.g. geoclaw.f90:88: it goes on in the next line until there are enough of them; what is
left of the last line is skipped. Without items one line is skipped. -/
def readK : Nat → File → Option (List Tok × File)
  | _, [] => none
  | k, l :: rest =>
    if k ≤ l.length then some (l.take k, rest)
    else (readK (k - l.length) rest).map fun (ts, r) => (l ++ ts, r)

/-- An item that is read into a real variable, e.g. geoclaw.f90:88. -/
def asReal : Tok → Option ℚ
  | .real x => some x
  | .int n => some n
  | _ => none

/-- An item that is read into an integer variable, geoclaw.f90:95. -/
def asInt : Tok → Option ℤ
  | .int n => some n
  | _ => none

/-- An item that is read into a logical variable, geoclaw.f90:98. -/
def asFlag : Tok → Option Bool
  | .flag b => some b
  | _ => none

/-- Input of one item with a conversion, e.g. geoclaw.f90:88. -/
def read1 {α : Type} (conv : Tok → Option α) (f : File) : Option (α × File) :=
  match readK 1 f with
  | some ([t], r) => (conv t).map fun x => (x, r)
  | _ => none

/-- Input of `k` reals, geoclaw.f90:110-111. -/
def reals (k : Nat) (f : File) : Option (List ℚ × File) :=
  (readK k f).bind fun (ts, r) => (ts.mapM asReal).map fun xs => (xs, r)

/-- `get_value_count`, geoclaw.f90:90: the number of items in front of the mark, but at least 1 (see C118); 1 without a mark. -/
def countValues (l : List Tok) : Nat :=
  if Tok.mark ∈ l then max 1 (l.takeWhile fun t => decide (t ≠ Tok.mark)).length else 1

/-- geoclaw.f90:89-91: a line, and the reals in it. -/
def realLine : File → Option (List ℚ × File)
  | [] => none
  | l :: rest => (reals (countValues l) [l]).map fun (xs, _) => (xs, rest)

/-- The variables that `set_geo` sets, geoclaw.f90:88-117. -/
structure Params where
  grav : ℚ
  rho : List ℚ
  rhoAir : ℚ
  pressure : ℚ
  radius : ℚ
  system : ℤ
  seaLevel : ℚ
  coriolis : Bool
  theta0 : ℚ
  friction : Bool
  manning : List ℚ
  breaks : List ℚ
  depth : ℚ
  dry : ℚ
deriving DecidableEq

/-- geoclaw.f90:104-115: friction, coefficients, breaks and depth. With no coefficients, `manning_break(num_manning)` lies outside
of the array. The last break is `rinfinity`, so is the depth without friction. -/
def readFriction (inf : ℚ) (f : File) : Option ((Bool × List ℚ × List ℚ × ℚ) × File) :=
  (read1 asFlag f).bind fun (on, f) =>
  if on then
    (read1 asInt f).bind fun (n, f) =>
    if n < 1 then none
    else
      (reals n.toNat f).bind fun (m, f) =>
      (reals (n.toNat - 1) f).bind fun (b, f) =>
      (read1 asReal f).map fun (d, f) => ((true, m, b ++ [inf], d), f)
  else some ((false, [], [], inf), f)

/-- geoclaw.f90:98-103: the Coriolis force, and the latitude in Cartesian coordinates. -/
def readCoriolis (system : ℤ) (f : File) : Option ((Bool × ℚ) × File) :=
  (read1 asFlag f).bind fun (c, f) =>
  if system = 1 ∧ c = true then (read1 asReal f).map fun (t, f) => ((c, t), f)
  else some ((c, 0), f)

/-- `set_geo`, geoclaw.f90:56-160. -/
def setGeo (inf : ℚ) (mcapa : ℤ) (f : File) : Option Params :=
  (read1 asReal f).bind fun (grav, f) =>
  (realLine f).bind fun (rho, f) =>
  (read1 asReal f).bind fun (rhoAir, f) =>
  (read1 asReal f).bind fun (pressure, f) =>
  (read1 asReal f).bind fun (radius, f) =>
  (read1 asInt f).bind fun (system, f) =>
  (read1 asReal f).bind fun (seaLevel, f) =>
  (readK 0 f).bind fun (_, f) =>
  (readCoriolis system f).bind fun (cor, f) =>
  (readFriction inf f).bind fun (fr, f) =>
  (readK 0 f).bind fun (_, f) =>
  (read1 asReal f).bind fun (dry, _) =>
  if system > 1 ∧ mcapa = 0 then none
  else if system = 1 ∧ mcapa > 0 then none
  else some { grav := grav, rho := rho, rhoAir := rhoAir, pressure := pressure, radius := radius, system := system,
              seaLevel := seaLevel, coriolis := cor.1, theta0 := cor.2, friction := fr.1, manning := fr.2.1,
              breaks := fr.2.2.1, depth := fr.2.2.2, dry := dry }

end Fclaw.GeoParam

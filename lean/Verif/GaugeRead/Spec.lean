import Verif.GaugeRead.Model
import Verif.OptArray.Spec
/-
The format of `gauges.data`.
-/
set_option autoImplicit false
namespace Fclaw.GaugeRead

open OptArray

/-- The lines of a text, each with its end. -/
def lines (ls : List (List Char)) : List Char := ls.flatMap fun l => l ++ ['\n']

/-- The line begins with the number; after white space there can be anything, such as a comment. -/
def Begins (l : List Char) (v : ℚ) : Prop :=
  ∃ w s r : List Char, l = w ++ s ++ r ∧ Blank w ∧ Numeral s v ∧ (r = [] ∨ ∃ c r', r = c :: r' ∧ isSpace c = true)

/-- The line of a gauge. -/
def Describes (l : List Char) (g : Gauge) : Prop := Lists Numeral l [(g.num : ℚ), g.xc, g.yc, g.t1, g.t2]

/-- A line that has its end in the first `maxLineLen - 1` characters. -/
def Short (l : List Char) : Prop := '\n' ∉ l ∧ l.length + 1 < 200

/-- The part of the file before the line with the increments: five lines of comment, a line, the number of gauges, a line for each gauge, and eight other
lines. -/
structure Before (text : List Char) (gs : List Gauge) : Prop where
  ex : ∃ (head : List (List Char)) (blank count : List Char) (descr others : List (List Char)),
    text = lines (head ++ [blank, count] ++ descr ++ others) ∧
    (head.length = 5 ∧ ∀ l ∈ head, l.head? = some '#') ∧ Begins count gs.length ∧ List.Forall₂ Describes descr gs ∧
    others.length = 8 ∧ ∀ l ∈ head ++ [blank, count] ++ descr ++ others, Short l

/-- Numbers that an `int` can have. -/
def InRange (gs : List Gauge) : Prop := (gs.length : ℤ) < 2 ^ 31 ∧ ∀ g ∈ gs, -2 ^ 31 ≤ g.num ∧ g.num < 2 ^ 31

end Fclaw.GaugeRead

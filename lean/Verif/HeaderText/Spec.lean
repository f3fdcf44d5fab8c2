import Verif.HeaderText.Model
/-
What is written in a line.
-/
set_option autoImplicit false
namespace Fclaw.HeaderText

/-- The pieces of a line between its blanks. -/
def pieces : Str → List Str
  | [] => [[]]
  | c :: s => if c = ' ' then [] :: pieces s else match pieces s with
    | [] => [[c]]
    | w :: ws => (c :: w) :: ws

/-- The words of a line: the pieces that are not empty. -/
def words (s : Str) : List Str := (pieces s).filter fun w => w ≠ []

/-- The numbers of a line: what can be read from its words. -/
def numbers (num : Str → Option ℝ) (s : Str) : List ℝ := (words s).filterMap fun w => num (assign 80 w)

/-- A word of the line contains `x`, in upper or lower case. -/
def Mentions (s x : Str) : Prop := ∃ w ∈ words s, x <:+: w.map Char.toLower

/-- A line that fits, with less than ten words. -/
def Fits (s : Str) : Prop := s.length ≤ 80 ∧ (words s).length < 10

end Fclaw.HeaderText

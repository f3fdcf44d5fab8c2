/-
What users and readers of data files expect.
-/
import Verif.DataFile.Model

set_option autoImplicit false

namespace Fclaw.DataFile.Spec

/-- A comment line has `#` in the first column. -/
def isComment (l : Line) : Bool := decide (l.head? = some '#')

/-- The leading comment lines of a file. -/
def comments (f : List Line) : List Line := f.takeWhile isComment

/-- The data: what follows on the leading comment lines. -/
def data (f : List Line) : List Line := f.dropWhile isComment

/-- A line that has nothing to read. -/
def isBlank (l : Line) : Bool := l.all fun c => decide (c = ' ')

/-- The lines that have something to read. -/
def content (f : List Line) : List Line := f.filter fun l => !isBlank l

end Fclaw.DataFile.Spec

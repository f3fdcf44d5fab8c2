import Verif.OptArray.Model
/-
What it means that a text lists numbers.
-/
set_option autoImplicit false
namespace Fclaw.OptArray

/-- A text of white space. -/
def Blank (s : List Char) : Prop := ∀ c ∈ s, isSpace c = true

/-- Digits, and the number that they mean. -/
inductive Digits : List Char → ℕ → Prop
  | one (d : ℕ) : d < 10 → Digits [Char.ofNat ('0'.toNat + d)] d
  | snoc (s : List Char) (v d : ℕ) : d < 10 → Digits s v → Digits (s ++ [Char.ofNat ('0'.toNat + d)]) (10 * v + d)

/-- An integer with an optional sign. -/
inductive IntNumeral : List Char → ℤ → Prop
  | plain (s : List Char) (v : ℕ) : Digits s v → IntNumeral s v
  | plus (s : List Char) (v : ℕ) : Digits s v → IntNumeral ('+' :: s) v
  | minus (s : List Char) (v : ℕ) : Digits s v → IntNumeral ('-' :: s) (-v)

/-- A decimal number without sign and exponent: an integer, or one with a fraction. -/
inductive Decimal : List Char → ℚ → Prop
  | int (s : List Char) (v : ℕ) : Digits s v → Decimal s v
  | point (s : List Char) (v : ℕ) : Digits s v → Decimal (s ++ ['.']) v
  | frac (s f : List Char) (v w : ℕ) : Digits s v → Digits f w → Decimal (s ++ '.' :: f) (v + (w : ℚ) / 10 ^ f.length)
  | only (f : List Char) (w : ℕ) : Digits f w → Decimal ('.' :: f) ((w : ℚ) / 10 ^ f.length)

/-- With an optional exponent. -/
inductive Scientific : List Char → ℚ → Prop
  | plain (s : List Char) (v : ℚ) : Decimal s v → Scientific s v
  | exp (s e : List Char) (v : ℚ) (k : ℤ) (c : Char) : c = 'e' ∨ c = 'E' → Decimal s v → IntNumeral e k →
      Scientific (s ++ c :: e) (v * (10 : ℚ) ^ k)

/-- With an optional sign. -/
inductive Numeral : List Char → ℚ → Prop
  | plain (s : List Char) (v : ℚ) : Scientific s v → Numeral s v
  | plus (s : List Char) (v : ℚ) : Scientific s v → Numeral ('+' :: s) v
  | minus (s : List Char) (v : ℚ) : Scientific s v → Numeral ('-' :: s) (-v)

/-- The text lists the numbers: numerals with white space between them, and possibly before and after. -/
inductive Lists {α : Type} (Num : List Char → α → Prop) : List Char → List α → Prop
  | nil (w : List Char) : Blank w → Lists Num w []
  | cons (w s r : List Char) (v : α) (vs : List α) : Blank w → Num s v → (r = [] ∨ ∃ c r', r = c :: r' ∧ isSpace c = true) →
      Lists Num r vs → Lists Num (w ++ s ++ r) (v :: vs)

end Fclaw.OptArray

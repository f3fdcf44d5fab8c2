/-
Reading back what was printed.
-/
import Verif.Tikz.Edges
import Verif.Ascii.Numbers

set_option autoImplicit false
set_option linter.unusedSimpArgs false

namespace Fclaw.Tikz

open Fclaw.ParFile (Distribution Outcome)
open Fclaw.Output
open Fclaw.Ascii (digits digit readDigits)

theorem skip_append (p s : Text) : skip p (p ++ s) = some s := by
  induction p with
  | nil => cases s <;> rfl
  | cons c cs ih => simp [skip, ih]

theorem digits_digit (n : Nat) : ∀ c ∈ digits n, isDigit c = true := by
  have : ∀ f n, ∀ c ∈ Ascii.digitsAux f n, isDigit c = true := by
    intro f
    induction f with
    | zero => intro n c hc; simp [Ascii.digitsAux] at hc
    | succ f ih =>
      intro n c hc
      simp only [Ascii.digitsAux, List.mem_append, List.mem_singleton] at hc
      rcases hc with hc | hc
      · split at hc
        · simp at hc
        · exact ih _ _ hc
      · rw [hc]
        unfold isDigit
        rw [Ascii.digit_ofNat _ (by omega)]
        rfl
  exact this _ _

theorem span_digits (n : Nat) (c : Char) (s : Text) (hc : isDigit c = false) :
    (digits n ++ c :: s).takeWhile isDigit = digits n ∧
    (digits n ++ c :: s).dropWhile isDigit = c :: s := by
  have hd := digits_digit n
  generalize digits n = l at hd
  induction l with
  | nil => simp [hc]
  | cons a l ih =>
    obtain ⟨h1, h2⟩ := ih fun c hc => hd c (List.mem_cons_of_mem _ hc)
    have := hd a List.mem_cons_self
    simp [List.takeWhile_cons, List.dropWhile_cons, this, h1, h2]

theorem readNumber_digits (n : Nat) (c : Char) (s : Text) (hc : isDigit c = false) :
    readNumber (digits n ++ c :: s) = some (n, c :: s) := by
  obtain ⟨h1, h2⟩ := span_digits n c s hc
  unfold readNumber
  rw [h1, h2]
  have h3 := Ascii.readDigits_digits n
  obtain ⟨d, ds, h⟩ := List.exists_cons_of_ne_nil (Ascii.digits_ne_nil n)
  rw [h] at h3 ⊢
  simp [h3]

theorem dec_nat (n : Nat) : dec (n : Int) = digits n := by
  unfold dec
  rw [if_neg (by omega)]
  simp

theorem bind_step {α β : Type} {x : Option α} {a : α} {f : α → Option β} (h : x = some a) :
    (x >>= f) = f a := by rw [h]; rfl

/-- Reading a number followed by a text that begins with something else. -/
theorem readNumber_text (n : Nat) (p s : Text) (hp : p ≠ []) (hd : isDigit (p.head hp) = false) :
    readNumber (digits n ++ (p ++ s)) = some (n, p ++ s) := by
  cases p with
  | nil => exact absurd rfl hp
  | cons c cs => exact readNumber_digits n c (cs ++ s) hd

theorem patchText_eq (level g r x0 y0 x1 y1 : Nat) (s : Text) :
    patchText level g r x0 y0 x1 y1 ++ s =
      "    \\ifthenelse{\\level = ".toList ++ (digits level ++
      ("}\n    {\n        % Patch number ".toList ++ (digits g ++
      ("; rank = ".toList ++ (digits r ++
      ("\n        \\draw [ultra thin] (".toList ++ (digits x0 ++
      (",".toList ++ (digits y0 ++ (") rectangle (".toList ++ (digits x1 ++
      (",".toList ++ (digits y1 ++ (");\n    }{}\n\n".toList ++ s)))))))))))))) := by
  have a1 : "    \\ifthenelse{\\level = ".toList = indent ++ "\\ifthenelse{\\level = ".toList := by
    decide
  have a2 : "}\n    {\n        % Patch number ".toList = "}\n".toList ++ indent ++ "{\n".toList ++
      indent ++ indent ++ "% Patch number ".toList := by decide
  have a3 : "\n        \\draw [ultra thin] (".toList = "\n".toList ++ indent ++ indent ++
      "\\draw [ultra thin] (".toList := by decide
  have a4 : ");\n    }{}\n\n".toList = ");\n".toList ++ indent ++ "}{}\n\n".toList := by decide
  rw [a1, a2, a3, a4]
  unfold patchText
  simp only [dec_nat, List.append_assoc]

theorem readEntry_text (level g r x0 y0 x1 y1 : Nat) (s : Text) :
    readEntry (patchText level g r x0 y0 x1 y1 ++ s)
      = some (⟨level, g, r, ⟨x0, y0, x1, y1⟩⟩, s) := by
  rw [patchText_eq]
  unfold readEntry
  rw [bind_step (skip_append _ _)]
  rw [bind_step (readNumber_text _ _ _ (by decide) (by decide))]
  dsimp only
  rw [bind_step (skip_append _ _)]
  rw [bind_step (readNumber_text _ _ _ (by decide) (by decide))]
  dsimp only
  rw [bind_step (skip_append _ _)]
  rw [bind_step (readNumber_text _ _ _ (by decide) (by decide))]
  dsimp only
  rw [bind_step (skip_append _ _)]
  rw [bind_step (readNumber_text _ _ _ (by decide) (by decide))]
  dsimp only
  rw [bind_step (skip_append _ _)]
  rw [bind_step (readNumber_text _ _ _ (by decide) (by decide))]
  dsimp only
  rw [bind_step (skip_append _ _)]
  rw [bind_step (readNumber_text _ _ _ (by decide) (by decide))]
  dsimp only
  rw [bind_step (skip_append _ _)]
  rw [bind_step (readNumber_text _ _ _ (by decide) (by decide))]
  dsimp only
  rw [bind_step (skip_append _ _)]
  rfl

/-- The text of a list of entries. -/
def entryText (e : Entry) : Text :=
  patchText e.level e.number e.rank e.rect.x0 e.rect.y0 e.rect.x1 e.rect.y1

theorem entryText_ne (e : Entry) : entryText e ≠ [] := by
  unfold entryText patchText
  simp

theorem readEntriesAux_text (es : List Entry) : ∀ f, es.length ≤ f →
    readEntriesAux f (es.flatMap entryText) = some es := by
  induction es with
  | nil => intro f _; cases f <;> rfl
  | cons e es ih =>
    intro f hf
    rw [List.length_cons] at hf
    obtain ⟨f, rfl⟩ : ∃ f', f = f' + 1 := ⟨f - 1, by omega⟩
    rw [List.flatMap_cons]
    obtain ⟨c, cs, h⟩ := List.exists_cons_of_ne_nil (entryText_ne e)
    have h1 := readEntry_text e.level e.number e.rank e.rect.x0 e.rect.y0 e.rect.x1 e.rect.y1
      (es.flatMap entryText)
    rw [show patchText e.level e.number e.rank e.rect.x0 e.rect.y0 e.rect.x1 e.rect.y1
      = entryText e from rfl] at h1
    rw [h, List.cons_append] at h1 ⊢
    simp only [readEntriesAux]
    rw [h1]
    simp only [Option.bind_some]
    rw [ih f (by omega)]
    rfl

theorem readEntries_text (es : List Entry) : readEntries (es.flatMap entryText) = some es := by
  apply readEntriesAux_text
  rw [List.length_flatMap]
  induction es with
  | nil => simp
  | cons e es ih =>
    rw [List.map_cons, List.sum_cons, List.length_cons]
    have := List.length_pos_iff.2 (entryText_ne e)
    omega

end Fclaw.Tikz

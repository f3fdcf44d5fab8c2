/-
Numbers in decimal digits.
-/
import Verif.Ascii.Spec
import Mathlib.Data.List.Basic
import Mathlib.Tactic.IntervalCases

set_option autoImplicit false
set_option linter.unusedSimpArgs false

namespace Fclaw.Ascii

theorem digit_ofNat (d : Nat) (h : d < 10) : digit (Char.ofNat (48 + d)) = some d := by
  interval_cases d <;> decide

theorem ofNat_ne_blank (d : Nat) (h : d < 10) : Char.ofNat (48 + d) ≠ ' ' := by
  interval_cases d <;> decide

theorem readDigits_append (l : List Char) (c : Char) : ∀ acc,
    readDigits acc (l ++ [c])
      = (readDigits acc l).bind fun a => (digit c).map fun d => 10 * a + d := by
  induction l with
  | nil =>
    intro acc
    simp only [List.nil_append, readDigits, Option.bind_some]
    cases digit c <;> rfl
  | cons x xs ih =>
    intro acc
    simp only [List.cons_append, readDigits]
    cases digit x with
    | none => rfl
    | some d => simp only [Option.bind_some, ih]

theorem readDigits_aux : ∀ f n, n < f → readDigits 0 (digitsAux f n) = some n := by
  intro f
  induction f with
  | zero => intro n h; omega
  | succ f ih =>
    intro n h
    simp only [digitsAux]
    rw [readDigits_append, digit_ofNat _ (Nat.mod_lt _ (by omega))]
    by_cases h10 : n < 10
    · rw [if_pos h10]
      simp only [readDigits, Option.bind_some, Option.map_some]
      congr 1
      omega
    · rw [if_neg h10, ih (n / 10) (by omega)]
      simp only [Option.bind_some, Option.map_some]
      congr 1
      omega

theorem readDigits_digits (n : Nat) : readDigits 0 (digits n) = some n :=
  readDigits_aux _ _ (by omega)

theorem digitsAux_le : ∀ f n k, n < 10 ^ (k + 1) → (digitsAux f n).length ≤ k + 1 := by
  intro f
  induction f with
  | zero => intro n k _; simp [digitsAux]
  | succ f ih =>
    intro n k h
    simp only [digitsAux, List.length_append, List.length_cons, List.length_nil]
    by_cases h10 : n < 10
    · rw [if_pos h10]; simp
    · rw [if_neg h10]
      cases k with
      | zero => simp at h; omega
      | succ k =>
        have := ih (n / 10) k (by
          rw [Nat.pow_succ] at h
          omega)
        omega

theorem digitsAux_ge : ∀ f n k, n < f → 10 ^ k ≤ n → k + 1 ≤ (digitsAux f n).length := by
  intro f
  induction f with
  | zero => intro n k h _; omega
  | succ f ih =>
    intro n k h hk
    simp only [digitsAux, List.length_append, List.length_cons, List.length_nil]
    cases k with
    | zero => omega
    | succ k =>
      have h1 : 0 < 10 ^ k := Nat.pow_pos (by omega)
      have h2 : 10 ^ k * 10 ≤ n := by rw [← Nat.pow_succ]; exact hk
      rw [if_neg (by omega)]
      have := ih (n / 10) k (by omega) (by omega)
      omega

theorem digits_le {n k : Nat} (h : n < 10 ^ (k + 1)) : (digits n).length ≤ k + 1 :=
  digitsAux_le _ _ _ h

theorem digits_ge {n k : Nat} (h : 10 ^ k ≤ n) : k + 1 ≤ (digits n).length :=
  digitsAux_ge _ _ _ (by omega) h

theorem digits_not_blank (n : Nat) : ∀ c ∈ digits n, c ≠ ' ' := by
  have : ∀ f n, ∀ c ∈ digitsAux f n, c ≠ ' ' := by
    intro f
    induction f with
    | zero => intro n c hc; simp [digitsAux] at hc
    | succ f ih =>
      intro n c hc
      simp only [digitsAux, List.mem_append, List.mem_cons, List.not_mem_nil, or_false] at hc
      rcases hc with hc | hc
      · by_cases h10 : n < 10
        · rw [if_pos h10] at hc; simp at hc
        · rw [if_neg h10] at hc; exact ih _ c hc
      · rw [hc]; exact ofNat_ne_blank _ (Nat.mod_lt _ (by omega))
  exact this _ _

theorem digits_ne_nil (n : Nat) : digits n ≠ [] := by simp [digits, digitsAux]

theorem dropWhile_blanks (k : Nat) (l : List Char) :
    (List.replicate k ' ' ++ l).dropWhile (fun c => decide (c = ' '))
      = l.dropWhile fun c => decide (c = ' ') := by
  induction k with
  | zero => simp
  | succ k ih => simp only [List.replicate_succ, List.cons_append, List.dropWhile_cons]; simpa using ih

theorem readNat_blanks (k n : Nat) : readNat (List.replicate k ' ' ++ digits n) = some n := by
  unfold readNat
  rw [dropWhile_blanks]
  obtain ⟨c, cs, h⟩ := List.exists_cons_of_ne_nil (digits_ne_nil n)
  have hc : c ≠ ' ' := digits_not_blank n c (by rw [h]; simp)
  have e : (digits n).dropWhile (fun c => decide (c = ' ')) = c :: cs := by
    rw [h, List.dropWhile_cons]; simp [hc]
  rw [e]
  change readDigits 0 (c :: cs) = some n
  rw [← h, readDigits_digits]

theorem i5_length (n : Nat) : (i5 n).length = 5 := by
  unfold i5
  split
  · simp; omega
  · simp

theorem readNat_i5 {n : Nat} (h : n < 100000) : readNat (i5 n) = some n := by
  unfold i5
  rw [if_pos (digits_le (k := 4) (by omega)), readNat_blanks]

theorem readNat_stars {n : Nat} (h : 100000 ≤ n) : readNat (i5 n) = none := by
  have := digits_ge (n := n) (k := 5) (by omega)
  unfold i5
  rw [if_neg (by omega)]
  decide

theorem d4_length {n : Nat} (h : n < 10000) : (d4 n).length = 4 := by
  have := digits_le (n := n) (k := 3) (by omega)
  simp [d4]; omega

theorem readDigits_zeros (k : Nat) (l : List Char) :
    readDigits 0 (List.replicate k '0' ++ l) = readDigits 0 l := by
  induction k with
  | zero => simp
  | succ k ih =>
    simp only [List.replicate_succ, List.cons_append, readDigits]
    rw [show digit '0' = some 0 by decide]
    simpa using ih

theorem d4_inj {n m : Nat} (h : d4 n = d4 m) : n = m := by
  have h1 : readDigits 0 (d4 n) = some n := by rw [d4, readDigits_zeros, readDigits_digits]
  have h2 : readDigits 0 (d4 m) = some m := by rw [d4, readDigits_zeros, readDigits_digits]
  rw [h, h2] at h1
  simpa using h1.symm

/-! ### Lines with a label -/

theorem readInt_line {n : Nat} (h : n < 100000) (label : String) (rest : List Line) :
    readInt label ((i5 n ++ gap17 ++ label.toList) :: rest) = some (n, rest) := by
  have e1 : (i5 n ++ gap17 ++ label.toList).drop 5 = gap17 ++ label.toList := by
    rw [List.append_assoc, List.drop_left' (i5_length n)]
  have e2 : (i5 n ++ gap17 ++ label.toList).take 5 = i5 n := by
    rw [List.append_assoc, List.take_left' (i5_length n)]
  simp only [readInt]
  rw [if_pos e1, e2, readNat_i5 h]
  rfl

theorem readInt_stars {n : Nat} (h : 100000 ≤ n) (label : String) (rest : List Line) :
    readInt label ((i5 n ++ gap17 ++ label.toList) :: rest) = none := by
  have e1 : (i5 n ++ gap17 ++ label.toList).drop 5 = gap17 ++ label.toList := by
    rw [List.append_assoc, List.drop_left' (i5_length n)]
  have e2 : (i5 n ++ gap17 ++ label.toList).take 5 = i5 n := by
    rw [List.append_assoc, List.take_left' (i5_length n)]
  simp only [readInt]
  rw [if_pos e1, e2, readNat_stars h]
  rfl

theorem readReal_line {w : Nat} {t : List Char} (h : t.length = w) (label : String)
    (rest : List Line) :
    readReal w label ((t ++ gap4 ++ label.toList) :: rest) = some (t, rest) := by
  have e1 : (t ++ gap4 ++ label.toList).drop w = gap4 ++ label.toList := by
    rw [List.append_assoc, List.drop_left' h]
  have e2 : (t ++ gap4 ++ label.toList).take w = t := by
    rw [List.append_assoc, List.take_left' h]
  simp only [readReal]
  rw [if_pos e1, e2]

/-- A line with a label is not blank. -/
theorem label_nonblank (a : List Char) (label : String)
    (h : label.toList.any (fun c => decide (c ≠ ' ')) = true) :
    ((a ++ label.toList).any fun c => decide (c ≠ ' ')) = true := by
  rw [List.any_append, h, Bool.or_true]

theorem nonblank_cons_of {l : Line} {ls : List Line}
    (h : (l.any fun c => decide (c ≠ ' ')) = true) : nonblank (l :: ls) = l :: nonblank ls := by
  unfold nonblank
  rw [List.filter_cons]
  exact if_pos h

theorem nonblank_cons_blank {l : Line} {ls : List Line}
    (h : (l.any fun c => decide (c ≠ ' ')) = false) : nonblank (l :: ls) = nonblank ls := by
  unfold nonblank
  rw [List.filter_cons]
  exact if_neg (by rw [h]; decide)

theorem nonblank_append (a b : List Line) : nonblank (a ++ b) = nonblank a ++ nonblank b := by
  simp [nonblank]

end Fclaw.Ascii

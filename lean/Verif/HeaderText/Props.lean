import Verif.HeaderText.Lower
import Mathlib.Tactic.NormNum
import Mathlib.Data.Int.Notation
/-
C111: the header of a file with topography.
-/
set_option autoImplicit false
set_option linter.unusedSimpArgs false
namespace Fclaw.HeaderText

theorem parse_assign (num : Str → Option ℝ) (l : Str) (h : l.length ≤ 80) :
    parseValues num (assign 80 l) = if (words l).length < 10 then .val (numbers num l) else .stops := by
  rw [parseValues, tokens_line _ (assign_length 80 l).le, words_assign _ _ h]
  split
  · simp [Res.bind, numbers, List.filterMap_map]
  · rfl

/-- **C111.** Of a line with at most 80 characters and less than ten words, all numbers are found, in the order in which they are written; with more
words the run stops. -/
theorem C111_values_partial (num : Str → Option ℝ) (l : Str) (h : l.length ≤ 80) :
    parseValues num l = if (words l).length < 10 then .val (numbers num l) else .stops := by
  rw [parseValues, tokens_line l h]
  split
  · simp [Res.bind, numbers, List.filterMap_map]
  · rfl

/-- A line with several blanks between its words. -/
example : ∃ l : Str, l.length ≤ 80 ∧ words l = ["10".toList, "ncols".toList] := ⟨"  10   ncols ".toList, by decide +kernel, by decide +kernel⟩

/-- **C111.** A value may be written before or behind its name, with any blanks around them. -/
theorem C111_order (num : Str → Option ℝ) (name text a b c : Str) (v : ℝ) (ha : ∀ x ∈ a, x = ' ') (hb : ∀ x ∈ b, x = ' ')
    (hc : ∀ x ∈ c, x = ' ') (n0 : name ≠ []) (t0 : text ≠ []) (n1 : ' ' ∉ name) (t1 : ' ' ∉ text)
    (hn : num (assign 80 name) = none) (ht : num (assign 80 text) = some v) :
    numbers num (a ++ (name ++ ' ' :: (b ++ (text ++ c)))) = [v] ∧ numbers num (a ++ (text ++ ' ' :: (b ++ (name ++ c)))) = [v] ∧
    numbers num (a ++ (text ++ c)) = [v] := by
  refine ⟨?_, ?_, ?_⟩
  · rw [numbers, words_lead _ _ ha, words_append _ n0 n1, words_lead _ _ hb, words_pad _ _ hc, words_single _ t0 t1]
    simp [hn, ht]
  · rw [numbers, words_lead _ _ ha, words_append _ t0 t1, words_lead _ _ hb, words_pad _ _ hc, words_single _ n0 n1]
    simp [hn, ht]
  · rw [numbers, words_lead _ _ ha, words_pad _ _ hc, words_single _ t0 t1]
    simp [ht]

example : ∃ (num : Str → Option ℝ) (name text : Str), name ≠ [] ∧ text ≠ [] ∧ ' ' ∉ name ∧ ' ' ∉ text ∧
    num (assign 80 name) = none ∧ num (assign 80 text) = some 10 :=
  ⟨fun w => if w = assign 80 "10".toList then some 10 else none, "ncols".toList, "10".toList, by decide +kernel, by decide +kernel,
    by decide +kernel, by decide +kernel, if_neg (by decide +kernel), if_pos rfl⟩

theorem nint_int (n : ℤ) : nint (n : ℝ) = n := by
  unfold nint
  have h : ∀ m : ℤ, ⌊(m : ℝ) + 1 / 2⌋ = m := by
    intro m
    rw [Int.floor_eq_iff]
    constructor <;> linarith
  split
  · exact h n
  · rw [← Int.cast_neg, h, neg_neg]

/-- **C111.** The header is that of the six lines: sizes, lower left corner, size of the cells (one number for both directions, or two) and the value
for missing data. The corner is that of the first cell instead of its centre if the line has a word with `xllcorner` (`yllcorner`) in upper or lower case. -/
theorem C111_head_partial (num : Str → Option ℝ) (l1 l2 l3 l4 l5 l6 : Str) (rest : List Str) (f1 : Fits l1) (f2 : Fits l2) (f3 : Fits l3)
    (f4 : Fits l4) (f5 : Fits l5) (f6 : Fits l6) (mx my : ℤ) (xll yll dx nodata : ℝ) (dy : Option ℝ)
    (h1 : numbers num l1 = [(mx : ℝ)]) (h2 : numbers num l2 = [(my : ℝ)]) (h3 : numbers num l3 = [xll]) (h4 : numbers num l4 = [yll])
    (h5 : numbers num l5 = dx :: dy.toList) (h6 : numbers num l6 = [nodata]) :
    ∃ h : TopoRead.Head, head num (l1 :: l2 :: l3 :: l4 :: l5 :: l6 :: rest) = .val h ∧ h.mx = mx ∧ h.my = my ∧ h.xll = xll ∧ h.yll = yll ∧
      (h.xcorner = true ↔ Mentions l3 "xllcorner".toList) ∧ (h.ycorner = true ↔ Mentions l4 "yllcorner".toList) ∧
      h.cellsize = dx ∧ h.cellsize2 = dy ∧ h.noData = nodata := by
  refine ⟨⟨mx, my, xll, yll, decide (index (toLower (assign 80 l3)) "xllcorner".toList > 0),
    decide (index (toLower (assign 80 l4)) "yllcorner".toList > 0), dx, dy, nodata⟩, ?_, rfl, rfl, rfl, rfl, ?_, ?_, rfl, rfl, rfl⟩
  · rw [head, parse_assign num l1 f1.1, parse_assign num l2 f2.1, parse_assign num l3 f3.1, parse_assign num l4 f4.1, parse_assign num l5 f5.1,
      parse_assign num l6 f6.1, if_pos f1.2, if_pos f2.2, if_pos f3.2, if_pos f4.2, if_pos f5.2, if_pos f6.2, h1, h2, h3, h4, h5, h6]
    have e : value2 (dx :: dy.toList) = dy := by cases dy <;> rfl
    simp only [Res.bind, value1, nint_int, e]
  · rw [decide_eq_true_iff]
    exact mentions l3 _ (by decide +kernel) (by decide +kernel) f3.1
  · rw [decide_eq_true_iff]
    exact mentions l4 _ (by decide +kernel) (by decide +kernel) f4.1

/-- A header with the word `XLLCORNER`. -/
example : ∃ (num : Str → Option ℝ) (l1 l3 l5 : Str), Fits l1 ∧ Fits l3 ∧ Fits l5 ∧ numbers num l1 = [((10 : ℤ) : ℝ)] ∧ numbers num l3 = [10] ∧
    Mentions l3 "xllcorner".toList ∧ numbers num l5 = 10 :: (some (10 : ℝ)).toList := by
  refine ⟨fun w => if w = assign 80 "10".toList then some 10 else none, "ncols 10".toList, "10 XLLCORNER".toList, "10 10 cellsize".toList,
    ⟨by decide +kernel, by decide +kernel⟩, ⟨by decide +kernel, by decide +kernel⟩, ⟨by decide +kernel, by decide +kernel⟩, ?_, ?_, ?_, ?_⟩
  · have e : words "ncols 10".toList = ["ncols".toList, "10".toList] := by decide +kernel
    have e1 : ¬ assign 80 "ncols".toList = assign 80 "10".toList := by decide +kernel
    rw [numbers, e]
    simp only [List.filterMap_cons, List.filterMap_nil, if_neg e1, if_true]
    norm_num
  · have e : words "10 XLLCORNER".toList = ["10".toList, "XLLCORNER".toList] := by decide +kernel
    have e1 : ¬ assign 80 "XLLCORNER".toList = assign 80 "10".toList := by decide +kernel
    rw [numbers, e]
    simp only [List.filterMap_cons, List.filterMap_nil, if_neg e1, if_true]
  · exact ⟨"XLLCORNER".toList, by decide +kernel, by decide +kernel⟩
  · have e : words "10 10 cellsize".toList = ["10".toList, "10".toList, "cellsize".toList] := by decide +kernel
    have e1 : ¬ assign 80 "cellsize".toList = assign 80 "10".toList := by decide +kernel
    rw [numbers, e]
    simp only [List.filterMap_cons, List.filterMap_nil, if_neg e1, if_true]
    rfl

/-- **C111 is violated** for tabs: a name and its value with a tab between them are one word, and if this is no number, then the number of columns
is used without having been set. -/
theorem C111_tab_counterexample (num : Str → Option ℝ) (h : num (assign 80 "ncols\t10".toList) = none) (l2 l3 l4 l5 l6 : Str) :
    head num ["ncols\t10".toList, l2, l3, l4, l5, l6] = .unset := by
  have e : words "ncols\t10".toList = ["ncols\t10".toList] := by decide +kernel
  rw [head, parse_assign num _ (by decide +kernel), e, if_pos (by decide), numbers, e]
  have e3 : List.filterMap (fun w => num (assign 80 w)) ["ncols\t10".toList] = [] := by
    rw [List.filterMap_cons, h, List.filterMap_nil]
  rw [e3]
  rfl

example : ∃ num : Str → Option ℝ, num (assign 80 "ncols\t10".toList) = none ∧ num (assign 80 "10".toList) = some 10 :=
  ⟨fun w => if w = assign 80 "10".toList then some 10 else none, if_neg (by decide +kernel), if_pos rfl⟩

/-- **C111 is violated** for ten words: the run stops, although there is room for them. -/
theorem C111_ten_counterexample (num : Str → Option ℝ) : parseValues num "1 2 3 4 5 6 7 8 9 10".toList = .stops := by
  rw [C111_values_partial num _ (by decide +kernel), if_neg (by decide +kernel)]

/-- **C111 is violated** for long lines: a number behind the first 80 characters is not found. -/
theorem C111_long_counterexample (num : Str → Option ℝ) (l2 l3 l4 l5 l6 : Str) :
    words (List.replicate 80 ' ' ++ "10".toList) = ["10".toList] ∧
    head num [List.replicate 80 ' ' ++ "10".toList, l2, l3, l4, l5, l6] = .unset := by
  constructor
  · decide +kernel
  · have e : assign 80 (List.replicate 80 ' ' ++ "10".toList) = List.replicate 80 ' ' := by decide +kernel
    have e2 : words (List.replicate 80 ' ') = [] := by decide +kernel
    rw [head, e, C111_values_partial num _ (by decide +kernel), e2, if_pos (by decide), numbers, e2]
    rfl

end Fclaw.HeaderText

import Verif.OptArray.Lemmas
import Mathlib.Tactic.NormNum
/-
C96: options with several numbers.
-/
set_option autoImplicit false
namespace Fclaw.OptArray

theorem getD_past {β : Type} (l : List β) (d : β) (i : ℕ) (h : l.length ≤ i) : l.getD i d = d := by
  simp [List.getD_eq_getElem?_getD, List.getElem?_eq_none h]

/-- **C96.** A text that lists integers, each in the range of `int`, gives an array of the length asked for (zero if negative) with
these integers in order; elements that are not listed are zero, and integers for which there is no element are
ignored. -/
theorem C96_ints (s : List Char) (vs : List ℤ) (n : ℤ) (h : Lists IntNumeral s vs)
    (hr : ∀ v ∈ vs, -2 ^ 31 ≤ v ∧ v ≤ 2 ^ 31 - 1) :
    (convertInts (some s) n).length = (max n 0).toNat ∧
    ∀ i : ℕ, (i : ℤ) < n → (convertInts (some s) n)[i]? = some (vs.getD i 0) := by
  have cast : ∀ v : ℤ, -2 ^ 31 ≤ v → v ≤ 2 ^ 31 - 1 → toInt32 (clampLong v) = v := by
    intro v h1 h2
    unfold toInt32 clampLong
    rw [if_neg (by omega), if_neg (by omega)]
    omega
  have e : convertInts (some s) n = (vs.map fun v => toInt32 (clampLong v)).take (max n 0).toNat ++
      List.replicate ((max n 0).toNat - vs.length) 0 := by
    unfold convertInts
    refine loop_lists IntNumeral (fun v => toInt32 (clampLong v)) 0 _ ?_ ?_ s vs h _
    · intro w hw
      rw [strtol_blank w hw]; rfl
    · intro w s r v hw hs hr
      rw [strtol_numeral w s r v hw hs (over_stops (ends_over hr))]
  have m : (vs.map fun v => toInt32 (clampLong v)) = vs := by
    conv_rhs => rw [← List.map_id vs]
    exact List.map_congr_left fun v hv => cast v (hr v hv).1 (hr v hv).2
  rw [m] at e
  rw [e]
  refine ⟨by simp; omega, ?_⟩
  intro i hi
  by_cases hl : i < vs.length
  · rw [List.getElem?_append_left (by simp; omega), List.getElem?_take_of_lt (by omega), List.getD_eq_getElem?_getD,
      List.getElem?_eq_getElem hl]
    rfl
  · rw [List.getElem?_append_right (by simp; omega), List.getElem?_replicate_of_lt (by simp; omega), getD_past vs 0 i (by omega)]

/-- **C96.** The same for numbers with fraction and exponent: each is rounded on its own. -/
theorem C96_doubles {α : Type} (zero : α) (rnd : ℚ → α) (h0 : rnd 0 = zero) (s : List Char) (vs : List ℚ) (n : ℤ)
    (h : Lists Numeral s vs) :
    (convertDoubles zero rnd (some s) n).length = (max n 0).toNat ∧
    ∀ i : ℕ, (i : ℤ) < n → (convertDoubles zero rnd (some s) n)[i]? = some (rnd (vs.getD i 0)) := by
  have e : convertDoubles zero rnd (some s) n = (vs.map rnd).take (max n 0).toNat ++
      List.replicate ((max n 0).toNat - vs.length) zero := by
    unfold convertDoubles
    refine loop_lists Numeral rnd zero _ ?_ ?_ s vs h _
    · intro w hw
      rw [strtod_blank w hw, h0]
    · intro w s r v hw hs hr
      rw [strtod_numeral w s r v hw hs hr]
  rw [e]
  refine ⟨by simp; omega, ?_⟩
  intro i hi
  by_cases hl : i < vs.length
  · rw [List.getElem?_append_left (by simp; omega), List.getElem?_take_of_lt (by omega), List.getD_eq_getElem?_getD,
      List.getElem?_map, List.getElem?_eq_getElem hl]
    rfl
  · rw [List.getElem?_append_right (by simp; omega), List.getElem?_replicate_of_lt (by simp; omega), getD_past vs 0 i (by omega),
      h0]

/-- **C96.** Without a text all elements are zero. -/
theorem C96_null {α : Type} (zero : α) (rnd : ℚ → α) (n : ℤ) :
    convertInts none n = List.replicate (max n 0).toNat 0 ∧ convertDoubles zero rnd none n = List.replicate (max n 0).toNat zero :=
  ⟨loop_none _ _ _, loop_none _ _ _⟩

/-- **C96 (counterexample).** Text that is no list of numbers is not reported: with commas, all numbers but the first are
lost without notice, as if they had not been written. -/
theorem C96_comma_counterexample :
    convertInts (some "1,2,3".toList) 3 = [1, 0, 0] ∧ convertInts (some "1".toList) 3 = [1, 0, 0] ∧
    convertDoubles 0 id (some "0.5,2".toList) 2 = [1 / 2, 0] := by
  decide +kernel

/-- **C96 (counterexample).** A number outside of the range of `int` becomes another one without notice. -/
theorem C96_range_counterexample :
    convertInts (some "4294967297 2".toList) 2 = [1, 2] := by
  decide +kernel

/-! ## The hypotheses can be met -/

theorem digits_12 : Digits "12".toList 12 := Digits.snoc ['1'] 1 2 (by norm_num) (Digits.one 1 (by norm_num))

theorem digits_3 : Digits "3".toList 3 := Digits.one 3 (by norm_num)

/-- `" 12  -3 "` lists 12 and -3. -/
theorem ints_example : Lists IntNumeral " 12  -3 ".toList [12, -3] :=
  Lists.cons " ".toList "12".toList "  -3 ".toList 12 [-3] (by intro c hc; simp at hc; subst hc; rfl)
    (IntNumeral.plain _ 12 digits_12) (Or.inr ⟨' ', " -3 ".toList, rfl, rfl⟩)
    (Lists.cons "  ".toList "-3".toList " ".toList (-3) [] (by intro c hc; simp at hc; subst hc; rfl)
      (IntNumeral.minus _ 3 digits_3) (Or.inr ⟨' ', [], rfl, rfl⟩) (Lists.nil _ (by intro c hc; simp at hc; subst hc; rfl)))

example : convertInts (some " 12  -3 ".toList) 4 = [12, -3, 0, 0] ∧ convertInts (some " 12  -3 ".toList) 1 = [12] ∧
    convertInts (some " 12  -3 ".toList) (-1) = [] := by
  decide +kernel

example : (convertInts (some " 12  -3 ".toList) 4)[1]? = some (-3) :=
  (C96_ints _ _ 4 ints_example (by intro v hv; simp at hv; rcases hv with rfl | rfl <;> norm_num)).2 1 (by norm_num)

/-- `"3.12e-3 .3"` lists 312/100000 and 3/10. -/
theorem doubles_example : Lists Numeral "3.12e-3 .3".toList [(((3 : ℕ) : ℚ) + ((12 : ℕ) : ℚ) / 10 ^ 2) * (10 : ℚ) ^ (-((3 : ℕ) : ℤ)), ((3 : ℕ) : ℚ) / 10 ^ 1] :=
  Lists.cons [] "3.12e-3".toList " .3".toList _ _ (by intro c hc; simp at hc)
    (Numeral.plain _ _ (Scientific.exp "3.12".toList "-3".toList _ _ 'e' (Or.inl rfl)
      (Decimal.frac "3".toList "12".toList 3 12 digits_3 digits_12) (IntNumeral.minus _ 3 digits_3)))
    (Or.inr ⟨' ', ".3".toList, rfl, rfl⟩)
    (Lists.cons " ".toList ".3".toList [] _ [] (by intro c hc; simp at hc; subst hc; rfl)
      (Numeral.plain _ _ (Scientific.plain _ _ (Decimal.only "3".toList 3 digits_3))) (Or.inl rfl) (Lists.nil _ (by intro c hc; simp at hc)))

example : (convertDoubles 0 id (some "3.12e-3 .3".toList) 3)[0]? = some (312 / 100000 : ℚ) := by
  rw [(C96_doubles 0 id rfl _ _ 3 doubles_example).2 0 (by norm_num)]
  norm_num

end Fclaw.OptArray

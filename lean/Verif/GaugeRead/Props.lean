import Verif.GaugeRead.Lemmas
/-
C108: reading `gauges.data`.
-/
set_option autoImplicit false
namespace Fclaw.GaugeRead

open OptArray

/-- **C108 (partial).** A file with a line for each gauge and then a line with an increment for each gauge gives exactly these gauges,
in this order, whatever numerals, white space and comments are used, and whatever follows. Missing: lines of 200 characters or more. -/
theorem C108_partial (text incs rest : List Char) (gs : List Gauge) (h : Before text gs) (hr : InRange gs) (h0 : gs ≠ [])
    (hi : Lists Numeral incs (gs.map Gauge.minTimeIncrement)) (hs : Short incs) :
    readGauges (text ++ incs ++ '\n' :: rest) = .ok gs := by
  obtain ⟨c, last, e⟩ : ∃ c last, incs ++ '\n' :: rest = c :: last := by
    cases incs with
    | nil => exact ⟨_, _, rfl⟩
    | cons c l => exact ⟨_, _, rfl⟩
  rw [List.append_assoc, e, read_before text gs h hr h0, ← e, fgets_line incs rest 199 hs.1 (by have := hs.2; omega),
    increments_lists _ _ (lists_end _ _ hi)]
  have : (gs.map Gauge.minTimeIncrement).take gs.length ++
      List.replicate (gs.length - (gs.map Gauge.minTimeIncrement).length) 0 = gs.map Gauge.minTimeIncrement := by
    simp
  rw [this, zip_gauges]

/-- **C108.** With the number zero, there are no gauges, whatever follows. -/
theorem C108_none (head : List (List Char)) (blank count rest : List Char) (h5 : head.length = 5) (hh : ∀ l ∈ head, l.head? = some '#')
    (hc : Begins count 0) (hs : ∀ l ∈ head ++ [blank, count], Short l) :
    readGauges (lines (head ++ [blank, count]) ++ rest) = .ok [] := by
  have e : lines (head ++ [blank, count]) ++ rest = lines head ++ (blank ++ '\n' :: (count ++ '\n' :: rest)) := by
    simp [lines]
  obtain ⟨b1, e1⟩ := header_lines head none (blank ++ '\n' :: (count ++ '\n' :: rest)) hh (fun l hl => hs l (by simp [hl]))
  rw [h5] at e1
  have ei : toInt 0 = .ok 0 := by simpa using toInt_int 0 (by norm_num)
  unfold readGauges
  rw [e, e1]
  simp only [Outcome.bind, afterHeader, next_line _ _ _ (hs blank (by simp)), next_line _ _ _ (hs count (by simp)), Input.use,
    strtod_begins _ _ hc, ei, if_true]

/-- **C108.** If one of the first five lines is no comment, the program ends. -/
theorem C108_header (head : List (List Char)) (bad rest : List Char) (h5 : head.length < 5) (hh : ∀ l ∈ head, l.head? = some '#')
    (hb : bad.head? ≠ some '#') (hs : ∀ l ∈ head ++ [bad], Short l) : readGauges (lines (head ++ [bad]) ++ rest) = .exit := by
  have go : ∀ (n : ℕ) (b : Option (List Char)) (head : List (List Char)), head.length < n → (∀ l ∈ head, l.head? = some '#') →
      (∀ l ∈ head, Short l) → header n ⟨b, lines (head ++ [bad]) ++ rest⟩ = .exit := by
    intro n
    induction n with
    | zero => intro b head h; omega
    | succ n ih =>
      intro b head h hh hs'
      cases head with
      | nil =>
        rw [List.nil_append, lines_cons, header, next_line _ _ _ (hs bad (by simp))]
        have e : ¬ (bad ++ ['\n']).head? = some '#' := by
          cases bad with
          | nil => simp
          | cons c l => simpa using hb
        simp only [if_neg e]
      | cons l ls =>
        rw [List.cons_append, lines_cons, header, next_line _ _ _ (hs' l (by simp))]
        have e : (l ++ ['\n']).head? = some '#' := by
          have := hh l (by simp)
          cases l with
          | nil => simp at this
          | cons c l => simpa using this
        simp only [e, if_true]
        exact ih _ ls (by simp at h; omega) (fun x hx => hh x (by simp [hx])) (fun x hx => hs' x (by simp [hx]))
  unfold readGauges
  rw [go 5 none head h5 hh (fun l hl => hs l (by simp [hl]))]
  rfl

/-- **C108.** Of a longer line with increments only the first 199 characters count: gauges whose increments are not among them get zero. -/
theorem C108_cut (text incs cut rest : List Char) (gs : List Gauge) (vs : List ℚ) (h : Before text gs) (hr : InRange gs) (h0 : gs ≠ [])
    (hn : '\n' ∉ incs) (hl : incs.length = 199) (hi : Lists Numeral incs vs) :
    readGauges (text ++ incs ++ cut ++ '\n' :: rest) =
      .ok (gs.mapIdx fun i g => { g with minTimeIncrement := vs.getD i 0 }) := by
  have hf : ∀ (l r : List Char), '\n' ∉ l → (fgets l.length (l ++ r)).1 = l := by
    intro l r
    induction l with
    | nil => intro _; rfl
    | cons c l ih =>
      intro hn
      have hc : ¬ c = '\n' := fun e => hn (by simp [e])
      have hl : '\n' ∉ l := fun e => hn (by simp [e])
      simp only [List.length_cons, List.cons_append, fgets, if_neg hc, ih hl]
  obtain ⟨c, last, e⟩ : ∃ c last, incs ++ (cut ++ '\n' :: rest) = c :: last := by
    cases incs with
    | nil => simp at hl
    | cons c l => exact ⟨_, _, rfl⟩
  have hf' := hf incs (cut ++ '\n' :: rest) hn
  rw [hl] at hf'
  have ea : text ++ incs ++ cut ++ '\n' :: rest = text ++ (incs ++ (cut ++ '\n' :: rest)) := by simp
  rw [ea, e, read_before text gs h hr h0, ← e, hf', increments_lists _ _ hi]
  congr 1
  apply List.ext_getElem?
  intro i
  rw [List.getElem?_zipWith, List.getElem?_mapIdx, List.getElem?_map]
  by_cases hg : i < gs.length
  · rw [List.getElem?_eq_getElem hg]
    have ev : (vs.take gs.length ++ List.replicate (gs.length - vs.length) 0)[i]? = some (vs.getD i 0) := by
      by_cases hv : i < vs.length
      · rw [List.getElem?_append_left (by simp; omega), List.getElem?_take_of_lt hg, List.getD_eq_getElem?_getD,
          List.getElem?_eq_getElem hv]
        rfl
      · rw [List.getElem?_append_right (by simp; omega), List.getElem?_replicate_of_lt (by simp; omega)]
        simp [List.getD_eq_getElem?_getD, List.getElem?_eq_none (Nat.le_of_not_lt hv)]
    rw [ev]
    rfl
  · rw [List.getElem?_eq_none (Nat.le_of_not_lt hg)]
    rfl

/-! A file with two gauges. -/

def exHead : List (List Char) := List.replicate 5 "####".toList
def exCount : List Char := "2  =: ngauges".toList
def exDescr : List (List Char) := ["7 1 2 0 9".toList, "8 3 4 0 9".toList]
def exOthers : List (List Char) := List.replicate 8 "# other".toList
def exText : List Char := lines (exHead ++ [[], exCount] ++ exDescr ++ exOthers)

/-- The gauges, with the increments `a` and `b`. -/
def exGauges (a b : ℚ) : List Gauge := [⟨7, 1, 2, 0, 9, a⟩, ⟨8, 3, 4, 0, 9, b⟩]

theorem digit (d : ℕ) (h : d < 10) : Numeral [Char.ofNat ('0'.toNat + d)] d := Numeral.plain _ _ (Scientific.plain _ _ (Decimal.int _ _ (Digits.one d h)))

theorem lists_one (d : ℕ) (h : d < 10) : Lists Numeral [Char.ofNat ('0'.toNat + d)] [(d : ℚ)] := by
  have := Lists.cons (Num := Numeral) [] [Char.ofNat ('0'.toNat + d)] [] d [] (by intro c hc; simp at hc) (digit d h) (Or.inl rfl)
    (Lists.nil [] (by intro c hc; simp at hc))
  simpa using this

theorem lists_digit (d : ℕ) (h : d < 10) (r : List Char) (vs : List ℚ) (hr : Lists Numeral r vs) :
    Lists Numeral (Char.ofNat ('0'.toNat + d) :: ' ' :: r) ((d : ℚ) :: vs) := by
  have hb : Lists Numeral (' ' :: r) vs := by
    cases hr with
    | nil w hw =>
      refine Lists.nil _ fun c hc => ?_
      rcases List.mem_cons.1 hc with rfl | hc
      · decide
      · exact hw c hc
    | cons w s r v vs hw hs hr hl =>
      have := Lists.cons (Num := Numeral) (' ' :: w) s r v vs ?_ hs hr hl
      · simpa using this
      · intro c hc
        rcases List.mem_cons.1 hc with rfl | hc
        · decide
        · exact hw c hc
  have := Lists.cons (Num := Numeral) [] [Char.ofNat ('0'.toNat + d)] (' ' :: r) d vs (by intro c hc; simp at hc) (digit d h)
    (Or.inr ⟨' ', r, rfl, by decide⟩) hb
  simpa using this

theorem ex_before (a b : ℚ) : Before exText (exGauges a b) := by
  refine ⟨exHead, [], exCount, exDescr, exOthers, rfl, ⟨rfl, ?_⟩, ?_, ?_, rfl, ?_⟩
  · intro l hl
    rw [List.eq_of_mem_replicate hl]
    decide
  · refine ⟨[], ['2'], "  =: ngauges".toList, by decide, by intro c hc; simp at hc, ?_, Or.inr ⟨' ', " =: ngauges".toList, by decide, by decide⟩⟩
    exact digit 2 (by norm_num)
  · refine List.Forall₂.cons ?_ (List.Forall₂.cons ?_ List.Forall₂.nil)
    · have := lists_digit 7 (by norm_num) _ _ (lists_digit 1 (by norm_num) _ _ (lists_digit 2 (by norm_num) _ _
        (lists_digit 0 (by norm_num) _ _ (lists_one 9 (by norm_num)))))
      simpa [Describes, exGauges] using this
    · have := lists_digit 8 (by norm_num) _ _ (lists_digit 3 (by norm_num) _ _ (lists_digit 4 (by norm_num) _ _
        (lists_digit 0 (by norm_num) _ _ (lists_one 9 (by norm_num)))))
      simpa [Describes, exGauges] using this
  · have : ∀ l ∈ exHead ++ [[], exCount] ++ exDescr ++ exOthers, '\n' ∉ l ∧ l.length + 1 < 200 := by decide
    exact this

theorem ex_range (a b : ℚ) : InRange (exGauges a b) := by
  refine ⟨by simp [exGauges], ?_⟩
  intro g hg
  simp [exGauges] at hg
  rcases hg with rfl | rfl <;> norm_num

example : readGauges (exText ++ "5 6".toList ++ '\n' :: "# end".toList) = .ok (exGauges 5 6) := by
  refine C108_partial _ _ _ _ (ex_before _ _) (ex_range _ _) (by simp [exGauges]) ?_ ⟨by decide, by decide⟩
  have := lists_digit 5 (by norm_num) _ _ (lists_one 6 (by norm_num))
  simpa [exGauges] using this

example : readGauges (lines (exHead ++ [[], "0".toList]) ++ "more".toList) = .ok [] := by
  refine C108_none _ _ _ _ rfl ?_ ?_ ?_
  · intro l hl
    rw [List.eq_of_mem_replicate hl]
    decide
  · refine ⟨[], ['0'], [], by decide, by intro c hc; simp at hc, ?_, Or.inl rfl⟩
    exact_mod_cast digit 0 (by norm_num)
  · have : ∀ l ∈ exHead ++ [[], "0".toList], '\n' ∉ l ∧ l.length + 1 < 200 := by decide
    exact this

example : readGauges (lines (["#".toList] ++ ["2 gauges".toList]) ++ []) = .exit :=
  C108_header _ _ _ (by decide) (by decide) (by decide) (by unfold Short; decide)

/-- An increment, and white space behind it. -/
def exWide (n : ℕ) : List Char := '5' :: List.replicate n ' '

theorem wide_lists (n : ℕ) : Lists Numeral (exWide (n + 1)) [5] := by
  have := Lists.cons (Num := Numeral) [] ['5'] (List.replicate (n + 1) ' ') 5 [] (by intro c hc; simp at hc) (digit 5 (by norm_num))
    (Or.inr ⟨' ', List.replicate n ' ', rfl, by decide⟩)
    (Lists.nil _ (by intro c hc; rw [List.eq_of_mem_replicate hc]; decide))
  exact this

theorem wide_both (n : ℕ) : Lists Numeral (exWide (n + 1) ++ ['6']) [5, 6] := by
  have h6 : Lists Numeral (List.replicate (n + 1) ' ' ++ ['6']) [6] := by
    have := Lists.cons (Num := Numeral) (List.replicate (n + 1) ' ') ['6'] [] 6 []
      (by intro c hc; rw [List.eq_of_mem_replicate hc]; decide) (digit 6 (by norm_num)) (Or.inl rfl)
      (Lists.nil [] (by intro c hc; simp at hc))
    rwa [List.append_nil] at this
  have := Lists.cons (Num := Numeral) [] ['5'] (List.replicate (n + 1) ' ' ++ ['6']) 5 [6] (by intro c hc; simp at hc)
    (digit 5 (by norm_num)) (Or.inr ⟨' ', List.replicate n ' ' ++ ['6'], rfl, by decide⟩) h6
  exact this

theorem wide_end (n : ℕ) : '\n' ∉ exWide n := by
  intro h
  rcases List.mem_cons.1 h with h | h
  · exact absurd h (by decide)
  · exact absurd (List.eq_of_mem_replicate h) (by decide)

theorem wide_length (n : ℕ) : (exWide n).length = n + 1 := by simp [exWide]

/-- **C108 (counterexample).** A file with all the numbers, in lines that are fine but for the length of the one with the increments, gives
other gauges: the second one has lost its increment. -/
theorem C108_long_counterexample :
    ∃ (text incs rest : List Char) (gs : List Gauge), Before text gs ∧ InRange gs ∧ gs ≠ [] ∧ '\n' ∉ incs ∧
      Lists Numeral incs (gs.map Gauge.minTimeIncrement) ∧ readGauges (text ++ incs ++ '\n' :: rest) ≠ .ok gs := by
  refine ⟨exText, exWide 198 ++ ['6'], [], exGauges 5 6, ex_before _ _, ex_range _ _, by simp [exGauges], ?_, wide_both 197, ?_⟩
  · intro h
    rcases List.mem_append.1 h with h | h
    · exact wide_end _ h
    · exact absurd h (by decide)
  · have := C108_cut exText (exWide 198) ['6'] [] (exGauges 5 6) [5] (ex_before _ _) (ex_range _ _) (by simp [exGauges])
      (wide_end _) (wide_length _) (wide_lists 197)
    rw [← List.append_assoc, this]
    simp [exGauges]

end Fclaw.GaugeRead

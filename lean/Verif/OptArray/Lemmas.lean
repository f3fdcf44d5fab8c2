import Verif.OptArray.Spec
import Mathlib.Tactic.FieldSimp
import Mathlib.Tactic.Ring
import Mathlib.Tactic.IntervalCases
import Mathlib.Data.List.Induction
/-
Lemmas about the model of the conversion of lists of numbers.
-/
set_option autoImplicit false
namespace Fclaw.OptArray

theorem digit_char (d : ℕ) (h : d < 10) : (Char.ofNat ('0'.toNat + d)).toNat = '0'.toNat + d := by
  interval_cases d <;> rfl

theorem digit_isDigit (d : ℕ) (h : d < 10) : isDigit (Char.ofNat ('0'.toNat + d)) = true := by
  interval_cases d <;> rfl

theorem decVal_append_one (s : List Char) (c : Char) : decVal (s ++ [c]) = 10 * decVal s + (c.toNat - '0'.toNat) := by
  simp [decVal, List.foldl_append]

theorem decVal_append (s f : List Char) : decVal (s ++ f) = decVal s * 10 ^ f.length + decVal f := by
  induction f using List.reverseRecOn with
  | nil => simp [decVal]
  | append_singleton f c ih =>
    rw [← List.append_assoc, decVal_append_one, ih, decVal_append_one, List.length_append, List.length_singleton, pow_succ]
    ring

theorem digits_all {s : List Char} {v : ℕ} (h : Digits s v) : s ≠ [] ∧ (∀ c ∈ s, isDigit c = true) ∧ decVal s = v := by
  induction h with
  | one d hd =>
    refine ⟨by simp, ?_, ?_⟩
    · intro c hc
      rw [List.mem_singleton] at hc
      rw [hc]; exact digit_isDigit d hd
    · have := digit_char d hd
      simp only [decVal, List.foldl_cons, List.foldl_nil]
      rw [this]; omega
  | snoc s v d hd _ ih =>
    obtain ⟨_, b, c⟩ := ih
    refine ⟨by simp, ?_, ?_⟩
    · intro x hx
      rw [List.mem_append, List.mem_singleton] at hx
      rcases hx with hx | hx
      · exact b x hx
      · rw [hx]; exact digit_isDigit d hd
    · rw [decVal_append_one, c, digit_char d hd]; omega

/-- The text ends or goes on with a character without the property. -/
def Stops (p : Char → Bool) (r : List Char) : Prop := r = [] ∨ ∃ c r', r = c :: r' ∧ p c = false

theorem take_stop (p : Char → Bool) (s r : List Char) (hs : ∀ c ∈ s, p c = true) (hr : Stops p r) :
    (s ++ r).takeWhile p = s ∧ (s ++ r).dropWhile p = r := by
  induction s with
  | nil =>
    rcases hr with rfl | ⟨c, r', rfl, h⟩
    · simp
    · simp [h]
  | cons a s ih =>
    have ha := hs a (by simp)
    obtain ⟨x, y⟩ := ih fun c hc => hs c (by simp [hc])
    simp [ha, x, y]

theorem digit_not_space (c : Char) (h : isDigit c = true) :
    isSpace c = false ∧ c ≠ '-' ∧ c ≠ '+' ∧ c ≠ '.' ∧ c ≠ 'e' ∧ c ≠ 'E' := by
  unfold isDigit at h
  rw [decide_eq_true_eq] at h
  obtain ⟨h1, h2⟩ := h
  have key : ∀ x : Char, (x.toNat < '0'.toNat ∨ '9'.toNat < x.toNat) → c ≠ x := by
    intro x hx e
    subst e
    omega
  refine ⟨?_, key _ (by decide), key _ (by decide), key _ (by decide), key _ (by decide), key _ (by decide)⟩
  unfold isSpace
  rw [decide_eq_false_iff_not]
  rintro (e | e | e | e | e | e) <;> exact key _ (by decide) e

theorem space_stops (c : Char) (h : isSpace c = true) :
    isDigit c = false ∧ c ≠ '.' ∧ c ≠ 'e' ∧ c ≠ 'E' := by
  unfold isSpace at h
  rw [decide_eq_true_eq] at h
  rcases h with rfl | rfl | rfl | rfl | rfl | rfl <;> decide

theorem readSign_other (s : List Char) (h : ∀ r, s ≠ '-' :: r) (h' : ∀ r, s ≠ '+' :: r) : readSign s = (false, s) := by
  unfold readSign
  split
  · exact absurd rfl (h _)
  · exact absurd rfl (h' _)
  · rfl

/-- A signed text of digits. -/
theorem int_sign {e : List Char} {k : ℤ} (h : IntNumeral e k) (r : List Char) :
    ∃ (neg : Bool) (ds : List Char) (v : ℕ), readSign (e ++ r) = (neg, ds ++ r) ∧ Digits ds v ∧ k = if neg then -(v : ℤ) else v := by
  cases h with
  | plain s v hd =>
    refine ⟨false, e, v, ?_, hd, by simp⟩
    obtain ⟨a, b, _⟩ := digits_all hd
    cases e with
    | nil => exact absurd rfl a
    | cons c t =>
      have hc := digit_not_space c (b c (by simp))
      apply readSign_other
      · intro r' e'
        simp only [List.cons_append, List.cons.injEq] at e'
        exact hc.2.1 e'.1
      · intro r' e'
        simp only [List.cons_append, List.cons.injEq] at e'
        exact hc.2.2.1 e'.1
  | plus s v hd => exact ⟨false, s, v, rfl, hd, by simp⟩
  | minus s v hd => exact ⟨true, s, v, rfl, hd, by simp⟩

theorem int_head {e : List Char} {k : ℤ} (h : IntNumeral e k) : ∃ c t, e = c :: t ∧ isSpace c = false := by
  cases h with
  | plain s v hd =>
    obtain ⟨a, b, _⟩ := digits_all hd
    cases e with
    | nil => exact absurd rfl a
    | cons c t => exact ⟨c, t, rfl, (digit_not_space c (b c (by simp))).1⟩
  | plus s v hd => exact ⟨'+', s, rfl, by decide⟩
  | minus s v hd => exact ⟨'-', s, rfl, by decide⟩

theorem skip_blank (w s r : List Char) (hw : Blank w) (hs : ∃ c t, s = c :: t ∧ isSpace c = false) :
    (w ++ s ++ r).dropWhile isSpace = s ++ r := by
  rw [List.append_assoc]
  obtain ⟨c, t, rfl, h⟩ := hs
  exact (take_stop isSpace w _ hw (Or.inr ⟨c, t ++ r, rfl, h⟩)).2

theorem strtol_numeral (w s r : List Char) (v : ℤ) (hw : Blank w) (hs : IntNumeral s v) (hr : Stops isDigit r) :
    strtol (w ++ s ++ r) = (clampLong v, r) := by
  unfold strtol
  rw [skip_blank w s r hw (int_head hs)]
  obtain ⟨neg, ds, n, e, hd, hv⟩ := int_sign hs r
  obtain ⟨a, b, c⟩ := digits_all hd
  obtain ⟨x, y⟩ := take_stop isDigit ds r b hr
  rw [e]
  simp only [x, y]
  rw [if_neg a, c, hv]

theorem strtol_blank (w : List Char) (hw : Blank w) : strtol w = (0, w) := by
  have e : w.dropWhile isSpace = [] := by
    have := (take_stop isSpace w [] hw (Or.inl rfl)).2
    simpa using this
  unfold strtol
  rw [e]
  simp [readSign]

/-- Does not go on as a numeral would. -/
def Over (r : List Char) : Prop := r = [] ∨ ∃ c r', r = c :: r' ∧ isDigit c = false ∧ c ≠ '.'

theorem over_stops {r : List Char} (h : Over r) : Stops isDigit r := by
  rcases h with h | ⟨c, r', e, h, _⟩
  · exact Or.inl h
  · exact Or.inr ⟨c, r', e, h⟩

theorem readFrac_other (b : Bool) (s : List Char) (h : ∀ r, s ≠ '.' :: r) : readFrac b s = ([], s) := by
  unfold readFrac
  split
  · exact absurd rfl (h _)
  · rfl

theorem decimal_read {s : List Char} {v : ℚ} (h : Decimal s v) (r : List Char) (hr : Over r) :
    ∃ ds fs : List Char, (s ++ r).takeWhile isDigit = ds ∧
      readFrac (decide (ds ≠ [])) ((s ++ r).dropWhile isDigit) = (fs, r) ∧ ¬ (ds = [] ∧ fs = []) ∧
      ((decVal (ds ++ fs) : ℕ) : ℚ) / 10 ^ fs.length = v := by
  have hdot : ∀ x, r = '.' :: x → False := by
    intro x e
    rcases hr with h | ⟨c, r', h, _, h2⟩
    · rw [h] at e; simp at e
    · rw [h] at e
      simp only [List.cons.injEq] at e
      exact h2 e.1
  cases h with
  | int s v hd =>
    obtain ⟨a, b, c⟩ := digits_all hd
    obtain ⟨x, y⟩ := take_stop isDigit s r b (over_stops hr)
    refine ⟨s, [], x, ?_, fun h => a h.1, ?_⟩
    · rw [y]
      exact readFrac_other _ r (fun t e => hdot t e)
    · simp [c]
  | point s v hd =>
    obtain ⟨a, b, c⟩ := digits_all hd
    rw [List.append_assoc]
    obtain ⟨x, y⟩ := take_stop isDigit s (['.'] ++ r) b (Or.inr ⟨'.', r, rfl, by decide⟩)
    refine ⟨s, [], x, ?_, fun h => a h.1, ?_⟩
    · rw [y]
      obtain ⟨x', y'⟩ := take_stop isDigit [] r (by simp) (over_stops hr)
      simp only [List.nil_append] at x' y'
      simp [readFrac, x', y', a]
    · simp [c]
  | frac s f v w hd hf =>
    obtain ⟨a, b, c⟩ := digits_all hd
    obtain ⟨a', b', c'⟩ := digits_all hf
    rw [List.append_assoc]
    obtain ⟨x, y⟩ := take_stop isDigit s (('.' :: f) ++ r) b (Or.inr ⟨'.', f ++ r, rfl, by decide⟩)
    obtain ⟨x', y'⟩ := take_stop isDigit f r b' (over_stops hr)
    refine ⟨s, f, x, ?_, fun h => a h.1, ?_⟩
    · rw [y]
      simp [readFrac, x', y', a]
    · rw [decVal_append, c, c']
      push_cast
      field_simp
  | only f w hf =>
    obtain ⟨a', b', c'⟩ := digits_all hf
    obtain ⟨x, y⟩ := take_stop isDigit [] (('.' :: f) ++ r) (by simp) (Or.inr ⟨'.', f ++ r, rfl, by decide⟩)
    obtain ⟨x', y'⟩ := take_stop isDigit f r b' (over_stops hr)
    simp only [List.nil_append] at x y
    refine ⟨[], f, x, ?_, fun h => a' h.2, ?_⟩
    · rw [y]
      simp [readFrac, x', y', a']
    · simp [c']

theorem readExp_stop (r : List Char) (h : r = [] ∨ ∃ c r', r = c :: r' ∧ c ≠ 'e' ∧ c ≠ 'E') : readExp r = (0, r) := by
  rcases h with rfl | ⟨c, r', rfl, h1, h2⟩
  · rfl
  · simp only [readExp]
    rw [if_neg (by push Not; exact ⟨h1, h2⟩)]

theorem readExp_read (c : Char) (e r : List Char) (k : ℤ) (hc : c = 'e' ∨ c = 'E') (he : IntNumeral e k) (hr : Stops isDigit r) :
    readExp (c :: e ++ r) = (k, r) := by
  obtain ⟨neg, ds, n, e', hd, hv⟩ := int_sign he r
  obtain ⟨a, b, c'⟩ := digits_all hd
  obtain ⟨x, y⟩ := take_stop isDigit ds r b hr
  rw [List.cons_append]
  simp only [readExp]
  rw [if_pos hc, e']
  simp only [x, y]
  rw [if_neg a, c', hv]

/-- The text ends or goes on with white space. -/
def Ends (r : List Char) : Prop := r = [] ∨ ∃ c r', r = c :: r' ∧ isSpace c = true

theorem ends_over {r : List Char} (h : Ends r) : Over r := by
  rcases h with h | ⟨c, r', e, h⟩
  · exact Or.inl h
  · exact Or.inr ⟨c, r', e, (space_stops c h).1, (space_stops c h).2.1⟩

theorem ends_exp {r : List Char} (h : Ends r) : r = [] ∨ ∃ c r', r = c :: r' ∧ c ≠ 'e' ∧ c ≠ 'E' := by
  rcases h with h | ⟨c, r', e, h⟩
  · exact Or.inl h
  · exact Or.inr ⟨c, r', e, (space_stops c h).2.2⟩

/-- Reading a number without sign. -/
theorem scientific_read {s : List Char} {v : ℚ} (h : Scientific s v) (r : List Char) (hr : Ends r) :
    ∃ ds fs s3 : List Char, ∃ e : ℤ, (s ++ r).takeWhile isDigit = ds ∧
      readFrac (decide (ds ≠ [])) ((s ++ r).dropWhile isDigit) = (fs, s3) ∧ ¬ (ds = [] ∧ fs = []) ∧
      readExp s3 = (e, r) ∧
      ((decVal (ds ++ fs) : ℕ) : ℚ) / 10 ^ fs.length * (10 : ℚ) ^ e = v := by
  cases h with
  | plain s v hd =>
    obtain ⟨ds, fs, a, b, c, d⟩ := decimal_read hd r (ends_over hr)
    exact ⟨ds, fs, r, 0, a, b, c, readExp_stop r (ends_exp hr), by rw [d]; simp⟩
  | exp s e v k c hc hd he =>
    have ho : Over (c :: e ++ r) := by
      refine Or.inr ⟨c, e ++ r, rfl, ?_⟩
      rcases hc with rfl | rfl <;> decide
    obtain ⟨ds, fs, x, y, z, u⟩ := decimal_read hd (c :: e ++ r) ho
    rw [List.append_assoc]
    exact ⟨ds, fs, c :: e ++ r, k, x, y, z, readExp_read c e r k hc he (over_stops (ends_over hr)), by rw [u]⟩

theorem decimal_head {s : List Char} {v : ℚ} (h : Decimal s v) : ∃ c t, s = c :: t ∧ isSpace c = false ∧ c ≠ '-' ∧ c ≠ '+' := by
  have key : ∀ (s : List Char) (v : ℕ) (t : List Char), Digits s v → ∃ c t', s ++ t = c :: t' ∧ isSpace c = false ∧ c ≠ '-' ∧ c ≠ '+' := by
    intro s v t hd
    obtain ⟨a, b, _⟩ := digits_all hd
    cases s with
    | nil => exact absurd rfl a
    | cons c t' =>
      have h := digit_not_space c (b c (by simp))
      exact ⟨c, t' ++ t, rfl, h.1, h.2.1, h.2.2.1⟩
  cases h with
  | int s v hd => simpa using key _ _ [] hd
  | point s v hd => exact key _ _ _ hd
  | frac s f v w hd hf => exact key _ _ _ hd
  | only f w hf => exact ⟨'.', f, rfl, by decide, by decide, by decide⟩

theorem scientific_head {s : List Char} {v : ℚ} (h : Scientific s v) :
    ∃ c t, s = c :: t ∧ isSpace c = false ∧ c ≠ '-' ∧ c ≠ '+' := by
  cases h with
  | plain s v hd => exact decimal_head hd
  | exp s e v k c hc hd he =>
    obtain ⟨a, t, rfl, h⟩ := decimal_head hd
    exact ⟨a, t ++ c :: e, rfl, h⟩

theorem numeral_sign {s : List Char} {v : ℚ} (h : Numeral s v) (r : List Char) :
    ∃ (neg : Bool) (u : List Char) (x : ℚ), readSign (s ++ r) = (neg, u ++ r) ∧ Scientific u x ∧ v = if neg then -x else x := by
  cases h with
  | plain s v hd =>
    refine ⟨false, s, v, ?_, hd, by simp⟩
    obtain ⟨c, t, rfl, _, h1, h2⟩ := scientific_head hd
    apply readSign_other
    · intro r' e
      simp only [List.cons_append, List.cons.injEq] at e
      exact h1 e.1
    · intro r' e
      simp only [List.cons_append, List.cons.injEq] at e
      exact h2 e.1
  | plus s v hd => exact ⟨false, s, v, rfl, hd, by simp⟩
  | minus s v hd => exact ⟨true, s, v, rfl, hd, by simp⟩

theorem numeral_head {s : List Char} {v : ℚ} (h : Numeral s v) : ∃ c t, s = c :: t ∧ isSpace c = false := by
  cases h with
  | plain s v hd =>
    obtain ⟨c, t, e, h, _⟩ := scientific_head hd
    exact ⟨c, t, e, h⟩
  | plus s v hd => exact ⟨'+', s, rfl, by decide⟩
  | minus s v hd => exact ⟨'-', s, rfl, by decide⟩

theorem strtod_numeral (w s r : List Char) (v : ℚ) (hw : Blank w) (hs : Numeral s v) (hr : Ends r) :
    strtod (w ++ s ++ r) = (v, r) := by
  unfold strtod
  rw [skip_blank w s r hw (numeral_head hs)]
  obtain ⟨neg, u, x, e, hd, hv⟩ := numeral_sign hs r
  obtain ⟨ds, fs, s3, k, a, b, c, d, f⟩ := scientific_read hd r hr
  rw [e]
  simp only [a, b]
  rw [if_neg c, d]
  simp only [f]
  rw [hv]

theorem strtod_blank (w : List Char) (hw : Blank w) : strtod w = (0, w) := by
  have e : w.dropWhile isSpace = [] := by
    have := (take_stop isSpace w [] hw (Or.inl rfl)).2
    simpa using this
  unfold strtod
  rw [e]
  simp [readSign, readFrac]

theorem loop_none {α : Type} (zero : α) (conv : List Char → α × List Char) (n : ℕ) :
    convertLoop zero conv n none = List.replicate n zero := by
  induction n with
  | zero => rfl
  | succ n ih => simp only [convertLoop, ih]; rfl

theorem loop_blank {α : Type} (zero : α) (conv : List Char → α × List Char) (w : List Char) (h : conv w = (zero, w)) (n : ℕ) :
    convertLoop zero conv n (some w) = List.replicate n zero := by
  induction n with
  | zero => rfl
  | succ n ih => simp only [convertLoop, h, ih]; rfl

/-- Both conversions read what a text lists. -/
theorem loop_lists {α β : Type} (Num : List Char → β → Prop) (f : β → α) (zero : α) (conv : List Char → α × List Char)
    (hb : ∀ w, Blank w → conv w = (zero, w))
    (hn : ∀ w s r v, Blank w → Num s v → Ends r → conv (w ++ s ++ r) = (f v, r))
    (s : List Char) (vs : List β) (h : Lists Num s vs) (n : ℕ) :
    convertLoop zero conv n (some s) = (vs.map f).take n ++ List.replicate (n - vs.length) zero := by
  induction h generalizing n with
  | nil w hw =>
    rw [loop_blank zero conv w (hb w hw)]
    simp
  | cons w s r v vs hw hs hr _ ih =>
    cases n with
    | zero => simp [convertLoop]
    | succ n =>
      simp only [convertLoop, hn w s r v hw hs hr, ih n]
      simp

end Fclaw.OptArray

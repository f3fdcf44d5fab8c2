/-
C118: the number of values in a line of a data file.
-/
import Verif.ValueCount.Spec

set_option autoImplicit false
set_option linter.unusedSimpArgs false

namespace Fclaw.ValueCount

open Fclaw.ValueCount.Spec

theorem beforeMark_append (t name : List Char) (h : ∀ c ∈ t, c ≠ '=') :
    beforeMark (t ++ '=' :: ':' :: name) = some t := by
  induction t with
  | nil => simp [beforeMark]
  | cons a t ih =>
    have ha : a ≠ '=' := h a (by simp)
    have e := ih (fun c hc => h c (by simp [hc]))
    cases t with
    | nil => simp [beforeMark, ha]
    | cons b t =>
      rw [List.cons_append, List.cons_append, beforeMark, if_neg (by simp [ha]), ← List.cons_append, e]
      rfl

theorem trim_blanks (t : List Char) (n : Nat) : trim (t ++ List.replicate n ' ') = trim t := by
  induction n with
  | zero => simp
  | succ n ih =>
    rw [List.replicate_succ', ← List.append_assoc]
    unfold trim at ih ⊢
    rw [List.reverse_append, List.reverse_singleton, List.singleton_append, List.dropWhile_cons_of_pos (by simp)]
    exact ih

theorem trim_id (t : List Char) (c : Char) (h : c ≠ ' ') : trim (t ++ [c]) = t ++ [c] := by
  unfold trim
  rw [List.reverse_append, List.reverse_singleton, List.singleton_append, List.dropWhile_cons_of_neg (by simp [h])]
  simp

theorem value_last (w : List Char) (h : IsValue w) : ∃ t c, w = t ++ [c] ∧ c ≠ ' ' := by
  rcases List.eq_nil_or_concat w with e | ⟨t, c, e⟩
  · exact absurd e h.1
  · refine ⟨t, c, by simpa using e, (h.2 c (by rw [e]; simp)).1⟩

theorem text_last (w : List Char) (more : List (Nat × List Char)) (hw : IsValue w) (hm : ∀ p ∈ more, IsValue p.2) :
    ∃ t c, text w more = t ++ [c] ∧ c ≠ ' ' := by
  rcases List.eq_nil_or_concat more with e | ⟨l, p, e⟩
  · subst e
    simpa [text] using value_last w hw
  · have e' : more = l ++ [p] := by simpa using e
    obtain ⟨t, c, h1, h2⟩ := value_last p.2 (hm p (by rw [e']; simp))
    refine ⟨w ++ (l.flatMap fun p => List.replicate (p.1 + 1) ' ' ++ p.2) ++ List.replicate (p.1 + 1) ' ' ++ t, c, ?_, h2⟩
    rw [e', text, List.flatMap_append, List.flatMap_singleton, h1]
    simp only [List.append_assoc]

theorem text_no_mark (w : List Char) (more : List (Nat × List Char)) (hw : IsValue w) (hm : ∀ p ∈ more, IsValue p.2) :
    ∀ c ∈ text w more, c ≠ '=' := by
  intro c hc
  unfold text at hc
  rcases List.mem_append.1 hc with h | h
  · exact (hw.2 c h).2
  · obtain ⟨p, hp, h⟩ := List.mem_flatMap.1 h
    rcases List.mem_append.1 h with h | h
    · rw [(List.mem_replicate.1 h).2]; decide
    · exact ((hm p hp).2 c h).2

theorem loop_value (w : List Char) (h : IsValue w) (rest : List Char) (f : Option Bool) (n : Nat) :
    loop (w ++ rest) f n = loop rest (some false) n := by
  obtain ⟨h0, h1⟩ := h
  induction w generalizing f with
  | nil => exact absurd rfl h0
  | cons c w ih =>
    rw [List.cons_append, loop, if_neg (h1 c (by simp)).1]
    cases w with
    | nil => rfl
    | cons d w => exact ih _ (by simp) (fun x hx => h1 x (List.mem_cons_of_mem _ hx))

theorem loop_blanks (k : Nat) (rest : List Char) (n : Nat) :
    loop (List.replicate k ' ' ++ rest) (some true) n = loop rest (some true) n := by
  induction k with
  | zero => simp
  | succ k ih => rw [List.replicate_succ, List.cons_append, loop, if_pos rfl, Option.bind_some, if_neg (by simp), ih]

theorem loop_more (more : List (Nat × List Char)) (hm : ∀ p ∈ more, IsValue p.2) (n : Nat) :
    loop (more.flatMap fun p => List.replicate (p.1 + 1) ' ' ++ p.2) (some false) n = some (n + more.length) := by
  induction more generalizing n with
  | nil => simp [loop]
  | cons p more ih =>
    rw [List.flatMap_cons, List.replicate_succ, List.cons_append, List.cons_append, loop, if_pos rfl, Option.bind_some,
      if_pos rfl, List.append_assoc, loop_blanks, loop_value _ (hm p (by simp)),
      ih (fun q hq => hm q (by simp [hq])), List.length_cons]
    congr 1
    omega

theorem buffer_line (t : List Char) (gap : Nat) (name : List Char) (hne : ∀ c ∈ t, c ≠ '=') (a : List Char) (c : Char)
    (ht : t = a ++ [c]) (hc : c ≠ ' ') (hl : t.length ≤ 200) :
    buffer (t ++ List.replicate (gap + 1) ' ' ++ '=' :: ':' :: name) = t := by
  unfold buffer
  rw [beforeMark_append]
  · have e : (t ++ List.replicate (gap + 1) ' ').dropLast = t ++ List.replicate gap ' ' := by
      rw [List.replicate_succ', ← List.append_assoc, List.dropLast_concat]
    have e2 : trim t = t := by rw [ht, trim_id a c hc]
    simp only [e, trim_blanks, e2, List.take_of_length_le hl]
  · intro x hx
    rcases List.mem_append.1 hx with h | h
    · exact hne x h
    · rw [(List.mem_replicate.1 h).2]; decide

/-- A line of at most 128 characters that begins with its first value: the values are counted. Missing: lines that begin
with a blank, see `C118_blank_counterexample`, and longer ones, see `C118_long_counterexample`. -/
theorem C118_count_partial (w : List Char) (more : List (Nat × List Char)) (gap : Nat) (name : List Char)
    (hw : IsValue w) (hm : ∀ p ∈ more, IsValue p.2) (hl : (line w more gap name).length ≤ 128) :
    countLine (line w more gap name) = some (more.length + 1) := by
  obtain ⟨a, c, ht, hc⟩ := text_last w more hw hm
  unfold countLine getValueCount
  rw [List.take_of_length_le hl]
  have hlen : (text w more).length ≤ 200 := by
    unfold line at hl
    simp only [List.length_append, List.length_cons, List.length_replicate] at hl
    omega
  unfold line
  rw [buffer_line _ gap name (text_no_mark w more hw hm) a c ht hc hlen]
  unfold text
  rw [loop_value w hw, loop_more more hm]
  congr 1
  omega

/-- In a line that begins with a blank, a variable is used that was never set: the number of values is arbitrary. -/
theorem C118_blank_counterexample (k : Nat) (w : List Char) (more : List (Nat × List Char)) (gap : Nat)
    (name : List Char) (hw : IsValue w) (hm : ∀ p ∈ more, IsValue p.2)
    (hl : (List.replicate (k + 1) ' ' ++ line w more gap name).length ≤ 128) :
    countLine (List.replicate (k + 1) ' ' ++ line w more gap name) = none := by
  obtain ⟨a, c, ht, hc⟩ := text_last w more hw hm
  unfold countLine getValueCount
  rw [List.take_of_length_le hl]
  have hlen : (List.replicate (k + 1) ' ' ++ text w more).length ≤ 200 := by
    unfold line at hl
    simp only [List.length_append, List.length_cons, List.length_replicate] at hl ⊢
    omega
  have hb := buffer_line (List.replicate (k + 1) ' ' ++ text w more) gap name (by
      intro x hx
      rcases List.mem_append.1 hx with h | h
      · rw [(List.mem_replicate.1 h).2]; decide
      · exact text_no_mark w more hw hm x h) (List.replicate (k + 1) ' ' ++ a) c
    (by rw [ht, List.append_assoc]) hc hlen
  unfold line
  simp only [List.append_assoc] at hb ⊢
  rw [hb, List.replicate_succ, List.cons_append, loop, if_pos rfl]
  rfl

theorem beforeMark_none (t : List Char) (h : ∀ c ∈ t, c ≠ '=') : beforeMark t = none := by
  induction t with
  | nil => rfl
  | cons a t ih =>
    cases t with
    | nil => rfl
    | cons b t =>
      rw [beforeMark, if_neg (by simp [h a (by simp)]), ih (fun c hc => h c (by simp [hc]))]
      rfl

/-- Of a line with 128 characters of values only one value is counted, however many there are. -/
theorem C118_long_counterexample (w : List Char) (more : List (Nat × List Char)) (gap : Nat) (name : List Char)
    (hw : IsValue w) (hm : ∀ p ∈ more, IsValue p.2) (hl : 128 ≤ (text w more).length) :
    countLine (line w more gap name) = some 1 := by
  unfold countLine getValueCount buffer line
  rw [List.append_assoc, List.take_append_of_le_length hl,
    beforeMark_none _ fun c hc => text_no_mark w more hw hm c (List.mem_of_mem_take hc)]
  rfl

/-! ### The hypotheses can be met -/

example : IsValue "1.0".toList ∧ (∀ p ∈ [(0, "2.0".toList), (3, "5".toList)], IsValue p.2) ∧
    (line "1.0".toList [(0, "2.0".toList), (3, "5".toList)] 8 "speed_tolerance".toList).length ≤ 128 := by
  unfold IsValue; decide +kernel
example : countLine "1.0 2.0    5     =: speed_tolerance".toList = some 3 := by decide +kernel
example : (List.replicate (0 + 1) ' ' ++ line "1.0".toList [(0, "2.0".toList)] 8 "speed".toList).length ≤ 128 := by
  decide +kernel
example : (∀ p ∈ List.replicate 80 (0, "5".toList), IsValue p.2) ∧
    128 ≤ (text "1.0".toList (List.replicate 80 (0, "5".toList))).length := by
  unfold IsValue; decide +kernel

end Fclaw.ValueCount

/-
C117: the regions of a run are those of regions.data.
-/
import Verif.RegionRead.Spec
import Verif.DataFile.Props

set_option autoImplicit false
set_option linter.unusedSimpArgs false

namespace Fclaw.RegionRead

open Fclaw.DataFile
open Fclaw.RegionRead.Spec

theorem digit_eq (c : Char) (h : '0' ≤ c ∧ c ≤ '9') : digit c = some (((c.toNat - 48 : Nat)) : Int) := by
  unfold digit
  rw [if_pos h]
  have : 48 ≤ c.toNat := h.1
  congr 1
  omega

theorem digit_ne (c : Char) (h : '0' ≤ c ∧ c ≤ '9') : c ≠ ' ' ∧ c ≠ '-' ∧ c ≠ '+' := by
  refine ⟨?_, ?_, ?_⟩ <;> · rintro rfl; revert h; decide

theorem readI2_two (a b : Char) (l : Line) (ha : '0' ≤ a ∧ a ≤ '9') (hb : '0' ≤ b ∧ b ≤ '9') :
    readI2 (a :: b :: l) = some ((value [a, b] : Nat) : Int) := by
  obtain ⟨a1, a2, a3⟩ := digit_ne a ha
  obtain ⟨b1, b2, b3⟩ := digit_ne b hb
  unfold readI2
  simp only [List.getD_cons_zero, List.getD_cons_succ]
  split
  · exact absurd rfl a1
  · exact absurd rfl a1
  · exact absurd rfl b1
  · exact absurd rfl a2
  · exact absurd rfl a3
  · rw [digit_eq _ ha, digit_eq _ hb]
    simp [value]

theorem readI2_one (a : Char) (l : Line) (ha : '0' ≤ a ∧ a ≤ '9') :
    readI2 (a :: ' ' :: l) = some ((value [a] : Nat) : Int) := by
  obtain ⟨a1, a2, a3⟩ := digit_ne a ha
  unfold readI2
  simp only [List.getD_cons_zero, List.getD_cons_succ]
  rw [digit_eq _ ha]
  simp [value]

theorem nextLine_content (f : List Line) : ∀ l ls, DataFile.Spec.content f = l :: ls →
    ∃ rest, nextLine f = some (l, rest) ∧ DataFile.Spec.content rest = ls := by
  induction f with
  | nil => intro l ls h; simp [DataFile.Spec.content] at h
  | cons x f ih =>
    intro l ls h
    by_cases hb : x.all (fun c => decide (c = ' ')) = true
    · have hx : DataFile.Spec.isBlank x = true := hb
      have e : DataFile.Spec.content (x :: f) = DataFile.Spec.content f := by simp [DataFile.Spec.content, hx]
      rw [e] at h
      obtain ⟨rest, h1, h2⟩ := ih l ls h
      refine ⟨rest, ?_, h2⟩
      rw [nextLine, if_pos hb, h1]
    · have hx : DataFile.Spec.isBlank x = false := by
        unfold DataFile.Spec.isBlank
        exact Bool.eq_false_iff.2 hb
      have e : DataFile.Spec.content (x :: f) = x :: DataFile.Spec.content f := by simp [DataFile.Spec.content, hx]
      rw [e] at h
      injection h with h1 h2
      refine ⟨f, ?_, h2⟩
      rw [nextLine, if_neg hb, h1]

theorem readAll_take {α : Type} (rec : Line → Option α) (n : Nat) : ∀ (f : List Line) (rs : List α),
    (DataFile.Spec.content f).map rec = rs.map some → n ≤ rs.length → readAll rec n f = some (rs.take n) := by
  induction n with
  | zero => intro f rs _ _; simp [readAll]
  | succ n ih =>
    intro f rs h hn
    cases rs with
    | nil => simp at hn
    | cons r rs =>
      cases hc : DataFile.Spec.content f with
      | nil => rw [hc] at h; simp at h
      | cons l ls =>
        rw [hc, List.map_cons, List.map_cons] at h
        injection h with h1 h2
        obtain ⟨rest, e1, e2⟩ := nextLine_content f l ls hc
        unfold readAll
        rw [e1, Option.bind_some]
        dsimp only
        rw [h1, Option.bind_some, ih rest rs (by rw [e2]; exact h2) (by simpa using hn)]
        simp

theorem setRegions_take {α : Type} (rec : Line → Option α) (f : List Line) (b l : Line) (lines : List Line)
    (hf : (DataFile.Spec.comments f).length ≤ 1001) (hd : DataFile.Spec.data f = b :: l :: lines) (n : Nat)
    (hn : readI2 l = some (n : Int)) (rs : List α) (hr : (DataFile.Spec.content lines).map rec = rs.map some)
    (hle : n ≤ rs.length) : setRegions rec (some f) = some (rs.take n) := by
  have ho : openDataFile (some f) = some (((DataFile.Spec.comments f).length : Int), l :: lines) := by
    unfold openDataFile
    simp only
    rw [skip_eq f 1002 (-1) (by omega), hd]
    simp only [Option.some.injEq, Prod.mk.injEq, and_true]
    omega
  unfold setRegions
  rw [ho, Option.bind_some]
  dsimp only
  rw [hn, Option.bind_some]
  by_cases h0 : (n : Int) = 0
  · have : n = 0 := by omega
    subst this
    simp
  · rw [if_neg h0, Int.toNat_natCast, readAll_take rec n lines rs hr hle]

/-- Up to 99 regions, with their number in one or two digits: the regions are those of the file, in this order. Missing:
more regions, see `C117_hundred_counterexample`. -/
theorem C117_regions_partial {α : Type} (rec : Line → Option α) (f : List Line) (ds : List Char) (rs : List α)
    (h : Written rec f ds rs) (hds : ds.length ≤ 2) : setRegions rec (some f) = some rs := by
  obtain ⟨b, tail, lines, hd, -, hr⟩ := h.parts
  obtain ⟨hne, hdig⟩ := h.number
  have hn : readI2 (ds ++ ' ' :: tail) = some ((value ds : Nat) : Int) := by
    match ds, hne, hdig, hds with
    | [a], _, hdig, _ => exact readI2_one a tail (hdig a (by simp))
    | [a, c], _, hdig, _ => exact readI2_two a c _ (hdig a (by simp)) (hdig c (by simp))
  rw [setRegions_take rec f b _ lines h.few hd (value ds) hn rs hr (Nat.le_of_eq h.count), h.count, List.take_length]

/-- With a number of three digits only its first two digits are read: all further regions are ignored, without
an error. -/
theorem C117_hundred_counterexample {α : Type} (rec : Line → Option α) (f : List Line) (a c e : Char)
    (rs : List α) (h : Written rec f [a, c, e] rs) (ha : a ≠ '0') :
    setRegions rec (some f) = some (rs.take (value [a, c])) ∧ value [a, c] < rs.length := by
  obtain ⟨b, tail, lines, hd, -, hr⟩ := h.parts
  obtain ⟨-, hdig⟩ := h.number
  have da := hdig a (by simp)
  have dc := hdig c (by simp)
  have hlt : value [a, c] < rs.length := by
    rw [← h.count]
    have h1 : 48 ≤ a.toNat := da.1
    have h2 : a.toNat ≠ 48 := by
      intro h
      apply ha
      exact Char.toNat_inj.1 h
    simp only [value, List.foldl_cons, List.foldl_nil]
    omega
  refine ⟨?_, hlt⟩
  exact setRegions_take rec f b _ lines h.few hd (value [a, c])
    (by simpa using readI2_two a c (e :: ' ' :: tail) da dc) rs hr (Nat.le_of_lt hlt)

theorem nextLine_none (f : List Line) (h : DataFile.Spec.content f = []) : nextLine f = none := by
  induction f with
  | nil => rfl
  | cons x f ih =>
    by_cases hb : x.all (fun c => decide (c = ' ')) = true
    · have hx : DataFile.Spec.isBlank x = true := hb
      rw [nextLine, if_pos hb]
      exact ih (by simpa [DataFile.Spec.content, hx] using h)
    · have hx : DataFile.Spec.isBlank x = false := Bool.eq_false_iff.2 hb
      simp [DataFile.Spec.content, hx] at h

theorem readAll_short {α : Type} (rec : Line → Option α) (n : Nat) : ∀ f : List Line,
    (DataFile.Spec.content f).length < n → readAll rec n f = none := by
  induction n with
  | zero => intro f h; omega
  | succ n ih =>
    intro f h
    unfold readAll
    cases hc : DataFile.Spec.content f with
    | nil => rw [nextLine_none f hc]; rfl
    | cons l ls =>
      obtain ⟨rest, e1, e2⟩ := nextLine_content f l ls hc
      rw [e1, Option.bind_some]
      dsimp only
      rw [ih rest (by rw [e2]; rw [hc] at h; simpa using h)]
      cases rec l <;> rfl

/-- If there are fewer lines than the number says, the run stops with an error. -/
theorem C117_short {α : Type} (rec : Line → Option α) (f : List Line) (ds : List Char) (b tail : Line) (lines : List Line)
    (hf : (DataFile.Spec.comments f).length ≤ 1001) (hd : DataFile.Spec.data f = b :: (ds ++ ' ' :: tail) :: lines)
    (hds : IsNumber ds) (h2 : ds.length ≤ 2) (hs : (DataFile.Spec.content lines).length < value ds) :
    setRegions rec (some f) = none := by
  obtain ⟨hne, hdig⟩ := hds
  have hn : readI2 (ds ++ ' ' :: tail) = some ((value ds : Nat) : Int) := by
    match ds, hne, hdig, h2 with
    | [a], _, hdig, _ => exact readI2_one a tail (hdig a (by simp))
    | [a, c], _, hdig, _ => exact readI2_two a c _ (hdig a (by simp)) (hdig c (by simp))
  have ho : openDataFile (some f) = some (((DataFile.Spec.comments f).length : Int), (ds ++ ' ' :: tail) :: lines) := by
    unfold openDataFile
    simp only
    rw [skip_eq f 1002 (-1) (by omega), hd]
    simp only [Option.some.injEq, Prod.mk.injEq, and_true]
    omega
  unfold setRegions
  rw [ho, Option.bind_some]
  dsimp only
  rw [hn, Option.bind_some, if_neg (by omega), Int.toNat_natCast, readAll_short rec _ lines hs]

/-- If nothing follows behind the blank line, not even a number, the run stops with an error. -/
theorem C117_empty {α : Type} (rec : Line → Option α) (f : List Line) (b : Line)
    (hf : (DataFile.Spec.comments f).length ≤ 1001) (hd : DataFile.Spec.data f = [b]) :
    setRegions rec (some f) = none := by
  have ho : openDataFile (some f) = some (((DataFile.Spec.comments f).length : Int), []) := by
    unfold openDataFile
    simp only
    rw [skip_eq f 1002 (-1) (by omega), hd]
    simp only [Option.some.injEq, Prod.mk.injEq, and_true]
    omega
  unfold setRegions
  rw [ho, Option.bind_some]

/-! ### The hypotheses can be met -/

/-- Regions that are named by their lines. -/
def fileX (number : String) (n : Nat) : List Line :=
  ["# regions".toList, [], number.toList ++ ' ' :: "=: num_regions".toList] ++ List.replicate n "1 2 0 9 0 1 0 1".toList

theorem writtenX (n : Nat) (number : String) (hn : IsNumber number.toList) (hv : value number.toList = n) :
    Written (some : Line → Option Line) (fileX number n) number.toList (List.replicate n "1 2 0 9 0 1 0 1".toList) where
  few := by
    simp [DataFile.Spec.comments, fileX, DataFile.Spec.isComment]
  number := hn
  parts := by
    refine ⟨[], "=: num_regions".toList, List.replicate n "1 2 0 9 0 1 0 1".toList, ?_, rfl, ?_⟩
    · simp [DataFile.Spec.data, fileX, DataFile.Spec.isComment]
    · have : DataFile.Spec.isBlank "1 2 0 9 0 1 0 1".toList = false := by decide +kernel
      have e : DataFile.Spec.content (List.replicate n "1 2 0 9 0 1 0 1".toList) =
          List.replicate n "1 2 0 9 0 1 0 1".toList := by
        unfold DataFile.Spec.content
        rw [List.filter_eq_self]
        intro l hl
        rw [(List.mem_replicate.1 hl).2, this]
        rfl
      rw [e]
  count := by rw [hv, List.length_replicate]

example : Written (some : Line → Option Line) (fileX "12" 12) "12".toList (List.replicate 12 "1 2 0 9 0 1 0 1".toList) ∧
    "12".toList.length ≤ 2 :=
  ⟨writtenX 12 "12" (by unfold IsNumber; decide +kernel) (by decide +kernel), by decide +kernel⟩
example : Written (some : Line → Option Line) (fileX "123" 123) ['1', '2', '3']
    (List.replicate 123 "1 2 0 9 0 1 0 1".toList) ∧ '1' ≠ '0' :=
  ⟨writtenX 123 "123" (by unfold IsNumber; decide +kernel) (by decide +kernel), by decide⟩
example : setRegions (some : Line → Option Line) (some (fileX "2" 2)) =
    some ["1 2 0 9 0 1 0 1".toList, "1 2 0 9 0 1 0 1".toList] := by decide +kernel
example : (DataFile.Spec.comments (fileX "3" 2)).length ≤ 1001 ∧ DataFile.Spec.data (fileX "3" 2) =
    [] :: ("3".toList ++ ' ' :: "=: num_regions".toList) :: List.replicate 2 "1 2 0 9 0 1 0 1".toList ∧
    (DataFile.Spec.content (List.replicate 2 "1 2 0 9 0 1 0 1".toList)).length < value "3".toList := by decide +kernel
example : (DataFile.Spec.comments ["# regions".toList, []]).length ≤ 1001 ∧
    DataFile.Spec.data ["# regions".toList, []] = [[]] := by decide +kernel

end Fclaw.RegionRead

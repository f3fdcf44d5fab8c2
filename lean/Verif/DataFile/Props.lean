/-
C116: data files are ready for reading behind their comments.
-/
import Verif.DataFile.Spec

set_option autoImplicit false

namespace Fclaw.DataFile

open Fclaw.DataFile.Spec

theorem firstChar_eq (l : Line) : firstChar l = '#' ↔ isComment l = true := by
  cases l with
  | nil => simp [firstChar, isComment]
  | cons c cs => simp [firstChar, isComment]

theorem skip_eq (f : List Line) : ∀ (fuel : Nat) (n : Int), (comments f).length + 1 ≤ fuel →
    skip fuel n '#' f =
      match data f with
      | [] => none
      | _ :: rest => some (n + (comments f).length + 1, rest) := by
  induction f with
  | nil =>
    intro fuel n h
    obtain ⟨k, rfl⟩ : ∃ k, fuel = k + 1 := ⟨fuel - 1, by omega⟩
    simp [skip, data]
  | cons l f ih =>
    intro fuel n h
    obtain ⟨k, rfl⟩ : ∃ k, fuel = k + 1 := ⟨fuel - 1, by omega⟩
    simp only [skip, if_true]
    by_cases hc : isComment l = true
    · have e : comments (l :: f) = l :: comments f := by simp [comments, hc]
      have ed : data (l :: f) = data f := by simp [data, hc]
      rw [e, List.length_cons] at h ⊢
      rw [(firstChar_eq l).2 hc, ih k (n + 1) (by omega), ed]
      cases data f with
      | nil => rfl
      | cons a r =>
        simp only [Option.some.injEq, Prod.mk.injEq, and_true]
        omega
    · have e : comments (l :: f) = [] := by simp [comments, hc]
      have ed : data (l :: f) = l :: f := by simp [data, hc]
      rw [e, ed]
      have hf : firstChar l ≠ '#' := fun h => hc ((firstChar_eq l).1 h)
      cases k with
      | zero => simp [skip]
      | succ k => simp [skip, hf]

/-- A file with at most 1001 comment lines and a blank line behind them: all that is to be read is still to be read, and
the number of comment lines is reported. Missing: no blank line, see `C116_lost_counterexample`, and more comment lines,
see `C116_many_counterexample`. -/
theorem C116_ready_partial (f : List Line) (hc : (comments f).length ≤ 1001) (b : Line) (rest : List Line)
    (hd : data f = b :: rest) (hb : isBlank b = true) :
    ∃ r, openDataFile (some f) = some (((comments f).length : Int), r) ∧ content r = content (data f) := by
  refine ⟨rest, ?_, ?_⟩
  · unfold openDataFile
    simp only
    rw [skip_eq f 1002 (-1) (by omega), hd]
    simp only [Option.some.injEq, Prod.mk.injEq, and_true]
    omega
  · rw [hd]
    simp [content, hb]

/-- The run stops if and only if the file does not exist, or has nothing but comment lines. -/
theorem C116_stop (file : Option (List Line)) (hc : ∀ f, file = some f → (comments f).length ≤ 1001) :
    openDataFile file = none ↔ ∀ f, file = some f → data f = [] := by
  cases file with
  | none => simp [openDataFile]
  | some f =>
    have := hc f rfl
    unfold openDataFile
    simp only
    rw [skip_eq f 1002 (-1) (by omega)]
    constructor
    · intro h f' e
      injection e with e
      subst e
      cases hd : data f with
      | nil => rfl
      | cons a r => rw [hd] at h; simp at h
    · intro h
      rw [h f rfl]

/-- Without a blank line behind the comments the first line of data is lost, in particular in every file without
comments. -/
theorem C116_lost_counterexample (f : List Line) (hc : (comments f).length ≤ 1001) (l : Line) (rest : List Line)
    (hd : data f = l :: rest) (hl : isBlank l = false) :
    openDataFile (some f) = some (((comments f).length : Int), rest) ∧ content (data f) = l :: content rest := by
  constructor
  · unfold openDataFile
    simp only
    rw [skip_eq f 1002 (-1) (by omega), hd]
    simp only [Option.some.injEq, Prod.mk.injEq, and_true]
    omega
  · rw [hd]
    simp [content, hl]

theorem skip_comments (k : Nat) : ∀ (n : Int) (cs f : List Line), cs.length = k → (∀ l ∈ cs, isComment l = true) →
    skip k n '#' (cs ++ f) = some (n + k, f) := by
  induction k with
  | zero =>
    intro n cs f h _
    rw [List.length_eq_zero_iff] at h
    subst h
    simp [skip]
  | succ k ih =>
    intro n cs f h hc
    cases cs with
    | nil => simp at h
    | cons l cs =>
      simp only [List.cons_append, skip, if_true]
      rw [(firstChar_eq l).2 (hc l (by simp)), ih (n + 1) cs f (by simpa using h) (fun x hx => hc x (by simp [hx]))]
      simp only [Option.some.injEq, Prod.mk.injEq, and_true]
      omega

/-- Behind 1002 comment lines, further comment lines are taken for data. -/
theorem C116_many_counterexample (cs : List Line) (h : cs.length = 1002) (hc : ∀ l ∈ cs, isComment l = true) (c : Line)
    (f : List Line) (hx : isComment c = true) :
    openDataFile (some (cs ++ c :: f)) = some (1001, c :: f) ∧ data (cs ++ c :: f) = data f := by
  constructor
  · unfold openDataFile
    simp only
    rw [skip_comments 1002 (-1) cs (c :: f) h hc]
    simp only [Option.some.injEq, Prod.mk.injEq, and_true]
    omega
  · have : ∀ cs : List Line, (∀ l ∈ cs, isComment l = true) → data (cs ++ c :: f) = data f := by
      intro cs
      induction cs with
      | nil => intro _; simp [data, hx]
      | cons a cs ih =>
        intro hc
        have := ih (fun l hl => hc l (by simp [hl]))
        simp only [data, List.cons_append, List.dropWhile_cons, hc a (by simp), if_true] at this ⊢
        exact this
    exact this cs hc

/-! ### The hypotheses can be met -/

/-- A file as written by Clawpack: comments, a blank line, data. -/
def fileX : List Line := ["### DO NOT EDIT".toList, "# data".toList, "".toList, "1 =: a".toList, "2".toList]

example : (comments fileX).length ≤ 1001 ∧ data fileX = [] :: ["1 =: a".toList, "2".toList] ∧ isBlank [] = true := by
  decide +kernel
example : openDataFile (some fileX) = some (2, ["1 =: a".toList, "2".toList]) := by decide +kernel
example : openDataFile (some ["1 =: a".toList, "2".toList]) = some (0, ["2".toList]) := by decide +kernel
example : data ["1 =: a".toList, "2".toList] = "1 =: a".toList :: ["2".toList] ∧ isBlank "1 =: a".toList = false := by
  decide +kernel
example : openDataFile (some ["# data".toList]) = none := by decide +kernel
example : (List.replicate 1002 ['#']).length = 1002 ∧ isComment "# more".toList = true := by
  exact ⟨List.length_replicate, by decide +kernel⟩

end Fclaw.DataFile

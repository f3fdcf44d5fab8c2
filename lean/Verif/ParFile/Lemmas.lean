/-
Helper lemmas for the parallel files: formatting, padding, and what a
sequence of writes leaves in the file.
-/
import Verif.ParFile.Spec
import Mathlib.Tactic.Ring
import Mathlib.Tactic.Linarith
import Mathlib.Tactic.SplitIfs
import Mathlib.Tactic.IntervalCases

set_option autoImplicit false
set_option linter.unusedSimpArgs false
set_option linter.unusedVariables false

namespace Fclaw.ParFile

theorem digits_length (w : Nat) : ∀ n, (digits w n).length = w := by
  induction w with
  | zero => intro n; rfl
  | succ w ih => intro n; simp [digits, ih]

theorem padRight_length {w : Nat} {s : List Byte} (h : s.length ≤ w) :
    (padRight w s).length = w := by
  simp [padRight]; omega

theorem checkUserString_iff (u : List Byte) : checkUserString u = true ↔ u.length ≤ 47 := by
  unfold checkUserString
  simp only [userStringBytes, List.length_take]
  split_ifs with h
  · simp only [true_iff]; omega
  · simp only [decide_eq_true_eq]; omega

theorem numPad_eq (n : Nat) :
    numPad n = if n % 16 = 0 then 16 else if n % 16 = 15 then 17 else 16 - n % 16 := by
  unfold numPad
  simp only [byteDiv]
  have h16 : n % 16 < 16 := Nat.mod_lt _ (by omega)
  generalize n % 16 = m at h16 ⊢
  interval_cases m <;> rfl

theorem numPad_bounds (n : Nat) : 2 ≤ numPad n ∧ numPad n ≤ 17 := by
  rw [numPad_eq]; split_ifs <;> omega

theorem numPad_div (n : Nat) : 16 ∣ n + numPad n := by
  rw [numPad_eq]; split_ifs <;> omega

theorem numPad_le_iff (n : Nat) : numPad n ≤ 16 ↔ n % 16 ≠ 15 := by
  rw [numPad_eq]; split_ifs <;> omega

theorem padText_length {k : Nat} (h : 2 ≤ k) : (padText k).length = k := by
  simp [padText]; omega

theorem getPadding_eq (debug : Bool) (n : Nat) :
    getPadding debug n maxNumPadBytes =
      if n % 16 = 15 then (if debug = true then .abort else .ub)
      else .ok (padText (numPad n)) := by
  have hb := numPad_bounds n
  have hi := numPad_le_iff n
  have hlen : ([nl] ++ List.replicate (numPad n - 2) blank ++ [nl]).length = numPad n :=
    padText_length hb.1
  have htake : snprintf (numPad n + 1) ([nl] ++ List.replicate (numPad n - 2) blank ++ [nl])
      = padText (numPad n) := by
    unfold snprintf padText
    rw [List.take_of_length_le]; rw [hlen]; omega
  unfold getPadding
  simp only [htake, padText_length hb.1, byteDiv, maxNumPadBytes]
  by_cases h15 : n % 16 = 15
  · have h17 : numPad n = 17 := by rw [numPad_eq]; simp [h15]
    cases debug <;> simp [h15, h17]
  · have : numPad n ≤ 16 := hi.2 h15
    have h1 : 1 < numPad n := by omega
    have h2 : ¬ (numPad n + 1 > 16 + 1) := by omega
    simp [h15, h1, this, h2]

/-- The content of a file: the given bytes, with room up to `n`. -/
def Holds (f : File) (img : List Byte) (n : Nat) : Prop :=
  f.size = n ∧ ∀ i, f.at_ i = img[i]?

theorem holds_fileOf {f : File} {img : List Byte} (h : Holds f img img.length) :
    f = fileOf img := by
  obtain ⟨h1, h2⟩ := h
  cases f
  simp only at h1 h2
  subst h1
  unfold fileOf
  congr
  funext i
  exact h2 i

theorem holds_of_fileOf (img : List Byte) : Holds (fileOf img) img img.length :=
  ⟨rfl, fun _ => rfl⟩

theorem holds_setSize {f : File} {img : List Byte} {n : Nat} (m : Nat) (h : Holds f img n)
    (hm : img.length ≤ m) : Holds (setSize f m) img m := by
  refine ⟨rfl, fun i => ?_⟩
  simp only [setSize]
  split_ifs with hi
  · exact h.2 i
  · rw [List.getElem?_eq_none]; omega

theorem holds_writeAt (bs : List Byte) : ∀ {f : File} {img : List Byte} {n : Nat},
    Holds f img n → img.length ≤ n →
    Holds (writeAt f img.length bs) (img ++ bs) (max n (img.length + bs.length)) := by
  induction bs with
  | nil =>
    intro f img n h hn
    refine ⟨?_, fun i => ?_⟩
    · simp [writeAt, applyWrites, writesAt, h.1]; omega
    · simp [writeAt, applyWrites, writesAt, h.2 i]
  | cons b bs ih =>
    intro f img n h hn
    have h1 : Holds (writeByte f (img.length, b)) (img ++ [b]) (max n (img.length + 1)) := by
      refine ⟨by simp [writeByte, h.1], fun i => ?_⟩
      simp only [writeByte]
      split_ifs with hi
      · subst hi; simp
      · rw [h.2 i]
        by_cases hlt : i < img.length
        · rw [List.getElem?_append_left hlt]
        · rw [List.getElem?_eq_none (by omega), List.getElem?_eq_none (by simp; omega)]
    have h2 := ih h1 (by simp)
    have e1 : writeAt (writeByte f (img.length, b)) (img ++ [b]).length bs
        = writeAt f img.length (b :: bs) := by
      simp [writeAt, applyWrites, writesAt]
    rw [e1] at h2
    have e2 : img ++ [b] ++ bs = img ++ b :: bs := by simp
    rw [e2] at h2
    have e3 : max (max n (img.length + 1)) ((img ++ [b]).length + bs.length)
        = max n (img.length + (b :: bs).length) := by
      simp only [List.length_append, List.length_cons, List.length_nil]; omega
    rw [e3] at h2
    exact h2

theorem writesAt_append (a b : List Byte) : ∀ off,
    writesAt off (a ++ b) = writesAt off a ++ writesAt (off + a.length) b := by
  induction a with
  | nil => intro off; simp [writesAt]
  | cons x xs ih =>
    intro off
    simp only [List.cons_append, writesAt, ih, List.length_cons]
    rw [show off + 1 + xs.length = off + (xs.length + 1) by omega]

theorem writesAt_fst_ge (bs : List Byte) : ∀ off, ∀ p ∈ (writesAt off bs).map Prod.fst,
    off ≤ p := by
  induction bs with
  | nil => intro off p hp; simp [writesAt] at hp
  | cons b bs ih =>
    intro off p hp
    simp only [writesAt, List.map_cons, List.mem_cons] at hp
    rcases hp with rfl | hp
    · exact le_refl _
    · have := ih (off + 1) p hp; omega

theorem writesAt_nodup (bs : List Byte) : ∀ off, ((writesAt off bs).map Prod.fst).Nodup := by
  induction bs with
  | nil => intro off; simp [writesAt]
  | cons b bs ih =>
    intro off
    simp only [writesAt, List.map_cons, List.nodup_cons]
    refine ⟨fun h => ?_, ih _⟩
    have := writesAt_fst_ge bs (off + 1) off h
    omega

theorem writeByte_comm (f : File) (x y : Nat × Byte) (h : x.1 ≠ y.1) :
    writeByte (writeByte f x) y = writeByte (writeByte f y) x := by
  unfold writeByte
  simp only [File.mk.injEq]
  refine ⟨by omega, ?_⟩
  funext i
  split_ifs <;> simp_all

theorem mem_fst_inj {ws : List (Nat × Byte)} (hn : (ws.map Prod.fst).Nodup) {x y : Nat × Byte}
    (hx : x ∈ ws) (hy : y ∈ ws) (h : x.1 = y.1) : x = y := by
  induction ws with
  | nil => simp at hx
  | cons w ws ih =>
    simp only [List.map_cons, List.nodup_cons, List.mem_map, not_exists, not_and] at hn
    simp only [List.mem_cons] at hx hy
    rcases hx with rfl | hx <;> rcases hy with rfl | hy
    · rfl
    · exact absurd h.symm (hn.1 y hy)
    · exact absurd h (hn.1 x hx)
    · exact ih hn.2 hx hy

/-- The order of writes to different positions does not matter. -/
theorem applyWrites_perm {ws ws' : List (Nat × Byte)} (hp : ws'.Perm ws)
    (hn : (ws.map Prod.fst).Nodup) (f : File) : applyWrites f ws' = applyWrites f ws := by
  unfold applyWrites
  have hn' : (ws'.map Prod.fst).Nodup := (hp.map Prod.fst).nodup_iff.2 hn
  refine hp.foldl_eq' (fun x hx y hy z => ?_) f
  by_cases h : x.1 = y.1
  · rw [mem_fst_inj hn' hx hy h]
  · exact writeByte_comm z x y h

/-- Together the processes write the field from its beginning to its end. -/
theorem fieldWrites_eq (gfq : Nat → Nat) (es : Nat) (d : List Byte) (base : Nat)
    (h0 : gfq 0 = 0) : ∀ P, (∀ r, r < P → gfq r ≤ gfq (r + 1)) → gfq P * es ≤ d.length →
    (List.range P).flatMap (fun r => writesAt (base + gfq r * es) (localData gfq es d r))
      = writesAt base (d.take (gfq P * es)) := by
  intro P
  induction P with
  | zero => intro _ _; simp [h0, writesAt]
  | succ P ih =>
    intro hm hl
    have hP := hm P (by omega)
    have hmul : gfq P * es ≤ gfq (P + 1) * es := Nat.mul_le_mul_right _ hP
    rw [List.range_succ, List.flatMap_append, ih (fun r hr => hm r (by omega)) (by omega)]
    simp only [List.flatMap_cons, List.flatMap_nil, List.append_nil]
    have e : gfq (P + 1) * es = gfq P * es + (gfq (P + 1) - gfq P) * es := by
      rw [← Nat.add_mul]; congr 1; omega
    rw [e, List.take_add, writesAt_append]
    have hlen : (d.take (gfq P * es)).length = gfq P * es := by
      rw [List.length_take]; omega
    rw [hlen]
    rfl

end Fclaw.ParFile

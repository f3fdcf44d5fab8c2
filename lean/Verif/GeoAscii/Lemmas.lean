/-
The loops of the output.
-/
import Verif.GeoAscii.Spec
import Mathlib.Tactic.IntervalCases

set_option autoImplicit false
set_option linter.unusedSimpArgs false

namespace Fclaw.GeoAscii

open Fclaw.ParFile (Outcome)
open Fclaw.Ascii
open Fclaw.GeoAscii.Spec

variable {R : Type}

theorem shown_shown (A : Fmt R) (v : R) : shown A (shown A v) = shown A v := by
  unfold shown
  by_cases h : A.tiny v <;> simp [h]

theorem flushOne_eq (A : Fmt R) (i j : Int) (q : Nat → Int → Int → R) (k : Nat) :
    flushOne A i j q k = fun m a b => if m = k ∧ a = i ∧ b = j then shown A (q m a b) else q m a b := by
  funext m a b
  unfold flushOne setq shown
  by_cases h : A.tiny (q k i j)
  · rw [if_pos h]
    by_cases e : m = k ∧ a = i ∧ b = j
    · obtain ⟨rfl, rfl, rfl⟩ := e
      simp [h]
    · simp [e]
  · rw [if_neg h]
    by_cases e : m = k ∧ a = i ∧ b = j
    · obtain ⟨rfl, rfl, rfl⟩ := e
      simp [h]
    · simp [e]

theorem flushAll_eq (A : Fmt R) (i j : Int) (ms : List Nat) : ∀ q : Nat → Int → Int → R,
    ms.foldl (flushOne A i j) q =
      fun m a b => if m ∈ ms ∧ a = i ∧ b = j then shown A (q m a b) else q m a b := by
  induction ms with
  | nil => intro q; funext m a b; simp
  | cons k ms ih =>
    intro q
    rw [List.foldl_cons, ih, flushOne_eq]
    funext m a b
    by_cases hk : m = k <;> by_cases hm : m ∈ ms <;> by_cases e : a = i ∧ b = j <;>
      simp [hk, hm, e, shown_shown] <;> simp_all [shown_shown]

/-- The solution, with the cells of `D` as they are shown. -/
noncomputable def fl (A : Fmt R) (meqn : Nat) (D : Int → Int → Prop) (q : Nat → Int → Int → R) :
    Nat → Int → Int → R :=
  open Classical in fun m a b => if (1 ≤ m ∧ m ≤ meqn) ∧ D a b then shown A (q m a b) else q m a b

theorem fl_none (A : Fmt R) (meqn : Nat) (q : Nat → Int → Int → R) : fl A meqn (fun _ _ => False) q = q := by
  funext m a b
  simp [fl]

theorem mem_upTo (n m : Nat) : m ∈ upTo n ↔ 1 ≤ m ∧ m ≤ n := by
  unfold upTo
  rw [List.mem_range'_1]
  omega

theorem flush_fl (A : Fmt R) (meqn : Nat) (D : Int → Int → Prop) (q : Nat → Int → Int → R) (i j : Int) :
    (upTo meqn).foldl (flushOne A i j) (fl A meqn D q) = fl A meqn (fun a b => D a b ∨ (a = i ∧ b = j)) q := by
  rw [flushAll_eq]
  funext m a b
  simp only [mem_upTo, fl]
  by_cases hm : 1 ≤ m ∧ m ≤ meqn <;> by_cases e : a = i ∧ b = j <;> by_cases d : D a b <;>
    simp [hm, e, d, shown_shown] <;> simp_all [shown_shown]

theorem fl_here (A : Fmt R) (meqn : Nat) (D : Int → Int → Prop) (q : Nat → Int → Int → R) (i j : Int) (m : Nat)
    (hm : 1 ≤ m ∧ m ≤ meqn) : fl A meqn (fun a b => D a b ∨ (a = i ∧ b = j)) q m i j = shown A (q m i j) := by
  simp [fl, hm]

/-- The values of a cell. -/
def values (A : Fmt R) (add : R → R → R) (p : Patch R) (i j : Int) : List R :=
  (upTo p.meqn).map (fun m => shown A (p.q m i j)) ++ [shown A (add (shown A (p.q 1 i j)) (p.aux 1 i j))]

theorem writeCell_eq (A : Fmt R) (add : R → R → R) (p : Patch R) (hm : 1 ≤ p.meqn) (ha : 1 ≤ p.maux) (j i : Nat)
    (ls : List Line) (D : Int → Int → Prop) :
    writeCell A add p j i (ls, fl A p.meqn D p.q) =
      .ok (ls ++ format5 A (p.meqn + 1) (values A add p i j),
        fl A p.meqn (fun a b => D a b ∨ (a = i ∧ b = j)) p.q) := by
  unfold writeCell
  rw [if_neg (by omega)]
  simp only [flush_fl]
  have e1 : (upTo p.meqn).map (fun mq => fl A p.meqn (fun a b => D a b ∨ (a = i ∧ b = j)) p.q mq i j) =
      (upTo p.meqn).map (fun m => shown A (p.q m i j)) := by
    apply List.map_congr_left
    intro m h
    exact fl_here A p.meqn D p.q i j m ((mem_upTo _ _).1 h)
  rw [e1, fl_here A p.meqn D p.q i j 1 ⟨le_refl _, hm⟩]
  have e2 : ((upTo p.meqn).map (fun m => shown A (p.q m i j)) ++
      [if A.tiny (add (shown A (p.q 1 i j)) (p.aux 1 i j)) then A.zero
        else add (shown A (p.q 1 i j)) (p.aux 1 i j)]) = values A add p i j := rfl
  rw [e2]
  have e3 : (values A add p i j).length = p.meqn + 1 := by simp [values, upTo]
  rw [e3]

theorem doLoop_fl (A : Fmt R) (meqn : Nat) (q : Nat → Int → Int → R) (f : Nat → List Line × (Nat → Int → Int → R) →
      Outcome (List Line × (Nat → Int → Int → R))) (g : Nat → List Line) (E : Nat → Int → Int → Prop)
    (hf : ∀ k ls D, f k (ls, fl A meqn D q) = .ok (ls ++ g k, fl A meqn (fun a b => D a b ∨ E k a b) q))
    (ks : List Nat) : ∀ ls D, doLoop ks f (ls, fl A meqn D q) =
      .ok (ls ++ ks.flatMap g, fl A meqn (fun a b => D a b ∨ ∃ k ∈ ks, E k a b) q) := by
  induction ks with
  | nil => intro ls D; simp [doLoop]
  | cons k ks ih =>
    intro ls D
    simp only [doLoop]
    rw [hf]
    show doLoop ks f _ = _
    rw [ih, List.flatMap_cons, List.append_assoc]
    congr 3
    funext a b
    simp only [List.mem_cons, exists_eq_or_imp, or_assoc]

/-- The lines of a patch below its header. -/
def lines (A : Fmt R) (add : R → R → R) (p : Patch R) : List Line :=
  (upTo p.my).flatMap fun j =>
    (upTo p.mx).flatMap (fun i => format5 A (p.meqn + 1) (values A add p (i : Nat) (j : Nat))) ++ [blankLine]

theorem writeFile_eq (A : Fmt R) (add : R → R → R) (p : Patch R) (hm : 1 ≤ p.meqn) (h5 : p.meqn ≤ 5)
    (ha : 1 ≤ p.maux) :
    writeFile A add p = .ok (gridHeader A p ++ lines A add p, Spec.after A p.mx p.my p.meqn p.q) := by
  unfold writeFile
  rw [if_neg (by omega)]
  have h0 : p.q = fl A p.meqn (fun _ _ => False) p.q := (fl_none A p.meqn p.q).symm
  have hi : ∀ (j : Nat) ls D, (fun j s => (doLoop (upTo p.mx) (writeCell A add p j) s).bind writeBlank) j
      (ls, fl A p.meqn D p.q) = .ok (ls ++ ((upTo p.mx).flatMap
        (fun i => format5 A (p.meqn + 1) (values A add p (i : Nat) (j : Nat))) ++ [blankLine]),
        fl A p.meqn (fun a b => D a b ∨ ∃ i ∈ upTo p.mx, a = (i : Int) ∧ b = (j : Int)) p.q) := by
    intro j ls D
    show (doLoop (upTo p.mx) (writeCell A add p j) _).bind writeBlank = _
    rw [doLoop_fl A p.meqn p.q (writeCell A add p j)
      (fun i => format5 A (p.meqn + 1) (values A add p (i : Nat) (j : Nat))) (fun i a b => a = (i : Int) ∧ b = (j : Int))
      (fun i ls D => writeCell_eq A add p hm ha j i ls D)]
    simp [Outcome.bind, writeBlank]
  have key := doLoop_fl A p.meqn p.q
    (fun j s => (doLoop (upTo p.mx) (writeCell A add p j) s).bind writeBlank)
    (fun j => (upTo p.mx).flatMap
      (fun i => format5 A (p.meqn + 1) (values A add p (i : Nat) (j : Nat))) ++ [blankLine])
    (fun j a b => ∃ i ∈ upTo p.mx, a = (i : Int) ∧ b = (j : Int)) hi (upTo p.my) (gridHeader A p) (fun _ _ => False)
  rw [fl_none] at key
  rw [key]
  congr 2
  funext m a b
  unfold fl Spec.after
  have hiff : (False ∨ ∃ k ∈ upTo p.my, ∃ i ∈ upTo p.mx, a = (i : Int) ∧ b = (k : Int)) ↔
      (1 ≤ a ∧ a ≤ p.mx) ∧ (1 ≤ b ∧ b ≤ p.my) := by
    simp only [mem_upTo, false_or]
    constructor
    · rintro ⟨k, hk, i, hi, h1, h2⟩
      omega
    · intro e
      exact ⟨b.toNat, by omega, a.toNat, by omega, by omega, by omega⟩
  by_cases e : (1 ≤ m ∧ m ≤ p.meqn) ∧ (1 ≤ a ∧ a ≤ p.mx) ∧ (1 ≤ b ∧ b ≤ p.my)
  · rw [if_pos e, if_pos ⟨e.1, hiff.2 e.2⟩]
  · rw [if_neg e, if_neg (fun h => e ⟨h.1, hiff.1 h.2⟩)]

theorem format5_few (A : Fmt R) (n : Nat) (vs : List R) (h : vs.length ≤ 5) :
    format5 A (n + 1) vs = [vs.flatMap A.e26] := by
  simp [format5, h]

theorem upTo_eq (n : Nat) : upTo n = (List.range n).map (· + 1) := by
  unfold upTo
  rw [List.range'_eq_map_range]
  apply List.map_congr_left
  intro x _
  omega

theorem values_line (A : Fmt R) (add : R → R → R) (p : Patch R) (h4 : p.meqn ≤ 4) (i j : Int) :
    format5 A (p.meqn + 1) (values A add p i j) = [cellLine A add p.meqn p.q p.aux i j] := by
  rw [format5_few A _ _ (by simp [values, upTo]; omega)]
  simp [values, cellLine, upTo_eq, List.flatMap_append, List.flatMap_map]

theorem lines_eq (A : Fmt R) (add : R → R → R) (p : Patch R) (h4 : p.meqn ≤ 4) :
    lines A add p = Spec.body A add p.mx p.my p.meqn p.q p.aux := by
  unfold lines Spec.body
  simp only [values_line A add p h4, upTo_eq, List.flatMap_map]
  apply List.flatMap_congr
  intro j _
  congr 1
  rw [← List.flatMap_singleton' (l := (List.range p.mx).map _), List.flatMap_map]
  rfl

theorem gridHeader_eq (A : Fmt R) (p : Patch R) : gridHeader A p =
    Spec.head A p.num p.level p.blockno p.mpirank p.mx p.my p.xlower p.ylower p.dx p.dy := rfl

/-! ### Files -/

theorem appends (name : Name) (ls : List Line) : ∀ fs : Files,
    (ls.map (Op.append name)).foldl apply fs =
      fun x => if x = name ∧ ls ≠ [] then some ((fs name).getD [] ++ ls) else fs x := by
  induction ls with
  | nil => intro fs; funext x; simp
  | cons l ls ih =>
    intro fs
    rw [List.map_cons, List.foldl_cons, ih]
    funext x
    by_cases hx : x = name
    · by_cases hl : ls = []
      · subst hl; simp [apply, hx]
      · simp [apply, hx, hl]
    · simp [apply, hx]

theorem frameName_ne (k : Nat) : frameName 'q' k ≠ frameName 't' k := by
  simp [frameName]

theorem digit_inj (a b : Nat) (h : digitAt a = digitAt b) : a % 10 = b % 10 := by
  have ha : a % 10 < 10 := Nat.mod_lt _ (by decide)
  have hb : b % 10 < 10 := Nat.mod_lt _ (by decide)
  unfold digitAt at h
  generalize a % 10 = x at *
  generalize b % 10 = y at *
  have := congrArg Char.toNat h
  interval_cases x <;> interval_cases y <;> simp_all

end Fclaw.GeoAscii

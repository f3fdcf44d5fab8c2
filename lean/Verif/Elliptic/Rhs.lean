import Verif.Elliptic.Lemmas
import Mathlib.Algebra.BigOperators.Group.Finset.Piecewise
/-
The corrections of the right-hand side: for neighbours and for boundary conditions.
-/
set_option autoImplicit false
set_option linter.unusedSimpArgs false
set_option linter.unusedVariables false
namespace Fclaw.Elliptic

open Fort
open Transfer (divide)

variable {I : Info} {op : Op}

/-- The program adds `δ` to the array. -/
def AddsTo (δ : Cell → ℚ) (f : Grid ℚ → Option (Grid ℚ)) : Prop := ∀ q, f q = some fun c => q c + δ c

theorem AddsTo.congr {δ ε : Cell → ℚ} {f : Grid ℚ → Option (Grid ℚ)} (h : AddsTo δ f) (e : ∀ c, δ c = ε c) :
    AddsTo ε f := by
  have : δ = ε := funext e
  rw [← this]; exact h

theorem AddsTo.seq {δ ε : Cell → ℚ} {f g : Grid ℚ → Option (Grid ℚ)} (hf : AddsTo δ f) (hg : AddsTo ε g) :
    AddsTo (fun c => δ c + ε c) (fun q => (f q).bind g) := by
  intro q
  beta_reduce
  rw [hf q, Option.bind_some, hg]
  simp only [add_assoc]

theorem AddsTo.ite {δ : Cell → ℚ} {f : Grid ℚ → Option (Grid ℚ)} (b : Bool) (hf : b = true → AddsTo δ f) :
    AddsTo (fun c => if b then δ c else 0) (fun q => if b then f q else some q) := by
  intro q
  cases b with
  | false => simp
  | true => simpa using hf rfl q

theorem AddsTo.loop {ι : Type} {δ : ι → Cell → ℚ} {f : ι → Grid ℚ → Option (Grid ℚ)} (ks : List ι)
    (h : ∀ k ∈ ks, AddsTo (δ k) (f k)) : AddsTo (fun c => (ks.map fun k => δ k c).sum) (Fort.loop ks f) := by
  induction ks with
  | nil => intro q; simp [Fort.loop]
  | cons k ks ih =>
    intro q
    have := ih fun k' hk' => h k' (List.mem_cons_of_mem _ hk')
    simp only [Fort.loop, h k (List.mem_cons_self ..) q, Option.bind_some, this _, List.map_cons, List.sum_cons, add_assoc]

theorem AddsTo.doLoop {lo hi : ℤ} {δ : ℤ → Cell → ℚ} {f : ℤ → Grid ℚ → Option (Grid ℚ)}
    (h : ∀ k, lo ≤ k → k ≤ hi → AddsTo (δ k) (f k)) :
    AddsTo (fun c => ∑ k ∈ Finset.Icc lo hi, δ k c) (Fort.doLoop lo hi f) := by
  refine (AddsTo.loop (δ := δ) (range lo hi) fun k hk => ?_).congr fun c => ?_
  · rw [mem_range] at hk; exact h k hk.1 hk.2
  · rw [range_sum]

theorem AddsTo.add {σ : ℚ} {c0 : Cell} (hb : inBox I.d c0 = true) (f : Grid ℚ → Option (Grid ℚ))
    (hf : ∀ q, f q = wr I.d q c0 (q c0 + σ)) : AddsTo (fun c => if c = c0 then σ else 0) f := by
  intro q
  rw [hf]
  unfold wr
  rw [if_pos hb]
  congr 1
  funext c
  by_cases h : c = c0
  · subst h; simp
  · simp [h]

/-! ### Neighbours -/

/-- What `modifyRhs` adds on the side `k` of a cell. -/
def faceTerm (I : Info) (op : Op) (u : Grid ℚ) (k : Nat) (i j m : ℤ) : ℚ :=
  -op.coeff k i j * (u (i, j, m) + u ((next k i j).1, (next k i j).2, m)) / I.h k ^ 2

theorem addFace_adds (hok : Ok I op) (u : Grid ℚ) (k : Nat) (hk : k < 4) (i j m : ℤ) (h : Inside I i j) (hf : Field I m)
    (a b a' b' m' : ℤ) (ha : a + 1 = i) (hb : b + 1 = j) (ha' : a' + 1 = (next k i j).1) (hb' : b' + 1 = (next k i j).2)
    (hm' : m' + 1 = m) (h2 : ℚ) (hh : h2 = I.h k * I.h k) :
    AddsTo (fun c => if c = (i, j, m) then faceTerm I op u k i j m else 0) (addFace I op u a b a' b' m' h2) := by
  have hf1 : Field I 1 := by unfold Field at hf ⊢; omega
  have hbox := box_of hok.mbc h hf
  have hbox1 := box_of hok.mbc h hf1
  have n1 : inBox I.d ((next k i j).1, (next k i j).2, m) = true := by
    obtain ⟨h1, h2, h3, h4, h5⟩ := hbox
    interval_cases k <;> assumption
  have n2 : inBox I.d ((next k i j).1, (next k i j).2, 1) = true := by
    obtain ⟨h1, h2, h3, h4, h5⟩ := hbox1
    interval_cases k <;> assumption
  have hk0 : I.h k ≠ 0 := by unfold Info.h; split; exacts [hok.dx, hok.dy]
  refine AddsTo.add hbox.1 _ fun q => ?_
  unfold addFace at' set'
  have hc : faceCoeff I op a b a' b' = some (op.coeff k i j) := by
    cases op with
    | varPoisson beta =>
      simp only [faceCoeff, at', ha, hb, ha', hb', zero_add, rd_eq beta _ hbox1.1, rd_eq beta _ n2, Option.bind_some, Op.coeff]
    | fivePoint => rfl
    | heat _ _ => rfl
  rw [hc]
  simp only [ha, hb, ha', hb', hm', rd_eq _ _ hbox.1, rd_eq _ _ n1, Option.bind_some, hh,
    divide_eq _ _ (mul_ne_zero hk0 hk0), faceTerm, pow_two]

theorem sum_place (lo hi a : ℤ) (P : ℤ → Prop) [DecidablePred P] (v : ℤ → ℚ) (hP : ∀ k, P k ↔ k = a) :
    (∑ k ∈ Finset.Icc lo hi, if P k then v k else 0) = if lo ≤ a ∧ a ≤ hi then v a else 0 := by
  have : ∀ k, (if P k then v k else 0) = if k = a then v k else 0 := fun k => by simp only [hP]
  simp only [this, Finset.sum_ite_eq', Finset.mem_Icc]

/-- The sum over the neighbours of a cell in a column (row), when it is written as in the loops. -/
theorem sum_side (M N : Nat) (c : Cell) (x : ℤ) (b : Bool) (v : ℤ → ℤ → ℚ) :
    (∑ m ∈ Finset.Icc 0 ((M : ℤ) - 1), ∑ j ∈ Finset.Icc 0 ((N : ℤ) - 1),
      if b then (if c = (x, j + 1, m + 1) then v (j + 1) (m + 1) else 0) else 0) =
    if b = true ∧ c.1 = x ∧ (1 ≤ c.2.1 ∧ c.2.1 ≤ N) ∧ 1 ≤ c.2.2 ∧ c.2.2 ≤ M then v c.2.1 c.2.2 else 0 := by
  obtain ⟨i, j0, m0⟩ := c
  cases b with
  | false => simp
  | true =>
    simp only [if_true, true_and, Prod.mk.injEq]
    by_cases hx : i = x
    · subst hx
      simp only [true_and]
      have : ∀ m : ℤ, (∑ j ∈ Finset.Icc 0 ((N : ℤ) - 1), if j0 = j + 1 ∧ m0 = m + 1 then v (j + 1) (m + 1) else 0) =
          if m = m0 - 1 then (if 0 ≤ j0 - 1 ∧ j0 - 1 ≤ N - 1 then v j0 m0 else 0) else 0 := by
        intro m
        by_cases hm : m = m0 - 1
        · rw [if_pos hm]
          have hm' : m0 = m + 1 := by omega
          rw [sum_place 0 (N - 1) (j0 - 1) (fun j => j0 = j + 1 ∧ m0 = m + 1) (fun j => v (j + 1) (m + 1))
            (fun k => by omega)]
          rw [← hm', sub_add_cancel]
        · rw [if_neg hm]
          refine Finset.sum_eq_zero fun j _ => ?_
          rw [if_neg]; omega
      simp only [this, Finset.sum_ite_eq', Finset.mem_Icc]
      by_cases h : (1 ≤ j0 ∧ j0 ≤ N) ∧ 1 ≤ m0 ∧ m0 ≤ M
      · rw [if_pos h, if_pos (by omega), if_pos (by omega)]
      · rw [if_neg h]
        by_cases h' : 0 ≤ m0 - 1 ∧ m0 - 1 ≤ (M : ℤ) - 1
        · rw [if_pos h', if_neg (by omega)]
        · rw [if_neg h']
    · simp [hx]

theorem sum_side' (M N : Nat) (c : Cell) (y : ℤ) (b : Bool) (v : ℤ → ℤ → ℚ) :
    (∑ m ∈ Finset.Icc 0 ((M : ℤ) - 1), ∑ i ∈ Finset.Icc 0 ((N : ℤ) - 1),
      if b then (if c = (i + 1, y, m + 1) then v (i + 1) (m + 1) else 0) else 0) =
    if b = true ∧ c.2.1 = y ∧ (1 ≤ c.1 ∧ c.1 ≤ N) ∧ 1 ≤ c.2.2 ∧ c.2.2 ≤ M then v c.1 c.2.2 else 0 := by
  rw [← sum_side M N (c.2.1, c.1, c.2.2) y b v]
  refine Finset.sum_congr rfl fun m _ => Finset.sum_congr rfl fun i _ => ?_
  have : c = (i + 1, y, m + 1) ↔ (c.2.1, c.1, c.2.2) = (y, i + 1, m + 1) := by
    obtain ⟨a, b, d⟩ := c
    simp only [Prod.mk.injEq]; tauto
  simp only [this]

theorem modifyRhs_adds (hok : Ok I op) (hc : Cells I) (u : Grid ℚ) :
    AddsTo (fun c => if Inside I c.1 c.2.1 ∧ Field I c.2.2 then
      ∑ k ∈ Finset.range 4, (if I.nbr k = true ∧ AtSide I k c.1 c.2.1 then faceTerm I op u k c.1 c.2.1 c.2.2 else 0) else 0)
      (modifyRhs I op u) := by
  have hx := hc.mx
  have hy := hc.my
  refine AddsTo.congr (AddsTo.doLoop fun m m1 m2 => AddsTo.seq
    (AddsTo.doLoop fun j j1 j2 => AddsTo.seq
      (AddsTo.ite _ fun _ => addFace_adds hok u 0 (by omega) 1 (j + 1) (m + 1) ?_ ?_ 0 j (-1) j m ?_ ?_ ?_ ?_ ?_ _ ?_)
      (AddsTo.ite _ fun _ => addFace_adds hok u 1 (by omega) I.d.mx (j + 1) (m + 1) ?_ ?_ (I.d.mx - 1) j I.d.mx j m ?_ ?_ ?_ ?_ ?_ _ ?_))
    (AddsTo.doLoop fun i i1 i2 => AddsTo.seq
      (AddsTo.ite _ fun _ => addFace_adds hok u 2 (by omega) (i + 1) 1 (m + 1) ?_ ?_ i 0 i (-1) m ?_ ?_ ?_ ?_ ?_ _ ?_)
      (AddsTo.ite _ fun _ => addFace_adds hok u 3 (by omega) (i + 1) I.d.my (m + 1) ?_ ?_ i (I.d.my - 1) i I.d.my m ?_ ?_ ?_ ?_ ?_ _ ?_))) ?_
  all_goals first
    | (unfold Inside; omega)
    | (unfold Field; omega)
    | rfl
    | (simp only [next]; omega)
    | omega
    | skip
  rintro ⟨i, j, m⟩
  simp only [Finset.sum_add_distrib]
  rw [sum_side I.d.meqn I.d.my (i, j, m) 1 (I.nbr 0) (fun j m => faceTerm I op u 0 1 j m),
    sum_side I.d.meqn I.d.my (i, j, m) I.d.mx (I.nbr 1) (fun j m => faceTerm I op u 1 I.d.mx j m),
    sum_side' I.d.meqn I.d.mx (i, j, m) 1 (I.nbr 2) (fun i m => faceTerm I op u 2 i 1 m),
    sum_side' I.d.meqn I.d.mx (i, j, m) I.d.my (I.nbr 3) (fun i m => faceTerm I op u 3 i I.d.my m)]
  simp only [Finset.sum_range_succ, Finset.sum_range_zero, AtSide, Inside, Field]
  by_cases h : ((1 ≤ i ∧ i ≤ I.d.mx) ∧ 1 ≤ j ∧ j ≤ I.d.my) ∧ 1 ≤ m ∧ m ≤ I.d.meqn
  · rw [if_pos h, zero_add, ← add_assoc]
    congr 1
    · congr 1
      · congr 1
        · by_cases e : I.nbr 0 = true ∧ i = 1
          · rw [if_pos ⟨e.1, e.2, h.1.2, h.2⟩, if_pos e, e.2]
          · rw [if_neg (by tauto), if_neg e]
        · by_cases e : I.nbr 1 = true ∧ i = I.d.mx
          · rw [if_pos ⟨e.1, e.2, h.1.2, h.2⟩, if_pos e, e.2]
          · rw [if_neg (by tauto), if_neg e]
      · by_cases e : I.nbr 2 = true ∧ j = 1
        · rw [if_pos ⟨e.1, e.2, h.1.1, h.2⟩, if_pos e, e.2]
        · rw [if_neg (by tauto), if_neg e]
    · by_cases e : I.nbr 3 = true ∧ j = I.d.my
      · rw [if_pos ⟨e.1, e.2, h.1.1, h.2⟩, if_pos e, e.2]
      · rw [if_neg (by tauto), if_neg e]
  · rw [if_neg h, if_neg (by omega), if_neg (by omega), if_neg (by omega), if_neg (by omega)]
    ring

end Fclaw.Elliptic

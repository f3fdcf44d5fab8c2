import Verif.Wave3.Spec
import Verif.Fort.Loops
import Mathlib.Algebra.BigOperators.Group.Finset.Piecewise
import Mathlib.Tactic.Ring
import Mathlib.Tactic.Linarith
/-
Loops that add to arrays, and loops that assign.
-/
set_option autoImplicit false
set_option linter.unusedSimpArgs false
namespace Fclaw.Wave3

open Fort (range mem_range range_sum)

variable {α : Type}

/-! ### Adding -/

/-- The program adds `δ`. -/
def Adds (δ : α → ℚ) (f : (α → ℚ) → α → ℚ) : Prop := ∀ M l, f M l = M l + δ l

theorem Adds.congr {δ ε : α → ℚ} {f : (α → ℚ) → α → ℚ} (h : Adds δ f) (e : ∀ l, δ l = ε l) : Adds ε f := by
  intro M l; rw [h, e]

theorem Adds.comp {δ ε : α → ℚ} {f g : (α → ℚ) → α → ℚ} (hf : Adds δ f) (hg : Adds ε g) :
    Adds (fun l => δ l + ε l) fun M => g (f M) := by
  intro M l; show g (f M) l = M l + (δ l + ε l); rw [hg, hf, add_assoc]

/-- A list of additions. -/
def sumAt [DecidableEq α] (l : α) : List (α × ℚ) → ℚ
  | [] => 0
  | x :: xs => (if l = x.1 then x.2 else 0) + sumAt l xs

theorem sumAt_append [DecidableEq α] (l : α) (xs ys : List (α × ℚ)) : sumAt l (xs ++ ys) = sumAt l xs + sumAt l ys := by
  induction xs with
  | nil => simp [sumAt]
  | cons x xs ih => simp only [List.cons_append, sumAt, ih, add_assoc]

theorem sumAt_ite [DecidableEq α] (l : α) (P : Prop) [Decidable P] (xs : List (α × ℚ)) :
    sumAt l (if P then xs else []) = if P then sumAt l xs else 0 := by
  split <;> rfl

theorem addAll_adds [DecidableEq α] (xs : List (α × ℚ)) : Adds (fun l => sumAt l xs) (addAll xs) := by
  induction xs with
  | nil => intro M l; simp [addAll, sumAt]
  | cons x xs ih =>
    intro M l
    have := ih (add x.1 x.2 M) l
    unfold addAll at this ⊢
    rw [List.foldl_cons, this]
    show add x.1 x.2 M l + sumAt l xs = M l + ((if l = x.1 then x.2 else 0) + sumAt l xs)
    unfold add
    split <;> ring

theorem foldl_adds {ι : Type} {δ : ι → α → ℚ} {f : ι → (α → ℚ) → α → ℚ} (ks : List ι) (h : ∀ k ∈ ks, Adds (δ k) (f k)) :
    Adds (fun l => (ks.map fun k => δ k l).sum) fun M => ks.foldl (fun s k => f k s) M := by
  induction ks with
  | nil => intro M l; simp
  | cons k ks ih =>
    intro M l
    have := ih fun k' hk' => h k' (List.mem_cons_of_mem _ hk')
    simp only [List.foldl_cons, List.map_cons, List.sum_cons]
    have e := this (f k M) l
    beta_reduce at e
    rw [e, h k (List.mem_cons_self ..), add_assoc]

theorem loop_adds {lo hi : ℤ} {δ : ℤ → α → ℚ} {f : ℤ → (α → ℚ) → α → ℚ} (h : ∀ k, lo ≤ k → k ≤ hi → Adds (δ k) (f k)) :
    Adds (fun l => ∑ k ∈ Finset.Icc lo hi, δ k l) (loop lo hi f) := by
  refine (foldl_adds (range lo hi) fun k hk => ?_).congr fun l => range_sum lo hi _
  rw [mem_range] at hk
  exact h k hk.1 hk.2

/-- The same for a number. -/
theorem loop_sum (lo hi : ℤ) (f : ℤ → ℚ) (c : ℚ) : loop lo hi (fun k s => s + f k) c = c + ∑ k ∈ Finset.Icc lo hi, f k := by
  have := loop_adds (α := Unit) (lo := lo) (hi := hi) (δ := fun k _ => f k) (f := fun k M => fun l => M l + f k)
    (fun k _ _ => fun M l => rfl) (fun _ => c) ()
  rw [← this]
  unfold loop
  generalize range lo hi = ks
  suffices h : ∀ (ks : List ℤ) (g : Unit → ℚ), ks.foldl (fun s k => s + f k) (g ()) =
      ks.foldl (fun s k => (fun l : Unit => s l + f k)) g () from h ks fun _ => c
  intro ks
  induction ks with
  | nil => intro g; rfl
  | cons k ks ih => intro g; exact ih fun l => g l + f k

/-! ### Sums in which one term is left -/

theorem sum_at (lo hi a : ℤ) (f : ℤ → ℚ) :
    (∑ i ∈ Finset.Icc lo hi, if a = i then f i else 0) = if lo ≤ a ∧ a ≤ hi then f a else 0 := by
  rw [Finset.sum_ite_eq]; simp only [Finset.mem_Icc]

theorem sum_at_add (lo hi a e : ℤ) (f : ℤ → ℚ) :
    (∑ i ∈ Finset.Icc lo hi, if a = i + e then f i else 0) = if lo ≤ a - e ∧ a - e ≤ hi then f (a - e) else 0 := by
  rw [← sum_at]
  refine Finset.sum_congr rfl fun i _ => ?_
  refine if_congr ?_ rfl rfl
  constructor <;> intro h <;> omega

theorem sum_at_sub (lo hi a e : ℤ) (f : ℤ → ℚ) :
    (∑ i ∈ Finset.Icc lo hi, if a = i - e then f i else 0) = if lo ≤ a + e ∧ a + e ≤ hi then f (a + e) else 0 := by
  rw [← sum_at]
  refine Finset.sum_congr rfl fun i _ => ?_
  refine if_congr ?_ rfl rfl
  constructor <;> intro h <;> omega

theorem sum_if (lo hi : ℤ) (P : Prop) [Decidable P] (f : ℤ → ℚ) :
    (∑ i ∈ Finset.Icc lo hi, if P then f i else 0) = if P then ∑ i ∈ Finset.Icc lo hi, f i else 0 := by
  split
  · rfl
  · exact Finset.sum_const_zero

/-! ### Largest numbers -/

/-- A loop that takes the largest of what it had and what it finds. -/
theorem loop_max {P : ℤ → ℚ → Prop} {lo hi : ℤ} {f : ℤ → ℚ → ℚ}
    (h : ∀ k, lo ≤ k → k ≤ hi → ∀ c, c ≤ f k c ∧ (∀ x, P k x → x ≤ f k c) ∧ (f k c = c ∨ P k (f k c))) (c : ℚ) :
    c ≤ loop lo hi f c ∧ (∀ x, (∃ k, (lo ≤ k ∧ k ≤ hi) ∧ P k x) → x ≤ loop lo hi f c) ∧
      (loop lo hi f c = c ∨ ∃ k, (lo ≤ k ∧ k ≤ hi) ∧ P k (loop lo hi f c)) := by
  unfold loop
  have hm : ∀ k, k ∈ range lo hi ↔ lo ≤ k ∧ k ≤ hi := mem_range lo hi
  suffices g : ∀ (ks : List ℤ), (∀ k ∈ ks, lo ≤ k ∧ k ≤ hi) → ∀ c : ℚ,
      c ≤ ks.foldl (fun s k => f k s) c ∧ (∀ x, (∃ k ∈ ks, P k x) → x ≤ ks.foldl (fun s k => f k s) c) ∧
        (ks.foldl (fun s k => f k s) c = c ∨ ∃ k ∈ ks, P k (ks.foldl (fun s k => f k s) c)) by
    obtain ⟨g1, g2, g3⟩ := g (range lo hi) (fun k hk => (hm k).1 hk) c
    refine ⟨g1, fun x hx => ?_, ?_⟩
    · obtain ⟨k, hk, hP⟩ := hx
      exact g2 x ⟨k, (hm k).2 hk, hP⟩
    · rcases g3 with g3 | ⟨k, hk, hP⟩
      · exact Or.inl g3
      · exact Or.inr ⟨k, (hm k).1 hk, hP⟩
  intro ks
  induction ks with
  | nil => intro _ c; exact ⟨le_refl _, fun x hx => by simp at hx, Or.inl rfl⟩
  | cons k ks ih =>
    intro hks c
    obtain ⟨h1, h2, h3⟩ := h k (hks k (List.mem_cons_self ..)).1 (hks k (List.mem_cons_self ..)).2 c
    obtain ⟨i1, i2, i3⟩ := ih (fun k' hk' => hks k' (List.mem_cons_of_mem _ hk')) (f k c)
    rw [List.foldl_cons]
    refine ⟨le_trans h1 i1, ?_, ?_⟩
    · rintro x ⟨k', hk', hP⟩
      rcases List.mem_cons.1 hk' with rfl | hk'
      · exact le_trans (h2 x hP) i1
      · exact i2 x ⟨k', hk', hP⟩
    · rcases i3 with i3 | ⟨k', hk', hP⟩
      · rw [i3]
        rcases h3 with h3 | h3
        · exact Or.inl h3
        · exact Or.inr ⟨k, List.mem_cons_self .., h3⟩
      · exact Or.inr ⟨k', List.mem_cons_of_mem _ hk', hP⟩

/-! ### Invariants -/

theorem loop_inv {σ : Type} {lo hi : ℤ} (I : ℤ → σ → Prop) (f : ℤ → σ → σ) (s : σ) (hle : lo ≤ hi + 1) (h0 : I lo s)
    (hs : ∀ k s, lo ≤ k → k ≤ hi → I k s → I (k + 1) (f k s)) : I (hi + 1) (loop lo hi f s) := by
  unfold loop range
  rw [List.foldl_map]
  suffices g : ∀ n : Nat, (n : ℤ) ≤ hi + 1 - lo →
      I (lo + n) ((List.range n).foldl (fun s (k : Nat) => f (lo + (k : ℤ)) s) s) by
    have e : (((hi + 1 - lo).toNat : Nat) : ℤ) = hi + 1 - lo := Int.toNat_of_nonneg (by omega)
    have := g (hi + 1 - lo).toNat (by omega)
    rw [e] at this
    have e2 : lo + (hi + 1 - lo) = hi + 1 := by ring
    rwa [e2] at this
  intro n
  induction n with
  | zero => intro _; simpa using h0
  | succ n ih =>
    intro hn
    rw [List.range_succ, List.foldl_append, List.foldl_cons, List.foldl_nil]
    have hn' : (n : ℤ) ≤ hi + 1 - lo := by push_cast at hn; omega
    have := hs (lo + n) _ (by omega) (by push_cast at hn; omega) (ih hn')
    have e : lo + ((n + 1 : Nat) : ℤ) = lo + n + 1 := by push_cast; ring
    rw [e]; exact this

/-! ### Assigning -/

/-- The program changes only elements in `D`, and gives them the values `v`, as long as the elements outside `C` are those
of `M0`. -/
def Assigns (M0 : α → ℚ) (C D : α → Prop) (v : α → ℚ) (f : (α → ℚ) → α → ℚ) : Prop :=
  ∀ M, (∀ l, ¬C l → M l = M0 l) → ∀ l, (D l → f M l = v l) ∧ (¬D l → f M l = M l)

theorem loop_assigns {M0 : α → ℚ} {C : α → Prop} {v : α → ℚ} {lo hi : ℤ} {D : ℤ → α → Prop} {f : ℤ → (α → ℚ) → α → ℚ}
    (hDC : ∀ k l, lo ≤ k → k ≤ hi → D k l → C l) (h : ∀ k, lo ≤ k → k ≤ hi → Assigns M0 C (D k) v (f k)) :
    Assigns M0 C (fun l => ∃ k, (lo ≤ k ∧ k ≤ hi) ∧ D k l) v (loop lo hi f) := by
  unfold loop
  have hm : ∀ k, k ∈ range lo hi ↔ lo ≤ k ∧ k ≤ hi := mem_range lo hi
  suffices g : ∀ (ks : List ℤ), (∀ k ∈ ks, lo ≤ k ∧ k ≤ hi) →
      Assigns M0 C (fun l => ∃ k ∈ ks, D k l) v fun M => ks.foldl (fun s k => f k s) M by
    have := g (range lo hi) fun k hk => (hm k).1 hk
    simp only [hm] at this
    exact this
  intro ks
  induction ks with
  | nil => intro _ M _ l; simp
  | cons k ks ih =>
    intro hks M hM l
    have hk := hks k (List.mem_cons_self ..)
    have h1 := h k hk.1 hk.2 M hM
    have h2 := ih (fun k' hk' => hks k' (List.mem_cons_of_mem _ hk')) (f k M) (fun l hl => by
      rw [(h1 l).2 fun hD => hl (hDC k l hk.1 hk.2 hD)]; exact hM l hl) l
    beta_reduce at h2
    simp only [List.foldl_cons]
    constructor
    · rintro ⟨k', hk', hD⟩
      by_cases hin : ∃ k ∈ ks, D k l
      · exact h2.1 hin
      · rw [h2.2 hin]
        rcases List.mem_cons.1 hk' with rfl | hk'
        · exact (h1 l).1 hD
        · exact absurd ⟨k', hk', hD⟩ hin
    · intro hno
      rw [h2.2 fun ⟨k', hk', hD⟩ => hno ⟨k', List.mem_cons_of_mem _ hk', hD⟩,
        (h1 l).2 fun hD => hno ⟨k, List.mem_cons_self .., hD⟩]

end Fclaw.Wave3

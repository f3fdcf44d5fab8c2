/-
Lemmas for C73.
-/
import Verif.Metric.Spec
import Verif.Fort.Loops
import Verif.Transfer.Lemmas
import Mathlib.Algebra.BigOperators.Ring.Finset
import Mathlib.Tactic.Ring
import Mathlib.Tactic.FieldSimp
import Mathlib.Tactic.Linarith

set_option autoImplicit false
set_option linter.unusedSimpArgs false
set_option linter.unusedVariables false
set_option linter.unusedSectionVars false
namespace Fclaw.Metric

open Fort Transfer

/-! ### Loops that set elements -/

/-- The program sets the elements in `S` of an array in the state to the values `w`, and no others. -/
def Sets {σ κ α : Type} (get : σ → κ → α) (S : κ → Prop) (w : κ → α) (f : σ → Option σ) : Prop :=
  ∀ s, ∃ s', f s = some s' ∧ (∀ c, S c → get s' c = w c) ∧ ∀ c, ¬ S c → get s' c = get s c

section
variable {σ κ α : Type} (get : σ → κ → α)

theorem Sets.congr {S T : κ → Prop} {w : κ → α} {f : σ → Option σ} (h : Sets get S w f) (hst : ∀ c, S c ↔ T c) :
    Sets get T w f := by
  intro q
  obtain ⟨q', h1, h2, h3⟩ := h q
  exact ⟨q', h1, fun c hc => h2 c ((hst c).2 hc), fun c hc => h3 c fun h => hc ((hst c).1 h)⟩

theorem Sets.loop {ι : Type} (S : ι → κ → Prop) (w : κ → α) (f : ι → σ → Option σ) (ks : List ι) :
    (∀ k ∈ ks, Sets get (S k) w (f k)) → Sets get (fun c => ∃ k ∈ ks, S k c) w (Fort.loop ks f) := by
  induction ks with
  | nil =>
    intro _ q
    exact ⟨q, rfl, fun c ⟨k, hk, _⟩ => by simp at hk, fun c _ => rfl⟩
  | cons k ks ih =>
    intro h q
    obtain ⟨q1, e1, a1, b1⟩ := h k (List.mem_cons_self ..) q
    obtain ⟨q2, e2, a2, b2⟩ := ih (fun k' hk' => h k' (List.mem_cons_of_mem _ hk')) q1
    refine ⟨q2, by simp [Fort.loop, e1, e2], ?_, ?_⟩
    · rintro c ⟨k', hk', hs⟩
      by_cases hc : ∃ k ∈ ks, S k c
      · exact a2 c hc
      · rw [b2 c hc]
        rcases List.mem_cons.1 hk' with rfl | hk'
        · exact a1 c hs
        · exact absurd ⟨k', hk', hs⟩ hc
    · intro c hc
      rw [b2 c (fun ⟨k', hk', hs⟩ => hc ⟨k', List.mem_cons_of_mem _ hk', hs⟩),
        b1 c (fun hs => hc ⟨k, List.mem_cons_self .., hs⟩)]

theorem Sets.doLoop (S : ℤ → κ → Prop) (w : κ → α) (f : ℤ → σ → Option σ) (lo hi : ℤ)
    (h : ∀ k, lo ≤ k → k ≤ hi → Sets get (S k) w (f k)) :
    Sets get (fun c => ∃ k, lo ≤ k ∧ k ≤ hi ∧ S k c) w (Fort.doLoop lo hi f) := by
  refine (Sets.loop get S w f (range lo hi) fun k hk => ?_).congr get fun c => ?_
  · rw [mem_range] at hk; exact h k hk.1 hk.2
  · simp only [mem_range, and_assoc]

end

theorem inArea_iff (d : Dims) (c : ℤ × ℤ) : inArea d c = true ↔ Stored d c := by
  simp [inArea, Stored, and_assoc]

theorem inStore_iff (r : ℤ) (c : ℤ × ℤ) : inStore r c = true ↔ (0 ≤ c.1 ∧ c.1 ≤ r) ∧ 0 ≤ c.2 ∧ c.2 ≤ r := by
  simp [inStore, and_assoc]

theorem Sets.wrA {A : Type} (d : Dims) (c : ℤ × ℤ) (v : A) (w : ℤ × ℤ → A) (hb : Stored d c) (hv : v = w c) :
    Sets (fun (a : Areas A) => a) (fun c' => c' = c) w (fun a => Metric.wrA d a c v) := by
  intro q
  refine ⟨fun c' => if c' = c then v else q c', by simp only [Metric.wrA]; rw [if_pos ((inArea_iff d c).2 hb)], ?_, ?_⟩
  · intro c' h
    show (if c' = c then v else q c') = w c'
    rw [if_pos h, hv, h]
  · intro c' h
    show (if c' = c then v else q c') = q c'
    rw [if_neg h]

theorem Sets.wrS {P : Type} (r : ℤ) (c : ℤ × ℤ) (v : P) (w : ℤ × ℤ → P) (hb : (0 ≤ c.1 ∧ c.1 ≤ r) ∧ 0 ≤ c.2 ∧ c.2 ≤ r)
    (hv : v = w c) : Sets (fun (a : Store P) => a) (fun c' => c' = c) w (fun a => Metric.wrS r a c v) := by
  intro q
  refine ⟨fun c' => if c' = c then v else q c', by simp only [Metric.wrS]; rw [if_pos ((inStore_iff r c).2 hb)], ?_, ?_⟩
  · intro c' h
    show (if c' = c then v else q c') = w c'
    rw [if_pos h, hv, h]
  · intro c' h
    show (if c' = c then v else q c') = q c'
    rw [if_neg h]

/-- A loop that adds up. -/
theorem loop_sum {A ι : Type} [AddCommMonoid A] (f : ι → A → Option A) (v : ι → A) (ks : List ι) :
    (∀ k ∈ ks, ∀ s, f k s = some (s + v k)) → ∀ s, Fort.loop ks f s = some (s + (ks.map v).sum) := by
  induction ks with
  | nil => intro _ s; simp [Fort.loop]
  | cons k ks ih =>
    intro h s
    have h1 := h k (List.mem_cons_self ..) s
    have h2 := ih (fun k' hk' => h k' (List.mem_cons_of_mem _ hk')) (s + v k)
    simp [Fort.loop, h1, h2, add_assoc]

theorem doLoop_sum {A : Type} [AddCommMonoid A] (f : ℤ → A → Option A) (v : ℤ → A) (lo hi : ℤ)
    (h : ∀ k, lo ≤ k → k ≤ hi → ∀ s, f k s = some (s + v k)) (s : A) :
    doLoop lo hi f s = some (s + ∑ k ∈ Finset.Icc lo hi, v k) := by
  unfold doLoop
  rw [loop_sum f v (range lo hi) (fun k hk => by rw [mem_range] at hk; exact h k hk.1 hk.2), range_sum]

/-! ### Values -/

section
variable {K P A : Type} [Field K] [CharZero K] [AddCommMonoid A]

/-- Sum over `r` by `r` of them. -/
noncomputable def block (M : Map K P A) (h k : K) (r a b : ℤ) : A :=
  ∑ X ∈ Finset.Ico (r * a) (r * (a + 1)), ∑ Y ∈ Finset.Ico (r * b) (r * (b + 1)), small M h k X Y

/-- The area of a cell. -/
noncomputable def value (d : Dims) (M : Map K P A) (maxlevel : Nat) (Q : Quad) (c : ℤ × ℤ) : A :=
  block M (1 / 2 ^ maxlevel / (d.mx : K)) (1 / 2 ^ maxlevel / (d.my : K)) (2 ^ (maxlevel - Q.level) : Nat)
    (Q.x * d.mx + (c.1 - 1)) (Q.y * d.my + (c.2 - 1))

theorem Ico_double {B : Type} [AddCommMonoid B] (s a : ℤ) (hs : 0 ≤ s) (f : ℤ → B) :
    ∑ X ∈ Finset.Ico (2 * s * a) (2 * s * (a + 1)), f X =
      (∑ X ∈ Finset.Ico (s * (2 * a)) (s * (2 * a + 1)), f X) + ∑ X ∈ Finset.Ico (s * (2 * a + 1)) (s * (2 * a + 1 + 1)), f X := by
  have e1 : 2 * s * a = s * (2 * a) := by ring
  have e2 : 2 * s * (a + 1) = s * (2 * a + 1 + 1) := by ring
  have i1 : s * (2 * a) ≤ s * (2 * a + 1) := by nlinarith
  have i2 : s * (2 * a + 1) ≤ s * (2 * a + 1 + 1) := by nlinarith
  rw [e1, e2, ← Finset.Ico_union_Ico_eq_Ico i1 i2, Finset.sum_union (Finset.Ico_disjoint_Ico_consecutive _ _ _)]

/-- A block is made of four blocks of half the size. -/
theorem block_double (M : Map K P A) (h k : K) (s a b : ℤ) (hs : 0 ≤ s) :
    block M h k (2 * s) a b =
      block M h k s (2 * a) (2 * b) + block M h k s (2 * a + 1) (2 * b) +
      (block M h k s (2 * a) (2 * b + 1) + block M h k s (2 * a + 1) (2 * b + 1)) := by
  unfold block
  simp only [Ico_double s _ hs]
  simp only [Finset.sum_add_distrib]
  ac_rfl

theorem block_one (M : Map K P A) (h k : K) (a b : ℤ) : block M h k 1 a b = small M h k a b := by
  unfold block
  simp only [one_mul]
  have : ∀ a : ℤ, Finset.Ico a (a + 1) = {a} := by
    intro a; ext x; simp only [Finset.mem_Ico, Finset.mem_singleton]; omega
  rw [this, this, Finset.sum_singleton, Finset.sum_singleton]

/-- For an affine map one large quadrilateral is as good as many small ones. -/
theorem small_pow (M : Map K P A) (hM : Splits M) (ha : M.affine = true) (h k : K) (n : Nat) : ∀ X Y : ℤ,
    small M (2 ^ n * h) (2 ^ n * k) X Y = block M h k ((2 ^ n : Nat) : ℤ) X Y := by
  induction n with
  | zero => intro X Y; simp [block_one]
  | succ n ih =>
    intro X Y
    have e : ((2 ^ (n + 1) : Nat) : ℤ) = 2 * ((2 ^ n : Nat) : ℤ) := by push_cast; ring
    have e1 : (2 : K) ^ (n + 1) * h = 2 * (2 ^ n * h) := by ring
    have e2 : (2 : K) ^ (n + 1) * k = 2 * (2 ^ n * k) := by ring
    rw [e, block_double M h k _ X Y (by positivity), e1, e2, hM ha, ih, ih, ih, ih]

/-- The area of a coarse cell is the sum of those of the four fine cells. -/
theorem value_split (d : Dims) (hE : Even2 d) (M : Map K P A) (maxlevel : Nat) (Q : Quad) (hl : Q.level < maxlevel) (g i j : ℤ) :
    value d M maxlevel Q (g % 2 * ((d.mx : ℤ) / 2) + i, g / 2 * ((d.my : ℤ) / 2) + j) =
      value d M maxlevel (Q.child g) (2 * i - 1, 2 * j - 1) + value d M maxlevel (Q.child g) (2 * i, 2 * j - 1) +
      (value d M maxlevel (Q.child g) (2 * i - 1, 2 * j) + value d M maxlevel (Q.child g) (2 * i, 2 * j)) := by
  obtain ⟨e1, e2, e3, e4⟩ := hE
  obtain ⟨nx, hx⟩ : ∃ n : ℤ, (d.mx : ℤ) = 2 * n := ⟨(d.mx : ℤ) / 2, by omega⟩
  obtain ⟨ny, hy⟩ : ∃ n : ℤ, (d.my : ℤ) = 2 * n := ⟨(d.my : ℤ) / 2, by omega⟩
  have q1 : (d.mx : ℤ) / 2 = nx := by omega
  have q2 : (d.my : ℤ) / 2 = ny := by omega
  unfold value
  simp only [Quad.child]
  have er : ((2 ^ (maxlevel - Q.level) : Nat) : ℤ) = 2 * ((2 ^ (maxlevel - (Q.level + 1)) : Nat) : ℤ) := by
    rw [show maxlevel - Q.level = (maxlevel - (Q.level + 1)) + 1 by omega, pow_succ]
    push_cast; ring
  rw [er, block_double _ _ _ _ _ _ (by positivity)]
  rw [q1, q2, hx, hy]
  congr 1 <;> congr 1 <;> congr 1 <;> ring

/-! ### The programs -/

theorem fillStore_spec (M : Map K P A) (r : ℤ) (xe ye dxf dyf : K) (s : Store P) :
    ∃ s', fillStore M r xe ye dxf dyf s = some s' ∧
      ∀ ii jj : ℤ, 0 ≤ ii → ii ≤ r → 0 ≤ jj → jj ≤ r → s' (ii, jj) = M.c2m (xe + ii * dxf) (ye + jj * dyf) := by
  have H := Sets.doLoop (fun (a : Store P) => a) (fun ii c => ∃ jj, 0 ≤ jj ∧ jj ≤ r ∧ c = (ii, jj))
    (fun c => M.c2m (xe + c.1 * dxf) (ye + c.2 * dyf))
    (fun ii => doLoop 0 r fun jj s => wrS r s (ii, jj) (M.c2m (xe + ii * dxf) (ye + jj * dyf))) 0 r
    (fun ii h1 h2 => Sets.doLoop (fun (a : Store P) => a) (fun jj c => c = (ii, jj)) _ _ 0 r
      (fun jj h3 h4 => Sets.wrS r (ii, jj) _ _ ⟨⟨h1, h2⟩, h3, h4⟩ rfl))
  obtain ⟨s', e, a, _⟩ := H s
  exact ⟨s', e, fun ii jj h1 h2 h3 h4 => a (ii, jj) ⟨ii, h1, h2, jj, h3, h4, rfl⟩⟩

theorem sumArea_spec (M : Map K P A) (r : ℤ) (s : Store P) :
    sumArea M r s = some (∑ ii ∈ Finset.Icc 0 (r - 1), ∑ jj ∈ Finset.Icc 0 (r - 1),
      M.elem (s (ii, jj)) (s (ii + 1, jj)) (s (ii, jj + 1)) (s (ii + 1, jj + 1))) := by
  unfold sumArea
  rw [doLoop_sum _ (fun ii => ∑ jj ∈ Finset.Icc 0 (r - 1),
      M.elem (s (ii, jj)) (s (ii + 1, jj)) (s (ii, jj + 1)) (s (ii + 1, jj + 1))), zero_add]
  intro ii h1 h2 a
  refine doLoop_sum _ _ _ _ (fun jj h3 h4 b => ?_) a
  have rds : ∀ x y : ℤ, 0 ≤ x → x ≤ r → 0 ≤ y → y ≤ r → rdS r s (x, y) = some (s (x, y)) := by
    intro x y a1 a2 a3 a4
    rw [rdS, if_pos ((inStore_iff r (x, y)).2 ⟨⟨a1, a2⟩, a3, a4⟩)]
  rw [rds ii jj h1 (by omega) h3 (by omega), rds (ii + 1) jj (by omega) (by omega) h3 (by omega),
    rds ii (jj + 1) h1 (by omega) (by omega) (by omega), rds (ii + 1) (jj + 1) (by omega) (by omega) (by omega) (by omega)]
  rfl

theorem sum_shift {B : Type} [AddCommMonoid B] (r a : ℤ) (f : ℤ → B) :
    ∑ ii ∈ Finset.Icc 0 (r - 1), f (r * a + ii) = ∑ X ∈ Finset.Ico (r * a) (r * (a + 1)), f X := by
  have e : r * (a + 1) = r * a + r := by ring
  rw [e]
  refine Finset.sum_bij (fun ii _ => r * a + ii) ?_ ?_ ?_ ?_
  · intro x hx; rw [Finset.mem_Icc] at hx; rw [Finset.mem_Ico]; omega
  · intro x _ y _ h; omega
  · intro y hy; rw [Finset.mem_Ico] at hy
    exact ⟨y - r * a, by rw [Finset.mem_Icc]; omega, by omega⟩
  · intro x _; rfl

theorem coord (x i ii : ℤ) (n : Nat) (hn : n ≠ 0) (l m : Nat) (hl : l ≤ m) :
    (x : K) * (1 / 2 ^ l) + ((i - 1 : ℤ) : K) * (1 / 2 ^ l / (n : K)) +
      (ii : K) * (1 / 2 ^ l / (n : K) / (((2 ^ (m - l) : Nat) : ℤ) : K)) =
    ((((2 ^ (m - l) : Nat) : ℤ) * (x * n + (i - 1)) + ii : ℤ) : K) * (1 / 2 ^ m / (n : K)) := by
  have h1 : (n : K) ≠ 0 := by exact_mod_cast hn
  obtain ⟨k, rfl⟩ := Nat.exists_eq_add_of_le hl
  have h2 : (2 : K) ≠ 0 := two_ne_zero
  rw [Nat.add_sub_cancel_left]
  push_cast
  rw [pow_add]
  field_simp

/-- The general computation in one cell. -/
theorem cell_general (d : Dims) (hE : Even2 d) (M : Map K P A) (maxlevel : Nat) (Q : Quad) (hl : Q.level ≤ maxlevel)
    (i j : ℤ) (s : Store P) :
    ∃ s', fillStore M ((2 ^ (maxlevel - Q.level) : Nat) : ℤ) ((Q.geom d : Geom K).xlower + ((i - 1 : ℤ) : K) * (Q.geom d : Geom K).dx)
        ((Q.geom d : Geom K).ylower + ((j - 1 : ℤ) : K) * (Q.geom d : Geom K).dy)
        ((Q.geom d : Geom K).dx / (((2 ^ (maxlevel - Q.level) : Nat) : ℤ) : K))
        ((Q.geom d : Geom K).dy / (((2 ^ (maxlevel - Q.level) : Nat) : ℤ) : K)) s = some s' ∧
      sumArea M ((2 ^ (maxlevel - Q.level) : Nat) : ℤ) s' = some (value d M maxlevel Q (i, j)) := by
  obtain ⟨s', e, a⟩ := fillStore_spec M ((2 ^ (maxlevel - Q.level) : Nat) : ℤ)
    ((Q.geom d : Geom K).xlower + ((i - 1 : ℤ) : K) * (Q.geom d : Geom K).dx)
    ((Q.geom d : Geom K).ylower + ((j - 1 : ℤ) : K) * (Q.geom d : Geom K).dy)
    ((Q.geom d : Geom K).dx / (((2 ^ (maxlevel - Q.level) : Nat) : ℤ) : K))
    ((Q.geom d : Geom K).dy / (((2 ^ (maxlevel - Q.level) : Nat) : ℤ) : K)) s
  refine ⟨s', e, ?_⟩
  rw [sumArea_spec]
  congr 1
  have hx : d.mx ≠ 0 := by have := hE.1; omega
  have hy : d.my ≠ 0 := by have := hE.2.1; omega
  have a' : ∀ ii jj : ℤ, 0 ≤ ii → ii ≤ ((2 ^ (maxlevel - Q.level) : Nat) : ℤ) → 0 ≤ jj → jj ≤ ((2 ^ (maxlevel - Q.level) : Nat) : ℤ) →
      s' (ii, jj) = M.c2m ((((2 ^ (maxlevel - Q.level) : Nat) : ℤ) * (Q.x * d.mx + (i - 1)) + ii : ℤ) * (1 / 2 ^ maxlevel / (d.mx : K)))
        ((((2 ^ (maxlevel - Q.level) : Nat) : ℤ) * (Q.y * d.my + (j - 1)) + jj : ℤ) * (1 / 2 ^ maxlevel / (d.my : K))) := by
    intro ii jj h1 h2 h3 h4
    rw [a ii jj h1 h2 h3 h4]
    simp only [Quad.geom]
    rw [coord Q.x i ii d.mx hx Q.level maxlevel hl, coord Q.y j jj d.my hy Q.level maxlevel hl]
  unfold value block
  generalize ((2 ^ (maxlevel - Q.level) : Nat) : ℤ) = r at a' ⊢
  rw [← sum_shift]
  refine Finset.sum_congr rfl fun ii hii => ?_
  rw [← sum_shift]
  refine Finset.sum_congr rfl fun jj hjj => ?_
  rw [Finset.mem_Icc] at hii hjj
  rw [a' ii jj (by omega) (by omega) (by omega) (by omega), a' (ii + 1) jj (by omega) (by omega) (by omega) (by omega),
    a' ii (jj + 1) (by omega) (by omega) (by omega) (by omega), a' (ii + 1) (jj + 1) (by omega) (by omega) (by omega) (by omega)]
  unfold small
  simp only [add_assoc]

theorem cell_affine (d : Dims) (hE : Even2 d) (M : Map K P A) (hM : Splits M) (ha : M.affine = true) (maxlevel : Nat) (Q : Quad)
    (hl : Q.level ≤ maxlevel) (i j : ℤ) :
    M.elem (M.c2m ((Q.geom d : Geom K).xlower + ((i - 1 : ℤ) : K) * (Q.geom d : Geom K).dx)
          ((Q.geom d : Geom K).ylower + ((j - 1 : ℤ) : K) * (Q.geom d : Geom K).dy))
      (M.c2m ((Q.geom d : Geom K).xlower + ((i - 1 : ℤ) : K) * (Q.geom d : Geom K).dx + (Q.geom d : Geom K).dx)
          ((Q.geom d : Geom K).ylower + ((j - 1 : ℤ) : K) * (Q.geom d : Geom K).dy))
      (M.c2m ((Q.geom d : Geom K).xlower + ((i - 1 : ℤ) : K) * (Q.geom d : Geom K).dx)
          ((Q.geom d : Geom K).ylower + ((j - 1 : ℤ) : K) * (Q.geom d : Geom K).dy + (Q.geom d : Geom K).dy))
      (M.c2m ((Q.geom d : Geom K).xlower + ((i - 1 : ℤ) : K) * (Q.geom d : Geom K).dx + (Q.geom d : Geom K).dx)
          ((Q.geom d : Geom K).ylower + ((j - 1 : ℤ) : K) * (Q.geom d : Geom K).dy + (Q.geom d : Geom K).dy)) =
    value d M maxlevel Q (i, j) := by
  have hx : (d.mx : K) ≠ 0 := by have := hE.1; exact_mod_cast (by omega : d.mx ≠ 0)
  have hy : (d.my : K) ≠ 0 := by have := hE.2.1; exact_mod_cast (by omega : d.my ≠ 0)
  unfold value
  rw [← small_pow M hM ha]
  have h2 : (2 : K) ≠ 0 := two_ne_zero
  have key : ∀ n : K, n ≠ 0 → (2 : K) ^ (maxlevel - Q.level) * (1 / 2 ^ maxlevel / n) = 1 / 2 ^ Q.level / n := by
    intro n hn
    obtain ⟨k, rfl⟩ := Nat.exists_eq_add_of_le hl
    rw [Nat.add_sub_cancel_left, pow_add]
    field_simp
  rw [key _ hx, key _ hy]
  unfold small
  have c1 : ∀ (x i : ℤ) (n : K), n ≠ 0 → ((x * 1 : ℤ) : K) * (1 / 2 ^ Q.level) + ((i - 1 : ℤ) : K) * (1 / 2 ^ Q.level / n) =
      ((x : K) * n + ((i : K) - 1)) * (1 / 2 ^ Q.level / n) := by
    intro x i n hn
    push_cast
    field_simp
    
  have f1 : (Q.geom d : Geom K).xlower + ((i - 1 : ℤ) : K) * (Q.geom d : Geom K).dx =
      ((Q.x * d.mx + (i - 1) : ℤ) : K) * (1 / 2 ^ Q.level / (d.mx : K)) := by
    simp only [Quad.geom]; push_cast; field_simp
  have f2 : (Q.geom d : Geom K).ylower + ((j - 1 : ℤ) : K) * (Q.geom d : Geom K).dy =
      ((Q.y * d.my + (j - 1) : ℤ) : K) * (1 / 2 ^ Q.level / (d.my : K)) := by
    simp only [Quad.geom]; push_cast; field_simp
  have g1 : (Q.geom d : Geom K).xlower + ((i - 1 : ℤ) : K) * (Q.geom d : Geom K).dx + (Q.geom d : Geom K).dx =
      ((Q.x * d.mx + (i - 1) + 1 : ℤ) : K) * (1 / 2 ^ Q.level / (d.mx : K)) := by
    rw [f1]; simp only [Quad.geom]; push_cast; ring
  have g2 : (Q.geom d : Geom K).ylower + ((j - 1 : ℤ) : K) * (Q.geom d : Geom K).dy + (Q.geom d : Geom K).dy =
      ((Q.y * d.my + (j - 1) + 1 : ℤ) : K) * (1 / 2 ^ Q.level / (d.my : K)) := by
    rw [f2]; simp only [Quad.geom]; push_cast; ring
  rw [g1, g2, f1, f2]

/-- Cells whose areas are computed. -/
def Due (d : Dims) (ghostOnly : Bool) (c : ℤ × ℤ) : Prop := Stored d c ∧ ¬ (isAreaInterior d c.1 c.2 && ghostOnly) = true

theorem computeArea_sets (d : Dims) (hE : Even2 d) (M : Map K P A) (hM : Splits M) (maxlevel : Nat) (Q : Quad)
    (hl : Q.level ≤ maxlevel) (go : Bool) (s : Store P) :
    Sets (fun (a : Areas A) => a) (Due d go) (value d M maxlevel Q) (computeArea d M maxlevel Q.level (Q.geom d) go s) := by
  have shape : ∀ c : ℤ × ℤ, (∃ j, -(d.mbc : ℤ) ≤ j ∧ j ≤ d.my + d.mbc + 1 ∧ ∃ i, -(d.mbc : ℤ) ≤ i ∧ i ≤ d.mx + d.mbc + 1 ∧
      c = (i, j) ∧ ¬ (isAreaInterior d i j && go) = true) ↔ Due d go c := by
    rintro ⟨i, j⟩
    constructor
    · rintro ⟨j', h1, h2, i', h3, h4, h5, h6⟩
      cases h5
      exact ⟨⟨h3, h4, h1, h2⟩, h6⟩
    · rintro ⟨⟨h1, h2, h3, h4⟩, h5⟩
      exact ⟨j, h3, h4, i, h1, h2, rfl, h5⟩
  by_cases ha : M.affine = true
  · have H : Sets (fun (a : Areas A) => a) _ (value d M maxlevel Q) (areaAffine d M (Q.geom d : Geom K) go) :=
      Sets.doLoop (fun (a : Areas A) => a)
        (fun j c => ∃ i, -(d.mbc : ℤ) ≤ i ∧ i ≤ d.mx + d.mbc + 1 ∧ c = (i, j) ∧ ¬ (isAreaInterior d i j && go) = true) _ _ _ _
        (fun j h1 h2 => Sets.doLoop (fun (a : Areas A) => a) (fun i c => c = (i, j) ∧ ¬ (isAreaInterior d i j && go) = true) _ _ _ _
          (fun i h3 h4 => by
            by_cases hg : (isAreaInterior d i j && go) = true
            · intro a
              refine ⟨a, by beta_reduce; rw [if_pos hg], fun c hc => absurd hg hc.2, fun c _ => rfl⟩
            · have := Sets.wrA d (i, j) _ (value d M maxlevel Q) ⟨h3, h4, h1, h2⟩ (cell_affine d hE M hM ha maxlevel Q hl i j)
              intro a
              obtain ⟨a', e, x, y⟩ := this a
              refine ⟨a', by beta_reduce; rw [if_neg hg]; exact e, fun c hc => x c hc.1, fun c hc => y c fun h => hc ⟨h, hg⟩⟩))
    have : computeArea d M maxlevel Q.level (Q.geom d : Geom K) go s = areaAffine d M (Q.geom d : Geom K) go := by
      funext a; rw [computeArea, if_pos ha]
    rw [this]
    exact H.congr _ shape
  · have H : Sets (fun (st : Areas A × Store P) => st.1) _ (value d M maxlevel Q)
        (areaGeneral d M (Q.geom d : Geom K) ((2 ^ (maxlevel - Q.level) : Nat) : ℤ) go) :=
      Sets.doLoop (fun (st : Areas A × Store P) => st.1)
        (fun j c => ∃ i, -(d.mbc : ℤ) ≤ i ∧ i ≤ d.mx + d.mbc + 1 ∧ c = (i, j) ∧ ¬ (isAreaInterior d i j && go) = true) _ _ _ _
        (fun j h1 h2 => Sets.doLoop (fun (st : Areas A × Store P) => st.1)
          (fun i c => c = (i, j) ∧ ¬ (isAreaInterior d i j && go) = true) _ _ _ _
          (fun i h3 h4 => by
            by_cases hg : (isAreaInterior d i j && go) = true
            · intro a
              refine ⟨a, by beta_reduce; rw [if_pos hg], fun c hc => absurd hg hc.2, fun c _ => rfl⟩
            · intro st
              obtain ⟨s', e1, e2⟩ := cell_general d hE M maxlevel Q hl i j st.2
              obtain ⟨a', e, x, y⟩ := Sets.wrA d (i, j) _ (value d M maxlevel Q) ⟨h3, h4, h1, h2⟩ rfl st.1
              refine ⟨(a', s'), ?_, fun c hc => x c hc.1, fun c hc => y c fun h => hc ⟨h, hg⟩⟩
              beta_reduce
              rw [if_neg hg]
              dsimp only
              rw [e1]
              simp only [Option.bind_some]
              rw [e2]
              simp only [Option.bind_some]
              have e' : wrA d st.1 (i, j) (value d M maxlevel Q (i, j)) = some a' := e
              rw [e']
              rfl))
    intro a
    obtain ⟨st, e, x, y⟩ := H (a, s)
    refine ⟨st.1, ?_, fun c hc => x c ((shape c).2 hc), fun c hc => y c fun h => hc ((shape c).1 h)⟩
    rw [computeArea, if_neg ha, e]
    rfl

/-- Averaging the areas of one child. -/
theorem averageArea_sets (d : Dims) (hE : Even2 d) (hsq : d.mx = d.my) (hb : 1 ≤ d.mbc) (M : Map K P A) (maxlevel : Nat) (Q : Quad)
    (hl : Q.level < maxlevel) (g : ℤ) (hg : 0 ≤ g ∧ g ≤ 3) (fine : Areas A)
    (hf : ∀ c, Stored d c → fine c = value d M maxlevel (Q.child g) c) :
    Sets (fun (a : Areas A) => a)
      (fun c => g % 2 * ((d.mx : ℤ) / 2) ≤ c.1 ∧ c.1 ≤ g % 2 * ((d.mx : ℤ) / 2) + ((d.mx : ℤ) / 2 + 1) ∧
        g / 2 * ((d.my : ℤ) / 2) ≤ c.2 ∧ c.2 ≤ g / 2 * ((d.my : ℤ) / 2) + ((d.my : ℤ) / 2 + 1))
      (value d M maxlevel Q) (averageArea d g fine) := by
  have e1 := ig_eq g d.mx hg hE.2.2.1
  have e2 := jg_eq g d.my hg hE.2.2.2
  have hm : (d.mx : ℤ) = d.my := by exact_mod_cast hsq
  have hx := hE.1
  have hy := hE.2.1
  have hE' := hE.2.2
  unfold averageArea
  dsimp only
  rw [e1, show (g - g % 2) / 2 * (d.mx : ℤ) / 2 = g / 2 * ((d.my : ℤ) / 2) by rw [hm]; exact e2]
  have u1 : 0 ≤ g % 2 ∧ g % 2 ≤ 1 := by omega
  have u2 : 0 ≤ g / 2 ∧ g / 2 ≤ 1 := by omega
  have v1 : 0 ≤ g % 2 * ((d.mx : ℤ) / 2) ∧ g % 2 * ((d.mx : ℤ) / 2) ≤ (d.mx : ℤ) / 2 := by
    rcases (by omega : g % 2 = 0 ∨ g % 2 = 1) with h | h <;> rw [h] <;> omega
  have v2 : 0 ≤ g / 2 * ((d.my : ℤ) / 2) ∧ g / 2 * ((d.my : ℤ) / 2) ≤ (d.my : ℤ) / 2 := by
    rcases (by omega : g / 2 = 0 ∨ g / 2 = 1) with h | h <;> rw [h] <;> omega
  refine (Sets.doLoop (fun (a : Areas A) => a)
    (fun j c => ∃ i, 0 ≤ i ∧ i ≤ (d.mx : ℤ) / 2 + 1 ∧ c = (i + g % 2 * ((d.mx : ℤ) / 2), j + g / 2 * ((d.my : ℤ) / 2))) _ _ _ _
    (fun j h1 h2 => Sets.doLoop (fun (a : Areas A) => a)
      (fun i c => c = (i + g % 2 * ((d.mx : ℤ) / 2), j + g / 2 * ((d.my : ℤ) / 2))) _ _ _ _ (fun i h3 h4 => ?_))).congr _ ?_
  · have hsum : (doLoop 0 3 (fun m (sum : A) =>
        (rdA d fine ((i - 1) * 2 + (m % 2 + 1), (j - 1) * 2 + (m / 2 + 1))).bind fun kf => some (sum + kf)) (0 : A)) =
        some (value d M maxlevel Q (g % 2 * ((d.mx : ℤ) / 2) + i, g / 2 * ((d.my : ℤ) / 2) + j)) := by
      have st : ∀ m : ℤ, 0 ≤ m → m ≤ 3 → Stored d ((i - 1) * 2 + (m % 2 + 1), (j - 1) * 2 + (m / 2 + 1)) := by
        intro m m1 m2
        unfold Stored
        dsimp only
        omega
      rw [doLoop_sum _ (fun m => value d M maxlevel (Q.child g) ((i - 1) * 2 + (m % 2 + 1), (j - 1) * 2 + (m / 2 + 1)))]
      · rw [zero_add, value_split d hE M maxlevel Q hl g i j]
        have : Finset.Icc (0 : ℤ) 3 = {0, 1, 2, 3} := by decide
        rw [this, Finset.sum_insert (by decide), Finset.sum_insert (by decide), Finset.sum_insert (by decide),
          Finset.sum_singleton]
        simp only [Int.reduceMod, Int.reduceDiv, Int.reduceAdd, Int.zero_emod, Int.zero_ediv]
        rw [show (i - 1) * 2 + 1 = 2 * i - 1 by ring, show (i - 1) * 2 + 2 = 2 * i by ring, show (j - 1) * 2 + 1 = 2 * j - 1 by ring,
          show (j - 1) * 2 + 2 = 2 * j by ring]
        simp only [zero_add, Int.reduceAdd, add_assoc, show (i - 1) * 2 + 1 = 2 * i - 1 by ring, show (j - 1) * 2 + 1 = 2 * j - 1 by ring]
      · intro m m1 m2 sum
        rw [rdA, if_pos ((inArea_iff d _).2 (st m m1 m2)), hf _ (st m m1 m2)]
        rfl
    have := Sets.wrA (A := A) d (i + g % 2 * ((d.mx : ℤ) / 2), j + g / 2 * ((d.my : ℤ) / 2))
      (value d M maxlevel Q (g % 2 * ((d.mx : ℤ) / 2) + i, g / 2 * ((d.my : ℤ) / 2) + j)) (value d M maxlevel Q)
      (by unfold Stored; dsimp only; omega) (by rw [add_comm, add_comm (g / 2 * _)])
    intro a
    obtain ⟨a', e, x, y⟩ := this a
    refine ⟨a', ?_, x, y⟩
    dsimp only
    rw [hsum]
    exact e
  · rintro ⟨I, J⟩
    constructor
    · rintro ⟨j, h1, h2, i, h3, h4, h5⟩
      cases h5
      dsimp only
      omega
    · rintro ⟨h1, h2, h3, h4⟩
      dsimp only at h1 h2 h3 h4
      refine ⟨J - g / 2 * ((d.my : ℤ) / 2), by omega, by omega, I - g % 2 * ((d.mx : ℤ) / 2), by omega, by omega, ?_⟩
      rw [Prod.mk.injEq]
      constructor <;> omega

theorem buildFromFine_spec (d : Dims) (hE : Even2 d) (hsq : d.mx = d.my) (hb : 1 ≤ d.mbc) (M : Map K P A) (hM : Splits M)
    (maxlevel : Nat) (Q : Quad) (hl : Q.level < maxlevel) (s : Store P) (fine : ℤ → Areas A)
    (hf : ∀ g, 0 ≤ g → g ≤ 3 → ∀ c, Stored d c → fine g c = value d M maxlevel (Q.child g) c) (a : Areas A) :
    ∃ a', buildFromFine d M maxlevel Q.level (Q.geom d) s fine a = some a' ∧
      ∀ c, Stored d c → a' c = value d M maxlevel Q c := by
  have H := Sets.doLoop (fun (a : Areas A) => a) (fun g c =>
      g % 2 * ((d.mx : ℤ) / 2) ≤ c.1 ∧ c.1 ≤ g % 2 * ((d.mx : ℤ) / 2) + ((d.mx : ℤ) / 2 + 1) ∧
      g / 2 * ((d.my : ℤ) / 2) ≤ c.2 ∧ c.2 ≤ g / 2 * ((d.my : ℤ) / 2) + ((d.my : ℤ) / 2 + 1)) (value d M maxlevel Q)
    (fun g a => averageArea d g (fine g) a) 0 3
    (fun g h1 h2 => averageArea_sets d hE hsq hb M maxlevel Q hl g ⟨h1, h2⟩ (fine g) (hf g h1 h2))
  obtain ⟨a1, e1, x1, _⟩ := H a
  obtain ⟨a2, e2, x2, y2⟩ := computeArea_sets d hE M hM maxlevel Q (Nat.le_of_lt hl) true s a1
  refine ⟨a2, ?_, ?_⟩
  · unfold buildFromFine
    rw [e1]
    exact e2
  · rintro ⟨i, j⟩ hc
    by_cases hi : isAreaInterior d i j = true
    · have : a2 (i, j) = a1 (i, j) := y2 (i, j) (fun h => h.2 (by simp [hi]))
      rw [this]
      refine x1 (i, j) ?_
      simp only [isAreaInterior, Bool.and_eq_true, decide_eq_true_eq] at hi
      obtain ⟨hE1, hE2, hE3, hE4⟩ := hE
      by_cases hx : i ≤ (d.mx : ℤ) / 2 <;> by_cases hy : j ≤ (d.my : ℤ) / 2
      · exact ⟨0, by omega, by omega, by dsimp only; omega⟩
      · exact ⟨2, by omega, by omega, by dsimp only; omega⟩
      · exact ⟨1, by omega, by omega, by dsimp only; omega⟩
      · exact ⟨3, by omega, by omega, by dsimp only; omega⟩
    · exact x2 (i, j) ⟨hc, by simp [hi]⟩

end

end Fclaw.Metric

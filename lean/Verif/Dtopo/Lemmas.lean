import Verif.Dtopo.Spec
import Verif.Topo.Many
import Mathlib.Tactic.FieldSimp
import Mathlib.Tactic.LinearCombination
/-
Lemmas for C100.
-/
set_option autoImplicit false
set_option linter.unusedVariables false
namespace Fclaw.Dtopo

open Fort

noncomputable section

/-! ### One direction -/

/-- The number of the interval that the program uses for `u`, and any interval that contains `u`. -/
theorem pick (u : ℝ) (n i : ℤ) (h1 : 1 ≤ i) (h2 : i < n) (h3 : (i : ℝ) - 1 ≤ u) (h4 : u ≤ i) :
    max 1 (min (n - 1) (⌊u⌋ + 1)) = i ∨ (max 1 (min (n - 1) (⌊u⌋ + 1)) = i + 1 ∧ u = i) := by
  have f1 : i - 1 ≤ ⌊u⌋ := by
    rw [Int.le_floor]; push_cast; exact h3
  have f2 : ⌊u⌋ ≤ i := by
    have : ⌊u⌋ ≤ ⌊(i : ℝ)⌋ := Int.floor_le_floor h4
    rwa [Int.floor_intCast] at this
  by_cases h : ⌊u⌋ = i
  · by_cases h5 : i + 1 < n
    · right
      refine ⟨by omega, ?_⟩
      have : ((⌊u⌋ : ℤ) : ℝ) ≤ u := Int.floor_le u
      rw [h] at this
      exact le_antisymm h4 this
    · left; omega
  · left; omega

/-- Interpolation does not depend on which interval is used. -/
theorem lerp_pick (f : ℤ → ℝ) (u : ℝ) (i p : ℤ) (h : p = i ∨ (p = i + 1 ∧ u = i)) :
    lerp (f p) (f (p + 1)) (u - ((p : ℝ) - 1)) = lerp (f i) (f (i + 1)) (u - ((i : ℝ) - 1)) := by
  rcases h with h | ⟨h, hu⟩
  · rw [h]
  · subst h
    unfold lerp
    rw [hu]
    push_cast
    ring

theorem pick_range (u : ℝ) (n : ℤ) (h : 2 ≤ n) :
    1 ≤ max 1 (min (n - 1) (⌊u⌋ + 1)) ∧ max 1 (min (n - 1) (⌊u⌋ + 1)) + 1 ≤ n := by
  omega

/-! ### The array -/

theorem index_range (mx my mt k j i : ℤ) (hk1 : 1 ≤ k) (hk2 : k ≤ mt) (hj1 : 1 ≤ j) (hj2 : j ≤ my) (hi1 : 1 ≤ i)
    (hi2 : i ≤ mx) : 1 ≤ 1 + (k - 1) * (mx * my) + (j - 1) * mx + (i - 1) ∧
      1 + (k - 1) * (mx * my) + (j - 1) * mx + (i - 1) ≤ mx * my * mt := by
  have hmx : 0 ≤ mx := by omega
  have hmy : 0 ≤ my := by omega
  have a1 : 0 ≤ (k - 1) * (mx * my) := mul_nonneg (by omega) (mul_nonneg hmx hmy)
  have a2 : 0 ≤ (j - 1) * mx := mul_nonneg (by omega) hmx
  have a3 : k * (mx * my) ≤ mt * (mx * my) := mul_le_mul_of_nonneg_right hk2 (mul_nonneg hmx hmy)
  have a4 : j * mx ≤ my * mx := mul_le_mul_of_nonneg_right hj2 hmx
  constructor
  · omega
  · nlinarith

theorem rd_value (m : Move) (k j i : ℤ) (hk1 : 1 ≤ k) (hk2 : k ≤ m.mt) (hj1 : 1 ≤ j) (hj2 : j ≤ m.my) (hi1 : 1 ≤ i)
    (hi2 : i ≤ m.mx) : m.rd (m.index0 k + (j - 1) * m.mx + i - 1) = some (m.value k j i) := by
  have e : m.index0 k + (j - 1) * m.mx + i - 1 = 1 + (k - 1) * (m.mx * m.my) + (j - 1) * m.mx + (i - 1) := by
    unfold Move.index0; ring
  rw [e]
  unfold Move.rd Move.value
  rw [if_pos (index_range _ _ _ k j i hk1 hk2 hj1 hj2 hi1 hi2)]

/-- The value at time `k` and a point, by the cell that the program uses. -/
theorem bilinear_eq (m : Move) (hm : m.Valid) (k : ℤ) (hk1 : 1 ≤ k) (hk2 : k ≤ m.mt) (x y : ℝ) :
    m.bilinear (m.index0 k) x y =
      some (m.dx * m.dy * m.plane k (m.cell x y).2 (m.cell x y).1 x y) := by
  have hx := pick_range ((x - m.xlow) / m.dx) m.mx (by exact_mod_cast hm.mx)
  have hy := pick_range ((m.yhi - y) / m.dy) m.my (by exact_mod_cast hm.my)
  have e1 : (m.cell x y).1 = max 1 (min ((m.mx : ℤ) - 1) (⌊(x - m.xlow) / m.dx⌋ + 1)) := rfl
  have e2 : (m.cell x y).2 = max 1 (min ((m.my : ℤ) - 1) (⌊(m.yhi - y) / m.dy⌋ + 1)) := rfl
  rw [← e1] at hx
  rw [← e2] at hy
  unfold Move.bilinear
  dsimp only
  generalize (m.cell x y).1 = i at hx ⊢
  generalize (m.cell x y).2 = j at hy ⊢
  rw [rd_value m k (j + 1) i hk1 hk2 (by omega) hy.2 hx.1 (by omega),
    rd_value m k (j + 1) (i + 1) hk1 hk2 (by omega) hy.2 (by omega) hx.2,
    rd_value m k j i hk1 hk2 hy.1 (by omega) hx.1 (by omega),
    rd_value m k j (i + 1) hk1 hk2 hy.1 (by omega) (by omega) hx.2]
  simp only [Option.bind_some, Option.some.injEq]
  unfold Move.plane lerp Move.col Move.row
  have hdx := hm.dx.ne'
  have hdy := hm.dy.ne'
  field_simp
  push_cast
  ring

theorem plane_cell (m : Move) (hm : m.Valid) (k : ℤ) (x y : ℝ) (i j : ℤ) (hi1 : 1 ≤ i) (hi2 : i < m.mx)
    (hj1 : 1 ≤ j) (hj2 : j < m.my) (hx1 : m.col i ≤ x) (hx2 : x ≤ m.col (i + 1)) (hy1 : m.row (j + 1) ≤ y)
    (hy2 : y ≤ m.row j) : m.plane k (m.cell x y).2 (m.cell x y).1 x y = m.plane k j i x y := by
  have hdx := hm.dx
  have hdy := hm.dy
  unfold Move.col at hx1 hx2
  unfold Move.row at hy1 hy2
  push_cast at hx2 hy1
  have px := pick ((x - m.xlow) / m.dx) m.mx i hi1 hi2
    (by rw [le_div_iff₀ hdx]; linarith) (by rw [div_le_iff₀ hdx]; linarith)
  have py := pick ((m.yhi - y) / m.dy) m.my j hj1 hj2
    (by rw [le_div_iff₀ hdy]; linarith) (by rw [div_le_iff₀ hdy]; linarith)
  have e1 : (m.cell x y).1 = max 1 (min ((m.mx : ℤ) - 1) (⌊(x - m.xlow) / m.dx⌋ + 1)) := rfl
  have e2 : (m.cell x y).2 = max 1 (min ((m.my : ℤ) - 1) (⌊(m.yhi - y) / m.dy⌋ + 1)) := rfl
  rw [← e1] at px
  rw [← e2] at py
  generalize (m.cell x y).1 = p at px ⊢
  generalize (m.cell x y).2 = q at py ⊢
  have cx : ∀ a : ℤ, (x - m.col a) / m.dx = (x - m.xlow) / m.dx - ((a : ℝ) - 1) := by
    intro a; unfold Move.col; field_simp; ring
  have cy : ∀ a : ℤ, (m.row a - y) / m.dy = (m.yhi - y) / m.dy - ((a : ℝ) - 1) := by
    intro a; unfold Move.row; field_simp; ring
  unfold Move.plane
  rw [cx, cx, cy, cy]
  rw [lerp_pick (fun a => m.value k q a) _ i p px, lerp_pick (fun a => m.value k (q + 1) a) _ i p px]
  exact lerp_pick (fun b => lerp (m.value k b i) (m.value k b (i + 1)) ((x - m.xlow) / m.dx - ((i : ℝ) - 1))) _ j q py

/-! ### Time -/

theorem bracket_range (m : Move) (hm : m.Valid) (t : ℝ) :
    (1 ≤ (m.bracket t).1 ∧ (m.bracket t).1 ≤ m.mt) ∧ 1 ≤ (m.bracket t).2.1 ∧ (m.bracket t).2.1 ≤ m.mt := by
  have := hm.mt
  unfold Move.bracket
  split
  · dsimp only; omega
  · dsimp only; omega

/-- After the end both times are the last one. -/
theorem bracket_end (m : Move) (hm : m.Valid) (t : ℝ) (h : m.tf ≤ t) :
    (m.bracket t).1 = m.mt ∧ (m.bracket t).2.1 = m.mt := by
  have h0 := hm.mt
  unfold Move.bracket
  split
  · rename_i h1; rw [h1]; exact ⟨rfl, rfl⟩
  · rename_i h1
    have hdt := hm.dtpos h1
    have hv : (((m.mt : ℤ) - 1 : ℤ) : ℝ) ≤ (t - m.t0) / m.dt := by
      rw [le_div_iff₀ hdt]
      have := hm.tf
      push_cast
      linarith
    have f1 : (m.mt : ℤ) - 1 ≤ ⌊(t - m.t0) / m.dt⌋ := Int.le_floor.2 hv
    have f2 : ⌊(t - m.t0) / m.dt⌋ ≤ ⌈(t - m.t0) / m.dt⌉ := Int.floor_le_ceil _
    dsimp only
    omega

theorem bracket_mid (m : Move) (hm : m.Valid) (t : ℝ) (k : ℤ) (h1 : 1 ≤ k) (h2 : k < m.mt) (h3 : m.at k ≤ t)
    (h4 : t ≤ m.at (k + 1)) (f : ℤ → ℝ) :
    (m.bracket t).2.2 * f (m.bracket t).1 + (1 - (m.bracket t).2.2) * f (m.bracket t).2.1 =
      lerp (f k) (f (k + 1)) ((t - m.at k) / m.dt) := by
  have hmt : m.mt ≠ 1 := by omega
  have hdt := hm.dtpos hmt
  unfold Move.at at h3 h4
  push_cast at h4
  have e : (t - m.at k) / m.dt = (t - m.t0) / m.dt - ((k : ℝ) - 1) := by
    unfold Move.at; field_simp; ring
  rw [e]
  unfold Move.bracket
  rw [if_neg hmt]
  dsimp only
  have et : ∀ a : ℤ, (t - (m.t0 + m.dt * (((a - 1 : ℤ)) : ℝ))) / m.dt = (t - m.t0) / m.dt - ((a : ℝ) - 1) := by
    intro a; field_simp; push_cast; ring
  rw [et]
  have b1 : (k : ℝ) - 1 ≤ (t - m.t0) / m.dt := by rw [le_div_iff₀ hdt]; linarith
  have b2 : (t - m.t0) / m.dt ≤ k := by rw [div_le_iff₀ hdt]; linarith
  generalize (t - m.t0) / m.dt = v at b1 b2 ⊢
  have f1 : k - 1 ≤ ⌊v⌋ := by rw [Int.le_floor]; push_cast; exact b1
  have f2 : ⌈v⌉ ≤ k := Int.ceil_le.2 b2
  have f3 : ⌊v⌋ ≤ ⌈v⌉ := Int.floor_le_ceil v
  by_cases c1 : ⌊v⌋ = k
  · have hv : v = k := by
      have := Int.floor_le v
      rw [c1] at this
      exact le_antisymm b2 this
    have g1 : max (min (⌊v⌋ + 1) (m.mt : ℤ)) 1 = k + 1 := by omega
    have g2 : max (min (⌈v⌉ + 1) (m.mt : ℤ)) 1 = k + 1 := by omega
    rw [g1, g2, hv]
    unfold lerp
    ring
  · have c2 : ⌊v⌋ = k - 1 := by omega
    have g1 : max (min (⌊v⌋ + 1) (m.mt : ℤ)) 1 = k := by omega
    rw [g1]
    by_cases c3 : ⌈v⌉ = k - 1
    · have hv : v = (k : ℝ) - 1 := by
        have := Int.le_ceil v
        rw [c3] at this
        push_cast at this
        exact le_antisymm this b1
      have g2 : max (min (⌈v⌉ + 1) (m.mt : ℤ)) 1 = k := by omega
      rw [g2, hv]
      unfold lerp
      ring
    · have g2 : max (min (⌈v⌉ + 1) (m.mt : ℤ)) 1 = k + 1 := by omega
      rw [g2]
      have hτ : max (1 - max 0 (v - ((k : ℝ) - 1))) 0 = 1 - (v - ((k : ℝ) - 1)) := by
        rw [max_eq_right (by linarith : (0 : ℝ) ≤ v - ((k : ℝ) - 1)), max_eq_left (by linarith)]
      rw [hτ]
      unfold lerp
      ring

/-- The displacement as a number. -/
def Move.disp (m : Move) (x y t : ℝ) : ℝ :=
  open Classical in
  if m.Covers x y ∧ m.t0 ≤ t then
    (m.bracket t).2.2 * m.plane (m.bracket t).1 (m.cell x y).2 (m.cell x y).1 x y +
      (1 - (m.bracket t).2.2) * m.plane (m.bracket t).2.1 (m.cell x y).2 (m.cell x y).1 x y
  else 0

theorem dz_eq (m : Move) (hm : m.Valid) (x y t : ℝ) (hc : m.Covers x y) (ht : m.t0 ≤ t) :
    m.dz x y t = some (m.disp x y t) := by
  obtain ⟨⟨a1, a2⟩, b1, b2⟩ := bracket_range m hm t
  unfold Move.dz Move.disp
  rw [bilinear_eq m hm _ a1 a2, bilinear_eq m hm _ b1 b2, if_pos ⟨hc, ht⟩]
  simp only [Option.bind_some, Option.some.injEq]
  have hdx := hm.dx.ne'
  have hdy := hm.dy.ne'
  field_simp

theorem disp_displaces (m : Move) (hm : m.Valid) (x y t : ℝ) : m.Displaces x y t (m.disp x y t) := by
  refine ⟨?_, ?_, ?_⟩
  · intro h; unfold Move.disp; rw [if_neg (fun h' => h h'.1)]
  · intro h; unfold Move.disp; rw [if_neg (fun h' => absurd h'.2 (not_le.2 h))]
  · intro hc ht i j hi1 hi2 hj1 hj2 hx1 hx2 hy1 hy2
    have hp : ∀ k, m.plane k (m.cell x y).2 (m.cell x y).1 x y = m.plane k j i x y := fun k =>
      plane_cell m hm k x y i j hi1 hi2 hj1 hj2 hx1 hx2 hy1 hy2
    unfold Move.disp
    rw [if_pos ⟨hc, ht⟩]
    simp only [hp]
    refine ⟨?_, ?_⟩
    · intro htf
      obtain ⟨e1, e2⟩ := bracket_end m hm t htf
      rw [e1, e2]
      ring
    · intro k hk1 hk2 h3 h4
      exact bracket_mid m hm t k hk1 hk2 h3 h4 (fun k => m.plane k j i x y)

theorem t0_le_tf (m : Move) (hm : m.Valid) : m.t0 ≤ m.tf := by
  rw [hm.tf]
  have h1 : (1 : ℝ) ≤ m.mt := by exact_mod_cast hm.mt
  have := mul_nonneg hm.dt (sub_nonneg.2 h1)
  linarith

/-- After the end the displacement does not change. -/
theorem disp_end (m : Move) (hm : m.Valid) (x y t t' : ℝ) (h : m.tf ≤ t) (h' : m.tf ≤ t') :
    m.disp x y t = m.disp x y t' := by
  have := t0_le_tf m hm
  obtain ⟨e1, e2⟩ := bracket_end m hm t h
  obtain ⟨e3, e4⟩ := bracket_end m hm t' h'
  unfold Move.disp
  by_cases hc : m.Covers x y
  · rw [if_pos ⟨hc, by linarith⟩, if_pos ⟨hc, by linarith⟩, e1, e2, e3, e4]
    ring
  · rw [if_neg (fun h => hc h.1), if_neg (fun h => hc h.1)]

/-! ### All displacements at a node -/

/-- The sum of all displacements. -/
def Moves.total (M : Moves) (x y t : ℝ) : ℝ := ∑ m ∈ Finset.Icc (1 : ℤ) M.n, (M.move m).disp x y t

theorem order_range (M : Moves) (r : ℤ) (h1 : 1 ≤ r) (h2 : r ≤ M.n) : 1 ≤ M.order r ∧ M.order r ≤ M.n :=
  Topo.mtopoorder_file _ ⟨h1, h2⟩

theorem order_sum (M : Moves) (g : ℤ → ℝ) :
    ∑ r ∈ Finset.Icc (1 : ℤ) M.n, g (M.order r) = ∑ m ∈ Finset.Icc (1 : ℤ) M.n, g m := by
  unfold Moves.order
  generalize hF : (⟨M.n, fun i => ⟨0, 0, 0, 0, 0, 0, (M.move i).dx, (M.move i).dy, fun _ => 0⟩⟩ : Topo.Files) = F
  have hn : F.n = M.n := by rw [← hF]
  rw [← hn]
  refine Finset.sum_nbij' F.mtopoorder F.rank ?_ ?_ ?_ ?_ ?_
  · intro r hr; rw [Finset.mem_Icc] at hr ⊢; exact Topo.mtopoorder_file F hr
  · intro r hr; rw [Finset.mem_Icc] at hr ⊢; exact Topo.rank_range F hr
  · intro r hr
    rw [Finset.mem_Icc] at hr
    obtain ⟨a, ha, rfl⟩ := Topo.rank_surj F hr
    rw [Topo.mtopoorder_rank F ha]
  · intro r hr; rw [Finset.mem_Icc] at hr; exact Topo.mtopoorder_rank F hr
  · intro r _; rfl

theorem loop_sum (l : List ℤ) (f : ℤ → ℝ → Option ℝ) (g : ℤ → ℝ) (h : ∀ k ∈ l, ∀ a, f k a = some (a + g k)) :
    ∀ a, loop l f a = some (a + (l.map g).sum) := by
  induction l with
  | nil => intro a; simp [loop]
  | cons k l ih =>
    intro a
    simp only [loop]
    rw [h k List.mem_cons_self a, Option.bind_some, ih (fun k' hk' => h k' (List.mem_cons_of_mem _ hk')),
      List.map_cons, List.sum_cons, add_assoc]

def Moves.Valid (M : Moves) : Prop := ∀ m : ℤ, 1 ≤ m → m ≤ M.n → (M.move m).Valid

theorem dztotal_eq (M : Moves) (hM : M.Valid) (x y t : ℝ) : M.dztotal x y t = some (M.total x y t) := by
  unfold Moves.dztotal doLoop
  rw [loop_sum _ _ (fun r => (M.move (M.order r)).disp x y t), zero_add, range_sum,
    order_sum M (fun m => (M.move m).disp x y t)]
  · rfl
  · intro r hr a
    rw [mem_range] at hr
    obtain ⟨o1, o2⟩ := order_range M r hr.1 hr.2
    have hv := hM _ o1 o2
    dsimp only
    generalize M.move (M.order r) = m at hv
    by_cases hc : m.Covers x y
    · have : ¬ (x > m.xhi ∨ x < m.xlow ∨ y > m.yhi ∨ y < m.ylow) := by
        obtain ⟨⟨a1, a2⟩, a3, a4⟩ := hc
        intro h
        rcases h with h | h | h | h <;> linarith
      rw [if_neg this]
      by_cases ht : t < m.t0
      · rw [if_pos ht]
        unfold Move.disp
        rw [if_neg (fun h => absurd h.2 (not_le.2 ht)), add_zero]
      · rw [if_neg ht, dz_eq m hv x y t hc (not_lt.1 ht)]
        rfl
    · have : x > m.xhi ∨ x < m.xlow ∨ y > m.yhi ∨ y < m.ylow := by
        by_contra h
        push Not at h
        exact hc ⟨⟨h.2.1, h.1⟩, h.2.2.2, h.2.2.1⟩
      rw [if_pos this]
      unfold Move.disp
      rw [if_neg (fun h => hc h.1), add_zero]

/-! ### The nodes of a file -/

theorem loop_writes {ι : Type} (l : List ι) (a : ι → ℤ) (v : ι → ℝ) (f : ι → (ℤ → ℝ) → Option (ℤ → ℝ))
    (hf : ∀ k ∈ l, ∀ w, f k w = some (fun b => if b = a k then v k else w b))
    (hinj : ∀ k ∈ l, ∀ k' ∈ l, a k = a k' → v k = v k') :
    ∀ w, ∃ w', loop l f w = some w' ∧ ∀ k ∈ l, w' (a k) = v k := by
  have key : ∀ l' : List ι, (∀ k ∈ l', k ∈ l) → ∀ w, ∃ w', loop l' f w = some w' ∧
      (∀ k ∈ l', w' (a k) = v k) ∧ ∀ b, (∀ k ∈ l', a k ≠ b) → w' b = w b := by
    intro l'
    induction l' with
    | nil => intro _ w; exact ⟨w, rfl, by simp, by simp⟩
    | cons k l' ih =>
      intro hs w
      obtain ⟨w', e, h1, h2⟩ := ih (fun k' hk' => hs k' (List.mem_cons_of_mem _ hk'))
        (fun b => if b = a k then v k else w b)
      refine ⟨w', ?_, ?_, ?_⟩
      · simp only [loop]; rw [hf k (hs k List.mem_cons_self), Option.bind_some, e]
      · intro k' hk'
        rcases List.mem_cons.1 hk' with rfl | hk'
        · by_cases h : ∃ k'' ∈ l', a k'' = a k'
          · obtain ⟨k'', h3, h4⟩ := h
            rw [← h4, h1 k'' h3]
            exact hinj k'' (hs _ (List.mem_cons_of_mem _ h3)) k' (hs _ List.mem_cons_self) h4
          · push Not at h
            rw [h2 (a k') (fun k'' h3 => h k'' h3), if_pos rfl]
        · exact h1 k' hk'
      · intro b hb
        rw [h2 b (fun k' hk' => hb k' (List.mem_cons_of_mem _ hk')),
          if_neg (fun h => hb k List.mem_cons_self h.symm)]
  intro w
  obtain ⟨w', e, h1, _⟩ := key l (fun _ h => h) w
  exact ⟨w', e, h1⟩

theorem node_inj (mx : ℕ) (j i j' i' : ℤ) (h1 : 1 ≤ i) (h2 : i ≤ mx) (h3 : 1 ≤ i') (h4 : i' ≤ mx)
    (h : 1 + (j - 1) * mx + i - 1 = 1 + (j' - 1) * mx + i' - 1) : j = j' ∧ i = i' := by
  have e : (j - j') * mx = i' - i := by linear_combination h
  have : j = j' := by
    by_contra hne
    rcases lt_or_gt_of_ne hne with hl | hl
    · have : (j - j') * (mx : ℤ) ≤ -1 * mx := mul_le_mul_of_nonneg_right (by omega) (by omega)
      omega
    · have : 1 * (mx : ℤ) ≤ (j - j') * mx := mul_le_mul_of_nonneg_right (by omega) (by omega)
      omega
  subst this
  refine ⟨rfl, ?_⟩
  rw [sub_self, zero_mul] at e
  omega

theorem fileNodes_eq (S : Setup) (hM : S.moves.Valid) (t : ℝ) (f : ℤ) (w : ℤ → ℝ) :
    ∃ w', S.fileNodes t f w = some w' ∧ ∀ i j : ℤ, 1 ≤ i → i ≤ (S.file f).mx → 1 ≤ j → j ≤ (S.file f).my →
      w' (node (S.file f).mx j i) = (S.file f).topo0 (node (S.file f).mx j i) +
        S.moves.total ((S.file f).xlow + ((i : ℝ) - 1) * (S.file f).dx)
          ((S.file f).yhi - ((j : ℝ) - 1) * (S.file f).dy) t := by
  unfold Setup.fileNodes doLoop
  dsimp only
  rw [loop_flat]
  obtain ⟨w', e, h⟩ := loop_writes
    ((range 1 (S.file f).my).flatMap fun a => (range 1 (S.file f).mx).map fun b => (a, b))
    (fun p => 1 + (p.1 - 1) * (S.file f).mx + p.2 - 1)
    (fun p => (S.file f).topo0 (1 + (p.1 - 1) * (S.file f).mx + p.2 - 1) +
      S.moves.total ((S.file f).xlow + ((p.2 - 1 : ℤ) : ℝ) * (S.file f).dx)
          ((S.file f).yhi - ((p.1 - 1 : ℤ) : ℝ) * (S.file f).dy) t)
    (fun x work =>
        (S.moves.dztotal ((S.file f).xlow + ((x.2 - 1 : ℤ) : ℝ) * (S.file f).dx)
          ((S.file f).yhi - ((x.1 - 1 : ℤ) : ℝ) * (S.file f).dy) t).bind fun dz =>
          if 1 ≤ 1 + (x.1 - 1) * ((S.file f).mx : ℤ) + x.2 - 1 ∧
                1 + (x.1 - 1) * ((S.file f).mx : ℤ) + x.2 - 1 ≤ ((S.file f).mx : ℤ) * (S.file f).my then
            some fun a =>
              if a = 1 + (x.1 - 1) * ((S.file f).mx : ℤ) + x.2 - 1 then
                (S.file f).topo0 (1 + (x.1 - 1) * ((S.file f).mx : ℤ) + x.2 - 1) + dz
              else work a
          else none)
    (by
      intro p hp u
      rw [mem_flat, mem_range, mem_range] at hp
      rw [dztotal_eq S.moves hM, Option.bind_some, if_pos]
      have h1 : 0 ≤ (p.1 - 1) * ((S.file f).mx : ℤ) := mul_nonneg (by omega) (by omega)
      have h2 : p.1 * ((S.file f).mx : ℤ) ≤ (S.file f).my * (S.file f).mx :=
        mul_le_mul_of_nonneg_right hp.1.2 (by omega)
      constructor
      · omega
      · nlinarith)
    (by
      intro p hp q hq hpq
      rw [mem_flat, mem_range, mem_range] at hp hq
      obtain ⟨e1, e2⟩ := node_inj _ _ _ _ _ hp.2.1 hp.2.2 hq.2.1 hq.2.2 hpq
      have : p = q := Prod.ext e1 e2
      rw [this]) w
  refine ⟨w', e, ?_⟩
  intro i j h1 h2 h3 h4
  have := h (j, i) (by rw [mem_flat, mem_range, mem_range]; exact ⟨⟨h3, h4⟩, h1, h2⟩)
  dsimp only at this
  have en : node (S.file f).mx j i = 1 + (j - 1) * (S.file f).mx + i - 1 := by unfold node; ring
  rw [en, this]
  push_cast
  rfl

end

end Fclaw.Dtopo

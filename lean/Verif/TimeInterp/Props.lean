/-
C42: interpolation in time.
-/
import Verif.TimeInterp.Model
import Verif.GhostPack.Lemmas
import Verif.CopyGhost.Spec
import Mathlib.Algebra.Order.Field.Rat

set_option autoImplicit false
set_option linter.unusedSimpArgs false
namespace Fclaw.TimeInterp

open Fort GhostPack CopyGhost

/-! ### Lemmas -/

/-- The cells that are visited for component `m`, in order. -/
def visits (d : Dims) (m : ℤ) : List Cell :=
  box 1 d.mbc 1 (d.my - d.mbc) (fun i j => (i, j, m)) ++
  (box (d.mbc + 1) d.mx 1 d.mbc (fun i j => (i, j, m)) ++
  (box (d.mx - d.mbc + 1) d.mx (d.mbc + 1) d.my (fun i j => (i, j, m)) ++
  box 1 (d.mx - d.mbc) (d.my - d.mbc + 1) d.my (fun i j => (i, j, m))))

theorem mem_visits (d : Dims) (hx : 2 * d.mbc ≤ d.mx) (hy : 2 * d.mbc ≤ d.my) (m : ℤ) (c : Cell) :
    c ∈ visits d m ↔ near d c.1 c.2.1 ∧ c.2.2 = m := by
  obtain ⟨i, j, mq⟩ := c
  unfold visits near interior
  simp only [List.mem_append, mem_box, Prod.mk.injEq]
  constructor
  · rintro (⟨i, j, h1, h2, rfl, rfl, rfl⟩ | ⟨i, j, h1, h2, rfl, rfl, rfl⟩ | ⟨i, j, h1, h2, rfl, rfl, rfl⟩ |
      ⟨i, j, h1, h2, rfl, rfl, rfl⟩) <;> refine ⟨⟨?_, ?_⟩, rfl⟩ <;> omega
  · rintro ⟨⟨h1, h2⟩, rfl⟩
    by_cases a : i ≤ d.mbc ∧ j ≤ (d.my : ℤ) - d.mbc
    · exact Or.inl ⟨i, j, by omega, by omega, rfl, rfl, rfl⟩
    by_cases b : (d.mbc : ℤ) + 1 ≤ i ∧ j ≤ (d.mbc : ℤ)
    · exact Or.inr (Or.inl ⟨i, j, by omega, by omega, rfl, rfl, rfl⟩)
    by_cases e : (d.mx : ℤ) - d.mbc + 1 ≤ i ∧ (d.mbc : ℤ) + 1 ≤ j
    · exact Or.inr (Or.inr (Or.inl ⟨i, j, by omega, by omega, rfl, rfl, rfl⟩))
    · exact Or.inr (Or.inr (Or.inr ⟨i, j, by omega, by omega, rfl, rfl, rfl⟩))

/-- The number of cells with `w` layers. -/
def layers (d : Dims) (w : ℤ) : ℤ := (d.mx : ℤ) * d.my - (d.mx - 2 * w) * (d.my - 2 * w)

theorem length_visits (d : Dims) (hx : 2 * d.mbc ≤ d.mx) (hy : 2 * d.mbc ≤ d.my) (m : ℤ) :
    ((visits d m).length : ℤ) = layers d d.mbc := by
  unfold visits layers
  simp only [List.length_append, length_box, Nat.cast_add, Nat.cast_mul]
  rw [Int.toNat_of_nonneg (by omega), Int.toNat_of_nonneg (by omega), Int.toNat_of_nonneg (by omega),
    Int.toNat_of_nonneg (by omega), Int.toNat_of_nonneg (by omega), Int.toNat_of_nonneg (by omega),
    Int.toNat_of_nonneg (by omega)]
  ring

theorem loop_cells (d : Dims) (qcurr qlast : Grid ℚ) (alpha : ℚ) (L : List Cell) (s : St) :
    (∀ c ∈ L, inBox d c = true) →
    ∃ s', loop L (cell d qcurr qlast alpha) s = some s' ∧ s'.k = s.k + L.length ∧
      (∀ c ∈ L, s'.q c = (1 - alpha) * qlast c + alpha * qcurr c) ∧ ∀ c, c ∉ L → s'.q c = s.q c := by
  induction L generalizing s with
  | nil => intro _; exact ⟨s, rfl, by simp, fun c h => by simp at h, fun _ _ => rfl⟩
  | cons c L ih =>
    intro hb
    have hc := hb c (List.mem_cons_self ..)
    have hm : cell d qcurr qlast alpha c s =
        some ⟨fun c' => if c' = c then qlast c + alpha * (qcurr c - qlast c) else s.q c', s.k + 1⟩ := by
      simp [cell, rd, wr, hc]
    obtain ⟨s', e, hk, h1, h2⟩ := ih ⟨fun c' => if c' = c then qlast c + alpha * (qcurr c - qlast c) else s.q c', s.k + 1⟩
      (fun c' h => hb c' (List.mem_cons_of_mem _ h))
    refine ⟨s', ?_, ?_, ?_, ?_⟩
    · show (cell d qcurr qlast alpha c s).bind (loop L (cell d qcurr qlast alpha)) = some s'
      rw [hm]; exact e
    · rw [hk, List.length_cons]; push_cast; ring
    · intro c' h
      by_cases hL : c' ∈ L
      · exact h1 c' hL
      · rw [h2 c' hL]
        rcases List.mem_cons.1 h with rfl | h
        · dsimp only; rw [if_pos rfl]; ring
        · exact absurd h hL
    · intro c' h
      rw [List.mem_cons, not_or] at h
      rw [h2 c' h.2]
      dsimp only
      rw [if_neg h.1]

theorem timeinterp_eq (d : Dims) (psize : ℤ) (qcurr qlast : Grid ℚ) (alpha : ℚ) (qinterp : Grid ℚ) :
    timeinterp d psize qcurr qlast alpha qinterp =
      (loop ((range 1 d.meqn).flatMap (visits d)) (cell d qcurr qlast alpha) ⟨qinterp, 1⟩).bind fun s =>
        some (s.q, if s.k - 1 ≠ psize then 2 else 0) := by
  unfold timeinterp
  dsimp only
  rw [loop_flatMap]
  unfold doLoop
  rw [loop_congr (range 1 (d.meqn : ℤ)) _ (fun m => loop (visits d m) (cell d qcurr qlast alpha))]
  intro m _ s
  unfold visits
  simp only [loop_append]
  have := fun ilo ihi jlo jhi s => loop_box ilo ihi jlo jhi (fun i j => (i, j, m)) (cell d qcurr qlast alpha) s
  unfold doLoop at this
  simp only [this]

theorem timeinterp_result (d : Dims) (hx : 2 * d.mbc ≤ d.mx) (hy : 2 * d.mbc ≤ d.my) (psize : ℤ)
    (qcurr qlast : Grid ℚ) (alpha : ℚ) (qinterp : Grid ℚ) :
    ∃ q ierror, timeinterp d psize qcurr qlast alpha qinterp = some (q, ierror) ∧
      (∀ i j m, near d i j → comp d m → q (i, j, m) = (1 - alpha) * qlast (i, j, m) + alpha * qcurr (i, j, m)) ∧
      (∀ i j m, ¬ (near d i j ∧ comp d m) → q (i, j, m) = qinterp (i, j, m)) ∧
      (ierror = 0 ↔ psize = layers d d.mbc * d.meqn) := by
  have hmem : ∀ c, c ∈ (range 1 (d.meqn : ℤ)).flatMap (visits d) ↔ near d c.1 c.2.1 ∧ comp d c.2.2 := by
    intro c
    rw [List.mem_flatMap]
    constructor
    · rintro ⟨m, hm, h⟩
      rw [mem_visits d hx hy] at h
      rw [mem_range] at hm
      exact ⟨h.1, by rw [h.2]; exact hm⟩
    · rintro ⟨h1, h2⟩
      exact ⟨c.2.2, (mem_range ..).2 h2, (mem_visits d hx hy _ _).2 ⟨h1, rfl⟩⟩
  have hb : ∀ c ∈ (range 1 (d.meqn : ℤ)).flatMap (visits d), inBox d c = true := by
    intro c hc
    rw [hmem] at hc
    obtain ⟨i, j, m⟩ := c
    rw [inBox_iff]
    obtain ⟨⟨hi, _⟩, hm⟩ := hc
    unfold interior at hi
    unfold comp at hm
    dsimp only at hi hm
    omega
  obtain ⟨s, e, hk, h1, h2⟩ := loop_cells d qcurr qlast alpha _ ⟨qinterp, 1⟩ hb
  have hlen : (((range 1 (d.meqn : ℤ)).flatMap (visits d)).length : ℤ) = layers d d.mbc * d.meqn := by
    rw [length_flatMap_const _ _ (visits d 1).length, length_range, Nat.cast_mul, length_visits d hx hy,
      Int.toNat_of_nonneg (by omega)]
    · ring
    · intro m _
      have a := length_visits d hx hy m
      have b := length_visits d hx hy 1
      omega
  refine ⟨s.q, _, by rw [timeinterp_eq, e, Option.bind_some], ?_, ?_, ?_⟩
  · intro i j m hn hm
    exact h1 (i, j, m) ((hmem _).2 ⟨hn, hm⟩)
  · intro i j m h
    exact h2 (i, j, m) fun hc => h ((hmem _).1 hc)
  · rw [hlen] at hk
    dsimp only at hk
    split
    · rename_i h
      constructor
      · intro h'; simp at h'
      · intro h'; exfalso; apply h; rw [hk, h']; ring
    · rename_i h
      rw [not_not] at h
      constructor
      · intro _; rw [← h, hk]; ring
      · intro _; rfl

/-! ### C42 -/

/-- C42. Interpolation in time succeeds. Afterwards every interior cell in the outermost `mbc` layers has
the value `(1 - alpha) old + alpha new`, in every component, and all other cells are unchanged. The size
check passes exactly if the announced size is that of `mbc` layers of interior cells; if `width / 2 + 1` layers
are announced and fit into the patch, exactly if this is `mbc`. -/
theorem C42 (d : Dims) (hm : 1 ≤ d.meqn) (hx : 2 * d.mbc ≤ d.mx) (hy : 2 * d.mbc ≤ d.my)
    (width : Nat) (hwx : 2 * (width / 2 + 1) ≤ d.mx) (hwy : 2 * (width / 2 + 1) ≤ d.my)
    (qcurr qlast : Grid ℚ) (alpha : ℚ) (qinterp : Grid ℚ) :
    (∀ psize, ∃ q ierror, timeinterp d psize qcurr qlast alpha qinterp = some (q, ierror) ∧
      (ierror = 0 ↔ psize = ((d.mx : ℤ) * d.my - (d.mx - 2 * d.mbc) * (d.my - 2 * d.mbc)) * d.meqn)) ∧
    ∃ q ierror, setupTimeinterp d width qcurr qlast alpha qinterp = some (q, ierror) ∧
      (∀ i j m, near d i j → comp d m → q (i, j, m) = (1 - alpha) * qlast (i, j, m) + alpha * qcurr (i, j, m)) ∧
      (∀ i j m, ¬ (near d i j ∧ comp d m) → q (i, j, m) = qinterp (i, j, m)) ∧
      (ierror = 0 ↔ width / 2 + 1 = d.mbc) := by
  constructor
  · intro psize
    obtain ⟨q, ie, e, _, _, h⟩ := timeinterp_result d hx hy psize qcurr qlast alpha qinterp
    exact ⟨q, ie, e, h⟩
  generalize hw : width / 2 + 1 = w at *
  have hw1 : 1 ≤ w := by omega
  have hpos : 0 < layers d w := by
    unfold layers
    have h1 : ((d.mx : ℤ) - 2 * w) * (d.my - 2 * w) ≤ d.mx * (d.my - 2 * w) :=
      mul_le_mul_of_nonneg_right (by omega) (by omega)
    have h2 : (d.mx : ℤ) * (d.my - 2 * w) < d.mx * d.my := mul_lt_mul_of_pos_left (by omega) (by omega)
    omega
  have hann : announced d width = some (layers d w * d.meqn) := by
    unfold announced
    rw [hw]
    dsimp only
    have h0 : 0 ≤ ((d.mx : ℤ) - 2 * w) * (d.my - 2 * w) := mul_nonneg (by omega) (by omega)
    rw [if_neg (by omega), if_neg]
    · rfl
    · rw [not_not]
      exact mul_pos hpos (by omega)
  obtain ⟨q, ie, e, h1, h2, h3⟩ := timeinterp_result d hx hy (layers d w * d.meqn) qcurr qlast alpha qinterp
  refine ⟨q, ie, by unfold setupTimeinterp; rw [hann]; exact e, h1, h2, ?_⟩
  rw [h3]
  constructor
  · intro h
    have h' : layers d w = layers d d.mbc := mul_right_cancel₀ (by omega : (d.meqn : ℤ) ≠ 0) h
    have h4 : ((w : ℤ) - d.mbc) * ((d.mx : ℤ) + d.my - 2 * w - 2 * d.mbc) = 0 := by
      unfold layers at h'
      linarith
    rcases mul_eq_zero.1 h4 with h5 | h5 <;> omega
  · intro h
    rw [h]

/-- The default options: two layers of ghost cells, stencils of width 3, grids with 8 by 8 cells; and the
interpolation is not trivial. -/
example : ∃ q, setupTimeinterp ⟨8, 8, 2, 1⟩ 3 (fun _ => 4) (fun _ => 2) (1 / 2) (fun _ => 0) = some (q, 0) ∧
    q (1, 1, 1) = 3 ∧ q (4, 4, 1) = 0 := by
  obtain ⟨_, q, ie, e, h1, h2, h3⟩ := C42 ⟨8, 8, 2, 1⟩ (by decide) (by decide) (by decide) 3 (by decide) (by decide)
    (fun _ => 4) (fun _ => 2) (1 / 2) (fun _ => 0)
  refine ⟨q, by rw [e, h3.2 (by decide)], ?_, ?_⟩
  · rw [h1 1 1 1 (by unfold near interior; decide) (by unfold comp; decide)]; norm_num
  · exact h2 4 4 1 (by unfold near interior comp; decide)

end Fclaw.TimeInterp

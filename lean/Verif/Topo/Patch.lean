import Verif.Topo.Many
/-
The auxiliary array of a patch.
-/
set_option autoImplicit false
namespace Fclaw.Topo

open MeasureTheory Fort
open scoped Classical

/-! ### Loops that set elements of an array -/

theorem loop_set {κ : Type} (l : List κ) (body : κ → Grid ℝ → Option (Grid ℝ)) (W : κ → Cell → Prop)
    (Frozen : Cell → Prop) (base val : Grid ℝ)
    (hb : ∀ k ∈ l, ∀ aux : Grid ℝ, (∀ c, Frozen c → aux c = base c) →
      body k aux = some (fun c => if W k c then val c else aux c))
    (hf : ∀ k ∈ l, ∀ c, W k c → ¬ Frozen c) :
    ∀ aux : Grid ℝ, (∀ c, Frozen c → aux c = base c) →
      loop l body aux = some (fun c => if ∃ k ∈ l, W k c then val c else aux c) := by
  induction l with
  | nil => intro aux _; simp [loop]
  | cons k l ih =>
    intro aux ha
    simp only [loop]
    rw [hb k (by simp) aux ha]
    simp only [Option.bind_some]
    rw [ih (fun k' hk' => hb k' (by simp [hk'])) (fun k' hk' => hf k' (by simp [hk']))]
    · congr 1
      funext c
      by_cases h1 : ∃ k' ∈ l, W k' c
      · rw [if_pos h1, if_pos]
        obtain ⟨k', h2, h3⟩ := h1
        exact ⟨k', by simp [h2], h3⟩
      · rw [if_neg h1]
        by_cases h2 : W k c
        · rw [if_pos h2, if_pos ⟨k, by simp, h2⟩]
        · rw [if_neg h2, if_neg]
          rintro ⟨k', h3, h4⟩
          rw [List.mem_cons] at h3
          rcases h3 with rfl | h3
          · exact h2 h4
          · exact h1 ⟨k', h3, h4⟩
    · intro c hc
      rw [if_neg (fun h => hf k (by simp) c h hc)]
      exact ha c hc

theorem loop_id {κ σ : Type} (l : List κ) (s : σ) : loop l (fun _ s => some s) s = some s := by
  induction l with
  | nil => rfl
  | cons k l ih => simp only [loop, Option.bind_some]; exact ih

theorem loop_if {κ σ : Type} (p : Prop) [Decidable p] (l : List κ) (f : κ → σ → Option σ) (s : σ) :
    (if p then loop l f s else some s) = loop l (fun k s => if p then f k s else some s) s := by
  by_cases h : p
  · simp only [if_pos h]
  · simp only [if_neg h]; rw [loop_id]

theorem wr_some {d : Dims} {i j m : ℤ} (hi : 1 - (d.mbc : ℤ) ≤ i) (hi' : i ≤ d.mx + d.mbc)
    (hj : 1 - (d.mbc : ℤ) ≤ j) (hj' : j ≤ d.my + d.mbc) (hm : 1 ≤ m) (hm' : m ≤ d.meqn) (q : Grid ℝ) (v : ℝ) :
    wr d q (i, j, m) v = some (fun c => if c = (i, j, m) then v else q c) := by
  unfold wr
  rw [if_pos]
  unfold inBox
  simp only [Bool.and_eq_true, decide_eq_true_eq]
  exact ⟨⟨⟨⟨⟨hi, hi'⟩, hj⟩, hj'⟩, hm⟩, hm'⟩

theorem rd_some {d : Dims} {i j m : ℤ} (hi : 1 - (d.mbc : ℤ) ≤ i) (hi' : i ≤ d.mx + d.mbc)
    (hj : 1 - (d.mbc : ℤ) ≤ j) (hj' : j ≤ d.my + d.mbc) (hm : 1 ≤ m) (hm' : m ≤ d.meqn) (q : Grid ℝ) :
    rd d q (i, j, m) = some (q (i, j, m)) := by
  unfold rd
  rw [if_pos]
  unfold inBox
  simp only [Bool.and_eq_true, decide_eq_true_eq]
  exact ⟨⟨⟨⟨⟨hi, hi'⟩, hj⟩, hj'⟩, hm⟩, hm'⟩

theorem skip_iff (P : Patch) (i j : ℤ) : P.skip i j = true ↔ ¬ P.MustSet i j := by
  unfold Patch.skip Patch.MustSet ghostInvalid
  by_cases h : P.isGhost = true
  · rw [h]
    simp only [Bool.true_and, forall_const, Bool.or_eq_true, Bool.and_eq_true, decide_eq_true_eq]
    omega
  · simp [h]

/-! ### Where the cells are -/

theorem ilo_eq {D : Domain} {P : Patch} {N M I0 J0 : ℤ} (h : Placed D P N M I0 J0) : P.ilo D = I0 := by
  unfold Patch.ilo
  have hd := h.dx
  have e : (P.xlow - D.xlo + 5 / 100 * P.dx) / P.dx = (I0 : ℝ) + 5 / 100 := by
    rw [h.xlow]; field_simp; ring
  rw [e, Int.floor_eq_iff]
  constructor <;> linarith

theorem jlo_eq {D : Domain} {P : Patch} {N M I0 J0 : ℤ} (h : Placed D P N M I0 J0) : P.jlo D = J0 := by
  unfold Patch.jlo
  have hd := h.dy
  have e : (P.ylow - D.ylo + 5 / 100 * P.dy) / P.dy = (J0 : ℝ) + 5 / 100 := by
    rw [h.ylow]; field_simp; ring
  rw [e, Int.floor_eq_iff]
  constructor <;> linarith

theorem below_iff {lo dx : ℝ} (hd : 0 < dx) (k : ℤ) : lo + ((k : ℝ) - 1 / 2) * dx < lo ↔ k ≤ 0 := by
  constructor
  · intro h
    have h1 : ((k : ℝ) - 1 / 2) * dx < 0 := by linarith
    have h2 : (k : ℝ) - 1 / 2 < 0 := by
      by_contra h3
      have := mul_nonneg (not_lt.mp h3) hd.le
      linarith
    have h3 : (k : ℝ) < ((1 : ℤ) : ℝ) := by push_cast; linarith
    have := Int.cast_lt.mp h3
    omega
  · intro h
    have h1 : (k : ℝ) ≤ 0 := by exact_mod_cast h
    have := mul_neg_of_neg_of_pos (by linarith : (k : ℝ) - 1 / 2 < 0) hd
    linarith

theorem above_iff {lo dx : ℝ} (hd : 0 < dx) (k n : ℤ) :
    lo + ((k : ℝ) - 1 / 2) * dx > lo + (n : ℝ) * dx ↔ n < k := by
  constructor
  · intro h
    have h2 : (0 : ℝ) < (k : ℝ) - 1 / 2 - n := by
      by_contra h3
      have := mul_nonneg (sub_nonneg.mpr (not_lt.mp h3)) hd.le
      nlinarith
    have h3 : (n : ℝ) < (k : ℝ) := by linarith
    exact Int.cast_lt.mp h3
  · intro h
    have h1 : (n : ℝ) + 1 ≤ (k : ℝ) := by exact_mod_cast h
    have := mul_pos (by linarith : (0 : ℝ) < (k : ℝ) - 1 / 2 - n) hd
    nlinarith

theorem ceil_low {lo dx : ℝ} (hd : 0 < dx) (k : ℤ) :
    ⌈(lo - (lo + ((k : ℝ) - 1 / 2) * dx)) / dx⌉ = 1 - k := by
  have e : (lo - (lo + ((k : ℝ) - 1 / 2) * dx)) / dx = 1 / 2 - (k : ℝ) := by field_simp; ring
  rw [e, Int.ceil_eq_iff]
  push_cast
  constructor <;> linarith

theorem ceil_high {lo dx : ℝ} (hd : 0 < dx) (k n : ℤ) :
    ⌈(lo + ((k : ℝ) - 1 / 2) * dx - (lo + (n : ℝ) * dx)) / dx⌉ = k - n := by
  have e : (lo + ((k : ℝ) - 1 / 2) * dx - (lo + (n : ℝ) * dx)) / dx = (k : ℝ) - n - 1 / 2 := by
    field_simp; ring
  rw [e, Int.ceil_eq_iff]
  push_cast
  constructor <;> linarith

/-! ### Areas -/

theorem area_rect (w : World) (hw : w.coord = 1 ∨ w.coord = 2) (R : Rect) (hx : R.xlo ≤ R.xhi)
    (hy : R.ylo ≤ R.yhi) :
    w.area R.set = if w.coord = 2 then
      (R.xhi - R.xlo) * (deg2rad * w.earthRadius ^ 2 * (Real.sin (R.yhi * deg2rad) - Real.sin (R.ylo * deg2rad)))
    else (R.xhi - R.xlo) * (R.yhi - R.ylo) := by
  unfold World.area Rect.set
  rw [← setIntegral_congr_set (rect_ae _ _ _ _)]
  have e : w.element = fun p => (fun _ => (1 : ℝ)) p.1 * w.el p.2 := by
    funext p; rw [element_el]; ring
  rw [e, integral_split _ _ _ _ (fun _ => (1 : ℝ)) w.el, sum_el_one _ _ hx]
  rcases hw with hw | hw
  · have e2 : w.el = fun _ => 1 := by
      funext y; unfold World.el; rw [if_neg (by omega)]
    rw [e2, sum_el_one _ _ hy, if_neg (by omega)]
  · have e2 : w.el = fun y => (w.earthRadius * (Real.pi / 180)) ^ 2 * Real.cos (y * (Real.pi / 180)) := by
      funext y; unfold World.el; rw [if_pos hw]; ring
    have hk := pi_ne
    rw [e2, integral_weight_cos _ _ _ _ hk hy, if_pos hw]
    unfold deg2rad
    rw [mul_comm (Real.pi / 180) R.yhi, mul_comm (Real.pi / 180) R.ylo]
    generalize Real.pi / 180 = k at hk ⊢
    field_simp

theorem vol_ground (w : World) (F : Files) (R : Rect) (hc : R.set ⊆ F.covered) (S : ℝ × ℝ → ℝ)
    (hS : F.IsGround S) : vol w F.ordered R.set = w.volume R.set S := by
  unfold vol World.volume
  apply setIntegral_congr_fun (rect_measurable R)
  intro p hp
  beta_reduce
  rw [ground_unique F _ S (surf_ground F) hS p (hc hp)]

theorem rect_pos (R : Rect) (hx : R.xlo < R.xhi) (hy : R.ylo < R.yhi) : volume R.set ≠ 0 := by
  rw [rect_volume]
  exact mul_ne_zero (by rw [Ne, ENNReal.ofReal_eq_zero]; linarith) (by rw [Ne, ENNReal.ofReal_eq_zero]; linarith)

theorem cell_ground (w : World) (hw : w.coord = 1 ∨ w.coord = 2) (F : Files) (hF : F.Valid) (R : Rect)
    (hx : R.xlo < R.xhi) (hy : R.ylo < R.yhi) (hc : R.set ⊆ F.covered) (S : ℝ × ℝ → ℝ) (hS : F.IsGround S) :
    cellgridintegrate w F.ordered R = some (w.volume R.set S) := by
  rw [cell_eq w hw F.ordered (ordered_valid F hF) R, vol_ground w F R hc S hS]
  rw [union_covered, Set.inter_eq_left.mpr hc]
  exact rect_pos R hx hy

theorem domainCell_subset {D : Domain} {dx dy : ℝ} {N M I J : ℤ} (hdx : 0 < dx) (hdy : 0 < dy)
    (hxh : D.xhi = D.xlo + (N : ℝ) * dx) (hyh : D.yhi = D.ylo + (M : ℝ) * dy)
    (hI : 1 ≤ I) (hI' : I ≤ N) (hJ : 1 ≤ J) (hJ' : J ≤ M) : (domainCell D dx dy I J).set ⊆ D.set := by
  have a1 : (1 : ℝ) ≤ I := by exact_mod_cast hI
  have a2 : (I : ℝ) ≤ N := by exact_mod_cast hI'
  have a3 : (1 : ℝ) ≤ J := by exact_mod_cast hJ
  have a4 : (J : ℝ) ≤ M := by exact_mod_cast hJ'
  rintro p ⟨⟨p1, p2⟩, p3, p4⟩
  unfold domainCell at p1 p2 p3 p4
  simp only at p1 p2 p3 p4
  refine ⟨⟨?_, ?_⟩, ?_, ?_⟩
  · nlinarith
  · rw [hxh]; nlinarith
  · nlinarith
  · rw [hyh]; nlinarith

/-! ### The values -/

section
variable (w : World) (F : Files) (D : Domain) (P : Patch) (N M I0 J0 : ℤ) (S : ℝ × ℝ → ℝ)

/-- The cells of the domain. -/
def InDom (c : Cell) : Prop := 1 ≤ I0 + c.1 ∧ I0 + c.1 ≤ N ∧ 1 ≤ J0 + c.2.1 ∧ J0 + c.2.1 ≤ M

/-- What the loops of lines 137-207 set. -/
noncomputable def cellVal (c : Cell) : ℝ :=
  if c.2.2 = 1 then w.average (domainCell D P.dx P.dy (I0 + c.1) (J0 + c.2.1)).set S
  else if c.2.2 = 2 then
    w.area (domainCell D P.dx P.dy (I0 + c.1) (J0 + c.2.1)).set / (P.dx * P.dy)
  else (D.ylo + ((J0 + c.2.1 : ℤ) - 1) * P.dy) * (Real.pi / 180)

/-- The elements that one pass of the loops of lines 137-207 sets. -/
def cellWrites (k : ℤ × ℤ) (c : Cell) : Prop :=
  P.MustSet k.2 k.1 ∧ c.1 = k.2 ∧ c.2.1 = k.1 ∧
    ((w.coord = 2 ∧ (c.2.2 = 2 ∨ c.2.2 = 3)) ∨ (c.2.2 = 1 ∧ InDom N M I0 J0 c))

variable (hP : Placed D P N M I0 J0) (hA : Accepts w P) (hF : F.Valid) (hC : D.set ⊆ F.covered)
  (hS : F.IsGround S)
include hP hA hF hC hS

theorem setauxCell_eq (i j : ℤ) (hc : P.HasCell i j) (aux : Grid ℝ) :
    setauxCell w F.ordered D P i j aux =
      some (fun c => if cellWrites w P N M I0 J0 (j, i) c then cellVal w D P I0 J0 S c else aux c) := by
  have hw : w.coord = 1 ∨ w.coord = 2 := by
    rcases hA with h | h
    · exact Or.inl h.1
    · exact Or.inr h.1
  obtain ⟨b1, b2, b3, b4⟩ := hc
  unfold setauxCell
  simp only [ilo_eq hP, jlo_eq hP]
  by_cases hs : P.skip i j = true
  · rw [if_pos hs]
    congr 1
    funext c
    rw [if_neg]
    exact fun h => (skip_iff P i j).mp hs h.1
  · rw [if_neg hs]
    have hm : P.MustSet i j := by
      by_contra h; exact hs ((skip_iff P i j).mpr h)
    have em : (1 / 2 : ℝ) * (D.ylo + (((J0 + j : ℤ) : ℝ) - 1) * P.dy + (D.ylo + ((J0 + j : ℤ) : ℝ) * P.dy))
        = D.ylo + (((J0 + j : ℤ) : ℝ) - 1 / 2) * P.dy := by ring
    have en : (1 / 2 : ℝ) * (D.xlo + (((I0 + i : ℤ) : ℝ) - 1) * P.dx + (D.xlo + ((I0 + i : ℤ) : ℝ) * P.dx))
        = D.xlo + (((I0 + i : ℤ) : ℝ) - 1 / 2) * P.dx := by ring
    rw [em, en]
    have hcond : (D.ylo + (((J0 + j : ℤ) : ℝ) - 1 / 2) * P.dy > D.yhi ∨
        D.ylo + (((J0 + j : ℤ) : ℝ) - 1 / 2) * P.dy < D.ylo ∨
        D.xlo + (((I0 + i : ℤ) : ℝ) - 1 / 2) * P.dx > D.xhi ∨
        D.xlo + (((I0 + i : ℤ) : ℝ) - 1 / 2) * P.dx < D.xlo) ↔ ¬ InDom N M I0 J0 (i, j, 1) := by
      rw [hP.xhi, hP.yhi, above_iff hP.dy, above_iff hP.dx, below_iff hP.dx, below_iff hP.dy]
      unfold InDom
      simp only
      omega
    -- the set of the cell
    set R := domainCell D P.dx P.dy (I0 + i) (J0 + j) with hR
    have eR : (⟨D.xlo + (((I0 + i : ℤ) : ℝ) - 1) * P.dx, D.xlo + ((I0 + i : ℤ) : ℝ) * P.dx,
        D.ylo + (((J0 + j : ℤ) : ℝ) - 1) * P.dy, D.ylo + ((J0 + j : ℤ) : ℝ) * P.dy⟩ : Rect) = R := rfl
    have hdx := hP.dx
    have hdy := hP.dy
    have hlx : R.xlo < R.xhi := by
      rw [← eR]; simp only; nlinarith
    have hly : R.ylo < R.yhi := by
      rw [← eR]; simp only; nlinarith
    have ewx : R.xhi - R.xlo = P.dx := by rw [← eR]; simp only; ring
    have ewy : R.yhi - R.ylo = P.dy := by rw [← eR]; simp only; ring
    have hint : InDom N M I0 J0 (i, j, 1) →
        cellgridintegrate w F.ordered R = some (w.volume R.set S) := by
      rintro ⟨d1, d2, d3, d4⟩
      refine cell_ground w hw F hF R hlx hly ?_ S hS
      exact (domainCell_subset hP.dx hP.dy hP.xhi hP.yhi d1 d2 d3 d4).trans hC
    have hlen : InDom N M I0 J0 (i, j, 1) → F.ordered.length > 0 := by
      intro h
      by_contra hn
      have h0 : F.ordered = [] := List.length_eq_zero_iff.mp (by omega)
      have h1 := hint h
      rw [h0] at h1
      simp [cellgridintegrate] at h1
    rw [eR]
    have harea := area_rect w hw R hlx.le hly.le
    rcases hw with hw1 | hw2
    · rw [if_neg (by omega : ¬ w.coord = 2)]
      simp only [Option.bind_some]
      have hmeq : 1 ≤ P.d.meqn := by
        rcases hA with h | h
        · exact h.2.2
        · have := h.2.2; omega
      by_cases hd : InDom N M I0 J0 (i, j, 1)
      · rw [if_neg (fun h => (hcond.mp h) hd), if_pos (hlen hd), hint hd]
        simp only [Option.bind_some]
        rw [if_neg (by omega : ¬ w.coord = 2), wr_some b1 b2 b3 b4 (by omega) (by exact_mod_cast hmeq)]
        congr 1
        funext c
        obtain ⟨c1, c2, c3⟩ := c
        rw [if_neg (by omega : ¬ w.coord = 2), ewx, ewy] at harea
        by_cases hcw : cellWrites w P N M I0 J0 (j, i) (c1, c2, c3)
        · obtain ⟨_, e1, e2, e3⟩ := hcw
          simp only at e1 e2 e3
          subst e1; subst e2
          rcases e3 with e3 | ⟨e3, _⟩
          · omega
          · subst e3
            rw [if_pos rfl, if_pos]
            · unfold cellVal
              simp only [if_true]
              unfold World.average
              rw [harea]
            · exact ⟨hm, rfl, rfl, Or.inr ⟨rfl, hd⟩⟩
        · rw [if_neg hcw, if_neg]
          intro h
          injection h with h1 h2
          injection h2 with h2 h3
          subst h1; subst h2; subst h3
          exact hcw ⟨hm, rfl, rfl, Or.inr ⟨rfl, hd⟩⟩
      · rw [if_pos (hcond.mpr hd)]
        congr 1
        funext c
        rw [if_neg]
        rintro ⟨_, e1, e2, e3⟩
        rcases e3 with e3 | ⟨_, e4⟩
        · omega
        · apply hd
          unfold InDom at e4 ⊢
          rw [e1, e2] at e4
          exact e4
    · have hmeq : 3 ≤ P.d.meqn := by
        rcases hA with h | h
        · have := h.1; omega
        · exact h.2.2
      rw [if_pos hw2, wr_some b1 b2 b3 b4 (by omega) (by omega)]
      simp only [Option.bind_some]
      rw [wr_some b1 b2 b3 b4 (by omega) (by omega)]
      simp only [Option.bind_some]
      rw [if_pos hw2, ewx] at harea
      have ecap : deg2rad * w.earthRadius ^ 2 *
          (Real.sin ((D.ylo + ((J0 + j : ℤ) : ℝ) * P.dy) * deg2rad)
            - Real.sin ((D.ylo + (((J0 + j : ℤ) : ℝ) - 1) * P.dy) * deg2rad)) / P.dy
          = w.area R.set / (P.dx * P.dy) := by
        rw [harea, ← eR]
        simp only
        field_simp
      rw [ecap]
      by_cases hd : InDom N M I0 J0 (i, j, 1)
      · rw [if_neg (fun h => (hcond.mp h) hd), if_pos (hlen hd), hint hd]
        simp only [Option.bind_some]
        rw [if_pos hw2, rd_some b1 b2 b3 b4 (by omega) (by omega)]
        simp only [Option.bind_some]
        rw [wr_some b1 b2 b3 b4 (by omega) (by omega)]
        congr 1
        funext c
        obtain ⟨c1, c2, c3⟩ := c
        simp only [Prod.mk.injEq]
        have e23 : ¬ ((2 : ℤ) = 3) := by omega
        simp only [e23, and_false, if_false, and_self, if_true]
        have edd : P.dx * P.dy * (w.area R.set / (P.dx * P.dy)) = w.area R.set := by field_simp
        rw [edd]
        by_cases hij : c1 = i ∧ c2 = j
        · obtain ⟨rfl, rfl⟩ := hij
          by_cases h1 : c3 = 1
          · subst h1
            rw [if_pos (by simp), if_pos ⟨hm, rfl, rfl, Or.inr ⟨rfl, hd⟩⟩]
            unfold cellVal
            simp only [if_true]
            rfl
          · rw [if_neg (by simp [h1])]
            by_cases h3 : c3 = 3
            · subst h3
              rw [if_pos (by simp), if_pos ⟨hm, rfl, rfl, Or.inl ⟨hw2, Or.inr rfl⟩⟩]
              unfold cellVal deg2rad
              simp only
              norm_num
            · rw [if_neg (by simp [h3])]
              by_cases h2 : c3 = 2
              · subst h2
                rw [if_pos (by simp), if_pos ⟨hm, rfl, rfl, Or.inl ⟨hw2, Or.inl rfl⟩⟩]
                unfold cellVal
                simp only
                norm_num
                rfl
              · rw [if_neg (by simp [h2]), if_neg]
                rintro ⟨_, _, _, e | e⟩
                · rcases e.2 with e | e
                  · exact h2 e
                  · exact h3 e
                · exact h1 e.1
        · have hn : ∀ m : ℤ, ¬ (c1 = i ∧ c2 = j ∧ c3 = m) := fun m h => hij ⟨h.1, h.2.1⟩
          simp only [hn, if_false]
          rw [if_neg]
          rintro ⟨_, e1, e2, _⟩
          exact hij ⟨e1, e2⟩
      · rw [if_pos (hcond.mpr hd)]
        congr 1
        funext c
        obtain ⟨c1, c2, c3⟩ := c
        simp only [Prod.mk.injEq]
        by_cases hij : c1 = i ∧ c2 = j
        · obtain ⟨rfl, rfl⟩ := hij
          by_cases h3 : c3 = 3
          · subst h3
            rw [if_pos (by simp), if_pos ⟨hm, rfl, rfl, Or.inl ⟨hw2, Or.inr rfl⟩⟩]
            unfold cellVal deg2rad
            simp only
            norm_num
          · rw [if_neg (by simp [h3])]
            by_cases h2 : c3 = 2
            · subst h2
              rw [if_pos (by simp), if_pos ⟨hm, rfl, rfl, Or.inl ⟨hw2, Or.inl rfl⟩⟩]
              unfold cellVal
              simp only
              norm_num
              rfl
            · rw [if_neg (by simp [h2]), if_neg]
              rintro ⟨_, _, _, e | e⟩
              · rcases e.2 with e | e
                · exact h2 e
                · exact h3 e
              · exact hd e.2
        · have hn : ∀ m : ℤ, ¬ (c1 = i ∧ c2 = j ∧ c3 = m) := fun m h => hij ⟨h.1, h.2.1⟩
          simp only [hn, if_false]
          rw [if_neg]
          rintro ⟨_, e1, e2, _⟩
          exact hij ⟨e1, e2⟩

end

end Fclaw.Topo

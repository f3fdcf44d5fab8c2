import Verif.Wave.Props
import Mathlib.Tactic.Linarith
/-
C71: limiters, and what they are for.
-/
set_option autoImplicit false
set_option linter.unusedSimpArgs false
namespace Fclaw.Wave

open Fort

/-! ### The limiters -/

/-- Second order where the solution is smooth; no correction at an extremum; and otherwise a correction of the
same sign that is at most twice each of the two jumps. -/
structure Tvd (φ : ℚ → ℚ) : Prop where
  smooth : φ 1 = 1
  extremum : ∀ r, r ≤ 0 → φ r = 0
  nonneg : ∀ r, 0 < r → 0 ≤ φ r
  two : ∀ r, 0 < r → φ r ≤ 2
  twice : ∀ r, 0 < r → φ r ≤ 2 * r

/-- **C71.** The limiters 1 to 4 and 6, as the program computes them, are of this kind. -/
theorem C71_limiters (k : ℤ) (hk : k = 1 ∨ k = 2 ∨ k = 3 ∨ k = 4 ∨ k = 6) : Tvd (wlimitr k) := by
  have ht : (0 : ℚ) < theta13 ∧ theta13 < 2 ∧ 1 < theta13 := by unfold theta13; norm_num
  rcases hk with rfl | rfl | rfl | rfl | rfl
  · have e : ∀ r, wlimitr 1 r = max 0 (min 1 r) := fun r => by simp [wlimitr]
    constructor
    · rw [e]; norm_num
    · intro r hr; rw [e]; exact max_eq_left (le_trans (min_le_right _ _) hr)
    · intro r hr; rw [e]; exact le_max_left _ _
    · intro r hr; rw [e]; exact max_le (by norm_num) (le_trans (min_le_left _ _) (by norm_num))
    · intro r hr; rw [e]; exact max_le (by linarith) (le_trans (min_le_right _ _) (by linarith))
  · have e : ∀ r, wlimitr 2 r = max (max 0 (min 1 (2 * r))) (min 2 r) := fun r => by simp [wlimitr]
    constructor
    · rw [e]; norm_num
    · intro r hr; rw [e, max_eq_left (le_trans (min_le_right 1 (2 * r)) (by linarith))]
      exact max_eq_left (le_trans (min_le_right _ _) hr)
    · intro r hr; rw [e]; exact le_trans (le_max_left _ _) (le_max_left _ _)
    · intro r hr; rw [e]
      exact max_le (max_le (by norm_num) (le_trans (min_le_left _ _) (by norm_num))) (min_le_left _ _)
    · intro r hr; rw [e]
      exact max_le (max_le (by linarith) (min_le_right _ _)) (le_trans (min_le_right _ _) (by linarith))
  · have e : ∀ r, wlimitr 3 r = (r + |r|) / (1 + |r|) := fun r => by simp [wlimitr]
    constructor
    · rw [e]; norm_num
    · intro r hr; rw [e, abs_of_nonpos hr]; simp
    · intro r hr; rw [e, abs_of_pos hr]; exact div_nonneg (by linarith) (by linarith)
    · intro r hr; rw [e, abs_of_pos hr, div_le_iff₀ (by linarith)]; linarith
    · intro r hr; rw [e, abs_of_pos hr, div_le_iff₀ (by linarith)]; nlinarith
  · have e : ∀ r, wlimitr 4 r = max 0 (min (min ((1 + r) / 2) 2) (2 * r)) := fun r => by simp [wlimitr]
    constructor
    · rw [e]; norm_num
    · intro r hr; rw [e]; exact max_eq_left (le_trans (min_le_right _ _) (by linarith))
    · intro r hr; rw [e]; exact le_max_left _ _
    · intro r hr; rw [e]; exact max_le (by norm_num) (le_trans (min_le_left _ _) (min_le_right _ _))
    · intro r hr; rw [e]; exact max_le (by linarith) (min_le_right _ _)
  · have e : ∀ r, wlimitr 6 r = max 0 (min (min (theta13 * r) ((1 + r) / 2)) theta13) := fun r => by simp [wlimitr]
    constructor
    · rw [e, mul_one, min_eq_right (show ((1 : ℚ) + 1) / 2 ≤ theta13 by linarith [ht.2.2]), min_eq_left (by linarith [ht.2.2])]; norm_num
    · intro r hr; rw [e]
      exact max_eq_left (le_trans (min_le_left _ _) (le_trans (min_le_left _ _) (by nlinarith [ht.1])))
    · intro r hr; rw [e]; exact le_max_left _ _
    · intro r hr; rw [e]; exact max_le (by norm_num) (le_trans (min_le_right _ _) (by linarith [ht.2.1]))
    · intro r hr; rw [e]
      exact max_le (by linarith) (le_trans (min_le_left _ _) (le_trans (min_le_left _ _) (by nlinarith [ht.2.1])))

/-- **C71.** Number 5 (Beam–Warming) is not. -/
theorem C71_beam_warming_counterexample : ¬ Tvd (wlimitr 5) := fun h => by
  have := h.two 3 (by norm_num)
  simp [wlimitr] at this
  norm_num at this

theorem tvd_phi (k : ℤ) (hk : k = 1 ∨ k = 2 ∨ k = 3 ∨ k = 4 ∨ k = 6) : Tvd (phi k) := by
  have : phi k = wlimitr k := funext fun r => (wlimitr_phi k (by omega) (by omega) r).symm
  rw [this]; exact C71_limiters k hk

/-! ### No new extrema -/

/-- A limited jump is a multiple, between 0 and 2, of the jump and of the one upwind. -/
theorem limited_jump {φ : ℚ → ℚ} (hφ : Tvd φ) (d e : ℚ) :
    ∃ θ ψ, (0 ≤ θ ∧ θ ≤ 2) ∧ (0 ≤ ψ ∧ ψ ≤ 2) ∧ (if d * d = 0 then d else φ (e * d / (d * d)) * d) = θ * d ∧
      (if d * d = 0 then d else φ (e * d / (d * d)) * d) = ψ * e := by
  by_cases hd : d = 0
  · subst hd
    exact ⟨0, 0, by norm_num, by norm_num, by simp, by simp⟩
  · have hdd : d * d ≠ 0 := mul_ne_zero hd hd
    rw [if_neg hdd]
    have hr : e * d / (d * d) = e / d := by field_simp
    rw [hr]
    by_cases hp : 0 < e / d
    · have he : e ≠ 0 := by rintro rfl; simp at hp
      refine ⟨φ (e / d), φ (e / d) / (e / d), ⟨hφ.nonneg _ hp, hφ.two _ hp⟩, ⟨div_nonneg (hφ.nonneg _ hp) hp.le, ?_⟩, rfl, by field_simp⟩
      rw [div_le_iff₀ hp]
      exact hφ.twice _ hp
    · rw [hφ.extremum _ (not_lt.1 hp)]
      exact ⟨0, 0, by norm_num, by norm_num, by simp, by simp⟩

theorem between {a b c : ℚ} (h0 : 0 ≤ c) (h1 : c ≤ 1) : min a b ≤ a - c * (a - b) ∧ a - c * (a - b) ≤ max a b := by
  rcases le_total a b with h | h
  · rw [min_eq_left h, max_eq_right h]
    constructor <;> nlinarith
  · rw [min_eq_right h, max_eq_left h]
    constructor <;> nlinarith

section
variable {S : Scheme} {F : Field} {u v : ℚ} {i j : ℤ} {x : ℤ → ℚ}

/-- Data that depend on `i` only, around a cell. -/
def Plane (F : Field) (i j : ℤ) (x : ℤ → ℚ) : Prop :=
  ∀ a b, i - 2 ≤ a → a ≤ i + 2 → j - 2 ≤ b → b ≤ j + 2 → (∀ dir, dir = 1 ∨ dir = 2 → F.Q dir a b = comps 1 fun _ => x a) ∧ F.cap a b = 1

theorem plane_newValue (hR : S.R = advection u v) (hn : S.meqn = 1) (hlag : S.lag = 0) (hP : Plane F i j x) :
    newValue S F i j 1 = x i - S.ratio 1 * (min u 0 * (x (i + 1) - x i) + max u 0 * (x i - x (i - 1)) +
      (secondOrder S F 1 (i + 1) j 1 - secondOrder S F 1 i j 1)) := by
  -- auxiliary values play no role
  have hA : newValue S F i j 1 = newValue S { F with A := fun _ _ _ => 0 } i j 1 := by
    obtain ⟨R, _, _, _, _, _, _, _, _⟩ := S
    dsimp only at hR
    subst hR
    rfl
  have hA' : ∀ a, secondOrder S F 1 a j 1 = secondOrder S { F with A := fun _ _ _ => 0 } 1 a j 1 := by
    intro a
    obtain ⟨R, _, _, _, _, _, _, _, _⟩ := S
    dsimp only at hR
    subst hR
    rfl
  have hP' : Plane { F with A := fun _ _ _ => 0 } i j x := hP
  rw [hA, hA', hA']
  generalize hG : ({ F with A := fun _ _ _ => 0 } : Field) = G at hP'
  have hA0 : ∀ a b, G.A a b = fun _ => 0 := by rw [← hG]; exact fun _ _ => rfl
  clear hA hA' hG hP
  have v1 : ∀ a b, i - 2 ≤ a → a ≤ i + 2 → j - 2 ≤ b → b ≤ j + 2 → G.val 1 a b = comps 1 fun _ => x a :=
    fun a b h1 h2 h3 h4 => (hP' a b h1 h2 h3 h4).1 1 (Or.inl rfl)
  have v2 : ∀ a b, i - 2 ≤ a → a ≤ i + 2 → j - 2 ≤ b → b ≤ j + 2 → G.val 2 b a = comps 1 fun _ => x a :=
    fun a b h1 h2 h3 h4 => (hP' a b h1 h2 h3 h4).1 2 (Or.inr rfl)
  -- nothing comes from the waves in the other direction
  have t1 : ∀ a, i ≤ a → a ≤ i + 1 → transverse S G 1 a j 1 = 0 := by
    intro a h1 h2
    have hq : ∀ w : Vec, Quiet S.R w := fun w => by rw [hR]; exact advection_quiet u v w
    show (if 0 < S.trans then spill S G 2 j a false 1 + spill S G 2 j (a - 1) true 1 else 0) = 0
    rw [quiet_spill (hq (comps 1 fun _ => x a)) (v2 a (j - 1) (by omega) (by omega) (by omega) (by omega)) (v2 a j (by omega) (by omega) (by omega) (by omega))
        (v2 a (j + 1) (by omega) (by omega) (by omega) (by omega)),
      quiet_spill (hq (comps 1 fun _ => x (a - 1))) (v2 (a - 1) (j - 1) (by omega) (by omega) (by omega) (by omega)) (v2 (a - 1) j (by omega) (by omega) (by omega) (by omega))
        (v2 (a - 1) (j + 1) (by omega) (by omega) (by omega) (by omega))]
    simp
  -- the waves in this direction give the same on both sides
  have ag : Agree G G 1 0 1 (i - 2) (i + 2) (j - 2) (j + 1) := by
    constructor
    · intro a b h1 h2 h3 h4; rw [v1 a b h1 h2 h3 (by omega), add_zero, v1 a (b + 1) h1 h2 (by omega) (by omega)]
    · intro a b h1 h2 h3 h4; unfold Field.auxAt; rw [hA0, hA0]
    · intro a b h1 h2 h3 h4
      show G.cap a b = G.cap (a + 0) (b + 1)
      rw [(hP' a b h1 h2 h3 (by omega)).2, add_zero, (hP' a (b + 1) h1 h2 (by omega) (by omega)).2]
  have t2 : transverse S G 2 (j + 1) i 1 = transverse S G 2 j i 1 := by
    show (if 0 < S.trans then spill S G 1 i (j + 1) false 1 + spill S G 1 i (j + 1 - 1) true 1 else 0) =
      if 0 < S.trans then spill S G 1 i j false 1 + spill S G 1 i (j - 1) true 1 else 0
    have e1 := ag.spill (S := S) (a := i) (b := j) (by omega) (by omega) (by omega) (by omega) (by omega) false 1
    have e2 := ag.spill (S := S) (a := i) (b := j - 1) (by omega) (by omega) (by omega) (by omega) (by omega) true 1
    rw [add_zero] at e1 e2
    rw [e1, e2, add_sub_cancel_right, sub_add_cancel]
  have f2 : ∀ a, j ≤ a → a ≤ j + 1 → left S G 2 a i 1 = 0 ∧ right S G 2 a i 1 = 0 ∧ secondOrder S G 2 a i 1 = 0 := by
    intro a h1 h2
    have hq : Quiet S.R (comps 1 fun _ => x i) := by rw [hR]; exact advection_quiet u v _
    have w0 := v2 i (a - 1) (by omega) (by omega) (by omega) (by omega)
    have w1 := v2 i a (by omega) (by omega) (by omega) (by omega)
    obtain ⟨_, l, r⟩ := quiet_edge hq w0 w1
    exact ⟨l 1, r 1, by unfold secondOrder; rw [quiet_corr hq w0 w1]; simp⟩
  have f1 : ∀ a, i - 1 ≤ a → a ≤ i + 2 → left S G 1 a j 1 = min u 0 * (x a - x (a - 1)) ∧ right S G 1 a j 1 = max u 0 * (x a - x (a - 1)) := by
    intro a h1 h2
    unfold left right
    rw [hR, v1 a j (by omega) (by omega) (by omega) (by omega), v1 (a - 1) j (by omega) (by omega) (by omega) (by omega)]
    exact ⟨rfl, rfl⟩
  have hc := (hP' i j (by omega) (by omega) (by omega) (by omega)).2
  have hq := (hP' i j (by omega) (by omega) (by omega) (by omega)).1 1 (Or.inl rfl)
  unfold newValue fluxMinus fluxPlus
  rw [t1 (i + 1) (by omega) (by omega), t1 i (by omega) (by omega), t2, hc, hq, (f2 (j + 1) (by omega) (by omega)).1, (f2 (j + 1) (by omega) (by omega)).2.2,
    (f2 j (by omega) (by omega)).2.1, (f2 j (by omega) (by omega)).2.2, (f1 (i + 1) (by omega) (by omega)).1, (f1 i (by omega) (by omega)).2, add_sub_cancel_right]
  have : comps 1 (fun _ => x i) 1 = x i := by simp [comps]
  rw [this]
  ring

/-- The correction at an edge. -/
theorem plane_secondOrder (hR : S.R = advection u v) (hn : S.meqn = 1) (hw : S.mwaves = 1) (hfw : S.fw = false) (hP : Plane F i j x)
    (ho : S.order = 1 ∨ S.order = 2 ∧ S.lim 1 ≠ 0 ∧ Tvd (phi (S.lim 1))) {a : ℤ} (h1 : i ≤ a) (h2 : a ≤ i + 1) :
    ∃ θ ψ, (0 ≤ θ ∧ θ ≤ 2) ∧ (0 ≤ ψ ∧ ψ ≤ 2) ∧
      secondOrder S F 1 a j 1 = 1 / 2 * |u| * (1 - |u| * S.ratio 1) * (θ * (x a - x (a - 1))) ∧
      secondOrder S F 1 a j 1 = 1 / 2 * |u| * (1 - |u| * S.ratio 1) *
        (ψ * (if 0 < u then x (a - 1) - x (a - 2) else x (a + 1) - x a)) := by
  have v1 : ∀ a b, i - 2 ≤ a → a ≤ i + 2 → j - 2 ≤ b → b ≤ j + 2 → F.val 1 a b = comps 1 fun _ => x a :=
    fun a b h1 h2 h3 h4 => (hP a b h1 h2 h3 h4).1 1 (Or.inl rfl)
  rcases ho with ho | ⟨ho, hl, hT⟩
  · have : secondOrder S F 1 a j 1 = 0 := by unfold secondOrder; rw [if_neg (by omega)]
    exact ⟨0, 0, by norm_num, by norm_num, by rw [this]; ring, by rw [this]; ring⟩
  have wv : ∀ a, i - 1 ≤ a → a ≤ i + 2 → wave S F 1 a j 1 1 = x a - x (a - 1) := by
    intro a h1 h2
    unfold wave
    rw [hR, v1 a j (by omega) (by omega) (by omega) (by omega), v1 (a - 1) j (by omega) (by omega) (by omega) (by omega)]
    rfl
  have sp : ∀ a, speed S F 1 a j 1 = u := fun a => by unfold speed; rw [hR]; rfl
  have dt : ∀ p q : Vec, dot S.meqn p q = p 1 * q 1 := fun p q => by unfold dot; rw [hn]; simp
  have lm : ∀ a, i - 2 ≤ a → a ≤ i + 2 → lam S F 1 a j = S.ratio 1 := by
    intro a h1 h2
    unfold lam
    have : F.capAt 1 a j = 1 := (hP a j h1 h2 (by omega) (by omega)).2
    rw [this, div_one]
  obtain ⟨θ, ψ, h3, h4, h5, h6⟩ := limited_jump hT (x a - x (a - 1)) (if 0 < u then x (a - 1) - x (a - 2) else x (a + 1) - x a)
  have hlw : limitedWave S F 1 a j 1 1 = if (x a - x (a - 1)) * (x a - x (a - 1)) = 0 then x a - x (a - 1) else
      phi (S.lim 1) ((if 0 < u then x (a - 1) - x (a - 2) else x (a + 1) - x a) * (x a - x (a - 1)) / ((x a - x (a - 1)) * (x a - x (a - 1)))) *
        (x a - x (a - 1)) := by
    unfold limitedWave jumpRatio upwind
    rw [dt, dt, sp, wv a (by omega) (by omega)]
    have e : wave S F 1 (if 0 < u then a - 1 else a + 1) j 1 1 = if 0 < u then x (a - 1) - x (a - 2) else x (a + 1) - x a := by
      split_ifs
      · rw [wv (a - 1) (by omega) (by omega), show a - 1 - 1 = a - 2 by omega]
      · rw [wv (a + 1) (by omega) (by omega), add_sub_cancel_right]
    rw [e]
    by_cases hz : (x a - x (a - 1)) * (x a - x (a - 1)) = 0
    · rw [if_pos (Or.inr hz), if_pos hz]
    · rw [if_neg (not_or.2 ⟨hl, hz⟩), if_neg hz]
  have hco : secondOrder S F 1 a j 1 = 1 / 2 * |u| * (1 - |u| * S.ratio 1) * limitedWave S F 1 a j 1 1 := by
    unfold secondOrder corr
    rw [if_pos ho, hw, hfw, lm a (by omega) (by omega), lm (a - 1) (by omega) (by omega)]
    simp only [Nat.cast_one, Finset.Icc_self, Finset.sum_singleton, sp]
    simp
    ring
  refine ⟨θ, ψ, h3, h4, ?_, ?_⟩
  · rw [hco, hlw, h5]
  · rw [hco, hlw, h6]

/-- The new value is between those in the cell and upwind of it. -/
theorem plane_between (hR : S.R = advection u v) (hn : S.meqn = 1) (hw : S.mwaves = 1) (hfw : S.fw = false) (hlag : S.lag = 0) (hP : Plane F i j x)
    (ho : S.order = 1 ∨ S.order = 2 ∧ S.lim 1 ≠ 0 ∧ Tvd (phi (S.lim 1))) (hr : 0 ≤ S.ratio 1) (hcfl : |u| * S.ratio 1 ≤ 1) :
    min (x i) (x (if 0 < u then i - 1 else i + 1)) ≤ newValue S F i j 1 ∧
      newValue S F i j 1 ≤ max (x i) (x (if 0 < u then i - 1 else i + 1)) := by
  obtain ⟨θ0, ψ0, ht0, hp0, e0, e0'⟩ := plane_secondOrder hR hn hw hfw hP ho (a := i) (by omega) (by omega)
  obtain ⟨θ1, ψ1, ht1, hp1, e1, e1'⟩ := plane_secondOrder hR hn hw hfw hP ho (a := i + 1) (by omega) (by omega)
  rw [plane_newValue hR hn hlag hP]
  have key : ∀ ν p t : ℚ, 0 ≤ ν → ν ≤ 1 → (0 ≤ p ∧ p ≤ 2) → (0 ≤ t ∧ t ≤ 2) →
      0 ≤ ν + 1 / 2 * ν * (1 - ν) * (p - t) ∧ ν + 1 / 2 * ν * (1 - ν) * (p - t) ≤ 1 := by
    intro ν p t h1 h2 hp ht
    have hm : 0 ≤ ν * (1 - ν) := mul_nonneg h1 (by linarith)
    constructor
    · nlinarith [mul_nonneg hm hp.1, mul_nonneg hm (by linarith [ht.2] : (0 : ℚ) ≤ 2 - t), sq_nonneg ν]
    · nlinarith [mul_nonneg hm ht.1, mul_nonneg hm (by linarith [hp.2] : (0 : ℚ) ≤ 2 - p), sq_nonneg (1 - ν)]
  have hν : 0 ≤ |u| * S.ratio 1 := mul_nonneg (abs_nonneg _) hr
  by_cases hu : 0 < u
  · rw [if_pos hu]
    rw [if_pos hu] at e1' e0'
    rw [e0, e1', min_eq_right hu.le, max_eq_left hu.le, abs_of_pos hu, add_sub_cancel_right, show i + 1 - 2 = i - 1 by omega]
    obtain ⟨k1, k2⟩ := key (u * S.ratio 1) ψ1 θ0 (by rw [abs_of_pos hu] at hν; exact hν) (by rw [abs_of_pos hu] at hcfl; exact hcfl) hp1 ht0
    have := between (a := x i) (b := x (i - 1)) k1 k2
    have e : x i - S.ratio 1 * (0 * (x (i + 1) - x i) + u * (x i - x (i - 1)) + (1 / 2 * u * (1 - u * S.ratio 1) * (ψ1 * (x i - x (i - 1))) -
        1 / 2 * u * (1 - u * S.ratio 1) * (θ0 * (x i - x (i - 1))))) =
        x i - (u * S.ratio 1 + 1 / 2 * (u * S.ratio 1) * (1 - u * S.ratio 1) * (ψ1 - θ0)) * (x i - x (i - 1)) := by ring
    rw [e]; exact this
  · rw [if_neg hu]
    rw [if_neg hu] at e1' e0'
    have hu' := not_lt.1 hu
    rw [e0', e1, min_eq_left hu', max_eq_right hu', abs_of_nonpos hu', add_sub_cancel_right]
    obtain ⟨k1, k2⟩ := key (-u * S.ratio 1) ψ0 θ1 (by rw [abs_of_nonpos hu'] at hν; exact hν) (by rw [abs_of_nonpos hu'] at hcfl; exact hcfl) hp0 ht1
    have := between (a := x i) (b := x (i + 1)) k1 k2
    have e : x i - S.ratio 1 * (u * (x (i + 1) - x i) + 0 * (x i - x (i - 1)) + (1 / 2 * -u * (1 - -u * S.ratio 1) * (θ1 * (x (i + 1) - x i)) -
        1 / 2 * -u * (1 - -u * S.ratio 1) * (ψ0 * (x (i + 1) - x i)))) =
        x i - (-u * S.ratio 1 + 1 / 2 * (-u * S.ratio 1) * (1 - -u * S.ratio 1) * (ψ0 - θ1)) * (x i - x (i + 1)) := by ring
    rw [e]; exact this

end

/-- **C71.** Advection, with any velocity, of a quantity that depends on one coordinate only: if the Courant number that
the step returns is at most one, and the method is of first order or has one of the limiters 1 to 4 or 6, then the new
value in every cell is between the values, before the step, in the cell and in its neighbour upwind. There are no new
maxima or minima. -/
theorem C71_no_new_extrema {z : Shape} {o : Method} (u v : ℚ) (count : ℤ → ℤ) {dx dy : ℚ} (dt : ℚ) (M N : Mem) (h : Ready z o dx dy M)
    (hN : step2Wrap z o (flux2 z o (advection u v)) count dx dy dt M = some N)
    (hz : z.meqn = 1 ∧ z.mwaves = 1) (hc : o.mcapa = 0) (hcount : ∀ k, count k ≠ 3) (hdt : 0 ≤ dt) (hdx : 0 < dx)
    (ho : o.order = 1 ∨ o.order = 2 ∧ (o.lim 1 = 1 ∨ o.lim 1 = 2 ∨ o.lim 1 = 3 ∨ o.lim 1 = 4 ∨ o.lim 1 = 6))
    (x : ℤ → ℚ) (hM : ∀ i j, z.inGrid i j → M (.q i j 1) = x i) (hcfl : N .cflgrid ≤ 1)
    {i j : ℤ} (hi : 1 ≤ i ∧ i ≤ (z.mx : ℤ)) (hj : 1 ≤ j ∧ j ≤ (z.my : ℤ)) :
    min (x i) (x (if 0 < u then i - 1 else i + 1)) ≤ N (.q i j 1) ∧ N (.q i j 1) ≤ max (x i) (x (if 0 < u then i - 1 else i + 1)) := by
  obtain ⟨_, K, _, e, g, hmax, _⟩ := full (advection u v) false count dt M h
  change step2Wrap z o (flux2 z o (advection u v)) count dx dy dt M = some K at e
  rw [hN] at e
  injection e with e
  subst e
  have mb := h.setting.mbc
  have hcap : ∀ i j, (fieldOf z o count M).cap i j = 1 := fun i j => by simp only [fieldOf]; rw [if_pos hc]
  rw [g i j 1 hi.1 hi.2 hj.1 hj.2 ⟨le_rfl, by omega⟩]
  have hP : Plane (fieldOf z o count M) i j x := by
    intro a b h1 h2 h3 h4
    refine ⟨fun dir _ => ?_, hcap a b⟩
    have hg : z.inGrid a b := by simp only [Shape.inGrid]; omega
    simp only [fieldOf, sweepCell]
    rw [if_neg fun h => hcount _ h.2, hz.1]
    funext m
    simp only [comps]
    by_cases hm : 1 ≤ m ∧ m ≤ ((1 : ℕ) : ℤ)
    · rw [if_pos hm, if_pos hm]
      have : m = 1 := by push_cast at hm; omega
      subst this
      exact hM a b hg
    · rw [if_neg hm, if_neg hm]
  refine plane_between (S := scheme z o (advection u v) false dx dy dt) (u := u) (v := v) rfl hz.1 hz.2 rfl rfl hP ?_ ?_ ?_
  · rcases ho with ho | ⟨ho, hl⟩
    · exact Or.inl ho
    · exact Or.inr ⟨ho, by show o.lim 1 ≠ 0; omega, tvd_phi _ hl⟩
  · show 0 ≤ dt / dx
    exact div_nonneg hdt hdx.le
  · have := hmax.2.1 _ (Or.inl ⟨1, ⟨by omega, by omega⟩, 1, 1, ⟨⟨le_rfl, by omega⟩, le_rfl, by omega⟩, rfl⟩)
    have hl : ∀ a b, lam (scheme z o (advection u v) false dx dy dt) (fieldOf z o count M) 1 a b = dt / dx := fun a b => by
      unfold lam Field.capAt; rw [hcap, div_one]; rfl
    have hs : speed (scheme z o (advection u v) false dx dy dt) (fieldOf z o count M) 1 1 1 1 = u := rfl
    rw [hl, hl, hs] at this
    have h1 := le_trans (le_max_left _ _) (le_trans this hcfl)
    have h2 := le_trans (le_max_right _ _) (le_trans this hcfl)
    show |u| * (dt / dx) ≤ 1
    rcases abs_cases u with ⟨e, _⟩ | ⟨e, _⟩ <;> rw [e] <;> linarith

/-- Second order with limiter 4 on a grid without capacity function. -/
abbrev exPlain : Method := { order := 2, trans := 2, lim := fun _ => 4, mcapa := 0 }

/-- A step function. -/
def exFront : Mem
  | .q i _ _ => if 2 ≤ i then 1 else 0
  | _ => 17

/-- The hypotheses can be met: a front that moves, at Courant number at most one. -/
example : Ready exShape exPlain (1 / 4) (1 / 4) exFront ∧
    ∃ N, step2Wrap exShape exPlain (flux2 exShape exPlain (advection 1 (-1))) (fun _ => 4) (1 / 4) (1 / 4) (1 / 8) exFront = some N ∧ N .cflgrid ≤ 1 ∧
      (∀ i j, exShape.inGrid i j → exFront (.q i j 1) = (fun i : ℤ => if 2 ≤ i then 1 else 0) i) ∧ N (.q 2 1 1) = 1 / 2 := by
  have hr : Ready exShape exPlain (1 / 4) (1 / 4) exFront :=
    ⟨⟨Or.inr rfl, ⟨by decide, by decide⟩, fun w _ _ => ⟨by simp, by simp⟩⟩, ⟨by decide, Or.inl rfl⟩, by decide, by decide, by norm_num, by norm_num,
      fun _ _ _ h => absurd rfl h⟩
  obtain ⟨N, h1, h2, h3⟩ := C70_step (advection 1 (-1)) (fun _ => 4) (1 / 8) _ hr
  refine ⟨hr, N, h1, ?_, fun _ _ _ => rfl, ?_⟩
  · have hl : ∀ dir a b, lam (scheme exShape exPlain (advection 1 (-1)) false (1 / 4) (1 / 4) (1 / 8)) (fieldOf exShape exPlain (fun _ => 4) exFront) dir a b = 1 / 2 := by
      intro dir a b
      have : (fieldOf exShape exPlain (fun _ => 4) exFront).capAt dir a b = 1 := by rfl
      unfold lam
      rw [this]
      simp only [scheme]
      split_ifs <;> norm_num
    rcases h3.2.2 with h | h
    · rw [h]; norm_num
    · rcases h with ⟨b, _, a, w, _, e⟩ | ⟨b, _, a, w, _, e⟩
      · rw [e, hl, hl]
        have : speed (scheme exShape exPlain (advection 1 (-1)) false (1 / 4) (1 / 4) (1 / 8)) (fieldOf exShape exPlain (fun _ => 4) exFront) 1 a b w = 1 := rfl
        rw [this]; norm_num
      · rw [e, hl, hl]
        have : speed (scheme exShape exPlain (advection 1 (-1)) false (1 / 4) (1 / 4) (1 / 8)) (fieldOf exShape exPlain (fun _ => 4) exFront) 2 a b w = -1 := rfl
        rw [this]; norm_num
  · rw [h2 2 1 1 (by decide) (by decide) (by decide) (by decide) ⟨by decide, by decide⟩]
    decide +kernel

end Fclaw.Wave

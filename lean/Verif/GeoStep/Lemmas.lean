import Verif.GeoStep.Spec
import Mathlib.Tactic.FieldSimp
import Mathlib.Tactic.Linarith
import Mathlib.Tactic.Ring
import Mathlib.Tactic.Positivity
import Mathlib.Tactic.FinCases
/-
Riemann problems: what the theorems need of `riemann_aug_JCP` and `rpn2`.
-/
set_option autoImplicit false
set_option linter.unusedSimpArgs false
set_option linter.unusedVariables false
namespace Fclaw.GeoStep

/-! ### Speeds -/

/-- The matrix of `riemann_aug_JCP`. -/
noncomputable def rMat (l1 l3 : ℝ) (m mw : Fin 3) : ℝ :=
  if mw = 1 then (if m = 2 then 1 else 0)
  else
    let l := if mw = 0 then l1 else l3
    if m = 0 then 1 else if m = 1 then l else l ^ 2

noncomputable def jL1 (tol g : ℝ) (L R : Side) (sE1 : ℝ) : ℝ := min sE1 (riemanntype L.h R.h L.u R.u tol g).s2m
noncomputable def jL3 (tol g : ℝ) (L R : Side) (sE2 : ℝ) : ℝ := max sE2 (riemanntype L.h R.h L.u R.u tol g).s1m
noncomputable def jHbar (L R : Side) : ℝ := max (1 / 2 * (L.h + R.h)) 0
noncomputable def jBar (g : ℝ) (L R : Side) : ℝ := 1 / 4 * (L.u + R.u) ^ 2 - g * jHbar L R
noncomputable def jTilde (g : ℝ) (L R : Side) : ℝ := max 0 (L.u * R.u) - g * jHbar L R
noncomputable def jStar (tol g : ℝ) (L R : Side) (sE1 sE2 : ℝ) : ℝ :=
  max ((L.hu - R.hu + jL3 tol g L R sE2 * R.h - jL1 tol g L R sE1 * L.h) /
    (jL3 tol g L R sE2 - jL1 tol g L R sE1)) 0
noncomputable def jSonic (tol g : ℝ) (L R : Side) (sE1 sE2 : ℝ) : Prop :=
  sonic g L R (jL1 tol g L R sE1) (jL3 tol g L R sE2) (riemanntype L.h R.h L.u R.u tol g).s1m
    (riemanntype L.h R.h L.u R.u tol g).s2m (jBar g L R) (jTilde g L R)
noncomputable def jDepth (tol g : ℝ) (L R : Side) (sE1 sE2 : ℝ) : ℝ :=
  steadyDepth (jSonic tol g L R sE1 sE2) g (R.b - L.b) (jHbar L R) (jBar g L R) (jL1 tol g L R sE1)
    (jL3 tol g L R sE2) (jStar tol g L R sE1 sE2) L.h R.h
noncomputable def jFlux (tol g : ℝ) (L R : Side) (sE1 sE2 : ℝ) : ℝ :=
  steadyFlux (jSonic tol g L R sE1 sE2) g (R.b - L.b) (jHbar L R) (jBar g L R) (jTilde g L R) L.h R.h
noncomputable def jDel (tol g : ℝ) (L R : Side) (sE1 sE2 : ℝ) (m : Fin 3) : ℝ :=
  if m = 0 then R.h - L.h - jDepth tol g L R sE1 sE2 else if m = 1 then R.hu - L.hu
  else R.phi - L.phi - jFlux tol g L R sE1 sE2
noncomputable def jBeta (tol g : ℝ) (L R : Side) (sE1 sE2 : ℝ) (k : Fin 3) : ℝ :=
  cramer (rMat (jL1 tol g L R sE1) (jL3 tol g L R sE2)) (jDel tol g L R sE1 sE2) k

theorem augJCP_eq (tol g : ℝ) (L R : Side) (sE1 sE2 : ℝ) :
    augJCP tol g L R sE1 sE2 =
      { s := fun mw => if mw = 0 then jL1 tol g L R sE1
          else if mw = 1 then 1 / 2 * (jL1 tol g L R sE1 + jL3 tol g L R sE2) else jL3 tol g L R sE2
        f := fun m mw =>
          if m = 0 then jBeta tol g L R sE1 sE2 mw * rMat (jL1 tol g L R sE1) (jL3 tol g L R sE2) 1 mw
          else if m = 1 then jBeta tol g L R sE1 sE2 mw * rMat (jL1 tol g L R sE1) (jL3 tol g L R sE2) 2 mw
          else if mw = 0 then jBeta tol g L R sE1 sE2 0 * rMat (jL1 tol g L R sE1) (jL3 tol g L R sE2) 1 0 * L.v
          else if mw = 2 then jBeta tol g L R sE1 sE2 2 * rMat (jL1 tol g L R sE1) (jL3 tol g L R sE2) 1 2 * R.v
          else R.h * R.u * R.v - L.h * L.u * L.v
            - jBeta tol g L R sE1 sE2 0 * rMat (jL1 tol g L R sE1) (jL3 tol g L R sE2) 1 0 * L.v
            - jBeta tol g L R sE1 sE2 2 * rMat (jL1 tol g L R sE1) (jL3 tol g L R sE2) 1 2 * R.v } := rfl

theorem det_rMat (l1 l3 : ℝ) : det3 (rMat l1 l3) = l1 - l3 := by
  simp [det3, rMat]; ring

theorem cramer0 (l1 l3 : ℝ) (del : Fin 3 → ℝ) (h : l1 < l3) :
    cramer (rMat l1 l3) del 0 = (l3 * del 0 - del 1) / (l3 - l1) := by
  have h1 : l3 - l1 ≠ 0 := by linarith
  have h2 : l1 - l3 ≠ 0 := by linarith
  rw [cramer, det_rMat]
  simp [det3, rMat]
  rw [div_eq_div_iff h2 h1]; ring

theorem cramer2 (l1 l3 : ℝ) (del : Fin 3 → ℝ) (h : l1 < l3) :
    cramer (rMat l1 l3) del 2 = (del 1 - l1 * del 0) / (l3 - l1) := by
  have h1 : l3 - l1 ≠ 0 := by linarith
  have h2 : l1 - l3 ≠ 0 := by linarith
  rw [cramer, det_rMat]
  simp [det3, rMat]
  rw [div_eq_div_iff h2 h1]; ring

theorem cramer1 (l1 l3 : ℝ) (del : Fin 3 → ℝ) (h : l1 < l3) :
    cramer (rMat l1 l3) del 1 =
      del 2 - l1 ^ 2 * cramer (rMat l1 l3) del 0 - l3 ^ 2 * cramer (rMat l1 l3) del 2 := by
  rw [cramer0 _ _ _ h, cramer2 _ _ _ h]
  have h1 : l3 - l1 ≠ 0 := by linarith
  have h2 : l1 - l3 ≠ 0 := by linarith
  rw [cramer, det_rMat]
  simp [det3, rMat]
  rw [div_eq_iff h2]
  field_simp
  ring

theorem cramer_zero (l1 l3 : ℝ) (del : Fin 3 → ℝ) (h : ∀ m, del m = 0) (k : Fin 3) :
    cramer (rMat l1 l3) del k = 0 := by
  rw [cramer]
  have : det3 (fun m mw => if mw = k then del m else rMat l1 l3 m mw) = 0 := by
    fin_cases k <;> simp [det3, h]
  rw [this, zero_div]

/-- The Einfeldt speeds are different, the first one is smaller. -/
theorem einfeldt_lt (g : ℝ) (L R : Side) (hg : 0 < g) (h : 0 < L.h + R.h) : einfeldt1 g L R < einfeldt2 g L R := by
  have hc : 0 < Real.sqrt (g * (1 / 2) * (R.h + L.h)) := Real.sqrt_pos.mpr (by nlinarith [mul_pos hg h])
  simp only [einfeldt1, einfeldt2]
  refine lt_of_le_of_lt (min_le_right _ _) (lt_of_lt_of_le ?_ (le_max_right _ _))
  linarith

theorem jL_lt (tol g : ℝ) (L R : Side) (hg : 0 < g) (h : 0 < L.h + R.h) :
    jL1 tol g L R (einfeldt1 g L R) < jL3 tol g L R (einfeldt2 g L R) :=
  lt_of_le_of_lt (min_le_left _ _) (lt_of_lt_of_le (einfeldt_lt g L R hg h) (le_max_left _ _))

/-! ### Sums of the waves -/

theorem sum_f0 (tol g : ℝ) (L R : Side) (sE1 sE2 : ℝ) (h : jL1 tol g L R sE1 < jL3 tol g L R sE2) :
    ∑ mw, (augJCP tol g L R sE1 sE2).f 0 mw = R.hu - L.hu := by
  have h1 : jL3 tol g L R sE2 - jL1 tol g L R sE1 ≠ 0 := by linarith
  rw [augJCP_eq, Fin.sum_univ_three]
  simp only [jBeta, cramer0 _ _ _ h, cramer2 _ _ _ h]
  simp [rMat, jDel]
  field_simp
  ring

theorem sum_f1 (tol g : ℝ) (L R : Side) (sE1 sE2 : ℝ) (h : jL1 tol g L R sE1 < jL3 tol g L R sE2) :
    ∑ mw, (augJCP tol g L R sE1 sE2).f 1 mw = R.phi - L.phi - jFlux tol g L R sE1 sE2 := by
  rw [augJCP_eq, Fin.sum_univ_three]
  simp only [jBeta]
  rw [cramer1 _ _ _ h]
  simp [rMat, jDel]
  ring

theorem sum_f2 (tol g : ℝ) (L R : Side) (sE1 sE2 : ℝ) :
    ∑ mw, (augJCP tol g L R sE1 sE2).f 2 mw = R.h * R.u * R.v - L.h * L.u * L.v := by
  rw [augJCP_eq, Fin.sum_univ_three]
  simp
  ring

/-! ### Water at rest -/

open Classical in
/-- The clamp on the jump of the depth does not bite if the jump is that of the states. -/
theorem steadyDepth_rest (so : Prop) (g delb hbar bar l1 l3 hL hR : ℝ)
    (h1 : l1 < 0) (h3 : 0 < l3) (hL0 : 0 ≤ hL) (hR0 : 0 ≤ hR) (hb : delb = hL - hR) (hd : delb * g * hbar / bar = -delb) :
    steadyDepth so g delb hbar bar l1 l3 (max ((l3 * hR - l1 * hL) / (l3 - l1)) 0) hL hR = hR - hL := by
  have hp : 0 ≤ l3 * hR - l1 * hL := by nlinarith
  have hdif : 0 < l3 - l1 := by linarith
  have hm : max ((l3 * hR - l1 * hL) / (l3 - l1)) 0 * (l3 - l1) = l3 * hR - l1 * hL := by
    rw [max_eq_left (div_nonneg hp hdif.le)]; field_simp
  unfold steadyDepth
  simp only []
  have e : ∀ [inst : Decidable so], (@ite ℝ so inst (-delb) (delb * g * hbar / bar)) = hR - hL := by
    intro inst
    split
    · rw [hb]; ring
    · rw [hd, hb]; ring
  rw [e, hm]
  have hc : (0 : ℝ) < critical := by norm_num [critical]
  split
  · have u : hR - hL ≤ (l3 * hR - l1 * hL) / l3 := by
      rw [le_div_iff₀ h3]; nlinarith
    have l : (l3 * hR - l1 * hL) / l1 ≤ hR - hL := by
      rw [div_le_iff_of_neg h1]; nlinarith
    rw [min_eq_left u, max_eq_left l]
  · rw [if_neg (by linarith), if_neg (by linarith)]

open Classical in
theorem steadyFlux_rest (so : Prop) (g delb hbar bar tilde hL hR : ℝ) (hg : 0 < g) (hb : delb = hL - hR)
    (hh : hbar = 1 / 2 * (hL + hR)) (hne : bar ≠ 0) (ht : tilde = bar) :
    steadyFlux so g delb hbar bar tilde hL hR = 1 / 2 * g * hR ^ 2 - 1 / 2 * g * hL ^ 2 := by
  unfold steadyFlux
  simp only []
  have e : ∀ [inst : Decidable so], (@ite ℝ so inst (-g * hbar * delb) (-delb * g * hbar * tilde / bar)) =
      g * (1 / 2 * (-hL * delb + -hR * delb)) := by
    intro inst
    split
    · rw [hh]; ring
    · rw [ht, mul_div_assoc, div_self hne, hh]; ring
  rw [e]
  rw [min_eq_left, max_eq_left]
  · rw [hb]; ring
  · apply mul_le_mul_of_nonneg_left _ hg.le
    have := min_le_left (-hL * delb) (-hR * delb)
    have := min_le_right (-hL * delb) (-hR * delb)
    linarith
  · apply mul_le_mul_of_nonneg_left _ hg.le
    have := le_max_left (-hL * delb) (-hR * delb)
    have := le_max_right (-hL * delb) (-hR * delb)
    linarith

/-- A side of an edge where nothing moves. -/
structure Side.Rest (g : ℝ) (S : Side) : Prop where
  h : 0 ≤ S.h
  hu : S.hu = 0
  u : S.u = 0
  v : S.v = 0
  phi : S.phi = 1 / 2 * g * S.h ^ 2

theorem jcp_rest (tol g : ℝ) (L R : Side) (hg : 0 < g) (hL : L.Rest g) (hR : R.Rest g) (hp : 0 < L.h + R.h)
    (he : L.h + L.b = R.h + R.b) (m mw : Fin 3) :
    (augJCP tol g L R (einfeldt1 g L R) (einfeldt2 g L R)).f m mw = 0 := by
  have hc : 0 < Real.sqrt (g * (1 / 2) * (R.h + L.h)) := Real.sqrt_pos.mpr (by nlinarith [mul_pos hg hp])
  have h1 : jL1 tol g L R (einfeldt1 g L R) < 0 := by
    refine lt_of_le_of_lt (min_le_left _ _) (lt_of_le_of_lt (min_le_right _ _) ?_)
    rw [hL.u, hR.u]; simp only [mul_zero, add_zero, zero_div]; linarith
  have h3 : 0 < jL3 tol g L R (einfeldt2 g L R) := by
    refine lt_of_lt_of_le ?_ (le_max_left _ _)
    refine lt_of_lt_of_le ?_ (le_max_right _ _)
    rw [hL.u, hR.u]; simp only [mul_zero, add_zero, zero_div]; linarith
  have hb : jHbar L R = 1 / 2 * (L.h + R.h) := max_eq_left (by linarith)
  have hbp : 0 < jHbar L R := by rw [hb]; linarith
  have bar : jBar g L R = -(g * jHbar L R) := by rw [jBar, hL.u, hR.u]; ring
  have til : jTilde g L R = jBar g L R := by
    rw [bar, jTilde, hL.u, hR.u]; simp
  have bne : jBar g L R ≠ 0 := by rw [bar]; have := mul_pos hg hbp; linarith
  have dd : jDepth tol g L R (einfeldt1 g L R) (einfeldt2 g L R) = R.h - L.h := by
    rw [jDepth, jStar, hL.hu, hR.hu]
    have : (0 : ℝ) - 0 + jL3 tol g L R (einfeldt2 g L R) * R.h - jL1 tol g L R (einfeldt1 g L R) * L.h =
      jL3 tol g L R (einfeldt2 g L R) * R.h - jL1 tol g L R (einfeldt1 g L R) * L.h := by ring
    rw [this]
    refine steadyDepth_rest _ _ _ _ _ _ _ _ _ h1 h3 hL.h hR.h (by linarith) ?_
    rw [div_eq_iff bne, bar]; ring
  have df : jFlux tol g L R (einfeldt1 g L R) (einfeldt2 g L R) = 1 / 2 * g * R.h ^ 2 - 1 / 2 * g * L.h ^ 2 :=
    steadyFlux_rest _ _ _ _ _ _ _ _ hg (by linarith) hb bne til
  have del : ∀ m, jDel tol g L R (einfeldt1 g L R) (einfeldt2 g L R) m = 0 := by
    intro m
    fin_cases m
    · simp [jDel, dd]
    · simp [jDel, hL.hu, hR.hu]
    · simp [jDel, df, hL.phi, hR.phi]
  have beta : ∀ k, jBeta tol g L R (einfeldt1 g L R) (einfeldt2 g L R) k = 0 := cramer_zero _ _ _ del
  rw [augJCP_eq]
  simp [beta, hL.u, hR.u]

/-- `riemanntype` for equal depths and no motion finds that depth. -/
theorem riemanntype_still (h tol g : ℝ) (h0 : 0 ≤ h) (hw : tol < h) : (riemanntype h h 0 0 tol g).hm = h := by
  unfold riemanntype newton
  simp only [min_self, max_self]
  rw [if_neg (by linarith), if_neg (by simp), if_pos (by simp)]
  simp [Real.sq_sqrt h0]

theorem edgeWaves_rest (tol g : ℝ) (L R : Side) (ht : 0 ≤ tol) (hg : 0 < g) (hL : L.Rest g) (hR : R.Rest g)
    (hw : tol < L.h ∨ tol < R.h) (hdL : ¬ tol < L.h → L.h = 0 ∧ R.h + R.b ≤ L.b)
    (hdR : ¬ tol < R.h → R.h = 0 ∧ L.h + L.b ≤ R.b) (hb : tol < L.h → tol < R.h → L.h + L.b = R.h + R.b)
    (m mw : Fin 3) : (edgeWaves g tol L R).f m mw = 0 := by
  have key : ∀ A B : Side, A.Rest g → B.Rest g → 0 < A.h + B.h → A.h + A.b = B.h + B.b → ∀ x : ℝ,
      (augJCP tol g A B (einfeldt1 g A B) (einfeldt2 g A B)).f m mw * x = 0 := by
    intro A B hA hB hp he x
    rw [jcp_rest tol g A B hg hA hB hp he, zero_mul]
  have mir : ∀ (A : Side) (v : ℝ), A.Rest g → (mirror A v).Rest g := by
    intro A v hA
    exact ⟨hA.h, by simp [mirror, hA.hu], by simp [mirror, hA.u], hA.v, hA.phi⟩
  unfold edgeWaves
  simp only []
  by_cases hR' : tol < R.h
  · by_cases hL' : tol < L.h
    · have e : shore g tol L R = (L, R, fun _ => 1) := by
        unfold shore; rw [if_neg (by linarith), if_neg (by linarith)]
      rw [e]
      exact key _ _ hL hR (by linarith) (hb hL' hR') _
    · obtain ⟨h0, hle⟩ := hdL hL'
      unfold shore
      rw [if_neg (by linarith), if_pos (by linarith)]
      have hm : (riemanntype R.h R.h (-R.u) R.u tol g).hm = R.h := by
        rw [hR.u, neg_zero]; exact riemanntype_still _ _ _ hR.h hR'
      simp only [hm, max_self]
      split
      · exact key _ _ (mir _ _ hR) hR (by simp only [mirror]; linarith) (by simp [mirror]) _
      · exact key _ _ hL hR (by linarith) (by linarith) _
  · have hL' : tol < L.h := by tauto
    obtain ⟨h0, hle⟩ := hdR hR'
    unfold shore
    rw [if_pos (by linarith)]
    have hm : (riemanntype L.h L.h L.u (-L.u) tol g).hm = L.h := by
      rw [hL.u, neg_zero]; exact riemanntype_still _ _ _ hL.h hL'
    simp only [hm, max_self]
    split
    · exact key _ _ hL (mir _ _ hL) (by simp only [mirror]; linarith) (by simp [mirror]) _
    · exact key _ _ hL hR (by linarith) (by linarith) _

end Fclaw.GeoStep

import Verif.GeoStep.Balance
import Mathlib.Analysis.Real.Pi.Bounds
/-
C92, C93, C94: time steps of GeoClaw.
-/
set_option autoImplicit false
set_option linter.unusedSimpArgs false
set_option linter.unusedVariables false
namespace Fclaw.GeoStep

theorem third (a b c : ℝ) : ![a, b, c] 2 = c := rfl
theorem second (a b c : ℝ) : ![a, b, c] 1 = b := rfl

/-! ### C92: water at rest -/

/-- C92. Water at rest stays at rest: a time step changes nothing, for any order of the method, limiters,
transverse waves, friction and Coriolis force, in the plane and on the sphere. -/
theorem C92_rest_partial (P : Params) (S : Source) (d : Dims) (count : ℕ → ℤ) (aux : Aux) (ylower dx dy dt : ℝ)
    (init : ℤ → ℤ → ℝ) (q : Field) (ht : 0 ≤ P.tol) (hg : 0 < P.g) (hm : 0 ≤ P.mcapa) (hm' : P.mcapa ≤ P.maux)
    (hc : ∀ k, count k ≠ 3) (hq : AtRest P.tol d q aux) :
    update P S d count aux ylower dx dy dt init q = some q := by
  have hb : (fun i j => b4step2 P (q i j)) = q := by
    funext i j
    exact b4step2_rest P (q i j) _ ht (hq.still i j)
  unfold update
  rw [hb, step2Wrap_rest P d count q aux dx dy dt ht hg hc hm hm' hq, Option.map_some]
  congr 1
  split
  · exact src2_rest P S d aux ylower dy dt init q fun i j => ⟨(hq.still i j).1, (hq.still i j).2.1⟩
  · rfl

/-- A lake on a slope with a shore. -/
example : AtRest (1 / 1000) ⟨8, 4, 2⟩ (fun i _ => ![max (5 / 2 - (i : ℝ)) 0, 0, 0]) (fun _ i _ => (i : ℝ)) := by
  have wet : ∀ i : ℤ, (1 : ℝ) / 1000 < max (5 / 2 - (i : ℝ)) 0 → i ≤ 2 := by
    intro i h
    by_contra hn
    have : (3 : ℝ) ≤ i := by exact_mod_cast (by omega : (3 : ℤ) ≤ i)
    rw [max_eq_right (by linarith)] at h
    linarith
  have dep : ∀ i : ℤ, i ≤ 2 → max (5 / 2 - (i : ℝ)) 0 = 5 / 2 - i := by
    intro i h
    have : (i : ℝ) ≤ 2 := by exact_mod_cast h
    exact max_eq_left (by linarith)
  have dry : ∀ i : ℤ, max (5 / 2 - (i : ℝ)) 0 = 0 → 3 ≤ i := by
    intro i h
    by_contra hn
    have : (i : ℝ) ≤ 2 := by exact_mod_cast (by omega : i ≤ 2)
    rw [dep i (by omega)] at h
    linarith
  refine ⟨fun i j => ⟨rfl, rfl, ?_⟩, fun i j _ _ _ _ => ⟨?_, ?_, ?_⟩, fun i j _ _ _ _ => ⟨?_, ?_, ?_⟩⟩ <;>
    simp only [column, Matrix.cons_val_zero]
  · by_cases h : i ≤ 2
    · right; rw [dep i h]
      have : (i : ℝ) ≤ 2 := by exact_mod_cast h
      linarith
    · left
      have : (3 : ℝ) ≤ i := by exact_mod_cast (by omega : (3 : ℤ) ≤ i)
      exact max_eq_right (by linarith)
  · intro a b
    rw [dep _ (wet _ a), dep _ (wet _ b)]; ring
  · intro a b
    have : (3 : ℝ) ≤ i := by exact_mod_cast dry _ b
    rw [dep _ (wet _ a)]; linarith
  · intro a b
    have := wet _ a
    have := dry _ b
    omega
  · intro _ _; trivial
  · intro a b
    rw [b] at a; norm_num at a
  · intro a b
    rw [b] at a; norm_num at a

theorem rpn2_same (P : Params) (ixy : ℤ) (q : V) (b lat : ℝ) (ht : 0 ≤ P.tol) (hg : 0 < P.g) (m mw : Fin 3) :
    (rpn2 P ixy q q b b lat).f m mw = 0 := by
  by_cases hd : clean q 0 ≤ P.tol
  · exact rpn2_dry P ixy q q b b lat ⟨hd, hd⟩ m mw
  · have hw : P.tol < q 0 := (clean_wet _ _ ht).mp (not_le.mp hd)
    have hs : P.tol < (side P.g P.tol ixy (clean q) b).h := by rw [side_wet _ _ _ _ _ ht hw]; exact hw
    have z : ∀ m mw, (edgeWaves P.g P.tol (side P.g P.tol ixy (clean q) b) (side P.g P.tol ixy (clean q) b)).f m mw = 0 := by
      intro m mw
      unfold edgeWaves shore
      rw [if_neg (by linarith), if_neg (by linarith)]
      simp only [mul_one]
      exact jcp_same P.tol P.g _ hg (by linarith) m mw
    unfold rpn2
    simp only []
    by_cases hcap : 0 < P.mcapa
    · simp [z, hcap, hd]
    · simp [z, hcap, hd]

/-- The parameters of the counterexamples: first order, in the plane. -/
noncomputable def plain : Params :=
  { g := 1, tol := 1 / 1000, coordinateSystem := 1, earthRadius := 1, deg2rad := Real.pi / 180, mcapa := 0, maux := 1,
    order := 1, transOrder := 0, mthlim := fun _ => 0 }

def noSource : Source :=
  { srcTerm := false, frictionForcing := false, frictionDepth := 0, variableFriction := false, frictionIndex := 0,
    numManning := 0, manningBreak := fun _ => 0, manningCoefficient := fun _ => 0, coriolisForcing := false, theta0 := 0,
    omega := 0 }

/-- Water of depth 1 next to a layer of the thickness of the dry tolerance, with the same surface. -/
noncomputable def thinQ : Field := fun i _ => if i ≤ 1 then ![1, 0, 0] else ![1 / 1000, 0, 0]
noncomputable def thinAux : Aux := fun _ i _ => if i ≤ 1 then 0 else 999 / 1000

theorem thin_wave : amdqOf (rpn2 plain 1 ![1, 0, 0] ![1 / 1000, 0, 0] 0 (999 / 1000) 0) 0 = 1 / 1500 := by
  have hg : 0 < plain.g := one_pos
  have ht : 0 ≤ plain.tol := by norm_num [plain]
  have cL : clean ![(1 : ℝ), 0, 0] = ![1, 0, 0] := by unfold clean; rw [if_neg (by norm_num)]
  have cR : clean ![(1 / 1000 : ℝ), 0, 0] = ![1 / 1000, 0, 0] := by unfold clean; rw [if_neg (by norm_num)]
  have hd : ¬ (clean ![(1 : ℝ), 0, 0] 0 ≤ plain.tol ∧ clean ![(1 / 1000 : ℝ), 0, 0] 0 ≤ plain.tol) := by
    rw [cL]; norm_num [plain]
  have k := rpn2_plain plain 1 ![1, 0, 0] ![1 / 1000, 0, 0] 0 (999 / 1000) 0 (by norm_num [plain]) hd
  have sL : side plain.g plain.tol 1 (clean ![(1 : ℝ), 0, 0]) 0 = ⟨1, 0, 0, 0, 0, 0, 1 / 2⟩ := by
    rw [cL]; norm_num [side, plain, muOf, nvOf, third]
  have sR : side plain.g plain.tol 1 (clean ![(1 / 1000 : ℝ), 0, 0]) (999 / 1000) = ⟨0, 0, 0, 999 / 1000, 0, 0, 0⟩ := by
    rw [cR]; norm_num [side, plain]
  rw [sL, sR] at k
  simp only at k
  have rt : (riemanntype 1 1 0 (-0) plain.tol plain.g).hm = 1 := by
    rw [neg_zero]; exact riemanntype_still 1 plain.tol plain.g zero_le_one (by norm_num [plain])
  have sh : shore plain.g plain.tol ⟨1, 0, 0, 0, 0, 0, 1 / 2⟩ ⟨0, 0, 0, 999 / 1000, 0, 0, 0⟩ =
      (⟨1, 0, 0, 0, 0, 0, 1 / 2⟩, ⟨0, 0, 0, 999 / 1000, 0, 0, 0⟩, fun _ => 1) := by
    unfold shore
    simp only []
    rw [if_pos ht, rt, if_neg (by norm_num), if_neg (by norm_num)]
  set L : Side := ⟨1, 0, 0, 0, 0, 0, 1 / 2⟩ with hL
  set R : Side := ⟨0, 0, 0, 999 / 1000, 0, 0, 0⟩ with hR
  have hs2 : Real.sqrt (1 / 2) ≤ 1 := by
    rw [Real.sqrt_le_left zero_le_one]; norm_num
  have hs0 : 0 ≤ Real.sqrt (1 / 2) := Real.sqrt_nonneg _
  have e1 : einfeldt1 plain.g L R = -1 := by
    simp only [einfeldt1, hL, hR, plain]
    norm_num
    rw [show (√2)⁻¹ = Real.sqrt (1 / 2) by rw [Real.sqrt_div zero_le_one, Real.sqrt_one, one_div]]
    exact hs2
  have e2 : einfeldt2 plain.g L R = Real.sqrt (1 / 2) := by
    simp only [einfeldt2, hL, hR, plain]
    norm_num
  have rs : riemanntype L.h R.h L.u R.u plain.tol plain.g = ⟨0, 2, 2⟩ := by
    simp only [riemanntype, hL, hR, plain]
    norm_num
  have l1 : jL1 plain.tol plain.g L R (einfeldt1 plain.g L R) = -1 := by
    unfold jL1; rw [rs, e1]; norm_num
  have l3 : jL3 plain.tol plain.g L R (einfeldt2 plain.g L R) = 2 := by
    unfold jL3; rw [rs, e2]; exact max_eq_right (by simp only []; linarith)
  have hlt : jL1 plain.tol plain.g L R (einfeldt1 plain.g L R) < jL3 plain.tol plain.g L R (einfeldt2 plain.g L R) := by
    rw [l1, l3]; norm_num
  have hb : jHbar L R = 1 / 2 := by unfold jHbar; rw [hL, hR]; norm_num
  have bar : jBar plain.g L R = -(1 / 2) := by unfold jBar; rw [hb, hL, hR]; norm_num [plain]
  have st : jStar plain.tol plain.g L R (einfeldt1 plain.g L R) (einfeldt2 plain.g L R) = 1 / 3 := by
    unfold jStar; rw [l1, l3, hL, hR]; norm_num
  have dd : jDepth plain.tol plain.g L R (einfeldt1 plain.g L R) (einfeldt2 plain.g L R) = -(999 / 1000) := by
    unfold jDepth
    rw [l1, l3, hb, bar, st]
    have hp : plain.g = 1 := rfl
    unfold steadyDepth
    simp only []
    rw [hp]
    have hd' : ∀ (p : Prop) [Decidable p], (if p then -(R.b - L.b) else (R.b - L.b) * 1 * (1 / 2) / -(1 / 2)) = -(999 / 1000 : ℝ) := by
      intro p _
      split <;> norm_num [hL, hR]
    rw [hd', if_pos (by norm_num [critical])]
    norm_num
  have b0 : jBeta plain.tol plain.g L R (einfeldt1 plain.g L R) (einfeldt2 plain.g L R) 0 = -(1 / 1500) := by
    unfold jBeta
    rw [cramer0 _ _ _ hlt, l1, l3]
    simp only [jDel, dd]
    norm_num [hL, hR]
  have s0 : (rpn2 plain 1 ![1, 0, 0] ![1 / 1000, 0, 0] 0 (999 / 1000) 0).s 0 < 0 := by
    rw [(k 0).1]; unfold edgeWaves; rw [sh]; simp only []; rw [augJCP_eq]; simp [l1]
  have s1 : 0 < (rpn2 plain 1 ![1, 0, 0] ![1 / 1000, 0, 0] 0 (999 / 1000) 0).s 1 := by
    rw [(k 1).1]; unfold edgeWaves; rw [sh]; simp only []; rw [augJCP_eq]; norm_num [l1, l3]
  have s2 : 0 < (rpn2 plain 1 ![1, 0, 0] ![1 / 1000, 0, 0] 0 (999 / 1000) 0).s 2 := by
    rw [(k 2).1]; unfold edgeWaves; rw [sh]; simp only []; rw [augJCP_eq]; simp [l3]
  have f0 : (rpn2 plain 1 ![1, 0, 0] ![1 / 1000, 0, 0] 0 (999 / 1000) 0).f 0 0 = 1 / 1500 := by
    rw [(k 0).2.1]; unfold edgeWaves; rw [sh]; simp only []; rw [augJCP_eq]; norm_num [b0, rMat, l1]
  unfold amdqOf
  rw [Fin.sum_univ_three, if_pos s0, if_neg (by linarith), if_pos s1, if_neg (show ¬ _ < _ by linarith), if_pos s2, f0]
  ring

/-- C92 without the condition that there are no layers thinner than the dry tolerance does not hold: the surface is
flat and nothing moves, but after a step the depth has changed. -/
theorem C92_thin_counterexample :
    (∀ i j, thinQ i j 0 + thinAux 1 i j = 1 ∧ thinQ i j 1 = 0 ∧ thinQ i j 2 = 0) ∧
    ∃ q', update plain noSource ⟨1, 1, 2⟩ (fun _ => 4) thinAux 0 1 1 1 (fun _ _ => 0) thinQ = some q' ∧
      q' 1 1 0 ≠ thinQ 1 1 0 := by
  have hg : 0 < plain.g := one_pos
  have ht : 0 ≤ plain.tol := by norm_num [plain]
  constructor
  · intro i j
    unfold thinQ thinAux
    split <;> norm_num [third]
  · have hb : (fun i j => b4step2 plain (thinQ i j)) = thinQ := by
      funext i j
      unfold b4step2 thinQ
      rw [if_neg]
      split <;> norm_num [plain]
    unfold update
    rw [hb]
    unfold step2Wrap
    simp only []
    rw [if_pos (show plain.mcapa = 0 from rfl), Option.map_some]
    refine ⟨_, rfl, ?_⟩
    rw [if_neg (show ¬ noSource.srcTerm = true by simp [noSource]), if_pos ⟨le_refl _, le_refl _, le_refl _, le_refl _⟩]
    rw [fp_eq plain _ _ _ _ _ _ ht hg (by intro k; norm_num), gp_eq plain _ _ _ _ _ _ ht hg (by intro k; norm_num)]
    unfold throughX throughY
    rw [fm_first plain _ _ _ _ _ _ (by intro k; norm_num) rfl rfl, fm_first plain _ _ _ _ _ _ (by intro k; norm_num) rfl rfl,
      gm_first plain _ _ _ _ _ _ (by intro k; norm_num) rfl rfl, gm_first plain _ _ _ _ _ _ (by intro k; norm_num) rfl rfl]
    have q0 : thinQ (1 - 1) 1 = ![1, 0, 0] := by simp [thinQ]
    have q0' : thinQ 1 (1 - 1) = ![1, 0, 0] := by simp [thinQ]
    have q1 : ∀ j, thinQ 1 j = ![1, 0, 0] := by intro j; simp [thinQ]
    have q2 : thinQ (1 + 1) 1 = ![1 / 1000, 0, 0] := by norm_num [thinQ]
    have a0 : thinAux 1 (1 - 1) 1 = 0 := by simp [thinAux]
    have a1 : ∀ m j, thinAux m 1 j = 0 := by intro m j; simp [thinAux]
    have a2 : ∀ m, thinAux m (1 + 1) 1 = 999 / 1000 := by intro m; norm_num [thinAux]
    have same : ∀ ixy lat, amdqOf (rpn2 plain ixy ![1, 0, 0] ![1, 0, 0] 0 0 lat) 0 = 0 :=
      fun ixy lat => amdq_zero _ (rpn2_same plain ixy _ 0 lat ht hg) 0
    have lat : ∀ x, rpn2 plain 1 ![1, 0, 0] ![1 / 1000, 0, 0] 0 (999 / 1000) x =
        rpn2 plain 1 ![1, 0, 0] ![1 / 1000, 0, 0] 0 (999 / 1000) 0 := by
      intro x; unfold rpn2; simp only [if_neg (show ¬ 0 < plain.mcapa by norm_num [plain])]
    have a0' : thinAux 1 1 (1 - 1) = 0 := a1 _ _
    rw [show (1 : ℤ) + 1 - 1 = 1 from rfl, q0, q0', q1, q1, q2, a0, a0', a1, a1, a1, a2, a2, lat, thin_wave, same, same, same]
    norm_num [flow]

/-- With the default of the option `mcapa`, -1, the update reads outside of the array `aux`. -/
theorem C92_default_counterexample (P : Params) (S : Source) (d : Dims) (count : ℕ → ℤ) (aux : Aux) (ylower dx dy dt : ℝ)
    (init : ℤ → ℤ → ℝ) (q : Field) (hm : P.mcapa = -1) : update P S d count aux ylower dx dy dt init q = none := by
  unfold update step2Wrap
  simp only []
  rw [if_neg (by omega), if_neg (by omega)]
  rfl

example : ∃ P : Params, P.mcapa = -1 := ⟨{ plain with mcapa := -1 }, rfl⟩

/-! ### C93: conservation of water -/

/-- C93. At every edge, the flow of water is the same, seen from both sides: what `amdq` takes from the cell to the
left is what `apdq` gives to the one on the right. On the sphere it is the flow through the length of the edge. -/
theorem C93_interface (P : Params) (ixy : ℤ) (qL qR : V) (bL bR lat : ℝ) (ht : 0 ≤ P.tol) (hg : 0 < P.g) :
    let w := rpn2 P ixy qL qR bL bR lat
    let m : Fin 3 := if ixy = 1 then 1 else 2
    let length := if 0 < P.mcapa then
      (if ixy = 1 then P.earthRadius * P.deg2rad else P.earthRadius * Real.cos lat * P.deg2rad) else 1
    length * flow P.tol m qL + amdqOf w 0 = length * flow P.tol m qR - apdqOf w 0 := by
  intro w m length
  have a := fluct_sum w 0
  have b := rpn2_sum P ixy qL qR bL bR lat ht hg
  have hl : len P ixy lat = length := rfl
  have hmm : muOf ixy = m := rfl
  rw [hl, hmm] at b
  rw [b] at a
  linarith

/-- C93. Where both cells have water, the fluctuations of the momenta add up to the difference of the fluxes and a
force of the ground, which is between those of the two depths. -/
theorem C93_momentum (P : Params) (ixy : ℤ) (qL qR : V) (bL bR lat : ℝ) (ht : 0 ≤ P.tol) (hg : 0 < P.g)
    (hm : P.mcapa ≤ 0) (hL : P.tol < qL 0) (hR : P.tol < qR 0) :
    let w := rpn2 P ixy qL qR bL bR lat
    let m : Fin 3 := if ixy = 1 then 1 else 2
    let n : Fin 3 := if ixy = 1 then 2 else 1
    (∃ F, P.g * min (-qL 0 * (bR - bL)) (-qR 0 * (bR - bL)) ≤ F ∧ F ≤ P.g * max (-qL 0 * (bR - bL)) (-qR 0 * (bR - bL)) ∧
      amdqOf w m + apdqOf w m =
        (1 / 2 * P.g * qR 0 ^ 2 + qR m ^ 2 / qR 0) - (1 / 2 * P.g * qL 0 ^ 2 + qL m ^ 2 / qL 0) - F) ∧
    amdqOf w n + apdqOf w n = qR m * qR n / qR 0 - qL m * qL n / qL 0 := by
  intro w m n
  have hmm : muOf ixy = m := rfl
  have hnn : nvOf ixy = n := rfl
  have m0 : ¬ m = 0 := by simp only [m]; split <;> decide
  have n0 : ¬ n = 0 := by simp only [n]; split <;> decide
  have nm : ¬ n = m := by simp only [n, m]; split <;> decide
  have hd : ¬ (clean qL 0 ≤ P.tol ∧ clean qR 0 ≤ P.tol) := by
    rintro ⟨a, _⟩
    exact absurd ((clean_wet _ _ ht).mpr hL) (not_lt.mpr a)
  have sl := side_wet P.g P.tol bL ixy qL ht hL
  have sr := side_wet P.g P.tol bR ixy qR ht hR
  rw [hmm, hnn] at sl sr
  set L := side P.g P.tol ixy (clean qL) bL with hLd
  set R := side P.g P.tol ixy (clean qR) bR with hRd
  have es : shore P.g P.tol L R = (L, R, fun _ => 1) := by
    unfold shore; rw [if_neg (by rw [sr]; exact not_le.mpr hR), if_neg (by rw [sl]; exact not_le.mpr hL)]
  have hlt := jL_lt P.tol P.g L R hg (by rw [sl, sr]; simp only []; linarith)
  have w1 : ∀ mw, w.f m mw = (augJCP P.tol P.g L R (einfeldt1 P.g L R) (einfeldt2 P.g L R)).f 1 mw := by
    intro mw
    simp only [w, rpn2]
    rw [if_neg (not_lt.mpr hm), if_neg hd]
    simp only [hmm]
    rw [if_neg m0, if_pos trivial]
    unfold edgeWaves; rw [es]; simp
  have w2 : ∀ mw, w.f n mw = (augJCP P.tol P.g L R (einfeldt1 P.g L R) (einfeldt2 P.g L R)).f 2 mw := by
    intro mw
    simp only [w, rpn2]
    rw [if_neg (not_lt.mpr hm), if_neg hd]
    simp only [hmm]
    rw [if_neg n0, if_neg nm]
    unfold edgeWaves; rw [es]; simp
  constructor
  · refine ⟨jFlux P.tol P.g L R (einfeldt1 P.g L R) (einfeldt2 P.g L R), ?_, ?_, ?_⟩
    · unfold jFlux steadyFlux
      simp only []
      rw [sl, sr]
      exact le_max_right _ _
    · unfold jFlux steadyFlux
      simp only []
      rw [sl, sr]
      refine max_le (min_le_right _ _) ?_
      exact mul_le_mul_of_nonneg_left ((min_le_left _ _).trans (le_max_left _ _)) hg.le
    · rw [fluct_sum, Finset.sum_congr rfl fun mw _ => w1 mw, sum_f1 _ _ _ _ _ _ hlt, sl, sr]
  · rw [fluct_sum, Finset.sum_congr rfl fun mw _ => w2 mw, sum_f2, sl, sr]
    simp only []
    have : qL 0 ≠ 0 := by linarith
    have : qR 0 ≠ 0 := by linarith
    field_simp

example : 0 ≤ plain.tol ∧ 0 < plain.g ∧ plain.mcapa ≤ 0 ∧ plain.tol < (![4, 8, 1] : V) 0 ∧ plain.tol < (![2, -1, 3] : V) 0 := by
  norm_num [plain]

/-- C93. No water goes through a wall, and the cell behind it is not touched. -/
theorem C93_wall (P : Params) (ixy : ℤ) (qL qR : V) (bL bR lat : ℝ) (ht : 0 ≤ P.tol) (hg : 0 < P.g) (hm : P.mcapa ≤ 0) :
    let w := rpn2 P ixy qL qR bL bR lat
    let m : Fin 3 := if ixy = 1 then 1 else 2
    (Wall P.g P.tol qL qR bL bR (qL m) → flow P.tol m qL + amdqOf w 0 = 0 ∧ ∀ k, apdqOf w k = 0) ∧
    (Wall P.g P.tol qR qL bR bL (-qR m) → flow P.tol m qR - apdqOf w 0 = 0 ∧ ∀ k, amdqOf w k = 0) :=
  ⟨fun h => wall_right P ixy qL qR bL bR lat ht hg (not_lt.mpr hm) h,
   fun h => wall_left P ixy qL qR bL bR lat ht hg (not_lt.mpr hm) h⟩

example : Wall 1 (1 / 1000) ![4, 8, 0] ![0, 0, 0] 0 10 8 := by
  refine ⟨by norm_num, fun _ => ?_⟩
  have : Real.sqrt (4 : ℝ) = 2 := by rw [show (4 : ℝ) = 2 ^ 2 by norm_num]; exact Real.sqrt_sq (by norm_num)
  norm_num [runup, this]

/-- C93. The Riemann solver does not divide by zero: the two speeds are different, and the sum of the roots in the
average of the speeds is positive. -/
theorem C93_speeds (tol g : ℝ) (L R : Side) (hg : 0 < g) (hL : 0 ≤ L.h) (hR : 0 ≤ R.h) (h : 0 < L.h + R.h) :
    (augJCP tol g L R (einfeldt1 g L R) (einfeldt2 g L R)).s 0 < (augJCP tol g L R (einfeldt1 g L R) (einfeldt2 g L R)).s 2 ∧
      0 < Real.sqrt (g * R.h) + Real.sqrt (g * L.h) := by
  constructor
  · rw [augJCP_eq]; simpa using jL_lt tol g L R hg h
  · rcases lt_or_eq_of_le hL with h' | h'
    · have := Real.sqrt_pos.mpr (mul_pos hg h')
      have := Real.sqrt_nonneg (g * R.h)
      linarith
    · have hR' : 0 < R.h := by linarith
      have := Real.sqrt_pos.mpr (mul_pos hg hR')
      have := Real.sqrt_nonneg (g * L.h)
      linarith

example : (0 : ℝ) < 1 ∧ (0 : ℝ) ≤ (⟨2, 1, 0, 0, 1 / 2, 0, 5 / 2⟩ : Side).h ∧ (0 : ℝ) ≤ (⟨0, 0, 0, 3, 0, 0, 0⟩ : Side).h := by norm_num

/-- C93. In a patch of the plane whose ghost cells continue it periodically, a step of any order leaves the amount of
water as it is. -/
theorem C93_periodic (P : Params) (S : Source) (mx my : ℕ) (mbc : ℤ) (count : ℕ → ℤ) (aux : Aux) (ylower dx dy dt : ℝ)
    (init : ℤ → ℤ → ℝ) (q q' : Field) (ht : 0 ≤ P.tol) (hg : 0 < P.g) (hm : P.mcapa = 0) (hc : ∀ k, count k ≠ 3)
    (hpos : ∀ i j, 0 ≤ q i j 0)
    (hx : ∀ i j, q (i + mx) j = q i j) (hy : ∀ i j, q i (j + my) = q i j)
    (ax : ∀ m i j, aux m (i + mx) j = aux m i j) (ay : ∀ m i j, aux m i (j + my) = aux m i j)
    (h : update P S ⟨mx, my, mbc⟩ count aux ylower dx dy dt init q = some q') : water mx my q' = water mx my q := by
  obtain ⟨q1, h1, h2⟩ := update_water P S mx my mbc count aux ylower dx dy dt init q q' h
  have b := step_balance_plane P mx my mbc count _ q1 aux dx dy dt ht hg hc hm h1
  simp only at b
  have e1 : water mx my q' = water mx my q1 := by unfold water; simp only [h2]
  have e2 : water mx my (fun i j => b4step2 P (q i j)) = water mx my q := by
    unfold water; simp only [b4step2_depth P _ (hpos _ _)]
  set qb : Field := fun i j => b4step2 P (q i j) with hqb
  have bx : ∀ i j, qb (i + mx) j = qb i j := by intro i j; simp only [hqb, hx]
  have by' : ∀ i j, qb i (j + my) = qb i j := by intro i j; simp only [hqb, hy]
  have zx : ∀ j : ℤ, throughX P qb aux (step2 P ⟨mx, my, mbc⟩ count qb aux (dt / dx) (dt / dy)) (mx + 1) j =
      throughX P qb aux (step2 P ⟨mx, my, mbc⟩ count qb aux (dt / dx) (dt / dy)) 1 j := by
    intro j
    unfold throughX
    rw [show (mx : ℤ) + 1 = 1 + mx by ring, fm_periodic P _ count qb aux _ _ hc mx bx ax, ax,
      show (1 : ℤ) + mx - 1 = 0 + mx by ring, bx]
    rfl
  have zy : ∀ i : ℤ, throughY P qb aux (step2 P ⟨mx, my, mbc⟩ count qb aux (dt / dx) (dt / dy)) i (my + 1) =
      throughY P qb aux (step2 P ⟨mx, my, mbc⟩ count qb aux (dt / dx) (dt / dy)) i 1 := by
    intro i
    unfold throughY
    rw [show (my : ℤ) + 1 = 1 + my by ring, gm_periodic P _ count qb aux _ _ hc my by' ay, ay,
      show (1 : ℤ) + my - 1 = 0 + my by ring, by']
    rfl
  rw [e1, b, e2]
  simp only [zx, zy, sub_self, Finset.sum_const_zero, mul_zero, sub_zero]

/-- A wave that runs through a periodic patch of 2 times 1 cells. -/
example : ∃ q : Field, (∀ i j, 0 ≤ q i j 0) ∧ (∀ i j, q (i + (2 : ℕ)) j = q i j) ∧ (∀ i j, q i (j + (1 : ℕ)) = q i j) ∧
    q 0 0 ≠ q 1 0 := by
  refine ⟨fun i _ => if i % 2 = 0 then ![1, 1, 0] else ![2, 0, 0], ?_, ?_, ?_, ?_⟩
  · intro i j; simp only []; split <;> norm_num
  · intro i j
    have : (i + ((2 : ℕ) : ℤ)) % 2 = i % 2 := by push_cast; omega
    simp only [this]
  · intro i j; rfl
  · intro h
    have := congrFun h 0
    norm_num at this

/-- C93. In a patch of the plane that is closed by walls or mirrored ghost cells, a first order step leaves the amount
of water as it is. Missing: higher order, where the corrections of the edges of the patch count too
(`step_balance_plane`). -/
theorem C93_closed_partial (P : Params) (S : Source) (mx my : ℕ) (mbc : ℤ) (count : ℕ → ℤ) (aux : Aux)
    (ylower dx dy dt : ℝ) (init : ℤ → ℤ → ℝ) (q q' : Field) (ht : 0 ≤ P.tol) (hg : 0 < P.g) (hm : P.mcapa = 0)
    (hc : ∀ k, count k ≠ 3) (ho : P.order = 1) (htr : P.transOrder = 0) (hpos : ∀ i j, 0 ≤ q i j 0)
    (hcl : Closed P.g P.tol mx my q aux)
    (h : update P S ⟨mx, my, mbc⟩ count aux ylower dx dy dt init q = some q') : water mx my q' = water mx my q := by
  obtain ⟨q1, h1, h2⟩ := update_water P S mx my mbc count aux ylower dx dy dt init q q' h
  have b := step_balance_plane P mx my mbc count _ q1 aux dx dy dt ht hg hc hm h1
  simp only at b
  have e1 : water mx my q' = water mx my q1 := by unfold water; simp only [h2]
  have e2 : water mx my (fun i j => b4step2 P (q i j)) = water mx my q := by
    unfold water; simp only [b4step2_depth P _ (hpos _ _)]
  have cl := closed_b4 P mx my q aux ht hcl
  set qb : Field := fun i j => b4step2 P (q i j) with hqb
  have zx : ∀ j ∈ Finset.range my,
      throughX P qb aux (step2 P ⟨mx, my, mbc⟩ count qb aux (dt / dx) (dt / dy)) (mx + 1) (j + 1) -
      throughX P qb aux (step2 P ⟨mx, my, mbc⟩ count qb aux (dt / dx) (dt / dy)) 1 (j + 1) = 0 := by
    intro j hj
    rw [Finset.mem_range] at hj
    unfold throughX
    rw [fm_first P _ count qb aux _ _ hc ho htr, fm_first P _ count qb aux _ _ hc ho htr, add_sub_cancel_right,
      show (1 : ℤ) - 1 = 0 from rfl]
    have r := closed_right P 1 _ _ _ _ (aux 3 (mx + 1) (j + 1)) ht hg hm (cl.east (j + 1) (by omega) (by omega))
    have l := closed_left P 1 _ _ _ _ (aux 3 1 (j + 1)) ht hg hm (cl.west (j + 1) (by omega) (by omega))
    simp only [muOf, if_true] at r l
    rw [r, l, sub_zero]
  have zy : ∀ i ∈ Finset.range mx,
      throughY P qb aux (step2 P ⟨mx, my, mbc⟩ count qb aux (dt / dx) (dt / dy)) (i + 1) (my + 1) -
      throughY P qb aux (step2 P ⟨mx, my, mbc⟩ count qb aux (dt / dx) (dt / dy)) (i + 1) 1 = 0 := by
    intro i hi
    rw [Finset.mem_range] at hi
    unfold throughY
    rw [gm_first P _ count qb aux _ _ hc ho htr, gm_first P _ count qb aux _ _ hc ho htr, add_sub_cancel_right,
      show (1 : ℤ) - 1 = 0 from rfl]
    have r := closed_right P 2 _ _ _ _ (aux 3 (i + 1) (my + 1)) ht hg hm (cl.north (i + 1) (by omega) (by omega))
    have l := closed_left P 2 _ _ _ _ (aux 3 (i + 1) 1) ht hg hm (cl.south (i + 1) (by omega) (by omega))
    simp only [muOf, if_neg (show ¬ ((2 : ℤ) = 1) by decide)] at r l
    rw [r, l, sub_zero]
  rw [e1, b, e2, Finset.sum_eq_zero zx, Finset.sum_eq_zero zy]
  ring

/-- Moving water between a wall in the west and mirrors on the other sides. -/
example : Closed 1 (1 / 1000) 1 1 (fun i j => if i = 0 then ![0, 0, 0] else if i = 2 then ![4, 8, 0] else ![4, -8, 0])
    (fun _ i _ => if i = 0 then 10 else 0) := by
  have s4 : Real.sqrt (4 : ℝ) = 2 := by rw [show (4 : ℝ) = 2 ^ 2 by norm_num]; exact Real.sqrt_sq (by norm_num)
  refine ⟨fun j a b => ?_, fun j a b => ?_, fun i a b => ?_, fun i a b => ?_⟩
  · left
    refine ⟨by norm_num, fun _ => ?_⟩
    norm_num [runup, s4]
  · right
    refine ⟨by norm_num [third], by norm_num [third], by norm_num [third], by norm_num [third]⟩
  · right
    have : i = 1 := by omega
    subst this
    refine ⟨by norm_num [third], by norm_num [third], by norm_num [third], by norm_num [third]⟩
  · right
    have : i = 1 := by omega
    subst this
    refine ⟨by norm_num [third], by norm_num [third], by norm_num [third], by norm_num [third]⟩

/-- C93 on the sphere. The volume of the water changes by what flows through the sides of the patch, and by a term
that should not be there: in each cell, the flow to the north times the difference of the lengths of the northern and the
southern edge. -/
theorem C93_sphere_partial (P : Params) (mx my : ℕ) (mbc : ℤ) (count : ℕ → ℤ) (q q' : Field) (aux : Aux) (dx dy dt : ℝ)
    (ht : 0 ≤ P.tol) (hg : 0 < P.g) (hc : ∀ k, count k ≠ 3) (hm : 1 ≤ P.mcapa) (hm' : P.mcapa ≤ P.maux)
    (hcapa : ∀ i j : ℤ, 1 ≤ i → i ≤ mx → 1 ≤ j → j ≤ my → aux P.mcapa i j ≠ 0)
    (h : step2Wrap P ⟨mx, my, mbc⟩ count q aux dx dy dt = some q') :
    let F := step2 P ⟨mx, my, mbc⟩ count q aux (dt / dx) (dt / dy)
    volume P.mcapa mx my aux q' = volume P.mcapa mx my aux q
      - dt / dx * ∑ j ∈ Finset.range my, (throughX P q aux F (mx + 1) (j + 1) - throughX P q aux F 1 (j + 1))
      - dt / dy * ∑ i ∈ Finset.range mx, (throughY P q aux F (i + 1) (my + 1) - throughY P q aux F (i + 1) 1)
      + dt / dy * ∑ i ∈ Finset.range mx, ∑ j ∈ Finset.range my, P.earthRadius * P.deg2rad *
          (Real.cos (aux 3 (i + 1) (j + 1 + 1)) - Real.cos (aux 3 (i + 1) (j + 1))) * flow P.tol 2 (q (i + 1) (j + 1)) := by
  intro F
  have b := step_balance_sphere P mx my mbc count q q' aux dx dy dt ht hg hc hm hm' hcapa h
  simp only at b
  rw [b]
  congr 2
  refine Finset.sum_congr rfl fun i _ => Finset.sum_congr rfl fun j _ => ?_
  unfold metric len dxdc
  simp only [if_pos (show 0 < P.mcapa by omega), if_neg (show ¬ ((2 : ℤ) = 1) by decide)]
  ring

/-- Two cells on a meridian, half a radian high each, between mirrored ghost cells; the water flows north. -/
noncomputable def ball : Params :=
  { plain with coordinateSystem := 2, mcapa := 2, maux := 3 }
noncomputable def ballQ : Field := fun _ j => if j = 1 ∨ j = 2 then ![1, 0, 1] else ![1, 0, -1]
/-- The arrays of `geoclaw_setaux` (geoclaw_setaux_fort.f90:170-171) with `ylower = 0` and `dy = 90 / pi` degrees. -/
noncomputable def ballAux : Aux := fun m _ j =>
  if m = 2 then Real.pi / 180 * (Real.sin (j / 2) - Real.sin ((j - 1) / 2)) / (90 / Real.pi)
  else if m = 3 then (j - 1) / 2 else 0

/-- C93 does not hold on the sphere: the ghost cells mirror the patch, no water goes through its sides, but its volume
changes. -/
theorem C93_sphere_counterexample :
    (∀ i, Reflects ball.tol 2 (ballQ i 1) (ballQ i 0) (ballAux 1 i 1) (ballAux 1 i 0) ∧
      Reflects ball.tol 2 (ballQ i 2) (ballQ i 3) (ballAux 1 i 2) (ballAux 1 i 3)) ∧
    ∃ q', update ball noSource ⟨1, 2, 2⟩ (fun _ => 4) ballAux 0 1 (90 / Real.pi) 1 (fun _ _ => 0) ballQ = some q' ∧
      volume 2 1 2 ballAux q' ≠ volume 2 1 2 ballAux ballQ := by
  have hg : 0 < ball.g := one_pos
  have ht : 0 ≤ ball.tol := by norm_num [ball, plain]
  have hc : ∀ k : ℕ, (fun _ => (4 : ℤ)) k ≠ 3 := by intro k; norm_num
  have pi0 := Real.pi_pos
  have pi3 := Real.pi_gt_three
  have refl : ∀ i, Reflects ball.tol 2 (ballQ i 1) (ballQ i 0) (ballAux 1 i 1) (ballAux 1 i 0) ∧
      Reflects ball.tol 2 (ballQ i 2) (ballQ i 3) (ballAux 1 i 2) (ballAux 1 i 3) := by
    intro i
    refine ⟨⟨?_, ?_, ?_, ?_⟩, ⟨?_, ?_, ?_, ?_⟩⟩ <;> norm_num [ballQ, ballAux, ball, plain, third]
  refine ⟨refl, ?_⟩
  have hb : (fun i j => b4step2 ball (ballQ i j)) = ballQ := by
    funext i j
    unfold b4step2 ballQ
    rw [if_neg]
    split <;> norm_num [ball, plain]
  have hu : update ball noSource ⟨1, 2, 2⟩ (fun _ => 4) ballAux 0 1 (90 / Real.pi) 1 (fun _ _ => 0) ballQ =
      step2Wrap ball ⟨1, 2, 2⟩ (fun _ => 4) ballQ ballAux 1 (90 / Real.pi) 1 := by
    unfold update
    rw [hb]
    simp [noSource]
  have hsome : ∃ q', step2Wrap ball ⟨1, 2, 2⟩ (fun _ => 4) ballQ ballAux 1 (90 / Real.pi) 1 = some q' := by
    unfold step2Wrap
    simp only []
    rw [if_neg (by norm_num [ball]), if_pos (by norm_num [ball])]
    exact ⟨_, rfl⟩
  obtain ⟨q', h⟩ := hsome
  refine ⟨q', by rw [hu, h], ?_⟩
  have hcapa : ∀ i j : ℤ, 1 ≤ i → i ≤ (1 : ℕ) → 1 ≤ j → j ≤ (2 : ℕ) → ballAux ball.mcapa i j ≠ 0 := by
    intro i j _ _ j1 j2
    have hs : Real.sin (((j : ℝ) - 1) / 2) < Real.sin ((j : ℝ) / 2) := by
      have a : (1 : ℝ) ≤ j := by exact_mod_cast j1
      have b : (j : ℝ) ≤ 2 := by exact_mod_cast j2
      exact Real.sin_lt_sin_of_lt_of_le_pi_div_two (by linarith) (by linarith) (by linarith)
    have : 0 < Real.pi / 180 * (Real.sin ((j : ℝ) / 2) - Real.sin (((j : ℝ) - 1) / 2)) / (90 / Real.pi) := by
      apply div_pos
      · exact mul_pos (by positivity) (by linarith)
      · positivity
    have e : ballAux ball.mcapa i j =
      Real.pi / 180 * (Real.sin ((j : ℝ) / 2) - Real.sin (((j : ℝ) - 1) / 2)) / (90 / Real.pi) := by
      simp [ballAux, ball]
    rw [e]; exact this.ne'
  have b := C93_sphere_partial ball 1 2 2 (fun _ => 4) ballQ q' ballAux 1 (90 / Real.pi) 1 ht hg hc (by norm_num [ball])
    (by norm_num [ball]) hcapa h
  simp only at b
  have fx : ∀ i j : ℤ, throughX ball ballQ ballAux
      (step2 ball ⟨(1 : ℕ), (2 : ℕ), 2⟩ (fun _ => 4) ballQ ballAux (1 / 1) (1 / (90 / Real.pi))) i j = 0 := by
    intro i j
    unfold throughX
    rw [fm_first ball _ _ _ _ _ _ hc rfl rfl]
    have e1 : ballQ (i - 1) j = ballQ i j := rfl
    have e2 : ballAux 1 (i - 1) j = ballAux 1 i j := rfl
    rw [e1, e2, amdq_zero _ (rpn2_same ball 1 (ballQ i j) _ _ ht hg)]
    have e3 : flow ball.tol 1 (ballQ i j) = 0 := by
      unfold flow ballQ
      split <;> split <;> simp
    rw [e3]; ring
  have lat : ∀ j : ℤ, ballAux 3 1 j = ((j : ℝ) - 1) / 2 := by intro j; simp [ballAux]
  have lp : ∀ x : ℝ, 0 < Real.cos x → 0 < len ball 2 x := by
    intro x hx
    unfold len dxdc
    rw [if_pos (by norm_num [ball]), if_neg (by decide)]
    simp only [ball, plain]
    positivity
  have c1 : 0 < Real.cos 1 := Real.cos_pos_of_mem_Ioo ⟨by linarith, by linarith⟩
  have f1 : throughY ball ballQ ballAux
      (step2 ball ⟨(1 : ℕ), (2 : ℕ), 2⟩ (fun _ => 4) ballQ ballAux (1 / 1) (1 / (90 / Real.pi))) 1 1 = 0 := by
    unfold throughY
    rw [gm_first ball _ _ _ _ _ _ hc rfl rfl]
    exact mirror_edge ball 2 _ _ _ _ _ ht hg (lp _ (by rw [lat]; norm_num))
      (reflects_symm _ _ _ _ _ _ (refl 1).1)
  have f3 : throughY ball ballQ ballAux
      (step2 ball ⟨(1 : ℕ), (2 : ℕ), 2⟩ (fun _ => 4) ballQ ballAux (1 / 1) (1 / (90 / Real.pi))) 1 3 = 0 := by
    unfold throughY
    rw [gm_first ball _ _ _ _ _ _ hc rfl rfl]
    exact mirror_edge ball 2 _ _ _ _ _ ht hg (lp _ (by rw [lat]; norm_num; exact c1)) (refl 1).2
  have v1 : flow ball.tol 2 (ballQ 1 1) = 1 := by norm_num [flow, ballQ, ball, plain, third]
  have v2 : flow ball.tol 2 (ballQ 1 2) = 1 := by norm_num [flow, ballQ, ball, plain, third]
  rw [show ball.mcapa = 2 from rfl] at b
  intro hv
  rw [hv] at b
  simp only [fx, sub_self, Finset.sum_const_zero, mul_zero, sub_zero] at b
  rw [Finset.sum_range_one, Finset.sum_range_one, Finset.sum_range_succ, Finset.sum_range_one] at b
  norm_num at f1 f3
  norm_num [v1, v2, lat] at b
  rw [f1, f3] at b
  have hc1 : Real.cos 1 < 1 := by
    have := Real.cos_lt_cos_of_nonneg_of_le_pi (x := 0) (y := 1) le_rfl (by linarith) one_pos
    simpa using this
  have r : ball.earthRadius = 1 := rfl
  have d : ball.deg2rad = Real.pi / 180 := rfl
  rw [r, d] at b
  have : Real.pi / 90 * (Real.pi / 180 * (1 - Real.cos 1)) > 0 := by
    have : 0 < 1 - Real.cos 1 := by linarith
    positivity
  linarith

/-! ### C94: source terms -/

/-- C94. Friction and Coriolis force leave the depths and the ghost cells as they are. -/
theorem C94_depth (P : Params) (S : Source) (d : Dims) (aux : Aux) (ylower dy dt : ℝ) (init : ℤ → ℤ → ℝ) (q : Field) (i j : ℤ) :
    src2 P S d aux ylower dy dt init q i j 0 = q i j 0 ∧
      (¬ (1 ≤ i ∧ i ≤ d.mx ∧ 1 ≤ j ∧ j ≤ d.my) → src2 P S d aux ylower dy dt init q i j = q i j) := by
  refine ⟨src2_depth _ _ _ _ _ _ _ _ _ _ _, fun h => ?_⟩
  unfold src2
  rw [if_neg h]

/-- C94. Friction takes momentum away and keeps its direction: both components are multiplied with the same number between
0 and 1. It is zero in cells without water, 1 in deep water, and otherwise an implicit step of Manning's law with the
coefficient of the cell. -/
theorem C94_friction (P : Params) (S : Source) (d : Dims) (aux : Aux) (ylower dy dt : ℝ) (init : ℤ → ℤ → ℝ) (q : Field)
    (i j : ℤ) (hi : 1 ≤ i ∧ i ≤ d.mx ∧ 1 ≤ j ∧ j ≤ d.my) (hf : S.frictionForcing = true) (hc : S.coriolisForcing = false)
    (hg : 0 ≤ P.g) (hdt : 0 ≤ dt) :
    ∃ c : ℝ, 0 ≤ c ∧ c ≤ 1 ∧ src2 P S d aux ylower dy dt init q i j 1 = c * q i j 1 ∧
      src2 P S d aux ylower dy dt init q i j 2 = c * q i j 2 ∧
      (q i j 0 < 1 / 10 ^ 30 → c = 0) ∧ (1 / 10 ^ 30 ≤ q i j 0 → S.frictionDepth < q i j 0 → c = 1) ∧
      (1 / 10 ^ 30 ≤ q i j 0 → q i j 0 ≤ S.frictionDepth →
        c * (1 + dt * (P.g * frictionCoeff S aux i j (init i j) ^ 2 * Real.sqrt (q i j 1 ^ 2 + q i j 2 ^ 2) /
          q i j 0 ^ ((7 : ℝ) / 3))) = 1) := by
  have e : src2 P S d aux ylower dy dt init q i j = friction P S dt (frictionCoeff S aux i j (init i j)) (q i j) := by
    unfold src2
    rw [if_pos hi]
    simp [hf, hc]
  rw [e]
  generalize frictionCoeff S aux i j (init i j) = k
  generalize q i j = v
  unfold friction
  simp only []
  by_cases h1 : v 0 < 1 / 10 ^ 30
  · rw [if_pos h1]
    exact ⟨0, le_rfl, zero_le_one, by simp, by simp, fun _ => rfl, fun h => absurd h1 (not_lt.mpr h), fun h => absurd h1 (not_lt.mpr h)⟩
  · rw [if_neg h1]
    have h0 : 0 ≤ v 0 := le_trans (by positivity) (not_lt.mp h1)
    by_cases h2 : v 0 ≤ S.frictionDepth
    · rw [if_pos h2]
      have hgam : 0 ≤ Real.sqrt (v 1 ^ 2 + v 2 ^ 2) * P.g * k ^ 2 / v 0 ^ ((7 : ℝ) / 3) :=
        div_nonneg (mul_nonneg (mul_nonneg (Real.sqrt_nonneg _) hg) (sq_nonneg _)) (Real.rpow_nonneg h0 _)
      have hD : 1 ≤ 1 + dt * (Real.sqrt (v 1 ^ 2 + v 2 ^ 2) * P.g * k ^ 2 / v 0 ^ ((7 : ℝ) / 3)) := by
        have := mul_nonneg hdt hgam
        linarith
      refine ⟨1 / (1 + dt * (Real.sqrt (v 1 ^ 2 + v 2 ^ 2) * P.g * k ^ 2 / v 0 ^ ((7 : ℝ) / 3))), by positivity, ?_, ?_, ?_,
        fun h => absurd h h1, fun _ h => absurd h2 (not_le.mpr h), fun _ _ => ?_⟩
      · rw [div_le_one (by linarith)]; exact hD
      · simp; ring
      · simp; ring
      · rw [show P.g * k ^ 2 * Real.sqrt (v 1 ^ 2 + v 2 ^ 2) = Real.sqrt (v 1 ^ 2 + v 2 ^ 2) * P.g * k ^ 2 by ring]
        rw [one_div, inv_mul_cancel₀ (by linarith)]
    · rw [if_neg h2]
      exact ⟨1, zero_le_one, le_rfl, by simp, by simp, fun h => absurd h h1, fun _ _ => rfl, fun _ h => absurd h h2⟩

/-- A shallow cell, a deep one, and one without water. -/
example : ∃ (q : Field) (S : Source), S.frictionForcing = true ∧ S.coriolisForcing = false ∧
    (1 / 10 ^ 30 ≤ q 1 1 0 ∧ q 1 1 0 ≤ S.frictionDepth) ∧ (1 / 10 ^ 30 ≤ q 2 1 0 ∧ S.frictionDepth < q 2 1 0) ∧
    q 3 1 0 < 1 / 10 ^ 30 := by
  refine ⟨fun i _ => if i = 1 then ![1, 2, 3] else if i = 2 then ![100, 2, 3] else ![0, 0, 0],
    { noSource with frictionForcing := true, frictionDepth := 20 }, rfl, rfl, ?_, ?_, ?_⟩ <;> norm_num

/-- C94. Manning's coefficient is that of the first of the given heights that is above the ground. -/
theorem C94_manning (S : Source) (b init : ℝ) (n : ℕ) (h1 : 1 ≤ n) (h2 : n ≤ S.numManning) (hb : b < S.manningBreak n)
    (hfirst : ∀ k, 1 ≤ k → k < n → S.manningBreak k ≤ b) : manning S b init = S.manningCoefficient n := by
  unfold manning
  rw [List.foldl_reverse]
  obtain ⟨m, rfl⟩ : ∃ m, n = m + 1 := ⟨n - 1, by omega⟩
  have split : List.range S.numManning = List.range m ++ (List.range (S.numManning - m)).map (m + ·) := by
    rw [← List.range_add]; congr 1; omega
  have skip : ∀ k, k ≤ m → ∀ x : ℝ, (List.range k).foldr
      (fun k c => if b < S.manningBreak (k + 1) then S.manningCoefficient (k + 1) else c) x = x := by
    intro k
    induction k with
    | zero => intro _ x; rfl
    | succ k ih =>
      intro hk x
      rw [List.range_succ, List.foldr_append]
      simp only [List.foldr_cons, List.foldr_nil]
      rw [if_neg (not_lt.mpr (hfirst (k + 1) (by omega) (by omega)))]
      exact ih (by omega) x
  rw [split, List.foldr_append, skip m le_rfl]
  obtain ⟨r, hr⟩ : ∃ r, S.numManning - m = r + 1 := ⟨S.numManning - m - 1, by omega⟩
  rw [hr, List.range_succ_eq_map]
  simp only [List.map_cons, List.foldr_cons, add_zero]
  rw [if_pos hb]

/-- Two coefficients, one for the sea and one for the land. -/
def twoCoefficients : Source :=
  { noSource with
    numManning := 2
    manningBreak := fun k => if k = 1 then 0 else 100000
    manningCoefficient := fun k => if k = 1 then 3 else 5 }
example : manning twoCoefficients 7 0 = 5 := by
  rw [C94_manning _ 7 0 2 (by norm_num) (by norm_num [twoCoefficients]) (by norm_num [twoCoefficients])
    (by intro k a b; obtain rfl : k = 1 := by omega
        norm_num [twoCoefficients])]
  norm_num [twoCoefficients]

/-- C94. What the Coriolis term computes: the first component is that of the rotation by the angle `fdt`, with the series
of sine and cosine cut off; the second one has an additional term, because it is computed with the new first component. -/
theorem C94_coriolis_partial (fdt : ℝ) (q : V) :
    let c := 1 - fdt ^ 2 / 2 + fdt ^ 4 / 24
    let s := fdt - fdt ^ 3 / 6
    coriolisStep fdt q 0 = q 0 ∧
    coriolisStep fdt q 1 = c * q 1 + s * q 2 ∧
    coriolisStep fdt q 2 = (-s * q 1 + c * q 2) + -s * (coriolisStep fdt q 1 - q 1) ∧
    |c ^ 2 + s ^ 2 - 1| ≤ fdt ^ 6 / 72 + fdt ^ 8 / 576 := by
  intro c s
  refine ⟨by simp [coriolisStep], ?_, ?_, ?_⟩
  · simp [coriolisStep]; ring
  · simp [coriolisStep]; ring
  · have : c ^ 2 + s ^ 2 - 1 = fdt ^ 8 / 576 - fdt ^ 6 / 72 := by simp only [c, s]; ring
    rw [this, abs_le]
    have h6 : 0 ≤ fdt ^ 6 := by positivity
    have h8 : 0 ≤ fdt ^ 8 := by positivity
    constructor <;> linarith

/-- C94. The angle of the Coriolis term in a cell: on the sphere it is that of the latitude of the centre of the cell, in the
plane the linear approximation at `theta0`. -/
theorem C94_angle (P : Params) (S : Source) (d : Dims) (aux : Aux) (ylower dy dt : ℝ) (init : ℤ → ℤ → ℝ) (q : Field)
    (i j : ℤ) (hi : 1 ≤ i ∧ i ≤ d.mx ∧ 1 ≤ j ∧ j ≤ d.my) (hf : S.frictionForcing = false) :
    let y := ylower + (j - 1) * dy + dy / 2
    (S.coriolisForcing = false → src2 P S d aux ylower dy dt init q i j = q i j) ∧
    (S.coriolisForcing = true → P.coordinateSystem = 2 →
      src2 P S d aux ylower dy dt init q i j = coriolisStep (2 * S.omega * Real.sin (P.deg2rad * y) * dt) (q i j)) ∧
    (S.coriolisForcing = true → P.coordinateSystem = 1 →
      src2 P S d aux ylower dy dt init q i j =
        coriolisStep (2 * S.omega * (Real.sin S.theta0 + P.deg2rad * y / 111000 * Real.cos S.theta0) * dt) (q i j)) := by
  intro y
  have e : ylower + ((j : ℝ) - 1 / 2) * dy = y := by simp only [y]; ring
  refine ⟨fun hc => ?_, fun hc h2 => ?_, fun hc h1 => ?_⟩
  · unfold src2
    rw [if_pos hi]
    simp [hf, hc]
  · unfold src2
    rw [if_pos hi]
    simp only [hf, hc, e, coriolis, h2]
    norm_num
    rw [mul_comm y]
  · unfold src2
    rw [if_pos hi]
    simp only [hf, hc, e, coriolis, h1]
    norm_num
    congr 1
    ring

/-- C94. The Coriolis force should turn the momentum and leave its size, up to `fdt ^ 6`. It does not: with an angle of
1/10 it takes more than one hundredth of the square of the momentum away. -/
theorem C94_coriolis_counterexample :
    momentumSq (coriolisStep (1 / 10) ![1, 0, 1]) < 99 / 100 * momentumSq ![1, 0, 1] ∧
      momentumSq ![1, 0, 1] = 1 := by
  have e : (2 : Fin 3) ≠ 0 ∧ (2 : Fin 3) ≠ 1 := by decide
  constructor <;> norm_num [momentumSq, coriolisStep, third, e]

end Fclaw.GeoStep

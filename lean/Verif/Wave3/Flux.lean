import Verif.Wave3.Loops
/-
The fluxes of one slice.
-/
set_option autoImplicit false
set_option linter.unusedSimpArgs false
set_option linter.unusedVariables false
namespace Fclaw.Wave3

open Fort (range mem_range range_sum)
open Wave (Vec comps dot phi minmod superbee vanLeer monotonizedCentered beamWarming generalizedMinmod)

/-! ### Limiter -/

theorem dots_eq (n : Nat) (u v : Vec) : dots n u v = (dot n u u, dot n u v) := by
  unfold dots dot loop
  rw [← range_sum, ← range_sum]
  suffices h : ∀ (ks : List ℤ) (a b : ℚ), ks.foldl (fun (s : ℚ × ℚ) m => (s.1 + u m ^ 2, s.2 + u m * v m)) (a, b) =
      (a + (ks.map fun m => u m * u m).sum, b + (ks.map fun m => u m * v m).sum) by
    rw [h]; simp
  intro ks
  induction ks with
  | nil => intro a b; simp
  | cons k ks ih =>
    intro a b
    rw [List.foldl_cons, ih]
    simp only [List.map_cons, List.sum_cons, Prod.mk.injEq]
    constructor <;> ring

theorem dot_comm (n : Nat) (u v : Vec) : dot n u v = dot n v u := by
  unfold dot
  exact Finset.sum_congr rfl fun m _ => mul_comm _ _

/-- The factor for a wave: nothing is done to waves of size zero. -/
def limited (n : Nat) (mth : ℤ) (s : ℤ → ℚ) (W : ℤ → Vec) (i m : ℤ) : ℚ :=
  if dot n (W i) (W i) = 0 then W i m
  else wlimitr mth ((if 0 < s i then dot n (W (i - 1)) (W i) else dot n (W i) (W (i + 1))) / dot n (W i) (W i)) * W i m

theorem scale_eq (n : Nat) (x : ℚ) (i : ℤ) (W : ℤ → Vec) (i' m' : ℤ) :
    loop 1 (n : ℤ) (fun m (W : ℤ → Vec) => fun i' m' => if i' = i ∧ m' = m then x * W i m else W i' m') W i' m' =
      if i' = i ∧ 1 ≤ m' ∧ m' ≤ (n : ℤ) then x * W i' m' else W i' m' := by
  have h := loop_inv (lo := 1) (hi := (n : ℤ))
    (fun k (V : ℤ → Vec) => ∀ i' m', V i' m' = if i' = i ∧ 1 ≤ m' ∧ m' < k then x * W i' m' else W i' m')
    (fun m (W : ℤ → Vec) => fun i' m' => if i' = i ∧ m' = m then x * W i m else W i' m') W (by omega)
    (fun i' m' => by rw [if_neg]; omega)
    (fun k V h1 h2 hV i' m' => by
      beta_reduce
      by_cases hc : i' = i ∧ m' = k
      · rw [if_pos hc, hV, if_neg (by omega), if_pos (by omega), hc.1, hc.2]
      · rw [if_neg hc, hV]
        by_cases h3 : i' = i ∧ 1 ≤ m' ∧ m' < k
        · rw [if_pos h3, if_pos (by omega)]
        · rw [if_neg h3, if_neg (by omega)])
  rw [h i' m']
  by_cases h3 : i' = i ∧ 1 ≤ m' ∧ m' ≤ (n : ℤ)
  · rw [if_pos h3, if_pos (by omega)]
  · rw [if_neg h3, if_neg (by omega)]

theorem inlinelimiter_eq (n : Nat) (mth : ℤ) (len : ℤ) (hlen : 0 ≤ len) (s : ℤ → ℚ) (W : ℤ → Vec) (i m : ℤ)
    (hi : 1 ≤ i) (hi' : i ≤ len + 1) (hm : 1 ≤ m) (hm' : m ≤ (n : ℤ)) :
    inlinelimiter n mth len s W i m = limited n mth s W i m := by
  have h := loop_inv (lo := 0) (hi := len + 1)
    (fun k (st : ℚ × (ℤ → Vec)) => (∀ i m, st.2 i m = if (1 ≤ i ∧ i < k) ∧ 1 ≤ m ∧ m ≤ (n : ℤ) then limited n mth s W i m
      else W i m) ∧ (k ≠ 0 → st.1 = dot n (W (k - 1)) (W k)))
    (limitEdge n mth s) (0, W) (by omega)
    ⟨fun i m => by rw [if_neg]; omega, fun h => absurd rfl h⟩
    (fun k st h1 h2 ⟨hW, hd⟩ => by
      have e1 : st.2 k = W k := by funext m; rw [hW, if_neg]; omega
      have e2 : st.2 (k + 1) = W (k + 1) := by funext m; rw [hW, if_neg]; omega
      have e3 : dots n (st.2 k) (st.2 (k + 1)) = (dot n (W k) (W k), dot n (W k) (W (k + 1))) := by
        rw [e1, e2, dots_eq]
      have e4 : dot n (W (k + 1 - 1)) (W (k + 1)) = dot n (W k) (W (k + 1)) := by rw [add_sub_cancel_right]
      unfold limitEdge
      simp only [e3]
      by_cases hc : k = 0 ∨ dot n (W k) (W k) = 0
      · rw [if_pos hc]
        refine ⟨fun i m => ?_, fun _ => e4.symm⟩
        dsimp only
        rw [hW]
        by_cases hin : (1 ≤ i ∧ i < k) ∧ 1 ≤ m ∧ m ≤ (n : ℤ)
        · rw [if_pos hin, if_pos (by omega)]
        · rw [if_neg hin]
          by_cases hin' : (1 ≤ i ∧ i < k + 1) ∧ 1 ≤ m ∧ m ≤ (n : ℤ)
          · have hik : i = k := by omega
            rw [if_pos hin', hik]
            unfold limited
            rw [if_pos (by rcases hc with hc | hc; · omega
                           · exact hc)]
          · rw [if_neg hin']
      · rw [if_neg hc]
        push Not at hc
        refine ⟨fun i m => ?_, fun _ => e4.symm⟩
        dsimp only
        rw [scale_eq]
        by_cases hik : i = k ∧ 1 ≤ m ∧ m ≤ (n : ℤ)
        · have hk : (1 ≤ i ∧ i < k + 1) ∧ 1 ≤ m ∧ m ≤ (n : ℤ) := by omega
          rw [if_pos hik, if_pos hk, hik.1]
          unfold limited
          rw [if_neg hc.2, e1, hd hc.1]
          by_cases hs : 0 < s k
          · rw [if_pos hs, if_pos hs]
          · rw [if_neg hs, if_neg hs]
        · rw [if_neg hik, hW]
          by_cases hin : (1 ≤ i ∧ i < k) ∧ 1 ≤ m ∧ m ≤ (n : ℤ)
          · rw [if_pos hin, if_pos (by omega)]
          · rw [if_neg hin, if_neg (by omega)])
  unfold inlinelimiter
  rw [h.1 i m, if_pos (by omega)]

theorem wlimitr_phi (mth : ℤ) (h : 1 ≤ mth) (h' : mth ≤ 6) (r : ℚ) : wlimitr mth r = phi mth r := by
  have : mth = 1 ∨ mth = 2 ∨ mth = 3 ∨ mth = 4 ∨ mth = 5 ∨ mth = 6 := by omega
  rcases this with rfl | rfl | rfl | rfl | rfl | rfl
  · rfl
  · simp [wlimitr, phi, superbee, max_assoc]
  · rfl
  · simp [wlimitr, phi, monotonizedCentered, min_assoc]
  · rfl
  · simp [wlimitr, phi, generalizedMinmod, min_assoc]

/-! ### A slice and the field -/

/-- The slice holds the values of the field. -/
structure Fits (z : Shape) (S : Scheme) (F : Field) (d : Dir) (b c : ℤ) (L : Slice) : Prop where
  len : 0 ≤ L.n
  q : ∀ i, qv z L i = F.val d i b c
  aux : ∀ i, avs z L i = around F d i b c
  dt1 : ∀ i, L.dt1 i = lam S F d i b c 0
  dt2 : ∀ i, L.dt2 i = lam S F d i b c 1
  dt3 : ∀ i, L.dt3 i = lam S F d i b c 2

/-- What is used of the scheme. -/
structure Same (z : Shape) (o : Method) (R : Solver) (S : Scheme) : Prop where
  R : S.R = R
  meqn : S.meqn = z.meqn
  mwaves : S.mwaves = z.mwaves
  hasAux : S.hasAux = decide (0 < z.maux)
  order : S.order = o.order
  lim : S.lim = o.lim
  fw : S.fw = o.fw
  quirks : S.quirks = true
  single : 0 < S.single ↔ 0 < m3 o
  single2 : S.single = 2 ↔ m3 o = 2
  double : 0 < m3 o → S.double = m4 o

section
variable {z : Shape} {o : Method} {R : Solver} {S : Scheme} {F : Field} {d : Dir} {b c : ℤ} {L : Slice}

theorem Fits.av (h : Fits z S F d b c L) (i : ℤ) : av z L i = F.auxAt d i b c := by
  have := congrFun (congrFun (h.aux i) 2) 2
  unfold avs around at this
  unfold Wave3.av
  rw [this]
  simp

theorem wave0_eq (hS : Same z o R S) (h : Fits z S F d b c L) (w i : ℤ) : wave0 z R d L w i = wave S F d i b c w := by
  funext m
  unfold wave0 wave
  rw [h.q, h.q, h.av, h.av, hS.R]

theorem sp_eq (hS : Same z o R S) (h : Fits z S F d b c L) (w i : ℤ) : sp z R d L w i = speed S F d i b c w := by
  unfold sp speed
  rw [h.q, h.q, h.av, h.av, hS.R]

theorem amdq_eq (hS : Same z o R S) (h : Fits z S F d b c L) (i : ℤ) : amdq z R d L i = left S F d i b c := by
  funext m
  unfold amdq left
  rw [h.q, h.q, h.av, h.av, hS.R]

theorem apdq_eq (hS : Same z o R S) (h : Fits z S F d b c L) (i : ℤ) : apdq z R d L i = right S F d i b c := by
  funext m
  unfold apdq right
  rw [h.q, h.q, h.av, h.av, hS.R]

theorem wave1_eq (hS : Same z o R S) (h : Fits z S F d b c L) (hu : Usable z o) (w i m : ℤ) (hw : 1 ≤ w) (hw' : w ≤ (z.mwaves : ℤ))
    (hi : 1 ≤ i) (hi' : i ≤ L.n + 1) (hm : 1 ≤ m) (hm' : m ≤ (z.meqn : ℤ)) :
    wave1 z o R d L w i m = limitedWave S F d i b c w m := by
  obtain ⟨l1, l2⟩ := hu.lim w hw hw'
  unfold limitedWave
  rw [hS.lim, hS.meqn]
  unfold wave1
  by_cases hl : limits z o = true
  · rw [if_pos hl, inlinelimiter_eq _ _ _ h.len _ _ i m hi hi' hm hm']
    unfold limited
    have e : ∀ i, wave0 z R d L w i = wave S F d i b c w := wave0_eq hS h w
    simp only [e, sp_eq hS h]
    by_cases h0 : dot z.meqn (wave S F d i b c w) (wave S F d i b c w) = 0
    · rw [if_pos h0, if_pos (Or.inr h0)]
    · rw [if_neg h0]
      by_cases hz : o.lim w = 0
      · rw [if_pos (Or.inl hz), hz]
        simp [wlimitr]
      · have hno : ¬(o.lim w = 0 ∨ dot z.meqn (wave S F d i b c w) (wave S F d i b c w) = 0) := fun h =>
          h.elim hz h0
        rw [if_neg hno, wlimitr_phi _ (by omega) l2]
        unfold jumpRatio upwind
        rw [hS.meqn]
        by_cases hs : 0 < speed S F d i b c w
        · rw [if_pos hs, if_pos hs]
        · rw [if_neg hs, if_neg hs, dot_comm]
  · rw [if_neg hl]
    have hz : o.lim w = 0 := by
      unfold limits at hl
      rw [List.any_eq_true] at hl
      push Not at hl
      have := hl w ((mem_range _ _ _).2 ⟨hw, hw'⟩)
      have h0 : ¬(0 < o.lim w) := fun h => this (decide_eq_true h)
      omega
    rw [if_pos (Or.inl hz), wave0_eq hS h]

theorem cqxx_eq (hS : Same z o R S) (h : Fits z S F d b c L) (hu : Usable z o) (i m : ℤ)
    (hi : 1 ≤ i) (hi' : i ≤ L.n + 1) (hm : 1 ≤ m) (hm' : m ≤ (z.meqn : ℤ)) : cqxx z o R d L i m = corr S F d i b c m := by
  unfold cqxx corr
  rw [loop_sum, zero_add, hS.mwaves]
  refine Finset.sum_congr rfl fun w hw => ?_
  rw [Finset.mem_Icc] at hw
  rw [wave1_eq hS h hu w i m hw.1 hw.2 hi hi' hm hm', sp_eq hS h, h.dt1, h.dt1, hS.fw]
  unfold Wave.sign1
  congr 2
  ring

theorem comps_congr (n : Nat) {u v : Vec} (h : ∀ m, 1 ≤ m → m ≤ (n : ℤ) → u m = v m) : comps n u = comps n v := by
  funext m
  unfold comps
  split
  · exact h m (by tauto) (by tauto)
  · rfl

theorem rptUp_eq (hS : Same z o R S) (h : Fits z S F d b c L) (t imp : Nat) (asdq : ℤ → Vec) (dq : Vec) (i : ℤ)
    (e : ∀ m, 1 ≤ m → m ≤ (z.meqn : ℤ) → asdq i m = dq m) (m : ℤ) :
    rptUp z R d L (t + 1) imp asdq i m = split S F d i b c t true imp dq m := by
  unfold rptUp split
  rw [h.q, h.q, h.aux, h.aux, hS.R, hS.meqn, comps_congr _ e, if_pos rfl]

theorem rptDown_eq (hS : Same z o R S) (h : Fits z S F d b c L) (t imp : Nat) (asdq : ℤ → Vec) (dq : Vec) (i : ℤ)
    (e : ∀ m, 1 ≤ m → m ≤ (z.meqn : ℤ) → asdq i m = dq m) (m : ℤ) :
    rptDown z R d L (t + 1) imp asdq i m = split S F d i b c t false imp dq m := by
  unfold rptDown split
  rw [h.q, h.q, h.aux, h.aux, hS.R, hS.meqn, comps_congr _ e, if_neg (by decide)]

theorem rpttUp_eq (hS : Same z o R S) (h : Fits z S F d b c L) (t imp impt : Nat) (asdq : ℤ → Vec) (dq : Vec) (i : ℤ)
    (e : ∀ m, 1 ≤ m → m ≤ (z.meqn : ℤ) → asdq i m = dq m) (m : ℤ) :
    rpttUp z R d L (t + 1) imp impt asdq i m = split2 S F d i b c t true imp impt dq m := by
  unfold rpttUp split2
  rw [h.q, h.q, h.aux, h.aux, hS.R, hS.meqn, comps_congr _ e, if_pos rfl]

theorem rpttDown_eq (hS : Same z o R S) (h : Fits z S F d b c L) (t imp impt : Nat) (asdq : ℤ → Vec) (dq : Vec) (i : ℤ)
    (e : ∀ m, 1 ≤ m → m ≤ (z.meqn : ℤ) → asdq i m = dq m) (m : ℤ) :
    rpttDown z R d L (t + 1) imp impt asdq i m = split2 S F d i b c t false imp impt dq m := by
  unfold rpttDown split2
  rw [h.q, h.q, h.aux, h.aux, hS.R, hS.meqn, comps_congr _ e, if_neg (by decide)]

/-! ### The parts -/

/-- The parts of correction waves. -/
theorem corrParts (hS : Same z o R S) (h : Fits z S F d b c L) (hu : Usable z o) (i : ℤ) (hi : 1 ≤ i) (hi' : i ≤ L.n + 1) :
    (∀ m, bmcqxxm z o R d L i m = split S F d i b c 1 false (if S.hasAux then 1 else 0) (corr S F d i b c) m) ∧
    (∀ m, bpcqxxm z o R d L i m = split S F d i b c 1 true (if S.hasAux then 1 else 0) (corr S F d i b c) m) ∧
    (∀ m, bmcqxxp z o R d L i m = split S F d i b c 1 false (if S.hasAux then 2 else 0) (corr S F d i b c) m) ∧
    (∀ m, bpcqxxp z o R d L i m = split S F d i b c 1 true (if S.hasAux then 2 else 0) (corr S F d i b c) m) ∧
    (∀ m, cmcqxxm z o R d L i m = split S F d i b c 2 false (if S.hasAux then 1 else 0) (corr S F d i b c) m) ∧
    (∀ m, cpcqxxm z o R d L i m = split S F d i b c 2 true (if S.hasAux then 1 else 0) (corr S F d i b c) m) ∧
    (∀ m, cmcqxxp z o R d L i m = split S F d i b c 2 false (if S.hasAux then 2 else 0) (corr S F d i b c) m) ∧
    (∀ m, cpcqxxp z o R d L i m = split S F d i b c 2 true (if S.hasAux then 2 else 0) (corr S F d i b c) m) := by
  have e : ∀ m, 1 ≤ m → m ≤ (z.meqn : ℤ) → cqxx z o R d L i m = corr S F d i b c m :=
    fun m hm hm' => cqxx_eq hS h hu i m hi hi' hm hm'
  rw [hS.hasAux]
  unfold bmcqxxp bpcqxxp cmcqxxp cpcqxxp bmcqxxm bpcqxxm cmcqxxm cpcqxxm
  by_cases ha : 0 < z.maux
  · simp only [ha, if_true, decide_true]
    exact ⟨rptDown_eq hS h 1 _ _ _ i e, rptUp_eq hS h 1 _ _ _ i e, rptDown_eq hS h 1 _ _ _ i e, rptUp_eq hS h 1 _ _ _ i e,
      rptDown_eq hS h 2 _ _ _ i e, rptUp_eq hS h 2 _ _ _ i e, rptDown_eq hS h 2 _ _ _ i e, rptUp_eq hS h 2 _ _ _ i e⟩
  · simp only [ha, if_false, decide_false, Bool.false_eq_true]
    exact ⟨rptDown_eq hS h 1 _ _ _ i e, rptUp_eq hS h 1 _ _ _ i e, rptDown_eq hS h 1 _ _ _ i e, rptUp_eq hS h 1 _ _ _ i e,
      rptDown_eq hS h 2 _ _ _ i e, rptUp_eq hS h 2 _ _ _ i e, rptDown_eq hS h 2 _ _ _ i e, rptUp_eq hS h 2 _ _ _ i e⟩

/-- The parts of fluctuations. -/
theorem waveParts (hS : Same z o R S) (h : Fits z S F d b c L) (i : ℤ) :
    (∀ m, bmamdq z R d L i m = split S F d i b c 1 false 1 (left S F d i b c) m) ∧
    (∀ m, bpamdq z R d L i m = split S F d i b c 1 true 1 (left S F d i b c) m) ∧
    (∀ m, bmapdq z R d L i m = split S F d i b c 1 false 2 (right S F d i b c) m) ∧
    (∀ m, bpapdq z R d L i m = split S F d i b c 1 true 2 (right S F d i b c) m) ∧
    (∀ m, cmamdq z R d L i m = split S F d i b c 2 false 1 (left S F d i b c) m) ∧
    (∀ m, cpamdq z R d L i m = split S F d i b c 2 true 1 (left S F d i b c) m) ∧
    (∀ m, cmapdq z R d L i m = split S F d i b c 2 false 2 (right S F d i b c) m) ∧
    (∀ m, cpapdq z R d L i m = split S F d i b c 2 true 2 (right S F d i b c) m) := by
  have e1 : ∀ m, 1 ≤ m → m ≤ (z.meqn : ℤ) → amdq z R d L i m = left S F d i b c m := fun m _ _ => by rw [amdq_eq hS h]
  have e2 : ∀ m, 1 ≤ m → m ≤ (z.meqn : ℤ) → apdq z R d L i m = right S F d i b c m := fun m _ _ => by rw [apdq_eq hS h]
  exact ⟨rptDown_eq hS h 1 _ _ _ i e1, rptUp_eq hS h 1 _ _ _ i e1, rptDown_eq hS h 1 _ _ _ i e2, rptUp_eq hS h 1 _ _ _ i e2,
    rptDown_eq hS h 2 _ _ _ i e1, rptUp_eq hS h 2 _ _ _ i e1, rptDown_eq hS h 2 _ _ _ i e2, rptUp_eq hS h 2 _ _ _ i e2⟩

/-- The parts of parts in the G fluxes. -/
theorem twiceG (hS : Same z o R S) (h : Fits z S F d b c L) (i : ℤ) :
    (∀ m, bmcmamdq z R d L i m = twice S F d i b c 1 false false 1 m) ∧
    (∀ m, bpcmamdq z R d L i m = twice S F d i b c 1 true false 1 m) ∧
    (∀ m, bmcpamdq z R d L i m = twice S F d i b c 1 false true 1 m) ∧
    (∀ m, bpcpamdq z R d L i m = twice S F d i b c 1 true true 1 m) ∧
    (∀ m, bmcmapdq z R d L i m = twice S F d i b c 1 false false 2 m) ∧
    (∀ m, bpcmapdq z R d L i m = twice S F d i b c 1 true false 2 m) ∧
    (∀ m, bmcpapdq z R d L i m = twice S F d i b c 1 false true 2 m) ∧
    (∀ m, bpcpapdq z R d L i m = twice S F d i b c 1 true true 2 m) := by
  obtain ⟨-, -, -, -, w1, w2, w3, w4⟩ := waveParts hS h i
  have hc : corrTwice S 1 = false := by unfold corrTwice; rw [hS.quirks]; simp
  have f1 : ∀ m, 1 ≤ m → m ≤ (z.meqn : ℤ) → cmamdq z R d L i m = firstPart S F d i b c 1 false 1 m := fun m _ _ => by
    rw [w1]; simp [firstPart, hc]
  have f2 : ∀ m, 1 ≤ m → m ≤ (z.meqn : ℤ) → cpamdq z R d L i m = firstPart S F d i b c 1 true 1 m := fun m _ _ => by
    rw [w2]; simp [firstPart, hc]
  have f3 : ∀ m, 1 ≤ m → m ≤ (z.meqn : ℤ) → cmapdq z R d L i m = firstPart S F d i b c 1 false 2 m := fun m _ _ => by
    rw [w3]; simp [firstPart, hc]
  have f4 : ∀ m, 1 ≤ m → m ≤ (z.meqn : ℤ) → cpapdq z R d L i m = firstPart S F d i b c 1 true 2 m := fun m _ _ => by
    rw [w4]; simp [firstPart, hc]
  exact ⟨rpttDown_eq hS h 1 _ _ _ _ i f1, rpttUp_eq hS h 1 _ _ _ _ i f1, rpttDown_eq hS h 1 _ _ _ _ i f2,
    rpttUp_eq hS h 1 _ _ _ _ i f2, rpttDown_eq hS h 1 _ _ _ _ i f3, rpttUp_eq hS h 1 _ _ _ _ i f3,
    rpttDown_eq hS h 1 _ _ _ _ i f4, rpttUp_eq hS h 1 _ _ _ _ i f4⟩

/-- The parts of parts in the H fluxes. -/
theorem twiceH (hS : Same z o R S) (h : Fits z S F d b c L) (hu : Usable z o) (h3 : 0 < m3 o) (i : ℤ) (hi : 1 ≤ i)
    (hi' : i ≤ L.n + 1) :
    (∀ m, cmbmamdq z o R d L i m = twice S F d i b c 2 false false 1 m) ∧
    (∀ m, cpbmamdq z o R d L i m = twice S F d i b c 2 true false 1 m) ∧
    (∀ m, cmbpamdq z o R d L i m = twice S F d i b c 2 false true 1 m) ∧
    (∀ m, cpbpamdq z o R d L i m = twice S F d i b c 2 true true 1 m) ∧
    (∀ m, cmbmapdq z o R d L i m = twice S F d i b c 2 false false 2 m) ∧
    (∀ m, cpbmapdq z o R d L i m = twice S F d i b c 2 true false 2 m) ∧
    (∀ m, cmbpapdq z o R d L i m = twice S F d i b c 2 false true 2 m) ∧
    (∀ m, cpbpapdq z o R d L i m = twice S F d i b c 2 true true 2 m) := by
  obtain ⟨w1, w2, w3, w4, -⟩ := waveParts hS h i
  obtain ⟨c1, c2, c3, c4, -⟩ := corrParts hS h hu i hi hi'
  have hc : corrTwice S 2 = decide (m4 o = 2) := by unfold corrTwice; rw [hS.double h3]; simp
  have f1 : ∀ m, 1 ≤ m → m ≤ (z.meqn : ℤ) → bmamdq2 z o R d L i m = firstPart S F d i b c 2 false 1 m := fun m _ _ => by
    unfold bmamdq2 firstPart
    rw [w1, c1, hc]
    by_cases h2 : m4 o = 2 <;> simp [h2]
  have f2 : ∀ m, 1 ≤ m → m ≤ (z.meqn : ℤ) → bpamdq2 z o R d L i m = firstPart S F d i b c 2 true 1 m := fun m _ _ => by
    unfold bpamdq2 firstPart
    rw [w2, c2, hc]
    by_cases h2 : m4 o = 2 <;> simp [h2]
  have f3 : ∀ m, 1 ≤ m → m ≤ (z.meqn : ℤ) → bmapdq2 z o R d L i m = firstPart S F d i b c 2 false 2 m := fun m _ _ => by
    unfold bmapdq2 firstPart
    rw [w3, c3, hc]
    by_cases h2 : m4 o = 2 <;> simp [h2]
  have f4 : ∀ m, 1 ≤ m → m ≤ (z.meqn : ℤ) → bpapdq2 z o R d L i m = firstPart S F d i b c 2 true 2 m := fun m _ _ => by
    unfold bpapdq2 firstPart
    rw [w4, c4, hc]
    by_cases h2 : m4 o = 2 <;> simp [h2]
  exact ⟨rpttDown_eq hS h 2 _ _ _ _ i f1, rpttUp_eq hS h 2 _ _ _ _ i f1, rpttDown_eq hS h 2 _ _ _ _ i f2,
    rpttUp_eq hS h 2 _ _ _ _ i f2, rpttDown_eq hS h 2 _ _ _ _ i f3, rpttUp_eq hS h 2 _ _ _ _ i f3,
    rpttDown_eq hS h 2 _ _ _ _ i f4, rpttUp_eq hS h 2 _ _ _ _ i f4⟩

end

end Fclaw.Wave3

import Verif.GeoStep.Rest
/-
Flow of water through edges.
-/
set_option autoImplicit false
set_option linter.unusedSimpArgs false
set_option linter.unusedVariables false
namespace Fclaw.GeoStep

theorem fluct_sum (w : Waves) (m : Fin 3) : amdqOf w m + apdqOf w m = ∑ mw, w.f m mw := by
  unfold amdqOf apdqOf
  rw [← Finset.sum_add_distrib]
  refine Finset.sum_congr rfl fun mw _ => ?_
  split
  · ring
  · split <;> ring

/-! ### Flat ground -/

open Classical in
theorem steadyDepth_flat (so : Prop) (g hbar bar l1 l3 hs hL hR : ℝ) (h : l1 < l3) (hs0 : 0 ≤ hs) (hL0 : 0 ≤ hL)
    (hR0 : 0 ≤ hR) : steadyDepth so g 0 hbar bar l1 l3 hs hL hR = 0 := by
  unfold steadyDepth
  simp only []
  have e : ∀ [inst : Decidable so], (@ite ℝ so inst (-(0 : ℝ)) (0 * g * hbar / bar)) = 0 := by
    intro inst; simp
  rw [e]
  have hc : (0 : ℝ) < critical := by norm_num [critical]
  have hp : 0 ≤ hs * (l3 - l1) := mul_nonneg hs0 (by linarith)
  split
  · rename_i hh
    rw [min_eq_left (div_nonneg hp (by linarith)), max_eq_left (div_nonpos_of_nonneg_of_nonpos hp (by linarith))]
  · split
    · rw [min_eq_left (div_nonneg hp (by linarith)), max_eq_left (by linarith)]
    · split
      · rw [min_eq_left hR0, max_eq_left (div_nonpos_of_nonneg_of_nonpos hp (by linarith))]
      · rfl

open Classical in
theorem steadyFlux_flat (so : Prop) (g hbar bar tilde hL hR : ℝ) : steadyFlux so g 0 hbar bar tilde hL hR = 0 := by
  unfold steadyFlux
  simp

theorem jDepth_flat (tol g : ℝ) (L R : Side) (sE1 sE2 : ℝ) (h : jL1 tol g L R sE1 < jL3 tol g L R sE2) (hL : 0 ≤ L.h)
    (hR : 0 ≤ R.h) (hb : R.b = L.b) : jDepth tol g L R sE1 sE2 = 0 := by
  rw [jDepth, hb, sub_self]
  exact steadyDepth_flat _ _ _ _ _ _ _ _ _ h (le_max_right _ _) hL hR

theorem jFlux_flat (tol g : ℝ) (L R : Side) (sE1 sE2 : ℝ) (hb : R.b = L.b) : jFlux tol g L R sE1 sE2 = 0 := by
  rw [jFlux, hb, sub_self]
  exact steadyFlux_flat _ _ _ _ _ _ _

/-- Equal states on flat ground send no waves. -/
theorem jcp_same (tol g : ℝ) (S : Side) (hg : 0 < g) (hp : 0 < S.h) (m mw : Fin 3) :
    (augJCP tol g S S (einfeldt1 g S S) (einfeldt2 g S S)).f m mw = 0 := by
  have hl := jL_lt tol g S S hg (by linarith)
  have del : ∀ m, jDel tol g S S (einfeldt1 g S S) (einfeldt2 g S S) m = 0 := by
    intro m
    fin_cases m
    · simp [jDel, jDepth_flat tol g S S _ _ hl hp.le hp.le rfl]
    · simp [jDel]
    · simp [jDel, jFlux_flat tol g S S _ _ rfl]
  have beta : ∀ k, jBeta tol g S S (einfeldt1 g S S) (einfeldt2 g S S) k = 0 := cramer_zero _ _ _ del
  rw [augJCP_eq]
  simp [beta]

/-! ### Mirrored states -/

/-- `R` is the mirror image of `L`. -/
structure Mirrored (L R : Side) : Prop where
  h : R.h = L.h
  hu : R.hu = -L.hu
  u : R.u = -L.u
  b : R.b = L.b

theorem riemanntype_mirror (h u tol g : ℝ) (hw : tol < h) :
    (riemanntype h h u (-u) tol g).s1m = -(riemanntype h h u (-u) tol g).s2m := by
  unfold riemanntype
  simp only [min_self, max_self, sub_self, mul_zero, zero_mul, add_zero]
  rw [if_neg (by linarith)]
  by_cases h1 : 0 < -u - u
  · rw [if_pos h1]; ring
  · rw [if_neg h1, if_pos (by linarith)]; simp only []; ring

/-- What `riemanntype` finds at a wall. -/
theorem riemanntype_runup (h u tol g : ℝ) (hg : 0 < g) (h0 : 0 < h) (hw : tol < h) :
    (riemanntype h h u (-u) tol g).hm = (max 0 (Real.sqrt h + u / (2 * Real.sqrt g))) ^ 2 := by
  have sg : 0 < Real.sqrt g := Real.sqrt_pos.mpr hg
  have sh : 0 < Real.sqrt h := Real.sqrt_pos.mpr h0
  have eg : Real.sqrt g ^ 2 = g := Real.sq_sqrt hg.le
  have eh : Real.sqrt h ^ 2 = h := Real.sq_sqrt h0.le
  have egh : Real.sqrt (g * h) = Real.sqrt g * Real.sqrt h := Real.sqrt_mul hg.le h
  unfold riemanntype
  simp only [min_self, max_self, sub_self, mul_zero, zero_mul, add_zero]
  rw [if_neg (by linarith)]
  by_cases h1 : 0 < -u - u
  · rw [if_pos h1]
    simp only []
    rw [egh]
    have e : -(-u - u) + 2 * (Real.sqrt g * Real.sqrt h + Real.sqrt g * Real.sqrt h) =
        (4 * Real.sqrt g) * (Real.sqrt h + u / (2 * Real.sqrt g)) := by
      field_simp; ring
    rw [e]
    have m : max 0 ((4 * Real.sqrt g) * (Real.sqrt h + u / (2 * Real.sqrt g))) =
        (4 * Real.sqrt g) * max 0 (Real.sqrt h + u / (2 * Real.sqrt g)) := by
      rw [mul_max_of_nonneg _ _ (by positivity), mul_zero]
    rw [m, mul_pow, mul_pow, eg]
    field_simp
    ring
  · rw [if_neg h1, if_pos (by linarith)]
    simp only []
    have hu : 0 ≤ u := by linarith
    rw [max_eq_right (by positivity)]
    unfold newton
    simp only [sub_self, zero_mul, mul_zero, zero_div, add_zero, sub_zero]
    have e : Real.sqrt (1 / 2 * g * (1 / h + 1 / h)) = Real.sqrt g / Real.sqrt h := by
      rw [← Real.sqrt_div hg.le]; congr 1; field_simp; ring
    rw [e]
    congr 1
    field_simp
    ring

theorem mirror_speeds (tol g : ℝ) (L R : Side) (hg : 0 < g) (ht : 0 ≤ tol) (hw : tol < L.h) (hm : Mirrored L R) :
    jL3 tol g L R (einfeldt2 g L R) = -jL1 tol g L R (einfeldt1 g L R) := by
  have r := riemanntype_mirror L.h L.u tol g hw
  unfold jL3 jL1
  rw [hm.h, hm.u, r]
  have e : einfeldt2 g L R = -einfeldt1 g L R := by
    unfold einfeldt2 einfeldt1
    simp only [hm.h, hm.u]
    have z : Real.sqrt (g * L.h) * L.u + Real.sqrt (g * L.h) * -L.u = 0 := by ring
    rw [z, zero_div, zero_add, zero_sub, ← max_neg_neg]
    congr 1 <;> ring
  rw [e, max_neg_neg]

theorem mirror_neg (tol g : ℝ) (L R : Side) (hg : 0 < g) (ht : 0 ≤ tol) (hw : tol < L.h) (hm : Mirrored L R) :
    jL1 tol g L R (einfeldt1 g L R) < 0 := by
  have h := jL_lt tol g L R hg (by rw [hm.h]; linarith)
  rw [mirror_speeds tol g L R hg ht hw hm] at h
  linarith

/-- The waves of depth between mirrored states. -/
theorem mirror_f0 (tol g : ℝ) (L R : Side) (hg : 0 < g) (ht : 0 ≤ tol) (hw : tol < L.h) (hm : Mirrored L R) :
    (augJCP tol g L R (einfeldt1 g L R) (einfeldt2 g L R)).f 0 0 = -L.hu ∧
    (augJCP tol g L R (einfeldt1 g L R) (einfeldt2 g L R)).f 0 1 = 0 ∧
    (augJCP tol g L R (einfeldt1 g L R) (einfeldt2 g L R)).f 0 2 = -L.hu := by
  have hl := jL_lt tol g L R hg (by rw [hm.h]; linarith)
  have hn := mirror_neg tol g L R hg ht hw hm
  have hs := mirror_speeds tol g L R hg ht hw hm
  have hd := jDepth_flat tol g L R _ _ hl (by linarith) (by rw [hm.h]; linarith) hm.b
  rw [augJCP_eq]
  simp only [jBeta, cramer0 _ _ _ hl, cramer2 _ _ _ hl]
  simp only [jDel, hd, hs, hm.h, hm.hu, rMat]
  have hne := hn.ne
  generalize jL1 tol g L R (einfeldt1 g L R) = l at hne
  have h2 : -l - l ≠ 0 := fun h => hne (by linarith)
  refine ⟨?_, by simp, ?_⟩
  · simp only [if_true, if_neg (show ¬ ((1 : Fin 3) = 0) by decide), if_neg (show ¬ ((0 : Fin 3) = 1) by decide),
      sub_self, mul_zero]
    rw [div_mul_eq_mul_div, div_eq_iff h2]; ring
  · simp only [if_true, if_neg (show ¬ ((1 : Fin 3) = 0) by decide), if_neg (show ¬ ((2 : Fin 3) = 1) by decide),
      if_neg (show ¬ ((2 : Fin 3) = 0) by decide), sub_self, mul_zero]
    rw [div_mul_eq_mul_div, div_eq_iff h2]; ring

/-! ### An edge -/

/-- `flow` for the state on one side. -/
theorem side_hu (g tol b : ℝ) (ixy : ℤ) (q : V) (ht : 0 ≤ tol) :
    (side g tol ixy (clean q) b).hu = flow tol (muOf ixy) q := by
  unfold side flow clean
  simp only []
  split_ifs <;> simp_all <;> linarith

theorem side_h (g tol b : ℝ) (ixy : ℤ) (q : V) (ht : 0 ≤ tol) :
    (side g tol ixy (clean q) b).h = if tol < q 0 then q 0 else 0 := by
  unfold side clean
  simp only []
  split_ifs <;> simp_all <;> linarith

theorem clean_wet (tol : ℝ) (q : V) (ht : 0 ≤ tol) : tol < clean q 0 ↔ tol < q 0 := by
  unfold clean
  split
  · simp only [Pi.zero_apply]; constructor <;> intro <;> linarith
  · rfl

theorem side_b (g tol b : ℝ) (ixy : ℤ) (q : V) : (side g tol ixy q b).b = b := by
  unfold side; simp only []; split <;> rfl

/-- The waves of depth at an edge add up to the difference of the flows. -/
theorem edgeWaves_sum (tol g : ℝ) (L R : Side) (hg : 0 < g) (ht : 0 ≤ tol)
    (hL : tol < L.h ∨ (L.h = 0 ∧ L.hu = 0)) (hR : tol < R.h ∨ (R.h = 0 ∧ R.hu = 0)) (hw : tol < L.h ∨ tol < R.h) :
    ∑ mw, (edgeWaves g tol L R).f 0 mw = R.hu - L.hu := by
  have plain : ∀ A B : Side, 0 < A.h + B.h →
      ∑ mw, (augJCP tol g A B (einfeldt1 g A B) (einfeldt2 g A B)).f 0 mw * 1 = B.hu - A.hu := by
    intro A B hp
    simp only [mul_one]
    exact sum_f0 tol g A B _ _ (jL_lt tol g A B hg hp)
  have hp : 0 < L.h + R.h := by
    rcases hw with h | h
    · rcases hR with h' | ⟨h', _⟩ <;> linarith
    · rcases hL with h' | ⟨h', _⟩ <;> linarith
  unfold edgeWaves shore
  simp only []
  by_cases hR' : R.h ≤ tol
  · rw [if_pos hR']
    have hLw : tol < L.h := by
      rcases hw with h | h
      · exact h
      · linarith
    have hR0 : R.h = 0 ∧ R.hu = 0 := by
      rcases hR with h | h
      · linarith
      · exact h
    split
    · obtain ⟨a, b, c⟩ := mirror_f0 tol g L (mirror L R.hv) hg ht hLw ⟨rfl, rfl, rfl, rfl⟩
      rw [Fin.sum_univ_three]
      simp only []
      rw [a, b, c, hR0.2]
      simp
    · split
      · exact plain L { R with b := L.h + L.b } hp
      · exact plain L R hp
  · rw [if_neg hR']
    by_cases hL' : L.h ≤ tol
    · rw [if_pos hL']
      have hL0 : L.h = 0 ∧ L.hu = 0 := by
        rcases hL with h | h
        · linarith
        · exact h
      split
      · have hm : Mirrored (mirror R L.hv) R := ⟨rfl, by simp [mirror], by simp [mirror], rfl⟩
        obtain ⟨a, b, c⟩ := mirror_f0 tol g (mirror R L.hv) R hg ht (by simp only [mirror]; linarith) hm
        rw [Fin.sum_univ_three]
        simp only []
        rw [a, b, c, hL0.2]
        simp [mirror]
      · split
        · exact plain { L with b := R.h + R.b } R hp
        · exact plain L R hp
    · rw [if_neg hL']
      exact plain L R hp

/-- The factor that `rpn2` multiplies the waves with. -/
noncomputable def len (P : Params) (ixy : ℤ) (lat : ℝ) : ℝ := if 0 < P.mcapa then dxdc P ixy lat else 1

theorem side_states (P : Params) (ixy : ℤ) (q : V) (b : ℝ) (ht : 0 ≤ P.tol) :
    P.tol < (side P.g P.tol ixy (clean q) b).h ∨
      ((side P.g P.tol ixy (clean q) b).h = 0 ∧ (side P.g P.tol ixy (clean q) b).hu = 0) := by
  rw [side_h _ _ _ _ _ ht, side_hu _ _ _ _ _ ht, flow]
  split
  · left; assumption
  · right; exact ⟨rfl, rfl⟩

theorem rpn2_sum (P : Params) (ixy : ℤ) (qL qR : V) (bL bR lat : ℝ) (ht : 0 ≤ P.tol) (hg : 0 < P.g) :
    ∑ mw, (rpn2 P ixy qL qR bL bR lat).f 0 mw =
      len P ixy lat * (flow P.tol (muOf ixy) qR - flow P.tol (muOf ixy) qL) := by
  have key : ∀ w : Waves, ∑ mw, (if 0 < P.mcapa then
      ({ s := fun mw => dxdc P ixy lat * w.s mw, f := fun m mw => dxdc P ixy lat * w.f m mw } : Waves) else w).f 0 mw =
      len P ixy lat * ∑ mw, w.f 0 mw := by
    intro w
    unfold len
    split
    · simp only [Finset.mul_sum]
    · simp
  unfold rpn2
  simp only []
  rw [key]
  congr 1
  by_cases hd : clean qL 0 ≤ P.tol ∧ clean qR 0 ≤ P.tol
  · rw [if_pos hd]
    have a : ¬ P.tol < qL 0 := by rw [← clean_wet _ _ ht]; linarith [hd.1]
    have b : ¬ P.tol < qR 0 := by rw [← clean_wet _ _ ht]; linarith [hd.2]
    simp [flow, a, b]
  · rw [if_neg hd]
    simp only [if_true]
    rw [edgeWaves_sum P.tol P.g _ _ hg ht (side_states P ixy qL bL ht) (side_states P ixy qR bR ht) ?_,
      side_hu _ _ _ _ _ ht, side_hu _ _ _ _ _ ht]
    rw [side_h _ _ _ _ _ ht, side_h _ _ _ _ _ ht]
    by_cases a : P.tol < qL 0
    · left; rw [if_pos a]; exact a
    · right
      have b : P.tol < qR 0 := by
        rw [← clean_wet _ _ ht] at a ⊢
        by_contra b
        exact hd ⟨not_lt.mp a, not_lt.mp b⟩
      rw [if_pos b]; exact b

/-- The flow through an edge is the same, seen from both sides. -/
theorem edge_flow (P : Params) (ixy : ℤ) (S : Slice) (i : ℤ) (ht : 0 ≤ P.tol) (hg : 0 < P.g) :
    len P ixy (S.mid i).lat * flow P.tol (muOf ixy) (S.q (i - 1)) + amdqOf (edge P ixy S i) 0 =
      len P ixy (S.mid i).lat * flow P.tol (muOf ixy) (S.q i) - apdqOf (edge P ixy S i) 0 := by
  have a := fluct_sum (edge P ixy S i) 0
  have b := rpn2_sum P ixy (S.q (i - 1)) (S.q i) (S.mid (i - 1)).b (S.mid i).b (S.mid i).lat ht hg
  unfold edge at *
  rw [b] at a
  linarith

theorem flux2_flow (P : Params) (ixy n : ℤ) (S : Slice) (i : ℤ) (ht : 0 ≤ P.tol) (hg : 0 < P.g) :
    len P ixy (S.mid i).lat * flow P.tol (muOf ixy) (S.q (i - 1)) + (flux2 P ixy n S).fm i 0 =
      len P ixy (S.mid i).lat * flow P.tol (muOf ixy) (S.q i) + (flux2 P ixy n S).fp i 0 ∧
    ∀ s, (flux2 P ixy n S).gm i s = (flux2 P ixy n S).gp i s := by
  refine ⟨?_, fun s => rfl⟩
  have := edge_flow P ixy S i ht hg
  unfold flux2
  simp only []
  linarith

end Fclaw.GeoStep

import Verif.GeoStep.Lemmas
/-
Water at rest: from the waves of an edge to a time step of a patch.
-/
set_option autoImplicit false
set_option linter.unusedSimpArgs false
set_option linter.unusedVariables false
namespace Fclaw.GeoStep

/-- A cell with no motion gives a side with no motion. -/
theorem side_rest (g tol b : ℝ) (ixy : ℤ) (q : V) (ht : 0 ≤ tol) (h1 : q 1 = 0) (h2 : q 2 = 0) :
    (side g tol ixy q b).Rest g ∧ (side g tol ixy q b).b = b ∧
      (side g tol ixy q b).h = if tol < q 0 then q 0 else 0 := by
  have hm : q (muOf ixy) = 0 := by unfold muOf; split <;> assumption
  have hn : q (nvOf ixy) = 0 := by unfold nvOf; split <;> assumption
  unfold side
  simp only [hm, hn]
  split
  · refine ⟨⟨by simp only []; linarith, rfl, by simp, by simp, by simp⟩, rfl, rfl⟩
  · exact ⟨⟨le_refl _, rfl, rfl, rfl, by simp⟩, rfl, rfl⟩

theorem clean_still (tol : ℝ) (q : V) (ht : 0 ≤ tol) (h : q 0 = 0 ∨ tol < q 0) : clean q = q := by
  unfold clean
  rw [if_neg]
  rcases h with h | h <;> linarith

/-- The waves of an edge between two cells at rest vanish. -/
theorem rpn2_rest (P : Params) (ixy : ℤ) (qL qR : V) (bL bR lat : ℝ) (ht : 0 ≤ P.tol) (hg : 0 < P.g)
    (hL : Column.Still P.tol ⟨qL 0, qL 1, qL 2, bL⟩) (hR : Column.Still P.tol ⟨qR 0, qR 1, qR 2, bR⟩)
    (hb : Balanced P.tol ⟨qL 0, qL 1, qL 2, bL⟩ ⟨qR 0, qR 1, qR 2, bR⟩) (m mw : Fin 3) :
    (rpn2 P ixy qL qR bL bR lat).f m mw = 0 := by
  obtain ⟨l1, l2, l3⟩ := hL
  obtain ⟨r1, r2, r3⟩ := hR
  simp only at l1 l2 l3 r1 r2 r3
  obtain ⟨b1, b2, b3⟩ := hb
  simp only at b1 b2 b3
  have key : ¬ (qL 0 ≤ P.tol ∧ qR 0 ≤ P.tol) → ∀ m mw,
      (edgeWaves P.g P.tol (side P.g P.tol ixy qL bL) (side P.g P.tol ixy qR bR)).f m mw = 0 := by
    intro hw
    obtain ⟨sL, sLb, sLh⟩ := side_rest P.g P.tol bL ixy qL ht l1 l2
    obtain ⟨sR, sRb, sRh⟩ := side_rest P.g P.tol bR ixy qR ht r1 r2
    apply edgeWaves_rest P.tol P.g _ _ ht hg sL sR
    · rw [sLh, sRh]
      rcases l3 with h | h
      · rcases r3 with h' | h'
        · exact absurd ⟨by linarith, by linarith⟩ hw
        · right; rw [if_pos h']; exact h'
      · left; rw [if_pos h]; exact h
    · intro hn
      rw [sLh] at hn
      rw [sLh, sLb, sRh, sRb]
      rcases l3 with h | h
      · rcases r3 with h' | h'
        · exact absurd ⟨by linarith, by linarith⟩ hw
        · rw [if_neg (by linarith), if_pos h']
          exact ⟨rfl, b3 h' h⟩
      · rw [if_pos h] at hn; exact absurd h hn
    · intro hn
      rw [sRh] at hn
      rw [sRh, sRb, sLh, sLb]
      rcases r3 with h | h
      · rcases l3 with h' | h'
        · exact absurd ⟨by linarith, by linarith⟩ hw
        · rw [if_neg (by linarith), if_pos h']
          exact ⟨rfl, b2 h' h⟩
      · rw [if_pos h] at hn; exact absurd h hn
    · rw [sRh, sRb, sLh, sLb]
      intro ha hb
      split at ha
      · rename_i h
        split at hb
        · rename_i h'
          rw [if_pos h, if_pos h']; exact b1 h h'
        · linarith
      · linarith
  unfold rpn2
  simp only [clean_still P.tol qL ht l3, clean_still P.tol qR ht r3]
  by_cases hw : qL 0 ≤ P.tol ∧ qR 0 ≤ P.tol
  · rw [if_pos hw]
    split <;> simp
  · rw [if_neg hw]
    have k := key hw
    split <;> simp [k]

/-! ### A slice without waves -/

theorem amdq_zero (w : Waves) (h : ∀ m mw, w.f m mw = 0) (m : Fin 3) : amdqOf w m = 0 := by
  simp [amdqOf, h]
theorem apdq_zero (w : Waves) (h : ∀ m mw, w.f m mw = 0) (m : Fin 3) : apdqOf w m = 0 := by
  simp [apdqOf, h]

theorem cqxx_zero (P : Params) (ixy : ℤ) (S : Slice) (i : ℤ) (h : ∀ m mw, (edge P ixy S i).f m mw = 0) (m : Fin 3) :
    cqxx P ixy S i m = 0 := by
  have hl : ∀ m mw, (limiter P (edge P ixy S) i).f m mw = 0 := by
    intro m mw; simp [limiter, h]
  unfold cqxx
  split <;> simp [h, hl]

theorem rpt2_zero (P : Params) (ixy imp : ℤ) (qL qR : V) (lo mid hi : AuxCell) (a : V) (h : ∀ m, a m = 0) :
    rpt2 P ixy imp qL qR lo mid hi a = (0, 0) := by
  unfold rpt2
  extract_lets mu mv hl ul vl hr ur vr eta dxdcp dxdcm vhat hhat s1 s3 s2 s beta r row
  have hb : ∀ mw, beta mw = 0 := by
    intro mw
    simp only [beta, h, mul_zero, zero_div, sub_zero, add_zero, ite_self]
  split
  · rfl
  · split
    · rfl
    · refine Prod.ext ?_ ?_ <;> funext m <;> simp only [hb, mul_zero, zero_mul, ite_self, Finset.sum_const_zero] <;> rfl

/-- No waves at the edges `1, …, n + 1`, no fluxes. -/
theorem flux2_zero (P : Params) (ixy n : ℤ) (S : Slice)
    (h : ∀ i, 1 ≤ i → i ≤ n + 1 → ∀ m mw, (edge P ixy S i).f m mw = 0) (i : ℤ) (h1 : 1 ≤ i) (h2 : i ≤ n + 1)
    (m : Fin 3) :
    (flux2 P ixy n S).fm i m = 0 ∧ (flux2 P ixy n S).fp i m = 0 ∧
      (∀ s, (flux2 P ixy n S).gm i s m = 0) ∧ ∀ s, (flux2 P ixy n S).gp i s m = 0 := by
  have A : ∀ k, 1 ≤ k → k ≤ n + 1 → ∀ m, amdqOf (edge P ixy S k) m = 0 := fun k a b m => amdq_zero _ (h k a b) m
  have B : ∀ k, 1 ≤ k → k ≤ n + 1 → ∀ m, apdqOf (edge P ixy S k) m = 0 := fun k a b m => apdq_zero _ (h k a b) m
  have C : ∀ k, 1 ≤ k → k ≤ n + 1 → ∀ m, cqxx P ixy S k m = 0 := fun k a b m => cqxx_zero _ _ _ _ (h k a b) m
  have hc : ∀ c : Bool, (if c then cqxx P ixy S i else 0) m = 0 := by
    intro c; cases c
    · rfl
    · exact C i h1 h2 m
  have L : ∀ k, 1 ≤ k → k ≤ n + 1 → ∀ (qL qR : V) (lo mid hi : AuxCell) (c : Bool),
      rpt2 P ixy 1 qL qR lo mid hi (fun m => amdqOf (edge P ixy S k) m + if c then cqxx P ixy S k m else 0) = (0, 0) := by
    intro k a b qL qR lo mid hi c
    apply rpt2_zero; intro m; rw [A k a b, C k a b]; simp
  have R : ∀ k, 1 ≤ k → k ≤ n + 1 → ∀ (qL qR : V) (lo mid hi : AuxCell) (c : Bool),
      rpt2 P ixy 2 qL qR lo mid hi (fun m => apdqOf (edge P ixy S k) m - if c then cqxx P ixy S k m else 0) = (0, 0) := by
    intro k a b qL qR lo mid hi c
    apply rpt2_zero; intro m; rw [B k a b, C k a b]; simp
  have G : ∀ s, (flux2 P ixy n S).gm i s m = 0 := by
    intro s
    unfold flux2
    simp only []
    split
    · rfl
    · rw [R i h1 h2]
      split
      · rename_i hi
        rw [L (i + 1) (by omega) hi]; simp
      · simp
  refine ⟨?_, ?_, G, G⟩
  · unfold flux2; simp only []; rw [A i h1 h2, hc]; ring
  · unfold flux2; simp only []; rw [B i h1 h2, hc]; ring

/-! ### A patch -/

theorem rowX_plain (d : Dims) (count : ℕ → ℤ) (q : Field) (j i : ℤ) (hc : ∀ k, count k ≠ 3) : rowX d count q j i = q i j := by
  simp [rowX, hc]
theorem rowY_plain (d : Dims) (count : ℕ → ℤ) (q : Field) (i j : ℤ) (hc : ∀ k, count k ≠ 3) : rowY d count q i j = q i j := by
  simp [rowY, hc]

theorem sweepX_rest (P : Params) (d : Dims) (count : ℕ → ℤ) (q : Field) (aux : Aux) (r : ℝ) (ht : 0 ≤ P.tol)
    (hg : 0 < P.g) (hc : ∀ k, count k ≠ 3) (hq : AtRest P.tol d q aux) (j : ℤ) (hj : 0 ≤ j) (hj' : j ≤ d.my + 1)
    (i : ℤ) (h1 : 1 ≤ i) (h2 : i ≤ d.mx + 1) (m : Fin 3) :
    (sweepX P d count q aux r j).fm i m = 0 ∧ (sweepX P d count q aux r j).fp i m = 0 ∧
      (∀ s, (sweepX P d count q aux r j).gm i s m = 0) ∧ ∀ s, (sweepX P d count q aux r j).gp i s m = 0 := by
  apply flux2_zero _ _ _ _ _ i h1 h2
  intro k k1 k2
  unfold edge
  simp only [rowX_plain _ _ _ _ _ hc]
  exact rpn2_rest P 1 _ _ _ _ _ ht hg (hq.still _ _) (hq.still _ _) (hq.inX k j k1 k2 hj hj')

theorem sweepY_rest (P : Params) (d : Dims) (count : ℕ → ℤ) (q : Field) (aux : Aux) (r : ℝ) (ht : 0 ≤ P.tol)
    (hg : 0 < P.g) (hc : ∀ k, count k ≠ 3) (hq : AtRest P.tol d q aux) (i : ℤ) (hi : 0 ≤ i) (hi' : i ≤ d.mx + 1)
    (j : ℤ) (h1 : 1 ≤ j) (h2 : j ≤ d.my + 1) (m : Fin 3) :
    (sweepY P d count q aux r i).fm j m = 0 ∧ (sweepY P d count q aux r i).fp j m = 0 ∧
      (∀ s, (sweepY P d count q aux r i).gm j s m = 0) ∧ ∀ s, (sweepY P d count q aux r i).gp j s m = 0 := by
  apply flux2_zero _ _ _ _ _ j h1 h2
  intro k k1 k2
  unfold edge
  simp only [rowY_plain _ _ _ _ _ hc]
  exact rpn2_rest P 2 _ _ _ _ _ ht hg (hq.still _ _) (hq.still _ _) (hq.inY i k hi hi' k1 k2)

theorem step2Wrap_rest (P : Params) (d : Dims) (count : ℕ → ℤ) (q : Field) (aux : Aux) (dx dy dt : ℝ) (ht : 0 ≤ P.tol)
    (hg : 0 < P.g) (hc : ∀ k, count k ≠ 3) (hm : 0 ≤ P.mcapa) (hm' : P.mcapa ≤ P.maux) (hq : AtRest P.tol d q aux) :
    step2Wrap P d count q aux dx dy dt = some q := by
  have X := fun j hj hj' => sweepX_rest P d count q aux (dt / dx) ht hg hc hq j hj hj'
  have Y := fun i hi hi' => sweepY_rest P d count q aux (dt / dy) ht hg hc hq i hi hi'
  have F : ∀ i j : ℤ, 1 ≤ i → i ≤ d.mx → 1 ≤ j → j ≤ d.my → ∀ m,
      (step2 P d count q aux (dt / dx) (dt / dy)).fm (i + 1) j m = 0 ∧
      (step2 P d count q aux (dt / dx) (dt / dy)).fp i j m = 0 ∧
      (step2 P d count q aux (dt / dx) (dt / dy)).gm i (j + 1) m = 0 ∧
      (step2 P d count q aux (dt / dx) (dt / dy)).gp i j m = 0 := by
    intro i j i1 i2 j1 j2 m
    unfold step2
    simp only [add_sub_cancel_right]
    refine ⟨?_, ?_, ?_, ?_⟩
    · rw [(X j (by omega) (by omega) (i + 1) (by omega) (by omega) m).1,
        (Y (i + 1) (by omega) (by omega) j j1 (by omega) m).2.2.1, (Y i (by omega) (by omega) j j1 (by omega) m).2.2.1]
      ring
    · rw [(X j (by omega) (by omega) i (by omega) (by omega) m).2.1,
        (Y i (by omega) (by omega) j j1 (by omega) m).2.2.2, (Y (i - 1) (by omega) (by omega) j j1 (by omega) m).2.2.2]
      ring
    · rw [(Y i (by omega) (by omega) (j + 1) (by omega) (by omega) m).1,
        (X (j + 1) (by omega) (by omega) i i1 (by omega) m).2.2.1, (X j (by omega) (by omega) i i1 (by omega) m).2.2.1]
      ring
    · rw [(Y i (by omega) (by omega) j (by omega) (by omega) m).2.1,
        (X j (by omega) (by omega) i i1 (by omega) m).2.2.2, (X (j - 1) (by omega) (by omega) i i1 (by omega) m).2.2.2]
      ring
  unfold step2Wrap
  simp only []
  split
  · congr 1
    funext i j m
    split
    · rename_i h
      obtain ⟨a, b, c, e⟩ := F i j h.1 h.2.1 h.2.2.1 h.2.2.2 m
      rw [a, b, c, e]; ring
    · rfl
  · rw [if_pos (by omega)]
    congr 1
    funext i j m
    split
    · rename_i h
      obtain ⟨a, b, c, e⟩ := F i j h.1 h.2.1 h.2.2.1 h.2.2.2 m
      rw [a, b, c, e]; simp
    · rfl

theorem b4step2_rest (P : Params) (q : V) (b : ℝ) (ht : 0 ≤ P.tol) (h : Column.Still P.tol ⟨q 0, q 1, q 2, b⟩) :
    b4step2 P q = q := by
  obtain ⟨h1, h2, h3⟩ := h
  simp only at h1 h2 h3
  unfold b4step2
  split
  · rename_i hlt
    have h0 : q 0 = 0 := by
      rcases h3 with h | h
      · exact h
      · linarith
    funext m
    fin_cases m
    · simp [h0]
    · simp [h1]
    · simp [h2]
  · rfl

theorem src2_rest (P : Params) (S : Source) (d : Dims) (aux : Aux) (y dy dt : ℝ) (init : ℤ → ℤ → ℝ) (q : Field)
    (h : ∀ i j, q i j 1 = 0 ∧ q i j 2 = 0) : src2 P S d aux y dy dt init q = q := by
  funext i j
  obtain ⟨h1, h2⟩ := h i j
  have hf : ∀ c, friction P S dt c (q i j) = q i j := by
    intro c
    unfold friction
    simp only []
    split
    · funext m; fin_cases m <;> simp [h1, h2]
    · split
      · funext m; fin_cases m <;> simp [h1, h2]
      · rfl
  have hco : ∀ t, coriolisStep t (q i j) = q i j := by
    intro t
    funext m; fin_cases m <;> simp [coriolisStep, h1, h2]
  unfold src2
  split
  · simp only [hf, hco, ite_self]
  · rfl

end Fclaw.GeoStep

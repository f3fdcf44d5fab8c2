import Verif.GeoStep.Basin
/-
Balance of the water in a patch.
-/
set_option autoImplicit false
set_option linter.unusedSimpArgs false
set_option linter.unusedVariables false
namespace Fclaw.GeoStep

/-- Flow through the edge to the left of, and below, cell `(i, j)` in a step. -/
noncomputable def throughX (P : Params) (q : Field) (aux : Aux) (F : Fluxes) (i j : ℤ) : ℝ :=
  len P 1 (aux 3 i j) * flow P.tol 1 (q (i - 1) j) + F.fm i j 0
noncomputable def throughY (P : Params) (q : Field) (aux : Aux) (F : Fluxes) (i j : ℤ) : ℝ :=
  len P 2 (aux 3 i j) * flow P.tol 2 (q i (j - 1)) + F.gm i j 0

theorem fp_eq (P : Params) (d : Dims) (count : ℕ → ℤ) (q : Field) (aux : Aux) (r s : ℝ) (ht : 0 ≤ P.tol) (hg : 0 < P.g)
    (hc : ∀ k, count k ≠ 3) (i j : ℤ) :
    (step2 P d count q aux r s).fp i j 0 =
      throughX P q aux (step2 P d count q aux r s) i j - len P 1 (aux 3 i j) * flow P.tol 1 (q i j) := by
  have h := (flux2_flow P 1 d.mx (Slice.mk (rowX d count q j) (fun i => if 0 < P.mcapa then r / aux P.mcapa i j else r)
    (fun i => auxCell aux i (j - 1)) (fun i => auxCell aux i j) (fun i => auxCell aux i (j + 1))) i ht hg).1
  simp only [rowX_plain _ _ _ _ _ hc, auxCell, muOf, if_true] at h
  unfold throughX step2 sweepX sweepY
  simp only [rowX_plain _ _ _ _ _ hc, auxCell]
  have e : ∀ (S : Slice) (a b : ℤ), (flux2 P 2 d.my S).gp a b = (flux2 P 2 d.my S).gm a b := fun _ _ _ => rfl
  rw [e, e]
  linarith

theorem gp_eq (P : Params) (d : Dims) (count : ℕ → ℤ) (q : Field) (aux : Aux) (r s : ℝ) (ht : 0 ≤ P.tol) (hg : 0 < P.g)
    (hc : ∀ k, count k ≠ 3) (i j : ℤ) :
    (step2 P d count q aux r s).gp i j 0 =
      throughY P q aux (step2 P d count q aux r s) i j - len P 2 (aux 3 i j) * flow P.tol 2 (q i j) := by
  have h := (flux2_flow P 2 d.my (Slice.mk (rowY d count q i) (fun j => if 0 < P.mcapa then s / aux P.mcapa i j else s)
    (fun j => auxCell aux (i - 1) j) (fun j => auxCell aux i j) (fun j => auxCell aux (i + 1) j)) j ht hg).1
  simp only [rowY_plain _ _ _ _ _ hc, auxCell, muOf, if_neg (show ¬ ((2 : ℤ) = 1) by decide)] at h
  unfold throughY step2 sweepX sweepY
  simp only [rowY_plain _ _ _ _ _ hc, auxCell]
  have e : ∀ (S : Slice) (a b : ℤ), (flux2 P 1 d.mx S).gp a b = (flux2 P 1 d.mx S).gm a b := fun _ _ _ => rfl
  rw [e, e]
  linarith

theorem len_x (P : Params) (a b : ℝ) : len P 1 a = len P 1 b := by
  unfold len dxdc; simp

theorem telescope (f : ℤ → ℝ) (n : ℕ) :
    ∑ i ∈ Finset.range n, (f ((i : ℤ) + 1 + 1) - f ((i : ℤ) + 1)) = f ((n : ℤ) + 1) - f 1 := by
  induction n with
  | zero => simp
  | succ k ih => rw [Finset.sum_range_succ, ih]; push_cast; ring

/-- What is lost on the sphere. -/
noncomputable def metric (P : Params) (aux : Aux) (q : Field) (i j : ℤ) : ℝ :=
  (len P 2 (aux 3 i (j + 1)) - len P 2 (aux 3 i j)) * flow P.tol 2 (q i j)

theorem sum_balance (w a b : ℝ) (mx my : ℕ) (A B M : ℤ → ℤ → ℝ) (X Y : ℤ → ℤ → ℝ)
    (h : ∀ i j : ℤ, 1 ≤ i → i ≤ mx → 1 ≤ j → j ≤ my →
      B i j = A i j - a * (X (i + 1) j - X i j) - b * (Y i (j + 1) - Y i j) + b * M i j) :
    ∑ i ∈ Finset.range mx, ∑ j ∈ Finset.range my, B (i + 1) (j + 1) =
      ∑ i ∈ Finset.range mx, ∑ j ∈ Finset.range my, A (i + 1) (j + 1)
        - a * ∑ j ∈ Finset.range my, (X (mx + 1) (j + 1) - X 1 (j + 1))
        - b * ∑ i ∈ Finset.range mx, (Y (i + 1) (my + 1) - Y (i + 1) 1)
        + b * ∑ i ∈ Finset.range mx, ∑ j ∈ Finset.range my, M (i + 1) (j + 1) := by
  have e : ∀ i ∈ Finset.range mx, ∀ j ∈ Finset.range my, B ((i : ℤ) + 1) ((j : ℤ) + 1) =
      A ((i : ℤ) + 1) ((j : ℤ) + 1) - a * (X ((i : ℤ) + 1 + 1) ((j : ℤ) + 1) - X ((i : ℤ) + 1) ((j : ℤ) + 1))
        - b * (Y ((i : ℤ) + 1) ((j : ℤ) + 1 + 1) - Y ((i : ℤ) + 1) ((j : ℤ) + 1)) + b * M ((i : ℤ) + 1) ((j : ℤ) + 1) := by
    intro i hi j hj
    rw [Finset.mem_range] at hi hj
    exact h _ _ (by omega) (by omega) (by omega) (by omega)
  rw [Finset.sum_congr rfl fun i hi => Finset.sum_congr rfl (e i hi)]
  simp only [Finset.sum_add_distrib, Finset.sum_sub_distrib, ← Finset.mul_sum]
  have tx : ∑ i ∈ Finset.range mx, ∑ j ∈ Finset.range my, X ((i : ℤ) + 1 + 1) ((j : ℤ) + 1) -
      ∑ i ∈ Finset.range mx, ∑ j ∈ Finset.range my, X ((i : ℤ) + 1) ((j : ℤ) + 1) =
      ∑ j ∈ Finset.range my, X ((mx : ℤ) + 1) ((j : ℤ) + 1) - ∑ j ∈ Finset.range my, X 1 ((j : ℤ) + 1) := by
    rw [← Finset.sum_sub_distrib, ← Finset.sum_sub_distrib]
    rw [Finset.sum_congr rfl fun (i : ℕ) _ => (Finset.sum_sub_distrib (s := Finset.range my)
      (fun j => X ((i : ℤ) + 1 + 1) ((j : ℤ) + 1)) (fun j => X ((i : ℤ) + 1) ((j : ℤ) + 1))).symm]
    rw [Finset.sum_comm]
    exact Finset.sum_congr rfl fun j _ => telescope (fun i => X i ((j : ℤ) + 1)) mx
  have ty : ∑ i ∈ Finset.range mx, ∑ j ∈ Finset.range my, Y ((i : ℤ) + 1) ((j : ℤ) + 1 + 1) -
      ∑ i ∈ Finset.range mx, ∑ j ∈ Finset.range my, Y ((i : ℤ) + 1) ((j : ℤ) + 1) =
      ∑ i ∈ Finset.range mx, Y ((i : ℤ) + 1) ((my : ℤ) + 1) - ∑ i ∈ Finset.range mx, Y ((i : ℤ) + 1) 1 := by
    rw [← Finset.sum_sub_distrib, ← Finset.sum_sub_distrib]
    refine Finset.sum_congr rfl fun i _ => ?_
    rw [← Finset.sum_sub_distrib]
    exact telescope (fun j => Y ((i : ℤ) + 1) j) my
  rw [tx, ty]

theorem step_balance_plane (P : Params) (mx my : ℕ) (mbc : ℤ) (count : ℕ → ℤ) (q q' : Field) (aux : Aux) (dx dy dt : ℝ)
    (ht : 0 ≤ P.tol) (hg : 0 < P.g) (hc : ∀ k, count k ≠ 3) (hm : P.mcapa = 0)
    (h : step2Wrap P ⟨mx, my, mbc⟩ count q aux dx dy dt = some q') :
    let F := step2 P ⟨mx, my, mbc⟩ count q aux (dt / dx) (dt / dy)
    water mx my q' = water mx my q
      - dt / dx * ∑ j ∈ Finset.range my, (throughX P q aux F (mx + 1) (j + 1) - throughX P q aux F 1 (j + 1))
      - dt / dy * ∑ i ∈ Finset.range mx, (throughY P q aux F (i + 1) (my + 1) - throughY P q aux F (i + 1) 1) := by
  intro F
  unfold step2Wrap at h
  simp only [] at h
  rw [if_pos hm] at h
  have l1 : ∀ x, len P 1 x = 1 := by intro x; unfold len; rw [if_neg (by omega)]
  have l2 : ∀ x, len P 2 x = 1 := by intro x; unfold len; rw [if_neg (by omega)]
  have b := sum_balance 0 (dt / dx) (dt / dy) mx my (fun i j => q i j 0) (fun i j => q' i j 0) (fun _ _ => 0)
    (throughX P q aux F) (throughY P q aux F) ?_
  · unfold water
    simp only [Finset.sum_const_zero, mul_zero, add_zero] at b
    exact b
  · intro i j i1 i2 j1 j2
    have hq := congrFun (congrFun (congrFun (Option.some.inj h) i) j) 0
    rw [if_pos ⟨i1, i2, j1, j2⟩] at hq
    rw [← hq, fp_eq P _ count q aux _ _ ht hg hc, gp_eq P _ count q aux _ _ ht hg hc]
    have a1 : (step2 P ⟨mx, my, mbc⟩ count q aux (dt / dx) (dt / dy)).fm (i + 1) j 0 =
        throughX P q aux F (i + 1) j - flow P.tol 1 (q i j) := by
      unfold throughX; rw [l1, add_sub_cancel_right]; ring
    have a2 : (step2 P ⟨mx, my, mbc⟩ count q aux (dt / dx) (dt / dy)).gm i (j + 1) 0 =
        throughY P q aux F i (j + 1) - flow P.tol 2 (q i j) := by
      unfold throughY; rw [l2, add_sub_cancel_right]; ring
    rw [a1, a2, l1, l2]
    ring

theorem step_balance_sphere (P : Params) (mx my : ℕ) (mbc : ℤ) (count : ℕ → ℤ) (q q' : Field) (aux : Aux) (dx dy dt : ℝ)
    (ht : 0 ≤ P.tol) (hg : 0 < P.g) (hc : ∀ k, count k ≠ 3) (hm : 1 ≤ P.mcapa) (hm' : P.mcapa ≤ P.maux)
    (hcapa : ∀ i j : ℤ, 1 ≤ i → i ≤ mx → 1 ≤ j → j ≤ my → aux P.mcapa i j ≠ 0)
    (h : step2Wrap P ⟨mx, my, mbc⟩ count q aux dx dy dt = some q') :
    let F := step2 P ⟨mx, my, mbc⟩ count q aux (dt / dx) (dt / dy)
    volume P.mcapa mx my aux q' = volume P.mcapa mx my aux q
      - dt / dx * ∑ j ∈ Finset.range my, (throughX P q aux F (mx + 1) (j + 1) - throughX P q aux F 1 (j + 1))
      - dt / dy * ∑ i ∈ Finset.range mx, (throughY P q aux F (i + 1) (my + 1) - throughY P q aux F (i + 1) 1)
      + dt / dy * ∑ i ∈ Finset.range mx, ∑ j ∈ Finset.range my, metric P aux q (i + 1) (j + 1) := by
  intro F
  unfold step2Wrap at h
  simp only [] at h
  rw [if_neg (by omega), if_pos ⟨hm, hm'⟩] at h
  refine sum_balance 0 (dt / dx) (dt / dy) mx my (fun i j => aux P.mcapa i j * q i j 0)
    (fun i j => aux P.mcapa i j * q' i j 0) (metric P aux q) (throughX P q aux F) (throughY P q aux F) ?_
  intro i j i1 i2 j1 j2
  have hq := congrFun (congrFun (congrFun (Option.some.inj h) i) j) 0
  rw [if_pos ⟨i1, i2, j1, j2⟩] at hq
  rw [← hq, fp_eq P _ count q aux _ _ ht hg hc, gp_eq P _ count q aux _ _ ht hg hc]
  have a1 : (step2 P ⟨mx, my, mbc⟩ count q aux (dt / dx) (dt / dy)).fm (i + 1) j 0 =
      throughX P q aux F (i + 1) j - len P 1 (aux 3 i j) * flow P.tol 1 (q i j) := by
    unfold throughX; rw [len_x P (aux 3 (i + 1) j) (aux 3 i j), add_sub_cancel_right]; ring
  have a2 : (step2 P ⟨mx, my, mbc⟩ count q aux (dt / dx) (dt / dy)).gm i (j + 1) 0 =
      throughY P q aux F i (j + 1) - len P 2 (aux 3 i (j + 1)) * flow P.tol 2 (q i j) := by
    unfold throughY; rw [add_sub_cancel_right]; ring
  rw [a1, a2, mul_sub, mul_div_cancel₀ _ (hcapa i j i1 i2 j1 j2), metric]
  ring

/-! ### Before and after the step -/

theorem b4step2_depth (P : Params) (q : V) (h : 0 ≤ q 0) : b4step2 P q 0 = q 0 := by
  unfold b4step2
  split
  · simp [h]
  · rfl

theorem src2_depth (P : Params) (S : Source) (d : Dims) (aux : Aux) (y dy dt : ℝ) (init : ℤ → ℤ → ℝ) (q : Field) (i j : ℤ) :
    src2 P S d aux y dy dt init q i j 0 = q i j 0 := by
  have hf : ∀ c (v : V), friction P S dt c v 0 = v 0 := by
    intro c v
    unfold friction
    simp only []
    split
    · simp
    · split <;> simp
  have hco : ∀ t (v : V), coriolisStep t v 0 = v 0 := by
    intro t v; simp [coriolisStep]
  unfold src2
  split
  · simp only []
    split <;> split <;> simp [hf, hco]
  · rfl

/-- The depths after an update are those after the step. -/
theorem update_water (P : Params) (S : Source) (mx my : ℕ) (mbc : ℤ) (count : ℕ → ℤ) (aux : Aux) (y dx dy dt : ℝ)
    (init : ℤ → ℤ → ℝ) (q q' : Field) (h : update P S ⟨mx, my, mbc⟩ count aux y dx dy dt init q = some q') :
    ∃ q1, step2Wrap P ⟨mx, my, mbc⟩ count (fun i j => b4step2 P (q i j)) aux dx dy dt = some q1 ∧
      ∀ i j, q' i j 0 = q1 i j 0 := by
  unfold update at h
  rw [Option.map_eq_some_iff] at h
  obtain ⟨q1, h1, h2⟩ := h
  refine ⟨q1, h1, fun i j => ?_⟩
  rw [← h2]
  split
  · exact src2_depth _ _ _ _ _ _ _ _ _ _ _
  · rfl

/-! ### Periodic patches -/

theorem edge_shift (P : Params) (ixy : ℤ) (S : Slice) (n : ℤ) (hq : ∀ i, S.q (i + n) = S.q i) (hm : ∀ i, S.mid (i + n) = S.mid i)
    (i : ℤ) : edge P ixy S (i + n) = edge P ixy S i := by
  unfold edge
  rw [show i + n - 1 = i - 1 + n by ring, hq, hq, hm, hm]

theorem cqxx_shift (P : Params) (ixy : ℤ) (S : Slice) (n : ℤ) (hq : ∀ i, S.q (i + n) = S.q i)
    (hm : ∀ i, S.mid (i + n) = S.mid i) (hd : ∀ i, S.dtdx (i + n) = S.dtdx i) (i : ℤ) :
    cqxx P ixy S (i + n) = cqxx P ixy S i := by
  have e := edge_shift P ixy S n hq hm
  have ed : dtdxEdge P S (i + n) = dtdxEdge P S i := by
    unfold dtdxEdge; rw [show i + n - 1 = i - 1 + n by ring, hd, hd]
  have el : limiter P (edge P ixy S) (i + n) = limiter P (edge P ixy S) i := by
    have dr : ∀ mw i, dotRight (edge P ixy S) mw (i + n) = dotRight (edge P ixy S) mw i := by
      intro mw i
      unfold dotRight
      rw [show i + n + 1 = i + 1 + n by ring, e, e]
    unfold limiter
    rw [e, show i + n - 1 = i - 1 + n by ring]
    simp only [dr]
  unfold cqxx
  rw [el, e, ed]

theorem flux2_shift (P : Params) (ixy : ℤ) (S : Slice) (k n : ℤ) (hq : ∀ i, S.q (i + n) = S.q i)
    (hm : ∀ i, S.mid (i + n) = S.mid i) (hd : ∀ i, S.dtdx (i + n) = S.dtdx i) (i : ℤ) :
    (flux2 P ixy k S).fm (i + n) = (flux2 P ixy k S).fm i := by
  funext m
  unfold flux2
  simp only []
  rw [edge_shift P ixy S n hq hm, cqxx_shift P ixy S n hq hm hd]

theorem fm_periodic (P : Params) (d : Dims) (count : ℕ → ℤ) (q : Field) (aux : Aux) (r s : ℝ) (hc : ∀ k, count k ≠ 3)
    (n : ℤ) (hq : ∀ i j, q (i + n) j = q i j) (ha : ∀ m i j, aux m (i + n) j = aux m i j) (i j : ℤ) :
    (step2 P d count q aux r s).fm (i + n) j = (step2 P d count q aux r s).fm i j := by
  have x : (sweepX P d count q aux r j).fm (i + n) = (sweepX P d count q aux r j).fm i := by
    refine flux2_shift P 1 _ _ n ?_ ?_ ?_ i
    · intro i; simp only [rowX_plain _ _ _ _ _ hc]; exact hq i j
    · intro i; simp only [auxCell, ha]
    · intro i; simp only [ha]
  have y : ∀ i, sweepY P d count q aux s (i + n) = sweepY P d count q aux s i := by
    intro i
    unfold sweepY
    congr 1
    have e1 : rowY d count q (i + n) = rowY d count q i := by
      funext j; rw [rowY_plain _ _ _ _ _ hc, rowY_plain _ _ _ _ _ hc]; exact hq i j
    rw [e1]
    congr 1
    · funext j; simp only [ha]
    · funext j; rw [show i + n - 1 = i - 1 + n by ring]; simp only [auxCell, ha]
    · funext j; simp only [auxCell, ha]
    · funext j; rw [show i + n + 1 = i + 1 + n by ring]; simp only [auxCell, ha]
  funext m
  unfold step2
  simp only []
  rw [show i + n - 1 = i - 1 + n by ring, x, y, y]

theorem gm_periodic (P : Params) (d : Dims) (count : ℕ → ℤ) (q : Field) (aux : Aux) (r s : ℝ) (hc : ∀ k, count k ≠ 3)
    (n : ℤ) (hq : ∀ i j, q i (j + n) = q i j) (ha : ∀ m i j, aux m i (j + n) = aux m i j) (i j : ℤ) :
    (step2 P d count q aux r s).gm i (j + n) = (step2 P d count q aux r s).gm i j := by
  have x : (sweepY P d count q aux s i).fm (j + n) = (sweepY P d count q aux s i).fm j := by
    refine flux2_shift P 2 _ _ n ?_ ?_ ?_ j
    · intro j; simp only [rowY_plain _ _ _ _ _ hc]; exact hq i j
    · intro j; simp only [auxCell, ha]
    · intro j; simp only [ha]
  have y : ∀ j, sweepX P d count q aux r (j + n) = sweepX P d count q aux r j := by
    intro j
    unfold sweepX
    congr 1
    have e1 : rowX d count q (j + n) = rowX d count q j := by
      funext i; rw [rowX_plain _ _ _ _ _ hc, rowX_plain _ _ _ _ _ hc]; exact hq i j
    rw [e1]
    congr 1
    · funext i; simp only [ha]
    · funext i; rw [show j + n - 1 = j - 1 + n by ring]; simp only [auxCell, ha]
    · funext i; simp only [auxCell, ha]
    · funext i; rw [show j + n + 1 = j + 1 + n by ring]; simp only [auxCell, ha]
  funext m
  unfold step2
  simp only []
  rw [show j + n - 1 = j - 1 + n by ring, x, y, y]

/-! ### First order -/

/-- A first order step without transverse waves: the flow through an edge is that of its Riemann problem. -/
theorem fm_first (P : Params) (d : Dims) (count : ℕ → ℤ) (q : Field) (aux : Aux) (r s : ℝ) (hc : ∀ k, count k ≠ 3)
    (ho : P.order = 1) (htr : P.transOrder = 0) (i j : ℤ) (m : Fin 3) :
    (step2 P d count q aux r s).fm i j m =
      amdqOf (rpn2 P 1 (q (i - 1) j) (q i j) (aux 1 (i - 1) j) (aux 1 i j) (aux 3 i j)) m := by
  unfold step2 sweepX sweepY flux2 edge
  simp [ho, htr, rowX_plain _ _ _ _ _ hc, auxCell]

theorem gm_first (P : Params) (d : Dims) (count : ℕ → ℤ) (q : Field) (aux : Aux) (r s : ℝ) (hc : ∀ k, count k ≠ 3)
    (ho : P.order = 1) (htr : P.transOrder = 0) (i j : ℤ) (m : Fin 3) :
    (step2 P d count q aux r s).gm i j m =
      amdqOf (rpn2 P 2 (q i (j - 1)) (q i j) (aux 1 i (j - 1)) (aux 1 i j) (aux 3 i j)) m := by
  unfold step2 sweepX sweepY flux2 edge
  simp [ho, htr, rowY_plain _ _ _ _ _ hc, auxCell]

theorem reflects_symm (tol : ℝ) (m : Fin 3) (a b : V) (x y : ℝ) (h : Reflects tol m a b x y) : Reflects tol m b a y x := by
  obtain ⟨h1, h2, h3, h4⟩ := h
  exact ⟨by rw [h2]; exact h1, h2.symm, by rw [h3, neg_neg], h4.symm⟩

/-- A closed edge to the right of `qL` lets nothing through. -/
theorem closed_right (P : Params) (ixy : ℤ) (qL qR : V) (bL bR lat : ℝ) (ht : 0 ≤ P.tol) (hg : 0 < P.g) (hm : P.mcapa = 0)
    (h : Wall P.g P.tol qL qR bL bR (qL (muOf ixy)) ∨ Reflects P.tol (muOf ixy) qL qR bL bR) :
    len P ixy lat * flow P.tol (muOf ixy) qL + amdqOf (rpn2 P ixy qL qR bL bR lat) 0 = 0 := by
  have hl : len P ixy lat = 1 := by unfold len; rw [if_neg (by omega)]
  rcases h with h | h
  · rw [hl, one_mul]
    exact (wall_right P ixy qL qR bL bR lat ht hg (by omega) h).1
  · exact mirror_edge P ixy qL qR bL bR lat ht hg (by rw [hl]; exact one_pos) h

theorem closed_left (P : Params) (ixy : ℤ) (qL qR : V) (bL bR lat : ℝ) (ht : 0 ≤ P.tol) (hg : 0 < P.g) (hm : P.mcapa = 0)
    (h : Wall P.g P.tol qR qL bR bL (-qR (muOf ixy)) ∨ Reflects P.tol (muOf ixy) qR qL bR bL) :
    len P ixy lat * flow P.tol (muOf ixy) qL + amdqOf (rpn2 P ixy qL qR bL bR lat) 0 = 0 := by
  have hl : len P ixy lat = 1 := by unfold len; rw [if_neg (by omega)]
  rcases h with h | h
  · rw [(wall_left P ixy qL qR bL bR lat ht hg (by omega) h).2, flow, if_neg (not_lt.mpr h.1)]
    ring
  · exact mirror_edge P ixy qL qR bL bR lat ht hg (by rw [hl]; exact one_pos) (reflects_symm _ _ _ _ _ _ h)

/-- `b4step2` leaves closed patches closed. -/
theorem b4step2_wet (P : Params) (q : V) (h : P.tol < q 0) : b4step2 P q = q := by
  unfold b4step2; rw [if_neg (by linarith)]

theorem b4step2_dry (P : Params) (q : V) (ht : 0 ≤ P.tol) (h : q 0 ≤ P.tol) : b4step2 P q 0 ≤ P.tol := by
  unfold b4step2
  split
  · simp; exact ⟨h, ht⟩
  · exact h

theorem wall_b4 (P : Params) (a b : V) (x y : ℝ) (m : Fin 3) (c : ℝ) (ht : 0 ≤ P.tol)
    (h : Wall P.g P.tol a b x y (c * a m)) : Wall P.g P.tol (b4step2 P a) (b4step2 P b) x y (c * b4step2 P a m) := by
  refine ⟨b4step2_dry P b ht h.1, fun hw => ?_⟩
  have ha : P.tol < a 0 := by
    by_contra hn
    exact absurd hw (not_lt.mpr (b4step2_dry P a ht (not_lt.mp hn)))
  rw [b4step2_wet P a ha]
  exact h.2 ha

theorem reflects_b4 (P : Params) (a b : V) (x y : ℝ) (m : Fin 3)
    (h : Reflects P.tol m a b x y) : Reflects P.tol m (b4step2 P a) (b4step2 P b) x y := by
  rw [b4step2_wet P a h.1, b4step2_wet P b (by rw [h.2.1]; exact h.1)]
  exact h

theorem closed_b4 (P : Params) (mx my : ℤ) (q : Field) (aux : Aux) (ht : 0 ≤ P.tol) (h : Closed P.g P.tol mx my q aux) :
    Closed P.g P.tol mx my (fun i j => b4step2 P (q i j)) aux := by
  refine ⟨fun j a b => ?_, fun j a b => ?_, fun j a b => ?_, fun j a b => ?_⟩
  · refine (h.west j a b).imp (fun h => ?_) (reflects_b4 P _ _ _ _ _)
    have := wall_b4 P _ _ _ _ 1 (-1) ht (by rw [neg_one_mul]; exact h)
    rwa [neg_one_mul] at this
  · refine (h.east j a b).imp (fun h => ?_) (reflects_b4 P _ _ _ _ _)
    have := wall_b4 P _ _ _ _ 1 1 ht (by rw [one_mul]; exact h)
    rwa [one_mul] at this
  · refine (h.south j a b).imp (fun h => ?_) (reflects_b4 P _ _ _ _ _)
    have := wall_b4 P _ _ _ _ 2 (-1) ht (by rw [neg_one_mul]; exact h)
    rwa [neg_one_mul] at this
  · refine (h.north j a b).imp (fun h => ?_) (reflects_b4 P _ _ _ _ _)
    have := wall_b4 P _ _ _ _ 2 1 ht (by rw [one_mul]; exact h)
    rwa [one_mul] at this

end Fclaw.GeoStep

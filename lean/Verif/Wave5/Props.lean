import Verif.Wave5.Step
/-
C81: what one step of the solver of Clawpack 5 computes, compared to the formula of the method and to Clawpack 4.6.
-/
set_option autoImplicit false
set_option linter.unusedSimpArgs false
namespace Fclaw.Wave5

open Wave
open Fort (doLoop loop range mem_range)

variable {z : Shape} {o o' : Method}

/-- Limiters in the list of clawpack5_inlinelimiter.f:59. -/
def Listed (z : Shape) (o : Method) : Prop := ∀ w, 1 ≤ w → w ≤ (z.mwaves : ℤ) → o.lim w ≤ 5

/-- At no corner of the patch do three blocks meet. -/
def NoTriple (count : ℤ → ℤ) : Prop := ∀ k, 0 ≤ k → k ≤ 3 → count k ≠ 3

/-- The formula of the method, for the options `o` (for f-waves, split with the capacity of the right cell). -/
abbrev method (z : Shape) (o : Method) (R : Solver) (fw : Bool) (dx dy dt : ℚ) : Scheme :=
  { scheme z o R fw dx dy dt with lag := 0 }

/-- Limiter 6 replaced by minmod. -/
def minmodFor6 (o : Method) : Method := { o with lim := fun w => if o.lim w = 6 then 1 else o.lim w }

theorem like_self (h : Listed z o) : Like z o o := by
  refine ⟨rfl, rfl, rfl, fun _ _ _ => Iff.rfl, fun _ _ _ => Iff.rfl, fun w h1 h2 => ?_⟩
  have := h w h1 h2
  funext r
  unfold wlimitr5 wlimitr
  rw [if_neg (show ¬ o.lim w = 6 by omega)]

theorem like_minmod (o : Method) : Like z o (minmodFor6 o) := by
  refine ⟨rfl, rfl, rfl, fun w _ _ => ?_, fun w _ _ => ?_, fun w _ _ => ?_⟩
  · unfold minmodFor6; dsimp only; split_ifs <;> omega
  · unfold minmodFor6; dsimp only; split_ifs <;> omega
  · have e : (minmodFor6 o).lim w = if o.lim w = 6 then 1 else o.lim w := rfl
    rw [e]
    funext r
    by_cases h : o.lim w = 6
    · rw [if_pos h, h]; simp [wlimitr5, wlimitr]
    · rw [if_neg h]; unfold wlimitr5 wlimitr; rw [if_neg h]

theorem usable_minmod (h : Usable z o) : Usable z (minmodFor6 o) := by
  refine ⟨h.order, h.trans, fun w h1 h2 => ?_⟩
  have := h.lim w h1 h2
  unfold minmodFor6; dsimp only
  split_ifs <;> omega

theorem field5_plain {count : ℤ → ℤ} (h : NoTriple count) (M : Mem) : field5 z o count M = fieldOf z o count M := by
  have hs : ∀ dir i j, sweepCell z i j count dir = (i, j) := by
    intro dir i j
    unfold sweepCell
    refine if_neg fun hc => h (cornerNo z i j) ?_ ?_ hc.2 <;> (unfold cornerNo; split_ifs <;> omega)
  unfold field5 fieldOf
  simp only [hs]

theorem full5 (R : Solver) (fw : Bool) (count : ℤ → ℤ) {dx dy : ℚ} (dt : ℚ) (M : Mem) (h : Ready z o dx dy M)
    (hL : Like z o o') (hu : Usable z o') :
    ∃ M1 N, StepOut z (method z o' R fw dx dy dt) (field5 z o count M) count M M1 ∧
      step5Wrap z o (flux5 z o R fw) count dx dy dt M = some N ∧
      (∀ i j m, 1 ≤ i → i ≤ (z.mx : ℤ) → 1 ≤ j → j ≤ (z.my : ℤ) → z.eqn m →
        N (.q i j m) = newValue (method z o' R fw dx dy dt) (field5 z o count M) i j m) ∧
      IsMax (patchCourant z (method z o' R fw dx dy dt) (field5 z o count M)) (N .cflgrid) ∧
      (∀ l, (∀ i j m, l ≠ .q i j m) → N l = M1 l) ∧
      ∀ i j m, ¬ (1 ≤ i ∧ i ≤ (z.mx : ℤ) ∧ 1 ≤ j ∧ j ≤ (z.my : ℤ)) → N (.q i j m) = M1 (.q i j m) := by
  obtain ⟨M1, N, _, h2, h3, h4, h5, h6, h7⟩ := step5Wrap_spec h.setting h.fitx h.fity count dx dy dt h.dx h.dy M
    (flux5_ok hL h.setting.mbc hu R fw (field5 z o count M) dx dy dt) (by simp) (by simp) (h.cap count)
  exact ⟨M1, N, h2, h3, h4, h5, h6, fun i j m hi => h7 i j m fun h => hi ⟨h.1.1, h.1.2, h.2.1, h.2.2⟩⟩

/-- **C81.** If no three blocks meet at a corner of the patch and the limiters are in the list, a step with the solver
of Clawpack 5 succeeds: no access is outside of the bounds of an array. Afterwards every cell of the patch has the
value that the formula of the wave propagation method gives, also for f-waves and for cells of different capacity, the
largest Courant number is returned, and ghost cells are as before. -/
theorem C81_step_partial (R : Solver) (fw : Bool) (count : ℤ → ℤ) {dx dy : ℚ} (dt : ℚ) (M : Mem) (h : Ready z o dx dy M)
    (hl : Listed z o) (hc : NoTriple count) :
    ∃ N, step5Wrap z o (flux5 z o R fw) count dx dy dt M = some N ∧
      (∀ i j m, 1 ≤ i → i ≤ (z.mx : ℤ) → 1 ≤ j → j ≤ (z.my : ℤ) → z.eqn m →
        N (.q i j m) = newValue (method z o R fw dx dy dt) (fieldOf z o count M) i j m) ∧
      IsMax (patchCourant z (method z o R fw dx dy dt) (fieldOf z o count M)) (N .cflgrid) ∧
      ∀ i j m, ¬ (1 ≤ i ∧ i ≤ (z.mx : ℤ) ∧ 1 ≤ j ∧ j ≤ (z.my : ℤ)) → N (.q i j m) = M (.q i j m) := by
  obtain ⟨M1, N, O, h2, h3, h4, _, h6⟩ := full5 R fw count dt M h (like_self hl) h.usable
  rw [field5_plain hc] at h3 h4
  refine ⟨N, h2, h3, h4, fun i j m hi => ?_⟩
  rw [h6 i j m hi]
  refine O.q i j m fun h' => hc (cornerNo z i j) ?_ ?_ h'.2 <;> (unfold cornerNo; split_ifs <;> omega)

/-- **C81.** Whatever meets at the corners: the step succeeds, and in the cells of the patch there are the values of the
formula for the corners as the sweep in x sees them, with minmod in the place of limiter 6. -/
theorem C81_any_corner (R : Solver) (fw : Bool) (count : ℤ → ℤ) {dx dy : ℚ} (dt : ℚ) (M : Mem) (h : Ready z o dx dy M) :
    ∃ N, step5Wrap z o (flux5 z o R fw) count dx dy dt M = some N ∧
      (∀ i j m, 1 ≤ i → i ≤ (z.mx : ℤ) → 1 ≤ j → j ≤ (z.my : ℤ) → z.eqn m →
        N (.q i j m) = newValue (method z (minmodFor6 o) R fw dx dy dt) (field5 z o count M) i j m) ∧
      IsMax (patchCourant z (method z (minmodFor6 o) R fw dx dy dt) (field5 z o count M)) (N .cflgrid) := by
  obtain ⟨_, N, _, h2, h3, h4, _, _⟩ := full5 R fw count dt M h (like_minmod o) (usable_minmod h.usable)
  exact ⟨N, h2, h3, h4⟩

theorem isMax_unique {P : ℚ → Prop} {c d : ℚ} (hc : IsMax P c) (hd : IsMax P d) : c = d := by
  have k : ∀ {c d : ℚ}, IsMax P c → IsMax P d → c ≤ d := by
    intro c d hc hd
    rcases hc.2.2 with h | h
    · rw [h]; exact hd.1
    · exact hd.2.1 c h
  exact le_antisymm (k hc hd) (k hd hc)

/-- **C81.** For waves, the two solvers do the same: the same new values in the patch, the same fluctuations at its
edges, which the corrections between patches use, and the same Courant number, whatever was in the work arrays. -/
theorem C81_as_46 (R : Solver) (count : ℤ → ℤ) {dx dy : ℚ} (dt : ℚ) (M M' N N' : Mem) (h : Ready z o dx dy M)
    (hl : Listed z o) (hc : NoTriple count) (hq : ∀ i j m, M' (.q i j m) = M (.q i j m)) (ha : ∀ i j m, M' (.aux i j m) = M (.aux i j m))
    (hN : step2Wrap z o (flux2 z o R) count dx dy dt M = some N) (hN' : step5Wrap z o (flux5 z o R false) count dx dy dt M' = some N') :
    N' .cflgrid = N .cflgrid ∧ ∀ m, z.eqn m →
      (∀ i j, 1 ≤ i → i ≤ (z.mx : ℤ) → 1 ≤ j → j ≤ (z.my : ℤ) → N' (.q i j m) = N (.q i j m)) ∧
      (∀ i j, 1 ≤ i → i ≤ (z.mx : ℤ) + 1 → 1 ≤ j → j ≤ (z.my : ℤ) → N' (.fm i j m) = N (.fm i j m) ∧ N' (.fp i j m) = N (.fp i j m)) ∧
      ∀ i j, 1 ≤ i → i ≤ (z.mx : ℤ) → 1 ≤ j → j ≤ (z.my : ℤ) + 1 → N' (.gm i j m) = N (.gm i j m) ∧ N' (.gp i j m) = N (.gp i j m) := by
  have h' : Ready z o dx dy M' := ⟨h.usable, h.setting, h.fitx, h.fity, h.dx, h.dy, fun i j hg h0 => by rw [ha]; exact h.capa i j hg h0⟩
  obtain ⟨M1, K, O, e, g, c, k⟩ := full R false count dt M h
  obtain ⟨M1', K', O', e', g', c', k', _⟩ := full5 R false count dt M' h' (like_self hl) h'.usable
  have hF : field5 z o count M' = fieldOf z o count M := by
    rw [field5_plain hc]
    unfold fieldOf
    simp only [hq, ha]
  rw [hF] at O' g' c'
  rw [show step2Wrap z o (fluxOf z o R false) count dx dy dt M = some N from hN] at e
  rw [hN'] at e'
  injection e with e; injection e' with e'
  subst e; subst e'
  refine ⟨isMax_unique c' c, fun m hm => ⟨fun i j i1 i2 j1 j2 => ?_, fun i j i1 i2 j1 j2 => ⟨?_, ?_⟩, fun i j i1 i2 j1 j2 => ⟨?_, ?_⟩⟩⟩
  · rw [g i j m i1 i2 j1 j2 hm, g' i j m i1 i2 j1 j2 hm]; rfl
  · rw [k _ (by simp), k' _ (by simp), O.fm i j m i1 i2 j1 j2 hm, O'.fm i j m i1 i2 j1 j2 hm]; rfl
  · rw [k _ (by simp), k' _ (by simp), O.fp i j m i1 i2 j1 j2 hm, O'.fp i j m i1 i2 j1 j2 hm]; rfl
  · rw [k _ (by simp), k' _ (by simp), O.gm i j m i1 i2 j1 j2 hm, O'.gm i j m i1 i2 j1 j2 hm]; rfl
  · rw [k _ (by simp), k' _ (by simp), O.gp i j m i1 i2 j1 j2 hm, O'.gp i j m i1 i2 j1 j2 hm]; rfl

/-- **C81.** With a conservative Riemann solver the sum over a patch changes by the fluxes through its faces only; at
every corner, and for f-waves. -/
theorem C81_conservation (R : Solver) (fw : Bool) (count : ℤ → ℤ) {dx dy : ℚ} (dt : ℚ) (M N : Mem) (h : Ready z o dx dy M)
    (hN : step5Wrap z o (flux5 z o R fw) count dx dy dt M = some N) (f : Nat → Vec → Vec) (hR : ConservativeSolver R z.meqn f)
    {m : ℤ} (hm : z.eqn m) :
    ∑ i ∈ Finset.Icc 1 (z.mx : ℤ), ∑ j ∈ Finset.Icc 1 (z.my : ℤ), (field5 z o count M).cap i j * (dx * dy) * N (.q i j m) =
    ∑ i ∈ Finset.Icc 1 (z.mx : ℤ), ∑ j ∈ Finset.Icc 1 (z.my : ℤ), (field5 z o count M).cap i j * (dx * dy) * M (.q i j m) -
      dt * (dy * ∑ j ∈ Finset.Icc 1 (z.my : ℤ), (edgeFlux (method z (minmodFor6 o) R fw dx dy dt) (field5 z o count M) f 1 (z.mx + 1) j m -
          edgeFlux (method z (minmodFor6 o) R fw dx dy dt) (field5 z o count M) f 1 1 j m) +
        dx * ∑ i ∈ Finset.Icc 1 (z.mx : ℤ), (edgeFlux (method z (minmodFor6 o) R fw dx dy dt) (field5 z o count M) f 2 (z.my + 1) i m -
          edgeFlux (method z (minmodFor6 o) R fw dx dy dt) (field5 z o count M) f 2 1 i m)) := by
  obtain ⟨_, K, _, e, g, _, _⟩ := full5 R fw count dt M h (like_minmod o) (usable_minmod h.usable)
  rw [hN] at e
  injection e with e
  subst e
  have mb := h.setting.mbc
  refine sum_of_newValue dt h.dx h.dy M N f hR (by simp) (by simp) hm rfl
    (fun i j i1 i2 j1 j2 => h.cap count i j (by simp only [Shape.inGrid]; omega)) (fun i j i1 i2 j1 j2 => ?_) g
  simp only [field5, fieldOf, comps, sweepCell]
  have hnc : ¬ (atCorner z i j ∧ count (cornerNo z i j) = 3) := by unfold atCorner; omega
  rw [if_neg hnc, if_pos (show 1 ≤ m ∧ m ≤ (z.meqn : ℤ) from hm)]

/-- **C81.** Where all values are the same, nothing happens. -/
theorem C81_constant (R : Solver) (fw : Bool) (count : ℤ → ℤ) {dx dy : ℚ} (dt : ℚ) (M N : Mem) (h : Ready z o dx dy M)
    (hN : step5Wrap z o (flux5 z o R fw) count dx dy dt M = some N) (u : Vec) (hR : Quiet R (comps z.meqn u))
    (hM : ∀ i j m, z.inGrid i j → z.eqn m → M (.q i j m) = u m)
    {i j m : ℤ} (hi : 1 ≤ i ∧ i ≤ (z.mx : ℤ)) (hj : 1 ≤ j ∧ j ≤ (z.my : ℤ)) (hm : z.eqn m) : N (.q i j m) = u m := by
  obtain ⟨_, K, _, e, g, _, _⟩ := full5 R fw count dt M h (like_minmod o) (usable_minmod h.usable)
  rw [hN] at e
  injection e with e
  subst e
  have mb := h.setting.mbc
  rw [g i j m hi.1 hi.2 hj.1 hj.2 hm,
    newValue_constant (S := method z (minmodFor6 o) R fw dx dy dt) hR (F := field5 z o count M) ?_ m]
  · unfold comps; exact if_pos hm
  · intro dir hdir x y x1 x2 y1 y2
    funext m'
    simp only [field5, fieldOf, comps]
    by_cases hm' : 1 ≤ m' ∧ m' ≤ (z.meqn : ℤ)
    · rw [if_pos hm', if_pos hm']
      refine hM _ _ _ ?_ hm'
      have hg : z.inGrid x y := by simp only [Shape.inGrid]; omega
      unfold sweepCell
      by_cases hc : atCorner z x y ∧ count (cornerNo z x y) = 3
      · rw [if_pos hc]; exact (turned_inside h.fitx h.fity (y := false) hg hc.1).1
      · rw [if_neg hc]; exact hg
    · rw [if_neg hm', if_neg hm']

/-- **C81.** The new value in a cell depends on the data in the five by five cells around it only. -/
theorem C81_local (R : Solver) (fw : Bool) {z' : Shape} (hz : z'.meqn = z.meqn ∧ z'.mwaves = z.mwaves) (count count' : ℤ → ℤ) {dx dy : ℚ} (dt : ℚ) (M M' N N' : Mem)
    (h : Ready z o dx dy M) (h' : Ready z' o dx dy M')
    (hN : step5Wrap z o (flux5 z o R fw) count dx dy dt M = some N) (hN' : step5Wrap z' o (flux5 z' o R fw) count' dx dy dt M' = some N')
    {i j di dj m : ℤ} (hi : 1 ≤ i ∧ i ≤ (z.mx : ℤ)) (hj : 1 ≤ j ∧ j ≤ (z.my : ℤ)) (hi' : 1 ≤ i + di ∧ i + di ≤ (z'.mx : ℤ))
    (hj' : 1 ≤ j + dj ∧ j + dj ≤ (z'.my : ℤ)) (hm : z.eqn m)
    (hs : SameAround (fieldOf z o count M) (fieldOf z' o count' M') i j di dj) :
    N' (.q (i + di) (j + dj) m) = N (.q i j m) := by
  obtain ⟨_, K, _, e, g, _, _⟩ := full5 R fw count dt M h (like_minmod o) (usable_minmod h.usable)
  obtain ⟨_, K', _, e', g', _, _⟩ := full5 R fw count' dt M' h' (like_minmod o) (usable_minmod h'.usable)
  rw [hN] at e; rw [hN'] at e'
  injection e with e; injection e' with e'
  subst e; subst e'
  rw [g i j m hi.1 hi.2 hj.1 hj.2 hm, g' (i + di) (j + dj) m hi'.1 hi'.2 hj'.1 hj'.2 (by unfold Shape.eqn at hm ⊢; rw [hz.1]; exact hm)]
  have hS : method z' (minmodFor6 o) R fw dx dy dt = method z (minmodFor6 o) R fw dx dy dt := by unfold method scheme; rw [hz.1, hz.2]
  rw [hS]
  refine (newValue_local ⟨le_refl _, zero_le_one⟩ (F := field5 z o count M) (F' := field5 z' o count' M') ?_ m).symm
  intro x y x1 x2 y1 y2
  have hh := hs x y x1 x2 y1 y2
  exact ⟨fun _ _ => hh.1 1 (Or.inl rfl), hh.2⟩

/-! ### What is not as it should be -/

/-- **C81.** With a capacity that is not one of the auxiliary values, the program accesses memory outside of the
array. -/
theorem C81_bad_capacity (flux : Flux) (count : ℤ → ℤ) (dx dy dt : ℚ) (M : Mem) (h1 : o.mcapa ≠ 0) (h2 : ¬ z.auxn o.mcapa)
    (hm : 1 ≤ z.meqn) (hx : 1 ≤ z.mx) (hy : 1 ≤ z.my) : step5Wrap z o flux count dx dy dt M = none := by
  have hu : ∀ M, update5 z o dx dy dt M = none := by
    intro M
    unfold update5
    refine doLoop_fails (by omega) (doLoop_fails (by omega) (doLoop_fails (by omega) ?_))
    rw [if_neg h1]
    unfold asg
    have : ∀ (a b : Ex), (a - b / rd z (.aux 1 1 o.mcapa)) M = none := by
      intro a b
      show (a M).bind (fun x => ((b M).bind fun y => (rd z (.aux 1 1 o.mcapa) M).bind fun v => if v = 0 then none else some (y / v)).bind
        fun y => some (x - y)) = none
      have : rd z (.aux 1 1 o.mcapa) M = none := by
        unfold rd; rw [if_neg fun h => h2 h.2]
      rw [this]
      cases a M <;> cases b M <;> rfl
    rw [this]; rfl
  unfold step5Wrap
  split_ifs
  · rfl
  · rfl
  · show (step5 z o flux count dx dy dt M).bind (seq [update5 z o dx dy dt]) = none
    cases step5 z o flux count dx dy dt M with
    | none => rfl
    | some M1 => rw [seq_one]; exact hu M1

/-- **C81** does not hold for the default options: order 2 2, `mcapa` -1 (fc2d_clawpack5_options.c:38-43). -/
theorem C81_default_counterexample (flux : Flux) (count : ℤ → ℤ) (dx dy dt : ℚ) (M : Mem) (hm : 1 ≤ z.meqn) (hx : 1 ≤ z.mx) (hy : 1 ≤ z.my) :
    step5Wrap z defaultMethod flux count dx dy dt M = none :=
  C81_bad_capacity flux count dx dy dt M (by decide) (fun h => by have := h.1; simp at this) hm hx hy

/-! ### Examples -/

/-- A value in the ghost cell below cell (1, 1). -/
def exBelow : Mem
  | .q i j _ => if i = 1 ∧ j = 0 then 1 else 0
  | .aux _ _ _ => 1
  | _ => 17

theorem exReadyBelow : Ready exShape exFirst (1 / 4) (1 / 4) exBelow := by
  refine ⟨⟨Or.inl rfl, ⟨by decide, by decide⟩, fun w _ _ => ⟨by simp, by simp⟩⟩, ⟨by decide, Or.inr ⟨by decide, by decide⟩⟩, by decide, by decide,
    by norm_num, by norm_num, fun i j _ _ => by simp [exBelow]⟩

/-- **C81** does not hold where three blocks meet at a corner: in a step of advection the value in cell (1, 1) is not
that of the method, which the solver of Clawpack 4.6 computes. (The corner is not turned for the sweep in y, see
clawpack46_step2.f:178 and clawpack5_step2.f90:84.) -/
theorem C81_corner_counterexample : ∃ N N',
    step5Wrap exShape exFirst (flux5 exShape exFirst (advection 1 1) false) (fun k => if k = 0 then 3 else 4) (1 / 4) (1 / 4) (1 / 8) exBelow = some N ∧
    step2Wrap exShape exFirst (flux2 exShape exFirst (advection 1 1)) (fun k => if k = 0 then 3 else 4) (1 / 4) (1 / 4) (1 / 8) exBelow = some N' ∧
    N' (.q 1 1 1) = newValue (method exShape exFirst (advection 1 1) false (1 / 4) (1 / 4) (1 / 8))
      (fieldOf exShape exFirst (fun k => if k = 0 then 3 else 4) exBelow) 1 1 1 ∧
    N (.q 1 1 1) ≠ N' (.q 1 1 1) := by
  obtain ⟨_, N, _, h2, h3, _, _, _⟩ := full5 (advection 1 1) false (fun k => if k = 0 then 3 else 4) (1 / 8) exBelow exReadyBelow
    (like_self fun w _ _ => by simp) exReadyBelow.usable
  obtain ⟨N', h2', h3', _⟩ := C70_step (advection 1 1) (fun k => if k = 0 then 3 else 4) (1 / 8) exBelow exReadyBelow
  refine ⟨N, N', h2, h2', h3' 1 1 1 (by decide) (by decide) (by decide) (by decide) ⟨by decide, by decide⟩, ?_⟩
  rw [h3 1 1 1 (by decide) (by decide) (by decide) (by decide) ⟨by decide, by decide⟩, h3' 1 1 1 (by decide) (by decide) (by decide) (by decide) ⟨by decide, by decide⟩]
  decide +kernel

/-- Limiter 6. -/
abbrev exSix : Method := { order := 2, trans := 0, lim := fun _ => 6, mcapa := 0 }

/-- A step from 0 to 1 over two cells. -/
def exRamp : Mem
  | .q i _ _ => if i ≤ 1 then 0 else if i = 2 then 1 else 3
  | .aux _ _ _ => 1
  | _ => 17

theorem exReadySix : Ready exShape exSix (1 / 4) (1 / 4) exRamp := by
  refine ⟨⟨Or.inr rfl, ⟨by decide, by decide⟩, fun w _ _ => ⟨by simp, by simp⟩⟩, ⟨by decide, Or.inl rfl⟩, by decide, by decide,
    by norm_num, by norm_num, fun i j _ h => absurd rfl h⟩

/-- Limiter 6, the generalized minmod limiter of Clawpack 4.6, is not in the list of Clawpack 5 (the help text of the
option has 0 to 4): the two solvers do not do the same. -/
theorem C81_limiter_six : ∃ N N',
    step5Wrap exShape exSix (flux5 exShape exSix (advection 1 0) false) (fun _ => 4) (1 / 4) (1 / 4) (1 / 8) exRamp = some N ∧
    step2Wrap exShape exSix (flux2 exShape exSix (advection 1 0)) (fun _ => 4) (1 / 4) (1 / 4) (1 / 8) exRamp = some N' ∧
    N' (.q 2 1 1) = newValue (method exShape exSix (advection 1 0) false (1 / 4) (1 / 4) (1 / 8)) (fieldOf exShape exSix (fun _ => 4) exRamp) 2 1 1 ∧
    N (.q 2 1 1) ≠ N' (.q 2 1 1) := by
  obtain ⟨N, h2, h3, _⟩ := C81_any_corner (advection 1 0) false (fun _ => 4) (1 / 8) exRamp exReadySix
  obtain ⟨N', h2', h3', _⟩ := C70_step (advection 1 0) (fun _ => 4) (1 / 8) exRamp exReadySix
  refine ⟨N, N', h2, h2', h3' 2 1 1 (by decide) (by decide) (by decide) (by decide) ⟨by decide, by decide⟩, ?_⟩
  rw [h3 2 1 1 (by decide) (by decide) (by decide) (by decide) ⟨by decide, by decide⟩, h3' 2 1 1 (by decide) (by decide) (by decide) (by decide) ⟨by decide, by decide⟩]
  decide +kernel

/-- The hypotheses can be met; for f-waves and different capacities the value is the right one, which it is not in
`C70_fwave_counterexample`. -/
example : Ready exShape exMethod (1 / 4) (1 / 4) exMem ∧ Listed exShape exMethod ∧ NoTriple (fun _ => 4) ∧
    ∃ N, step5Wrap exShape exFirst (flux5 exShape exFirst (advectionFw 1 1) true) (fun _ => 4) (1 / 4) (1 / 4) (1 / 8) exMem = some N ∧
      N (.q 1 2 1) = 1 / 4 := by
  refine ⟨exReady, fun w _ _ => by simp, fun k _ _ => by simp, ?_⟩
  obtain ⟨N, e, g, _⟩ := C81_step_partial (advectionFw 1 1) true (fun _ => 4) (1 / 8) exMem exReadyFirst (fun w _ _ => by simp) (fun k _ _ => by simp)
  refine ⟨N, e, ?_⟩
  rw [g 1 2 1 (by decide) (by decide) (by decide) (by decide) ⟨by decide, by decide⟩]
  decide +kernel

end Fclaw.Wave5

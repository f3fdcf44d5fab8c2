import Verif.Wave.Wrap
import Verif.Wave.Theory
import Verif.Correction.Spec
import Mathlib.Tactic.FieldSimp
import Mathlib.Algebra.BigOperators.Group.Finset.Sigma
/-
C70: what one step of the solver computes.
-/
set_option autoImplicit false
set_option linter.unusedSimpArgs false
namespace Fclaw.Wave

open Fort

variable {z : Shape} {o : Method}

/-- A patch and options with which a step can be made: at least two layers of ghost cells, not more than there are
cells, and capacities, if used, that are there and not zero. -/
structure Ready (z : Shape) (o : Method) (dx dy : ℚ) (M : Mem) : Prop where
  usable : Usable z o
  setting : Setting z o
  fitx : z.mbc ≤ z.mx
  fity : z.mbc ≤ z.my
  dx : dx ≠ 0
  dy : dy ≠ 0
  capa : ∀ i j, z.inGrid i j → o.mcapa ≠ 0 → M (.aux i j o.mcapa) ≠ 0

theorem Ready.cap {dx dy : ℚ} {M : Mem} (h : Ready z o dx dy M) (count : ℤ → ℤ) (i j : ℤ) (hg : z.inGrid i j) :
    (fieldOf z o count M).cap i j ≠ 0 := by
  simp only [fieldOf]
  by_cases hc : o.mcapa = 0
  · rw [if_pos hc]; exact one_ne_zero
  · rw [if_neg hc]; exact h.capa i j hg hc

theorem flux2_ok (hset : Setting z o) (hu : Usable z o) (R : Solver) (F : Field) (dx dy dt : ℚ) :
    FluxOk z (scheme z o R false dx dy dt) F (flux2 z o R) := by
  intro y b _ _ M hl
  refine flux2_spec ⟨len_nonneg y, len_le y, hset.mbc⟩ ?_ hu M hl
  cases y
  · exact dtx_array z
  · exact dty_array z

theorem flux2fw_ok (hset : Setting z o) (hu : Usable z o) (R : Solver) (F : Field) (dx dy dt : ℚ) :
    FluxOk z (scheme z o R true dx dy dt) F (flux2fw z o R) := by
  intro y b _ _ M hl
  refine flux2fw_spec ⟨len_nonneg y, len_le y, hset.mbc⟩ ?_ hu M hl
  cases y
  · exact dtx_array z
  · exact dty_array z

/-- The routine that is used, fc2d_clawpack46.cpp:357-361. -/
def fluxOf (z : Shape) (o : Method) (R : Solver) (fw : Bool) : Flux := if fw then flux2fw z o R else flux2 z o R

theorem fluxOf_ok (hset : Setting z o) (hu : Usable z o) (R : Solver) (fw : Bool) (F : Field) (dx dy dt : ℚ) :
    FluxOk z (scheme z o R fw dx dy dt) F (fluxOf z o R fw) := by
  cases fw
  · exact flux2_ok hset hu R F dx dy dt
  · exact flux2fw_ok hset hu R F dx dy dt

theorem full (R : Solver) (fw : Bool) (count : ℤ → ℤ) {dx dy : ℚ} (dt : ℚ) (M : Mem) (h : Ready z o dx dy M) :
    ∃ M1 N, StepOut z (scheme z o R fw dx dy dt) (fieldOf z o count M) count M M1 ∧
      step2Wrap z o (fluxOf z o R fw) count dx dy dt M = some N ∧
      (∀ i j m, 1 ≤ i → i ≤ (z.mx : ℤ) → 1 ≤ j → j ≤ (z.my : ℤ) → z.eqn m →
        N (.q i j m) = newValue (scheme z o R fw dx dy dt) (fieldOf z o count M) i j m) ∧
      IsMax (patchCourant z (scheme z o R fw dx dy dt) (fieldOf z o count M)) (N .cflgrid) ∧ ∀ l, (∀ i j m, l ≠ .q i j m) → N l = M1 l := by
  obtain ⟨M1, N, _, h2, h3, h4, h5, h6⟩ := step2Wrap_spec h.setting h.fitx h.fity count dx dy dt h.dx h.dy M
    (fluxOf_ok h.setting h.usable R fw (fieldOf z o count M) dx dy dt) (by simp) (by simp) (h.cap count)
  exact ⟨M1, N, h2, h3, h4, h5, h6⟩

/-- **C70.** A step of a patch succeeds: no access is outside of the bounds of an array, and the work array is large
enough. Afterwards every cell of the patch has the value that the formula of the wave propagation method gives from
the values before, whatever was in the work arrays, and the largest Courant number is returned. -/
theorem C70_step (R : Solver) (count : ℤ → ℤ) {dx dy : ℚ} (dt : ℚ) (M : Mem) (h : Ready z o dx dy M) :
    ∃ N, step2Wrap z o (flux2 z o R) count dx dy dt M = some N ∧
      (∀ i j m, 1 ≤ i → i ≤ (z.mx : ℤ) → 1 ≤ j → j ≤ (z.my : ℤ) → z.eqn m →
        N (.q i j m) = newValue (scheme z o R false dx dy dt) (fieldOf z o count M) i j m) ∧
      IsMax (patchCourant z (scheme z o R false dx dy dt) (fieldOf z o count M)) (N .cflgrid) := by
  obtain ⟨_, N, _, h2, h3, h4, _⟩ := full R false count dt M h
  exact ⟨N, h2, h3, h4⟩

/-- **C70**, for f-waves: if waves are not split or the cells have the same capacity. -/
theorem C70_fwave_partial (R : Solver) (count : ℤ → ℤ) {dx dy : ℚ} (dt : ℚ) (M : Mem) (h : Ready z o dx dy M)
    (hc : o.trans = 0 ∨ ∀ i j i' j', (fieldOf z o count M).cap i j = (fieldOf z o count M).cap i' j') :
    ∃ N, step2Wrap z o (flux2fw z o R) count dx dy dt M = some N ∧
      (∀ i j m, 1 ≤ i → i ≤ (z.mx : ℤ) → 1 ≤ j → j ≤ (z.my : ℤ) → z.eqn m →
        N (.q i j m) = newValue { scheme z o R true dx dy dt with lag := 0 } (fieldOf z o count M) i j m) ∧
      IsMax (patchCourant z (scheme z o R true dx dy dt) (fieldOf z o count M)) (N .cflgrid) := by
  obtain ⟨_, N, _, h2, h3, h4, _⟩ := full R true count dt M h
  refine ⟨N, h2, fun i j m i1 i2 j1 j2 hm => ?_, h4⟩
  rw [h3 i j m i1 i2 j1 j2 hm]
  set F := fieldOf z o count M
  set S := scheme z o R true dx dy dt
  have ht : ∀ dir a b, transverse S F dir a b m = transverse { S with lag := 0 } F dir a b m := by
    intro dir a b
    rcases hc with hc | hc
    · have e : ∀ S' : Scheme, S'.trans = o.trans → transverse S' F dir a b m = 0 := fun S' h' => by
        unfold transverse; rw [h', hc]; exact if_neg (by omega)
      rw [e _ rfl, e _ rfl]
    · have e : ∀ dir a b up, spill S F dir a b up m = spill { S with lag := 0 } F dir a b up m := by
        intro dir a b up
        have : lam S F dir (a - S.lag) b = lam { S with lag := 0 } F dir (a - 0) b := by
          unfold lam Field.capAt
          rw [hc]
        unfold spill
        rw [this]
        rfl
      unfold transverse
      rw [e, e]
  have hm' : ∀ dir a b, fluxMinus S F dir a b m = fluxMinus { S with lag := 0 } F dir a b m := fun dir a b => by
    unfold fluxMinus; rw [ht]; rfl
  have hp' : ∀ dir a b, fluxPlus S F dir a b m = fluxPlus { S with lag := 0 } F dir a b m := fun dir a b => by
    unfold fluxPlus; rw [ht]; rfl
  unfold newValue
  rw [hm', hp', hm', hp']

/-- **C70.** The new value in a cell depends on the data in the five by five cells around it only: not on the size
of the patch, nor on the place of the cell in it, nor on the contents of the work arrays. -/
theorem C70_local (R : Solver) (fw : Bool) {z' : Shape} (hz : z'.meqn = z.meqn ∧ z'.mwaves = z.mwaves) (count count' : ℤ → ℤ) {dx dy : ℚ} (dt : ℚ) (M M' N N' : Mem)
    (h : Ready z o dx dy M) (h' : Ready z' o dx dy M')
    (hN : step2Wrap z o (fluxOf z o R fw) count dx dy dt M = some N) (hN' : step2Wrap z' o (fluxOf z' o R fw) count' dx dy dt M' = some N')
    {i j di dj m : ℤ} (hi : 1 ≤ i ∧ i ≤ (z.mx : ℤ)) (hj : 1 ≤ j ∧ j ≤ (z.my : ℤ)) (hi' : 1 ≤ i + di ∧ i + di ≤ (z'.mx : ℤ))
    (hj' : 1 ≤ j + dj ∧ j + dj ≤ (z'.my : ℤ)) (hm : z.eqn m)
    (hs : SameAround (fieldOf z o count M) (fieldOf z' o count' M') i j di dj) :
    N' (.q (i + di) (j + dj) m) = N (.q i j m) := by
  obtain ⟨_, K, _, e, g, _, _⟩ := full R fw count dt M h
  obtain ⟨_, K', _, e', g', _, _⟩ := full R fw count' dt M' h'
  rw [hN] at e; rw [hN'] at e'
  injection e with e; injection e' with e'
  subst e; subst e'
  rw [g i j m hi.1 hi.2 hj.1 hj.2 hm, g' (i + di) (j + dj) m hi'.1 hi'.2 hj'.1 hj'.2 (by unfold Shape.eqn at hm ⊢; rw [hz.1]; exact hm)]
  have hS : scheme z' o R fw dx dy dt = scheme z o R fw dx dy dt := by unfold scheme; rw [hz.1, hz.2]
  rw [hS]
  refine (newValue_local ?_ hs m).symm
  cases fw <;> simp

/-- **C70.** Where all values are the same, nothing happens. -/
theorem C70_constant (R : Solver) (fw : Bool) (count : ℤ → ℤ) {dx dy : ℚ} (dt : ℚ) (M N : Mem) (h : Ready z o dx dy M)
    (hN : step2Wrap z o (fluxOf z o R fw) count dx dy dt M = some N) (u : Vec) (hR : Quiet R (comps z.meqn u))
    (hM : ∀ i j m, z.inGrid i j → z.eqn m → M (.q i j m) = u m)
    {i j m : ℤ} (hi : 1 ≤ i ∧ i ≤ (z.mx : ℤ)) (hj : 1 ≤ j ∧ j ≤ (z.my : ℤ)) (hm : z.eqn m) : N (.q i j m) = u m := by
  obtain ⟨_, K, _, e, g, _, _⟩ := full R fw count dt M h
  rw [hN] at e
  injection e with e
  subst e
  have mb := h.setting.mbc
  rw [g i j m hi.1 hi.2 hj.1 hj.2 hm, newValue_constant (S := scheme z o R fw dx dy dt) hR (F := fieldOf z o count M) ?_ m]
  · unfold comps; exact if_pos hm
  · intro dir hdir x y x1 x2 y1 y2
    funext m'
    simp only [fieldOf, comps]
    by_cases hm' : 1 ≤ m' ∧ m' ≤ (z.meqn : ℤ)
    · rw [if_pos hm', if_pos hm']
      refine hM _ _ _ ?_ hm'
      have hg : z.inGrid x y := by simp only [Shape.inGrid]; omega
      unfold sweepCell
      by_cases hc : atCorner z x y ∧ count (cornerNo z x y) = 3
      · rw [if_pos hc]
        rcases hdir with rfl | rfl
        · exact (turned_inside h.fitx h.fity (y := false) hg hc.1).1
        · exact (turned_inside h.fitx h.fity (y := true) hg hc.1).1
      · rw [if_neg hc]; exact hg
    · rw [if_neg hm', if_neg hm']

/-- The sum over a patch, when its cells have the values of a scheme. -/
theorem sum_of_newValue {S : Scheme} {F : Field} {dx dy : ℚ} (dt : ℚ) (hdx : dx ≠ 0) (hdy : dy ≠ 0) (M N : Mem) (f : Nat → Vec → Vec)
    (hR : ConservativeSolver S.R S.meqn f) (r1 : S.ratio 1 = dt / dx) (r2 : S.ratio 2 = dt / dy) {m : ℤ} (hm : z.eqn m) (hS : S.meqn = z.meqn)
    (hcap : ∀ i j, 1 ≤ i → i ≤ (z.mx : ℤ) → 1 ≤ j → j ≤ (z.my : ℤ) → F.cap i j ≠ 0)
    (hQ : ∀ i j, 1 ≤ i → i ≤ (z.mx : ℤ) → 1 ≤ j → j ≤ (z.my : ℤ) → F.Q 1 i j m = M (.q i j m))
    (g : ∀ i j m, 1 ≤ i → i ≤ (z.mx : ℤ) → 1 ≤ j → j ≤ (z.my : ℤ) → z.eqn m → N (.q i j m) = newValue S F i j m) :
    ∑ i ∈ Finset.Icc 1 (z.mx : ℤ), ∑ j ∈ Finset.Icc 1 (z.my : ℤ), F.cap i j * (dx * dy) * N (.q i j m) =
    ∑ i ∈ Finset.Icc 1 (z.mx : ℤ), ∑ j ∈ Finset.Icc 1 (z.my : ℤ), F.cap i j * (dx * dy) * M (.q i j m) -
      dt * (dy * ∑ j ∈ Finset.Icc 1 (z.my : ℤ), (edgeFlux S F f 1 (z.mx + 1) j m - edgeFlux S F f 1 1 j m) +
        dx * ∑ i ∈ Finset.Icc 1 (z.mx : ℤ), (edgeFlux S F f 2 (z.my + 1) i m - edgeFlux S F f 2 1 i m)) := by
  have tele : ∀ (G : ℤ → ℚ) (n : Nat), ∑ i ∈ Finset.Icc 1 (n : ℤ), (G (i + 1) - G i) = G (n + 1) - G 1 := by
    intro G n
    induction n with
    | zero => simp
    | succ n ih =>
      have e : Finset.Icc (1 : ℤ) ((n + 1 : ℕ) : ℤ) = insert ((n : ℤ) + 1) (Finset.Icc 1 (n : ℤ)) := by
        ext x; simp only [Finset.mem_Icc, Finset.mem_insert]; omega
      rw [e, Finset.sum_insert (by simp), ih]
      push_cast
      ring
  have cell : ∀ i ∈ Finset.Icc 1 (z.mx : ℤ), ∀ j ∈ Finset.Icc 1 (z.my : ℤ), F.cap i j * (dx * dy) * N (.q i j m) =
      F.cap i j * (dx * dy) * M (.q i j m) - (dt * dy * (edgeFlux S F f 1 (i + 1) j m - edgeFlux S F f 1 i j m) +
        dt * dx * (edgeFlux S F f 2 (j + 1) i m - edgeFlux S F f 2 j i m)) := by
    intro i hi j hj
    rw [Finset.mem_Icc] at hi hj
    have hc : F.cap i j ≠ 0 := hcap i j hi.1 hi.2 hj.1 hj.2
    have hq := hQ i j hi.1 hi.2 hj.1 hj.2
    rw [g i j m hi.1 hi.2 hj.1 hj.2 hm, newValue_flux (S := S) (f := f) hR (hS ▸ hm), hq]
    rw [r1, r2]
    field_simp
  rw [Finset.sum_congr rfl fun i hi => Finset.sum_congr rfl fun j hj => cell i hi j hj]
  simp only [Finset.sum_sub_distrib, Finset.sum_add_distrib]
  have t1 : ∑ i ∈ Finset.Icc 1 (z.mx : ℤ), ∑ j ∈ Finset.Icc 1 (z.my : ℤ), dt * dy * (edgeFlux S F f 1 (i + 1) j m - edgeFlux S F f 1 i j m) =
      dt * dy * ∑ j ∈ Finset.Icc 1 (z.my : ℤ), (edgeFlux S F f 1 (z.mx + 1) j m - edgeFlux S F f 1 1 j m) := by
    rw [Finset.sum_comm, Finset.mul_sum]
    refine Finset.sum_congr rfl fun j _ => ?_
    rw [← Finset.mul_sum, tele (fun i => edgeFlux S F f 1 i j m) z.mx]
  have t2 : ∑ i ∈ Finset.Icc 1 (z.mx : ℤ), ∑ j ∈ Finset.Icc 1 (z.my : ℤ), dt * dx * (edgeFlux S F f 2 (j + 1) i m - edgeFlux S F f 2 j i m) =
      dt * dx * ∑ i ∈ Finset.Icc 1 (z.mx : ℤ), (edgeFlux S F f 2 (z.my + 1) i m - edgeFlux S F f 2 1 i m) := by
    rw [Finset.mul_sum]
    refine Finset.sum_congr rfl fun i _ => ?_
    rw [← Finset.mul_sum, tele (fun j => edgeFlux S F f 2 j i m) z.my]
  rw [t1, t2]
  simp only [Finset.sum_sub_distrib]
  ring

/-- **C70.** With a conservative Riemann solver the sum over a patch changes by the fluxes through its faces only. -/
theorem C70_conservation (R : Solver) (fw : Bool) (count : ℤ → ℤ) {dx dy : ℚ} (dt : ℚ) (M N : Mem) (h : Ready z o dx dy M)
    (hN : step2Wrap z o (fluxOf z o R fw) count dx dy dt M = some N) (f : Nat → Vec → Vec) (hR : ConservativeSolver R z.meqn f)
    {m : ℤ} (hm : z.eqn m) :
    ∑ i ∈ Finset.Icc 1 (z.mx : ℤ), ∑ j ∈ Finset.Icc 1 (z.my : ℤ), (fieldOf z o count M).cap i j * (dx * dy) * N (.q i j m) =
    ∑ i ∈ Finset.Icc 1 (z.mx : ℤ), ∑ j ∈ Finset.Icc 1 (z.my : ℤ), (fieldOf z o count M).cap i j * (dx * dy) * M (.q i j m) -
      dt * (dy * ∑ j ∈ Finset.Icc 1 (z.my : ℤ), (edgeFlux (scheme z o R fw dx dy dt) (fieldOf z o count M) f 1 (z.mx + 1) j m -
          edgeFlux (scheme z o R fw dx dy dt) (fieldOf z o count M) f 1 1 j m) +
        dx * ∑ i ∈ Finset.Icc 1 (z.mx : ℤ), (edgeFlux (scheme z o R fw dx dy dt) (fieldOf z o count M) f 2 (z.my + 1) i m -
          edgeFlux (scheme z o R fw dx dy dt) (fieldOf z o count M) f 2 1 i m)) := by
  obtain ⟨_, K, _, e, g, _, _⟩ := full R fw count dt M h
  rw [hN] at e
  injection e with e
  subst e
  have mb := h.setting.mbc
  refine sum_of_newValue dt h.dx h.dy M N f hR (by simp) (by simp) hm rfl
    (fun i j i1 i2 j1 j2 => h.cap count i j (by simp only [Shape.inGrid]; omega)) (fun i j i1 i2 j1 j2 => ?_) g
  simp only [fieldOf, comps, sweepCell]
  have hnc : ¬ (atCorner z i j ∧ count (cornerNo z i j) = 3) := by unfold atCorner; omega
  rw [if_neg hnc, if_pos (show 1 ≤ m ∧ m ≤ (z.meqn : ℤ) from hm)]

/-! ### The assumptions of C36 -/

/-- The fluctuations left behind by a step. -/
def wavesOf (N : Mem) : Correction.Waves :=
  { fm := fun c => N (.fm c.1 c.2.1 c.2.2), fp := fun c => N (.fp c.1 c.2.1 c.2.2)
    gm := fun c => N (.gm c.1 c.2.1 c.2.2), gp := fun c => N (.gp c.1 c.2.1 c.2.2) }

def solution (M : Mem) : Grid ℚ := fun c => M (.q c.1 c.2.1 c.2.2)
def auxiliary (M : Mem) : Grid ℚ := fun c => M (.aux c.1 c.2.1 c.2.2)
def Shape.dims (z : Shape) : Dims := ⟨z.mx, z.my, z.mbc, z.meqn⟩

/-- **C70.** On a Cartesian grid, the fluctuations that a step leaves for the corrections between patches of
different size are conservative as C36 assumes, and the step is the one of C36. -/
theorem C70_feeds_corrections (R : Solver) (fw : Bool) (count : ℤ → ℤ) (dt : ℚ) (M N : Mem) (G : Correction.Geom z.dims)
    (h : Ready z o G.dx G.dy M)
    (hN : step2Wrap z o (fluxOf z o R fw) count G.dx G.dy dt M = some N) (f : Nat → Vec → Vec) (hR : ConservativeSolver R z.meqn f)
    (hG : ∀ i j, (fieldOf z o count M).cap i j = G.capa i j)
    (el : Nat → ℤ → ℚ) (hel : ∀ t, el 0 t = G.dy ∧ el 1 t = G.dy ∧ el 2 t = G.dx ∧ el 3 t = G.dx) :
    Correction.Conservative z.dims G (fun dir _ q _ _ m => f (dir + 1) (comps z.meqn q) m) (solution M) (auxiliary M) (wavesOf N) el ∧
    ∀ i j m, 1 ≤ i → i ≤ (z.mx : ℤ) → 1 ≤ j → j ≤ (z.my : ℤ) → z.eqn m →
      N (.q i j m) = Correction.updateQ z.dims G.dx G.dy dt G.capa (wavesOf N) (solution M) (i, j, m) := by
  obtain ⟨M1, K, O, e, g, _, k⟩ := full R fw count dt M h
  rw [hN] at e
  injection e with e
  subst e
  set F := fieldOf z o count M with hF
  set S := scheme z o R fw G.dx G.dy dt with hS
  have mb := h.setting.mbc
  have hq : ∀ dir i j, ¬ atCorner z i j → F.Q dir i j = comps z.meqn fun m => M (.q i j m) := by
    intro dir i j hc
    have hc' : ¬ (atCorner z i j ∧ count (cornerNo z i j) = 3) := fun h => hc h.1
    simp only [hF, fieldOf, sweepCell]
    rw [if_neg hc']
  have d : ∀ dir a b m, z.eqn m → dir = 1 ∨ dir = 2 → fluxMinus S F dir a b m - fluxPlus S F dir a b m =
      f dir (F.val dir a b) m - f dir (F.val dir (a - 1) b) m := by
    intro dir a b m hm hdir
    have : left S F dir a b m + right S F dir a b m = f dir (F.val dir a b) m - f dir (F.val dir (a - 1) b) m := hR dir hdir _ _ _ _ m hm.1 hm.2
    unfold fluxMinus fluxPlus
    linear_combination this
  constructor
  · refine ⟨fun k i j m => if k < 2 then G.dy * f 1 (comps z.meqn fun m => M (.q i j m)) m else G.dx * f 2 (comps z.meqn fun m => M (.q i j m)) m, ?_⟩
    intro m hm
    have hm' : z.eqn m := hm
    refine ⟨?_, ?_, ?_, ?_, ?_⟩
    · intro i j i1 i2 j1 j2
      simp only [Shape.dims] at i2 j2
      show G.dy * (N (.fm i j m) - N (.fp i j m)) = _
      rw [k _ (by simp), k _ (by simp), O.fm i j m i1 i2 j1 j2 hm', O.fp i j m i1 i2 j1 j2 hm', d 1 i j m hm' (Or.inl rfl)]
      have v0 : F.val 1 (i - 1) j = comps z.meqn fun m => M (.q (i - 1) j m) := hq 1 (i - 1) j (by unfold atCorner; omega)
      have v1 : F.val 1 i j = comps z.meqn fun m => M (.q i j m) := hq 1 i j (by unfold atCorner; omega)
      rw [v0, v1]
      simp
      ring
    · intro i j i1 i2 j1 j2
      simp only [Shape.dims] at i2 j2
      show G.dx * (N (.gm i j m) - N (.gp i j m)) = _
      rw [k _ (by simp), k _ (by simp), O.gm i j m i1 i2 j1 j2 hm', O.gp i j m i1 i2 j1 j2 hm', d 2 j i m hm' (Or.inr rfl)]
      have v0 : F.val 2 (j - 1) i = comps z.meqn fun m => M (.q i (j - 1) m) := hq 2 i (j - 1) (by unfold atCorner; omega)
      have v1 : F.val 2 j i = comps z.meqn fun m => M (.q i j m) := hq 2 i j (by unfold atCorner; omega)
      rw [v0, v1]
      simp
      ring
    · intro i j _ _ _ _
      simp
    · intro t _ _
      obtain ⟨e0, e1, e2, e3⟩ := hel t
      rw [e0, e1]
      exact ⟨rfl, rfl, rfl, rfl⟩
    · intro t _ _
      obtain ⟨e0, e1, e2, e3⟩ := hel t
      rw [e2, e3]
      exact ⟨rfl, rfl, rfl, rfl⟩
  · intro i j m i1 i2 j1 j2 hm
    have hq' : F.Q 1 i j m = M (.q i j m) := by
      rw [hq 1 i j (by unfold atCorner; omega)]
      unfold comps; exact if_pos hm
    rw [g i j m i1 i2 j1 j2 hm]
    simp only [Correction.updateQ, newValue]
    rw [if_pos ⟨i1, i2, j1, j2⟩, hq', hG]
    simp only [wavesOf, solution]
    rw [k _ (by simp), k _ (by simp), k _ (by simp), k _ (by simp), O.fm (i + 1) j m (by omega) (by omega) j1 j2 hm,
      O.fp i j m i1 (by omega) j1 j2 hm, O.gm i (j + 1) m i1 i2 (by omega) (by omega) hm, O.gp i j m i1 i2 j1 (by omega) hm]
    rfl

/-! ### What is not as it should be -/

theorem doLoop_fails {lo hi : ℤ} {f : ℤ → Prog} {M : Mem} (h : lo ≤ hi) (hf : f lo M = none) : doLoop lo hi f M = none := by
  have : ∃ ks, range lo hi = lo :: ks := by
    unfold range
    obtain ⟨n, hn⟩ : ∃ n : Nat, (hi + 1 - lo).toNat = n + 1 := ⟨(hi - lo).toNat, by omega⟩
    rw [hn, List.range_succ_eq_map]
    simp
  obtain ⟨ks, e⟩ := this
  unfold doLoop
  rw [e]
  show (f lo M).bind (loop ks f) = none
  rw [hf]; rfl

/-- **C70.** With a capacity that is not one of the auxiliary values, there is no step: the program accesses memory
outside of the array. -/
theorem C70_bad_capacity (flux : Flux) (count : ℤ → ℤ) (dx dy dt : ℚ) (M : Mem) (h1 : o.mcapa ≠ 0) (h2 : ¬ z.auxn o.mcapa)
    (hm : 1 ≤ z.meqn) (hb : 1 ≤ z.mbc) : step2Wrap z o flux count dx dy dt M = none := by
  have hu : ∀ M, update z o dx dy dt M = none := by
    intro M
    unfold update
    refine doLoop_fails (by omega) (doLoop_fails (by omega) (doLoop_fails (by omega) ?_))
    rw [if_neg h1]
    unfold asg
    have : ∀ (a b : Ex), (a - b / rd z (.aux (1 - z.mbc) (1 - z.mbc) o.mcapa)) M = none := by
      intro a b
      show (a M).bind (fun x => ((b M).bind fun y => (rd z (.aux (1 - z.mbc) (1 - z.mbc) o.mcapa) M).bind fun v => if v = 0 then none else some (y / v)).bind
        fun y => some (x - y)) = none
      have : rd z (.aux (1 - z.mbc) (1 - z.mbc) o.mcapa) M = none := by
        unfold rd; rw [if_neg fun h => h2 h.2]
      rw [this]
      cases a M <;> cases b M <;> rfl
    rw [this]; rfl
  unfold step2Wrap
  dsimp only
  split_ifs
  · rfl
  · rfl
  · rfl
  · show (step2 z o flux count dx dy dt M).bind (seq [update z o dx dy dt]) = none
    cases step2 z o flux count dx dy dt M with
    | none => rfl
    | some M1 => rw [seq_one]; exact hu M1

/-- The default options: order 2 2, `mcapa` -1 (fc2d_clawpack46_options.c:37-42). -/
abbrev defaultMethod : Method := { order := 2, trans := 2, lim := fun _ => 0, mcapa := -1 }

/-- **C70** does not hold for the default options, which pass the check of the options (lines 90-103). -/
theorem C70_default_counterexample (flux : Flux) (count : ℤ → ℤ) (dx dy dt : ℚ) (M : Mem) (hm : 1 ≤ z.meqn) (hb : 1 ≤ z.mbc) :
    step2Wrap z defaultMethod flux count dx dy dt M = none :=
  C70_bad_capacity flux count dx dy dt M (by decide) (fun h => by have := h.1; simp at this) hm hb

/-! ### Advection -/

/-- Advection with velocity `(u, v)`: one wave, the jump. -/
def advection (u v : ℚ) : Solver :=
  { wave := fun _ ql qr _ _ _ m => qr m - ql m
    s := fun dir _ _ _ _ _ => if dir = 1 then u else v
    amdq := fun dir ql qr _ _ m => min (if dir = 1 then u else v) 0 * (qr m - ql m)
    apdq := fun dir ql qr _ _ m => max (if dir = 1 then u else v) 0 * (qr m - ql m)
    down := fun dir _ _ _ _ _ dq m => min (if dir = 1 then v else u) 0 * dq m
    up := fun dir _ _ _ _ _ dq m => max (if dir = 1 then v else u) 0 * dq m }

theorem advection_conservative (u v : ℚ) (n : Nat) :
    ConservativeSolver (advection u v) n (fun dir q m => (if dir = 1 then u else v) * q m) := by
  intro dir hdir ql qr al ar m _ _
  have : min (if dir = 1 then u else v) 0 + max (if dir = 1 then u else v) 0 = if dir = 1 then u else v := by
    rw [min_add_max, add_zero]
  show min (if dir = 1 then u else v) 0 * (qr m - ql m) + max (if dir = 1 then u else v) 0 * (qr m - ql m) = _
  rw [← add_mul, this]
  ring

theorem advection_quiet (u v : ℚ) (q : Vec) : Quiet (advection u v) q := by
  constructor <;> intros <;> simp [advection]

/-- Advection in the form of f-waves: the wave is the jump of the flux. -/
def advectionFw (u v : ℚ) : Solver := { advection u v with
    wave := fun dir ql qr _ _ _ m => (if dir = 1 then u else v) * (qr m - ql m) }

/-! ### Examples -/

abbrev exShape : Shape := { mx := 4, my := 3, mbc := 2, meqn := 1, maux := 1, mwaves := 1 }
/-- Second order with transverse waves, limiter 4, capacities. -/
abbrev exMethod : Method := { order := 2, trans := 2, lim := fun _ => 4, mcapa := 1 }
/-- First order, transverse waves. -/
abbrev exFirst : Method := { order := 1, trans := 1, lim := fun _ => 0, mcapa := 1 }

/-- A value in one cell; cells with `i ≤ 0` have twice the capacity. -/
def exMem : Mem
  | .q i j _ => if i = 1 ∧ j = 1 then 1 else 0
  | .aux i _ _ => if i ≤ 0 then 2 else 1
  | _ => 17

theorem exAux (i j m : ℤ) : exMem (.aux i j m) ≠ 0 := by
  simp only [exMem]; split_ifs <;> norm_num

theorem exReady : Ready exShape exMethod (1 / 4) (1 / 4) exMem := by
  refine ⟨⟨Or.inr rfl, ⟨by decide, by decide⟩, fun w _ _ => ⟨by simp, by simp⟩⟩, ⟨by decide, Or.inr ⟨by decide, by decide⟩⟩, by decide, by decide,
    by norm_num, by norm_num, fun i j _ _ => exAux _ _ _⟩

theorem exReadyFirst : Ready exShape exFirst (1 / 4) (1 / 4) exMem := by
  refine ⟨⟨Or.inl rfl, ⟨by decide, by decide⟩, fun w _ _ => ⟨by simp, by simp⟩⟩, ⟨by decide, Or.inr ⟨by decide, by decide⟩⟩, by decide, by decide,
    by norm_num, by norm_num, fun i j _ _ => exAux _ _ _⟩

/-- **C70** does not hold for f-waves when capacities differ: in a step of advection the value in cell (1, 2) is not that
of the method. (The wave that enters cell (1, 1) from the left is split with the capacity of cell (0, 1).) -/
theorem C70_fwave_counterexample : ∃ N, step2Wrap exShape exFirst (flux2fw exShape exFirst (advectionFw 1 1)) (fun _ => 4) (1 / 4) (1 / 4) (1 / 8) exMem = some N ∧
    N (.q 1 2 1) = newValue (scheme exShape exFirst (advectionFw 1 1) true (1 / 4) (1 / 4) (1 / 8)) (fieldOf exShape exFirst (fun _ => 4) exMem) 1 2 1 ∧
    newValue (scheme exShape exFirst (advectionFw 1 1) true (1 / 4) (1 / 4) (1 / 8)) (fieldOf exShape exFirst (fun _ => 4) exMem) 1 2 1 = 5 / 16 ∧
    newValue { scheme exShape exFirst (advectionFw 1 1) true (1 / 4) (1 / 4) (1 / 8) with lag := 0 } (fieldOf exShape exFirst (fun _ => 4) exMem) 1 2 1 = 1 / 4 := by
  obtain ⟨_, N, _, h2, h3, _, _⟩ := full (advectionFw 1 1) true (fun _ => 4) (1 / 8) exMem exReadyFirst
  refine ⟨N, h2, h3 1 2 1 (by decide) (by decide) (by decide) (by decide) ⟨by decide, by decide⟩, ?_, ?_⟩
  · decide +kernel
  · decide +kernel

/-- The hypotheses of the theorems above can be met; the new value is not trivial. -/
example : Ready exShape exMethod (1 / 4) (1 / 4) exMem ∧ ConservativeSolver (advection 1 1) exShape.meqn (fun _ q m => 1 * q m) ∧
    newValue (scheme exShape exMethod (advection 1 1) false (1 / 4) (1 / 4) (1 / 8)) (fieldOf exShape exMethod (fun _ => 4) exMem) 2 1 1 ≠ 0 := by
  refine ⟨exReady, ?_, by decide +kernel⟩
  have := advection_conservative 1 1 exShape.meqn
  simpa using this

/-- Capacities that are all the same. -/
example : ∀ i j i' j', (fieldOf exShape { exFirst with mcapa := 0 } (fun _ => 4) exMem).cap i j = (fieldOf exShape { exFirst with mcapa := 0 } (fun _ => 4) exMem).cap i' j' :=
  fun _ _ _ _ => rfl

/-- The same data in two patches of different size. -/
example : SameAround (fieldOf exShape exMethod (fun _ => 4) exMem)
    (fieldOf { exShape with mx := 8 } exMethod (fun _ => 4) fun | .q i j m => exMem (.q (i - 2) j m) | .aux i j m => exMem (.aux (i - 2) j m) | _ => 3) 2 1 2 0 := by
  intro x y _ _ _ _
  refine ⟨fun dir _ => ?_, ?_, ?_⟩
  · simp [fieldOf, sweepCell]
  · simp [fieldOf]
  · simp [fieldOf]

/-- A Cartesian grid. -/
example : ∃ G : Correction.Geom exShape.dims, ∀ i j, (fieldOf exShape { exMethod with mcapa := 0 } (fun _ => 4) exMem).cap i j = G.capa i j :=
  ⟨⟨1 / 4, 1 / 4, fun _ _ => 1 / 16, by norm_num, by norm_num, fun _ _ _ _ => by norm_num⟩, fun i j => by
    simp only [fieldOf, Correction.Geom.capa]; norm_num⟩

end Fclaw.Wave

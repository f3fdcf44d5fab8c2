import Verif.Sync5.Sim
/-
C86: the conservative corrections with the solver of Clawpack 5.
-/
set_option autoImplicit false
set_option linter.unusedSimpArgs false
set_option linter.unusedVariables false
namespace Fclaw.Sync5

open Fort CopyGhost Correction GhostFill TimeSync Conserve Layout

variable {d : Dims}

/-- **C86**, a step. The routines store fluxes, update the solution and store fluctuations without leaving the bounds of
an array, and do to solution and registers what a step with Clawpack 4.6 does (C36). Nothing else is written. -/
theorem C86_step (hb : 1 ≤ d.mbc) (maux mcapa : Nat) (rpn : Rpn) (hl : LocalRpn d maux rpn) (junk : ℤ → ℚ) (dx dy dt : ℚ)
    (hx : dx ≠ 0) (hy : dy ≠ 0) (aux : Mem ℚ) (ga : Grid ℚ) (ha : Holds (auxDims d maux) aux ga) (w : Waves5) (gw : Waves)
    (hw : HoldsWaves d w gw) (capa : ℤ → ℤ → ℚ) (hc : CapaIs d maux mcapa ga capa) (q : Mem ℚ) (gq : Grid ℚ) (hq : Holds d q gq)
    (r r' : Regs) (h : SameRegs d r r') :
    ∃ q5 r5, step5 d maux mcapa junk rpn dx dy dt aux w q r = some (q5, r5) ∧
      Holds d q5 (step d rpn dx dy dt capa ga gw gq r').1 ∧ SameRegs d r5 (step d rpn dx dy dt capa ga gw gq r').2 ∧
      (∀ p, ¬ (0 ≤ p ∧ p < size d) → q5 p = q p) ∧ ∀ x, ¬ Exists d x → value r5 x = value r x :=
  step_same hb maux mcapa rpn hl junk dx dy dt hx hy aux ga ha w gw hw capa hc q gq hq r r' h

/-- The loops of Clawpack 4.6 stay within the arrays too, and what they do to the registers is what C36 and C63 rely on. -/
theorem C86_loops46 (hb : 1 ≤ d.mbc) (maux : Nat) (rpn : Rpn) (hl : LocalRpn d maux rpn) (junk : ℤ → ℚ) (dx dy dt : ℚ)
    (q aux : Grid ℚ) (w : Waves) (r : Regs) :
    (∃ r1, storeFluxLoops d maux (read46 d q) (read46 (auxDims d maux) aux) junk rpn dt r = some r1 ∧
      SameRegs d r1 (storeFlux d rpn dt q aux r) ∧ ∀ x, ¬ Exists d x → value r1 x = value r x) ∧
    ∃ r2, accumulateLoops d dx dy dt (read46 d w.fp) (read46 d w.fm) (read46 d w.gp) (read46 d w.gm) r = some r2 ∧
      SameRegs d r2 (accumulateWaves d dx dy dt w r) ∧ ∀ x, ¬ Exists d x → value r2 x = value r x :=
  ⟨store_same hb maux _ _ q aux (reads46 d q) (reads46 _ aux) junk rpn hl dt r r (SameRegs.refl r),
    accumulate_same hb dx dy dt _ _ _ _ w (reads46 d _) (reads46 d _) (reads46 d _) (reads46 d _) r r (SameRegs.refl r)⟩

/-- The corrections from fine patches: for any patches, any placement and any registers the routine succeeds when that of
Clawpack 4.6 does, with the same result. It writes nothing outside of the solution. -/
theorem C86_f2c (td : TData) (iface : Nat) (match' : ℤ) (c c' f f' : Regs) (hc : SameRegs d c c') (hf : SameRegs d f f')
    (q : Mem ℚ) (gq : Grid ℚ) (hq : Holds d q gq) :
    (f2c5 d td iface match' c f q = none ↔ f2c d td iface match' c' f' gq = none) ∧
    ∀ q5 g, f2c5 d td iface match' c f q = some q5 → f2c d td iface match' c' f' gq = some g →
      Holds d q5 g ∧ ∀ p, ¬ (0 ≤ p ∧ p < size d) → q5 p = q p := by
  have h := f2c_rel td iface match' hc hf (m0 := q) (m := q) (q := gq) ⟨hq, fun _ _ => rfl⟩
  cases e1 : f2c5 d td iface match' c f q <;> cases e2 : f2c d td iface match' c' f' gq <;> rw [e1, e2] at h
  · simp
  · exact h.elim
  · exact h.elim
  · refine ⟨by simp, ?_⟩
    rintro q5 g ⟨⟩ ⟨⟩
    exact h

/-- The corrections from patches of the same size, likewise. -/
theorem C86_samesize (td : TData) (iface : Nat) (c c' f f' : Regs) (hc : SameRegs d c c') (hf : SameRegs d f f')
    (q : Mem ℚ) (gq : Grid ℚ) (hq : Holds d q gq) :
    (samesize5 d td iface c f q = none ↔ samesize d td iface c' f' gq = none) ∧
    ∀ q5 g, samesize5 d td iface c f q = some q5 → samesize d td iface c' f' gq = some g →
      Holds d q5 g ∧ ∀ p, ¬ (0 ≤ p ∧ p < size d) → q5 p = q p := by
  have h := samesize_rel td iface hc hf (m0 := q) (m := q) (q := gq) ⟨hq, fun _ _ => rfl⟩
  cases e1 : samesize5 d td iface c f q <;> cases e2 : samesize d td iface c' f' gq <;> rw [e1, e2] at h
  · simp
  · exact h.elim
  · exact h.elim
  · refine ⟨by simp, ?_⟩
    rintro q5 g ⟨⟩ ⟨⟩
    exact h

theorem fresh_begin (M : Mesh) (G : Nat → Geom d) (W : World5) (h : Fresh5 d M G W) : Fresh d M G (begin46 d W) := h

/-- **C86**. At any time in the history of a mesh whose patches are advanced by Clawpack 5, that is after any steps of any
patches and any synchronisations of levels, the total mass has changed by exactly what entered through the physical
boundary, and what the registers at faces between patches still hold. -/
theorem C86 (hd : Sized d) (hp : Proper d) (maux mcapa : Nat) (M : Mesh) (hM : M.Ok) (hn : M.patches.Nodup) (L : Links)
    (hL : Linked d M L) (G : Nat → Geom d) (rpn : Rpn) (hl : LocalRpn d maux rpn) (top : Int) (htop : ∀ x ∈ M.patches, M.level x ≤ top)
    (W0 W : World5) (B : ℤ → ℚ) (h0 : Fresh5 d M G W0) (h : History5 d maux mcapa M L G rpn top W0 W B) (m : ℤ) (hm : comp d m) :
    totalMass5 M G W m - totalMass5 M G W0 m = B m + pending5 d M W m := by
  obtain ⟨V, B', hV, hW, hB⟩ := history_sim (by have := hd.mbc; omega) maux mcapa M L G rpn hl top W0 W B _ (begin_same M W0) h
  rw [mass_same M G hW m hm, mass_same M G (begin_same M W0) m hm, hB m hm, pending_same M hW m hm]
  exact C63 hd hp M hM hn L hL G rpn top htop _ V B' (fresh_begin M G W0 h0) hV m hm

/-- When all levels have been synchronised, the mass has changed by exactly what entered through the physical boundary.
Without a physical boundary it has not changed at all. -/
theorem C86_conserved (hd : Sized d) (hp : Proper d) (maux mcapa : Nat) (M : Mesh) (hM : M.Ok) (hn : M.patches.Nodup) (L : Links)
    (hL : Linked d M L) (G : Nat → Geom d) (rpn : Rpn) (hl : LocalRpn d maux rpn) (top : Int) (htop : ∀ x ∈ M.patches, M.level x ≤ top)
    (W0 W W' : World5) (B : ℤ → ℚ) (h0 : Fresh5 d M G W0) (h : History5 d maux mcapa M L G rpn top W0 W B)
    (minl : Int) (hmin : ∀ x ∈ M.patches, minl ≤ M.level x) (hs : Synced5 d M L minl top W W') (m : ℤ) (hm : comp d m) :
    totalMass5 M G W' m - totalMass5 M G W0 m = B m ∧
    ((∀ x ∈ M.patches, ∀ f < 4, M.face x f ≠ .boundary) → totalMass5 M G W' m = totalMass5 M G W0 m) := by
  obtain ⟨V, B', hV, hW, hB⟩ := history_sim (by have := hd.mbc; omega) maux mcapa M L G rpn hl top W0 W B _ (begin_same M W0) h
  obtain ⟨V', hs', hW'⟩ := synced_sim M L minl top hW hs
  rw [mass_same M G hW' m hm, mass_same M G (begin_same M W0) m hm, hB m hm]
  exact C63_conserved hd hp M hM hn L hL G rpn top htop _ V V' B' (fresh_begin M G W0 h0) hV minl hmin hs' m hm

/-- A synchronisation is always possible, whatever the other memory of a process holds: no correction fails or leaves the
bounds of an array. -/
theorem C86_progress (hd : Sized d) (hp : Proper d) (maux mcapa : Nat) (M : Mesh) (hM : M.Ok) (hn : M.patches.Nodup) (L : Links)
    (hL : Linked d M L) (G : Nat → Geom d) (rpn : Rpn) (hl : LocalRpn d maux rpn) (top : Int) (htop : ∀ x ∈ M.patches, M.level x ≤ top)
    (W0 W : World5) (B : ℤ → ℚ) (h0 : Fresh5 d M G W0) (h : History5 d maux mcapa M L G rpn top W0 W B) (minl : Int) :
    (∀ p s, (∀ x, Has M p x → s.reg x = W.r x) → (∀ x ∈ M.patches, M.owner x = p → s.q x = W.q x) →
      ∃ s', syncProcess5 d M L p minl top s = some s') ∧ ∃ W', Synced5 d M L minl top W W' := by
  obtain ⟨V, B', hV, hW, hB⟩ := history_sim (by have := hd.mbc; omega) maux mcapa M L G rpn hl top W0 W B _ (begin_same M W0) h
  have main : ∀ p s, (∀ x, Has M p x → s.reg x = W.r x) → (∀ x ∈ M.patches, M.owner x = p → s.q x = W.q x) →
      ∃ s', syncProcess5 d M L p minl top s = some s' := by
    intro p s hs hq
    obtain ⟨t, ht, k1, k2⟩ := start_sync M p hW s hs hq
    obtain ⟨t', e⟩ := (C63_progress hd hp M hM hn L hL G rpn top htop _ V B' (fresh_begin M G W0 h0) hV minl).1 p t k1 k2
    have k := actAll_rel M L (timeSync M p minl top) ht
    unfold syncProcess at e
    rw [e] at k
    cases e' : actAll5 d M L s (timeSync M p minl top) with
    | none => rw [e'] at k; exact k.elim
    | some s' => exact ⟨s', e'⟩
  refine ⟨main, ?_⟩
  have : ∀ p, ∃ s', syncProcess5 d M L p minl top ⟨W.r, W.q⟩ = some s' := fun p => main p ⟨W.r, W.q⟩ (fun _ _ => rfl) (fun _ _ _ => rfl)
  choose S hS using this
  refine ⟨⟨fun x => (S (M.owner x)).q x, fun x => (S (M.owner x)).reg x⟩, ⟨fun p => ⟨⟨W.r, W.q⟩, S p, fun _ _ => rfl,
    fun _ _ _ => rfl, hS p, ?_⟩⟩⟩
  rintro x _ rfl
  exact ⟨rfl, rfl⟩

/-! ### Example: the mesh with three coarse and four fine patches, and upwinding -/

/-- The fluctuations of `exWaves`, in memory. -/
def exWaves5 (q : Mem ℚ) : Waves5 := ⟨fun p => -(q p - q (p - 1)), fun _ => 0, fun _ => 0, fun _ => 0⟩

theorem exWaves5_view (q : Mem ℚ) : viewWaves exD (exWaves5 q) = exWaves (view exD q) := by
  unfold viewWaves exWaves exWaves5 view
  congr 1
  funext c
  beta_reduce
  have : pos5 exD c - 1 = pos5 exD (c.1 - 1, c.2.1, c.2.2) := by
    unfold pos5
    simp [exD]
    ring
  show -(q (pos5 exD c) - q (pos5 exD c - 1)) = _
  rw [this]

theorem exLocal : LocalRpn exD 1 exRpn := by
  intro idir iface q q' a a' e e' m h _ _ hm
  unfold exRpn
  split
  · exact h m hm
  · rfl

/-- The auxiliary variable is the capacity, which is 1. -/
theorem exCapa : CapaIs exD 1 1 (view (auxDims exD 1) fun _ => 1) exGeom.capa := by
  refine ⟨le_refl _, fun i j _ => ?_⟩
  have : exGeom.capa i j = 1 := by norm_num [Geom.capa, exGeom]
  rw [this]
  exact ⟨one_ne_zero, rfl⟩

/-- The hypotheses of `C86_step` hold for any solution and any registers. -/
example (q : Mem ℚ) (r : Regs) : 1 ≤ exD.mbc ∧ LocalRpn exD 1 exRpn ∧ exGeom.dx ≠ 0 ∧ exGeom.dy ≠ 0 ∧
    Holds (auxDims exD 1) (fun _ => 1) (fun _ => 1) ∧ HoldsWaves exD (exWaves5 q) (exWaves (view exD q)) ∧
    CapaIs exD 1 1 (fun _ => 1) exGeom.capa ∧ Holds exD q (view exD q) ∧ SameRegs exD r r :=
  ⟨by decide, exLocal, ne_of_gt exGeom.dxpos, ne_of_gt exGeom.dypos, fun _ _ => rfl, by rw [← exWaves5_view]; exact holds_viewWaves _ _,
    exCapa, holds_view _ _, SameRegs.refl _⟩

/-- Two steps. -/
theorem exEvolves5 (q : Mem ℚ) :
    ∃ q' r, Evolves5 exD 1 1 exGeom exRpn q (Regs.empty (fun _ _ => 1 / 16) exEl) q' r := by
  have one : ∀ (q : Mem ℚ) (r : Regs) (dt : ℚ), r.el = exEl → ∃ q5 r5,
      step5 exD 1 1 (fun _ => 7) exRpn exGeom.dx exGeom.dy dt (fun _ => 1) (exWaves5 q) q r = some (q5, r5) ∧ r5.el = exEl := by
    intro q r dt hr
    obtain ⟨q5, r5, e, _, s, _⟩ := C86_step (by decide) 1 1 exRpn exLocal (fun _ => 7) exGeom.dx exGeom.dy dt (ne_of_gt exGeom.dxpos)
      (ne_of_gt exGeom.dypos) (fun _ => 1) _ (holds_view _ _) (exWaves5 q) _ (holds_viewWaves _ _) _ exCapa q _ (holds_view _ q) r r
      (SameRegs.refl r)
    exact ⟨q5, r5, e, by rw [s.el]; exact hr⟩
  have cons : ∀ q : Mem ℚ, Conservative exD exGeom exRpn (view exD q) (view (auxDims exD 1) fun _ => 1) (viewWaves exD (exWaves5 q)) exEl := by
    intro q
    rw [exWaves5_view]
    exact exConservative _ _
  obtain ⟨q1, r1, e1, h1⟩ := one q (Regs.empty (fun _ _ => 1 / 16) exEl) (1 / 16) rfl
  obtain ⟨q2, r2, e2, h2⟩ := one q1 r1 (1 / 8) h1
  exact ⟨q2, r2, .step q1 q1 q2 r1 r2 (1 / 8) (fun _ => 1) (exWaves5 q1) (fun _ => 7)
    (.step q q q1 _ r1 (1 / 16) (fun _ => 1) (exWaves5 q) (fun _ => 7) .start (fun _ _ _ _ _ => rfl) (cons q) exCapa e1)
    (fun _ _ _ _ _ => rfl) (by rw [h1]; exact cons q1) exCapa e2⟩

def lWorld5 : World5 := ⟨fun x p => x + (p % 8 : ℤ), fun _ => Regs.empty (fun _ _ => 1 / 16) exEl⟩

/-- The hypotheses of the other theorems hold for it; patch 0 makes two steps, and all levels are synchronised. -/
example : ∃ W B W', Sized exD ∧ Proper exD ∧ lMesh.Ok ∧ lMesh.patches.Nodup ∧ Linked exD lMesh lLinks ∧ LocalRpn exD 1 exRpn ∧
    Fresh5 exD lMesh (fun _ => exGeom) lWorld5 ∧ History5 exD 1 1 lMesh lLinks (fun _ => exGeom) exRpn 2 lWorld5 W B ∧
    Synced5 exD lMesh lLinks 1 2 W W' ∧ (∀ x ∈ lMesh.patches, 1 ≤ lMesh.level x ∧ lMesh.level x ≤ 2) ∧ comp exD 1 := by
  have hf : Fresh5 exD lMesh (fun _ => exGeom) lWorld5 := fun x _ => ⟨_, _, rfl, fun _ _ _ _ => rfl⟩
  have hp : Proper exD := by unfold Proper; decide
  have hl : ∀ x ∈ lMesh.patches, 1 ≤ lMesh.level x ∧ lMesh.level x ≤ 2 := by decide
  obtain ⟨q, r, h⟩ := exEvolves5 (lWorld5.q 0)
  have hh := History5.steps lWorld5 _ 0 q r (History5.start (d := exD) (maux := 1) (mcapa := 1) (M := lMesh) (L := lLinks)
    (G := fun _ => exGeom) (rpn := exRpn) (top := 2) (W0 := lWorld5)) (by decide) h
  obtain ⟨W', hW⟩ := (C86_progress exSized hp 1 1 lMesh lMesh_ok (by decide) lLinks lLinked (fun _ => exGeom) exRpn exLocal 2
    (fun x hx => (hl x hx).2) lWorld5 _ _ hf hh 1).2
  exact ⟨_, _, W', exSized, hp, lMesh_ok, by decide, lLinked, exLocal, hf, hh, hW, hl, by unfold comp; decide⟩

/-- Corrections that succeed, and a correction that fails in both layouts (one layer of ghost cells, C36). -/
example : (f2c5 exD exTd 1 (normalMatch 1 (-1)) (Regs.empty (fun _ _ => 1 / 16) exEl) (Regs.empty (fun _ _ => 1 / 16) exEl)
      (fun p => p)).isSome = true ∧
    f2c5 ⟨2, 2, 1, 1⟩ exTd 1 (normalMatch 1 (-1)) (Regs.empty (fun _ _ => 1) fun _ _ => 1)
      (Regs.empty (fun _ _ => 1) fun _ _ => 1) (fun _ => 0) = none := by
  refine ⟨by decide +kernel, ?_⟩
  exact (C86_f2c exTd 1 (normalMatch 1 (-1)) _ _ _ _ (SameRegs.refl _) (SameRegs.refl _) (fun _ => 0) (fun _ => 0)
    (fun _ _ => rfl)).1.2 C36_mbc1_counterexample

end Fclaw.Sync5

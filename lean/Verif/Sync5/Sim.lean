import Verif.Sync5.Refine
/-
Histories with Clawpack 5 are histories with Clawpack 4.6.
-/
set_option autoImplicit false
set_option linter.unusedSimpArgs false
set_option linter.unusedVariables false
namespace Fclaw.Sync5

open Fort CopyGhost Correction GhostFill TimeSync Conserve Layout

variable {d : Dims}

theorem holds_view (d : Dims) (q : Mem ℚ) : Holds d q (view d q) := fun _ _ => rfl

theorem holds_viewWaves (d : Dims) (w : Waves5) : HoldsWaves d w (viewWaves d w) :=
  ⟨fun _ _ => rfl, fun _ _ => rfl, fun _ _ => rfl, fun _ _ => rfl⟩

theorem step_same (hb : 1 ≤ d.mbc) (maux mcapa : Nat) (rpn : Rpn) (hl : LocalRpn d maux rpn) (junk : ℤ → ℚ) (dx dy dt : ℚ)
    (hx : dx ≠ 0) (hy : dy ≠ 0) (aux : Mem ℚ) (ga : Grid ℚ) (ha : Holds (auxDims d maux) aux ga) (w : Waves5) (gw : Waves)
    (hw : HoldsWaves d w gw) (capa : ℤ → ℤ → ℚ) (hc : CapaIs d maux mcapa ga capa) (q : Mem ℚ) (gq : Grid ℚ) (hq : Holds d q gq)
    (r r' : Regs) (h : SameRegs d r r') :
    ∃ q5 r5, step5 d maux mcapa junk rpn dx dy dt aux w q r = some (q5, r5) ∧
      Holds d q5 (step d rpn dx dy dt capa ga gw gq r').1 ∧ SameRegs d r5 (step d rpn dx dy dt capa ga gw gq r').2 ∧
      (∀ p, ¬ (0 ≤ p ∧ p < size d) → q5 p = q p) ∧ ∀ x, ¬ Exists d x → value r5 x = value r x := by
  obtain ⟨r1, e1, s1, o1⟩ := store_same hb maux (read5 d q) (read5 (auxDims d maux) aux) gq ga (reads5 d q gq hq) (reads5 _ aux ga ha)
    junk rpn hl dt r r' h
  obtain ⟨q1, e2, s2, o2⟩ := update_same hb maux mcapa dx dy dt hx hy aux ga ha w gw hw capa hc q gq hq
  obtain ⟨r2, e3, s3, o3⟩ := accumulate_same hb dx dy dt _ _ _ _ gw (reads5 d _ _ hw.fp) (reads5 d _ _ hw.fm) (reads5 d _ _ hw.gp)
    (reads5 d _ _ hw.gm) r1 _ s1
  refine ⟨q1, r2, ?_, s2, s3, o2, fun x hx => by rw [o3 x hx, o1 x hx]⟩
  unfold step5
  simp only [e1, Option.bind_eq_bind, Option.bind_some, e2, e3]

/-! ### Steps -/

theorem interior_box {i j m : ℤ} (h : interior d i j) (hm : comp d m) : inBox d (i, j, m) = true := by
  unfold interior at h
  unfold comp at hm
  rw [inBox_iff]; omega

theorem evolves_sim (hb : 1 ≤ d.mbc) (maux mcapa : Nat) (G : Geom d) (rpn : Rpn) (hl : LocalRpn d maux rpn) (q0 q : Mem ℚ)
    (r0 r : Regs) (g0 : Grid ℚ) (R0 : Regs) (hq : Holds d q0 g0) (hr : SameRegs d r0 R0)
    (h : Evolves5 d maux mcapa G rpn q0 r0 q r) :
    ∃ g R, Evolves d G rpn g0 R0 g R ∧ Holds d q g ∧ SameRegs d r R := by
  induction h with
  | start => exact ⟨g0, R0, .start, hq, hr⟩
  | step q q' q'' r r'' dt aux w junk _ hint hcons hcapa hstep ih =>
    obtain ⟨g, R, hev, hh, hs⟩ := ih
    classical
    let g' : Grid ℚ := fun c => if interior d c.1 c.2.1 ∧ ¬ comp d c.2.2 then g c else view d q' c
    have e1 : ∀ i j m, interior d i j → g' (i, j, m) = g (i, j, m) := by
      intro i j m hij
      by_cases hm : comp d m
      · show (if interior d i j ∧ ¬ comp d m then _ else _) = _
        rw [if_neg (by simp [hm])]
        show q' (pos5 d (i, j, m)) = _
        rw [hint i j m hij hm, hh _ (interior_box hij hm)]
      · show (if interior d i j ∧ ¬ comp d m then _ else _) = _
        rw [if_pos ⟨hij, hm⟩]
    have e2 : ∀ i j m, comp d m → g' (i, j, m) = view d q' (i, j, m) := by
      intro i j m hm
      show (if interior d i j ∧ ¬ comp d m then _ else _) = _
      rw [if_neg (by simp [hm])]
    have hh' : Holds d q' g' := by
      rintro ⟨i, j, m⟩ hbx
      rw [e2 i j m (by rw [inBox_iff] at hbx; exact hbx.2.2)]
      rfl
    have key : ∀ (idir iface : Nat) (i j : ℤ) (a e : ℤ → ℚ) (m : ℤ), comp d m →
        rpn idir iface (vec (view d q') i j) a e m = rpn idir iface (vec g' i j) a e m := by
      intro idir iface i j a e m hm
      exact hl idir iface _ _ _ _ _ _ m (fun m hm => (e2 i j m hm).symm) (fun _ _ _ => rfl) (fun _ _ _ => rfl) hm
    have hcons' : Conservative d G rpn g' (view (auxDims d maux) aux) (viewWaves d w) R.el := by
      obtain ⟨φ, hφ⟩ := hcons.fluxes
      rw [hs.el] at hφ
      refine ⟨φ, fun m hm => ?_⟩
      obtain ⟨a1, a2, a3, a4, a5⟩ := hφ m hm
      refine ⟨a1, a2, a3, ?_, ?_⟩
      · intro j h1 h2
        have := a4 j h1 h2
        simp only [key _ _ _ _ _ _ m hm] at this
        exact this
      · intro i h1 h2
        have := a5 i h1 h2
        simp only [key _ _ _ _ _ _ m hm] at this
        exact this
    obtain ⟨q5, r5, e, s1, s2, _⟩ := step_same hb maux mcapa rpn hl junk G.dx G.dy dt (ne_of_gt G.dxpos) (ne_of_gt G.dypos) aux _
      (holds_view _ aux) w _ (holds_viewWaves d w) G.capa hcapa q' g' hh' r R hs
    rw [e] at hstep
    injection hstep with hstep
    injection hstep with e3 e4
    subst e3 e4
    exact ⟨_, _, .step g g' R dt _ _ hev e1 hcons', s1, s2⟩

/-! ### Histories -/

structure SameW (d : Dims) (M : Mesh) (W : World5) (V : World) : Prop where
  q : ∀ x ∈ M.patches, Holds d (W.q x) (V.q x)
  r : ∀ x ∈ M.patches, SameRegs d (W.r x) (V.r x)

theorem gainFace_same {r r' : Regs} (h : SameRegs d r r') (f : Nat) (hf : f < 4) (m : ℤ) (hm : comp d m) :
    gainFace d r f m = gainFace d r' f m := by
  unfold gainFace
  refine Finset.sum_congr rfl fun t ht => ?_
  rw [mem_upTo] at ht
  have hlen : f / 2 = 0 → len d f = d.my := fun h => by unfold len; rw [if_pos h]
  have hlen' : ¬ f / 2 = 0 → len d f = d.mx := fun h => by unfold len; rw [if_neg h]
  have e1 : r.ef f t m 0 = r'.ef f t m 0 := h.value (.ef f t m 0) ⟨hf, ht, hm, Or.inl rfl⟩
  have e2 : plus r f t m = plus r' f t m := by
    unfold plus
    split
    · rename_i hh
      exact h.value (.fp (f % 2) t m) ⟨by omega, by rw [← hlen hh]; exact ht, hm⟩
    · rename_i hh
      exact h.value (.gp (f % 2) t m) ⟨by omega, by rw [← hlen' hh]; exact ht, hm⟩
  have e3 : minus r f t m = minus r' f t m := by
    unfold minus
    split
    · rename_i hh
      exact h.value (.fm (f % 2) t m) ⟨by omega, by rw [← hlen hh]; exact ht, hm⟩
    · rename_i hh
      exact h.value (.gm (f % 2) t m) ⟨by omega, by rw [← hlen' hh]; exact ht, hm⟩
  unfold gain
  rw [e1, e2, e3]

theorem inflow_same (M : Mesh) (x : Nat) {r r' : Regs} (h : SameRegs d r r') (m : ℤ) (hm : comp d m) :
    inflow (d := d) M x r m = inflow (d := d) M x r' m := by
  unfold inflow
  refine Finset.sum_congr rfl fun f hf => gainFace_same h f ?_ m hm
  rw [Finset.mem_filter, Finset.mem_range] at hf
  exact hf.1

theorem pending_same (M : Mesh) {W : World5} {V : World} (h : SameW d M W V) (m : ℤ) (hm : comp d m) :
    pending5 d M W m = pending d M V m := by
  unfold pending5 pending
  refine Finset.sum_congr rfl fun x hx => Finset.sum_congr rfl fun f hf => gainFace_same (h.r x (List.mem_toFinset.1 hx)) f ?_ m hm
  rw [Finset.mem_filter, Finset.mem_range] at hf
  exact hf.1

theorem mass_same (M : Mesh) (G : Nat → Geom d) {W : World5} {V : World} (h : SameW d M W V) (m : ℤ) (hm : comp d m) :
    totalMass5 M G W m = totalMass M G V m := by
  unfold totalMass5 totalMass Correction.mass
  refine Finset.sum_congr rfl fun x hx => Finset.sum_congr rfl fun i hi => Finset.sum_congr rfl fun j hj => ?_
  rw [mem_upTo] at hi hj
  rw [h.q x (List.mem_toFinset.1 hx) (i, j, m) (interior_box ⟨hi.1, hi.2, hj.1, hj.2⟩ hm)]

/-- Related states of a process at the beginning of a synchronisation. -/
theorem start_sync (M : Mesh) (p : Nat) {W : World5} {V : World} (h : SameW d M W V) (s : PState5)
    (hs : ∀ x, Has M p x → s.reg x = W.r x) (hq : ∀ x ∈ M.patches, M.owner x = p → s.q x = W.q x) :
    ∃ t : PState, SameP d s t ∧ (∀ x, Has M p x → t.reg x = V.r x) ∧ ∀ x ∈ M.patches, M.owner x = p → t.q x = V.q x := by
  classical
  refine ⟨⟨fun x => if Has M p x then V.r x else s.reg x, fun x => if x ∈ M.patches ∧ M.owner x = p then V.q x else view d (s.q x)⟩,
    ⟨fun x => ?_, fun x => ?_⟩, fun x hx => if_pos hx, fun x h1 h2 => if_pos ⟨h1, h2⟩⟩
  · by_cases hx : Has M p x
    · simp only [hx, if_true]
      rw [hs x hx]
      exact h.r x hx.1
    · simp only [hx, if_false]
      exact SameRegs.refl _
  · by_cases hx : x ∈ M.patches ∧ M.owner x = p
    · simp only [hx, if_true, and_self]
      rw [hq x hx.1 hx.2]
      exact h.q x hx.1
    · show Holds d (s.q x) (if x ∈ M.patches ∧ M.owner x = p then V.q x else view d (s.q x))
      rw [if_neg hx]
      exact holds_view d _

theorem synced_sim (M : Mesh) (L : Links) (minl top : Int) {W W' : World5} {V : World} (h : SameW d M W V)
    (hs : Synced5 d M L minl top W W') : ∃ V', Synced d M L minl top V V' ∧ SameW d M W' V' := by
  have : ∀ p, ∃ s s' t t', (∀ x ∈ M.patches, M.owner x = p → W'.q x = PState5.q s' x ∧ W'.r x = PState5.reg s' x) ∧
      SameP d s' t' ∧ (∀ x, Has M p x → PState.reg t x = V.r x) ∧ (∀ x ∈ M.patches, M.owner x = p → PState.q t x = V.q x) ∧
      syncProcess d M L p minl top t = some t' ∧ syncProcess5 d M L p minl top s = some s' := by
    intro p
    obtain ⟨s, s', h1, h2, h3, h4⟩ := hs.each p
    obtain ⟨t, ht, k1, k2⟩ := start_sync M p h s h1 h2
    have k := actAll_rel M L (timeSync M p minl top) ht
    unfold syncProcess5 at h3
    rw [h3] at k
    cases e : actAll d M L t (timeSync M p minl top) with
    | none => rw [e] at k; exact k.elim
    | some t' =>
      rw [e] at k
      exact ⟨s, s', t, t', h4, k, k1, k2, e, h3⟩
  choose s s' t t' a1 a2 a3 a4 a5 a6 using this
  refine ⟨⟨fun x => (t' (M.owner x)).q x, fun x => (t' (M.owner x)).reg x⟩,
    ⟨fun p => ⟨t p, t' p, a3 p, a4 p, a5 p, ?_⟩⟩, ⟨?_, ?_⟩⟩
  · rintro x hx rfl
    exact ⟨rfl, rfl⟩
  · intro x hx
    rw [(a1 (M.owner x) x hx rfl).1]
    exact (a2 (M.owner x)).q x
  · intro x hx
    rw [(a1 (M.owner x) x hx rfl).2]
    exact (a2 (M.owner x)).reg x

theorem history_sim (hb : 1 ≤ d.mbc) (maux mcapa : Nat) (M : Mesh) (L : Links) (G : Nat → Geom d) (rpn : Rpn)
    (hl : LocalRpn d maux rpn) (top : Int) (W0 W : World5) (B : ℤ → ℚ) (V0 : World) (h0 : SameW d M W0 V0)
    (h : History5 d maux mcapa M L G rpn top W0 W B) :
    ∃ V B', History d M L G rpn top V0 V B' ∧ SameW d M W V ∧ ∀ m, comp d m → B m = B' m := by
  induction h with
  | start => exact ⟨V0, _, .start, h0, fun _ _ => rfl⟩
  | steps W B x q r _ hx hev ih =>
    obtain ⟨V, B', hV, hW, hB⟩ := ih
    obtain ⟨g, R, hev', hq, hr⟩ := evolves_sim hb maux mcapa (G x) rpn hl _ _ _ _ _ _ (hW.q x hx) (hW.r x hx) hev
    refine ⟨_, _, .steps V B' x g R hV hx hev', ⟨?_, ?_⟩, ?_⟩
    · intro z hz
      by_cases e : z = x
      · simp only [World5.set, World.set, e, if_true]; exact hq
      · simp only [World5.set, World.set, e, if_false]; exact hW.q z hz
    · intro z hz
      by_cases e : z = x
      · simp only [World5.set, World.set, e, if_true]; exact hr
      · simp only [World5.set, World.set, e, if_false]; exact hW.r z hz
    · intro m hm
      show B m + _ = _
      rw [hB m hm, inflow_same M x hr m hm, inflow_same M x (hW.r x hx) m hm]
  | sync W W' B minl _ hs ih =>
    obtain ⟨V, B', hV, hW, hB⟩ := ih
    obtain ⟨V', k1, k2⟩ := synced_sim M L minl top hW hs
    exact ⟨V', B', .sync V V' B' minl hV k1, k2, hB⟩

/-- A history of the other solver that starts in the same state. -/
def begin46 (d : Dims) (W : World5) : World := ⟨fun x => view d (W.q x), W.r⟩

theorem begin_same (M : Mesh) (W : World5) : SameW d M W (begin46 d W) :=
  ⟨fun _ _ => holds_view d _, fun _ _ => SameRegs.refl _⟩

end Fclaw.Sync5

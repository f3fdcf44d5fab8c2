import Verif.Wave.Spec
import Mathlib.Tactic.Ring
import Mathlib.Tactic.SplitIfs
import Mathlib.Tactic.LinearCombination
import Mathlib.Algebra.BigOperators.Ring.Finset
/-
What follows from the formula: it is local, it leaves constants alone, and it has the form of differences of
fluxes.
-/
set_option autoImplicit false
namespace Fclaw.Wave

variable (S : Scheme) {F F' : Field}

/-! ### The formula is local -/

/-- The data of `F` in some cells is that of `F'` in the cells that are `da` further along and `db` further
across. -/
structure Agree (F F' : Field) (dir : Nat) (da db a0 a1 b0 b1 : ℤ) : Prop where
  val : ∀ a b, a0 ≤ a → a ≤ a1 → b0 ≤ b → b ≤ b1 → F.val dir a b = F'.val dir (a + da) (b + db)
  aux : ∀ a b, a0 ≤ a → a ≤ a1 → b0 ≤ b → b ≤ b1 → F.auxAt dir a b = F'.auxAt dir (a + da) (b + db)
  cap : ∀ a b, a0 ≤ a → a ≤ a1 → b0 ≤ b → b ≤ b1 → F.capAt dir a b = F'.capAt dir (a + da) (b + db)

variable {S} {dir : Nat} {da db a0 a1 b0 b1 a b : ℤ}

structure EdgeSame (S : Scheme) (F F' : Field) (dir : Nat) (a b a' b' : ℤ) : Prop where
  wave : wave S F dir a b = wave S F' dir a' b'
  speed : speed S F dir a b = speed S F' dir a' b'
  left : left S F dir a b = left S F' dir a' b'
  right : right S F dir a b = right S F' dir a' b'

theorem Agree.edge (h : Agree F F' dir da db a0 a1 b0 b1) (ha : a0 ≤ a - 1) (ha' : a ≤ a1) (hb : b0 ≤ b) (hb' : b ≤ b1) :
    EdgeSame S F F' dir a b (a + da) (b + db) := by
  have e : a + da - 1 = a - 1 + da := by omega
  have v1 := h.val (a - 1) b ha (by omega) hb hb'
  have v2 := h.val a b (by omega) ha' hb hb'
  have x1 := h.aux (a - 1) b ha (by omega) hb hb'
  have x2 := h.aux a b (by omega) ha' hb hb'
  constructor
  · funext w m; simp only [wave, e, v1, v2, x1, x2]
  · funext w; simp only [speed, e, v1, v2, x1, x2]
  · funext m; simp only [left, e, v1, v2, x1, x2]
  · funext m; simp only [right, e, v1, v2, x1, x2]

theorem Agree.lam (h : Agree F F' dir da db a0 a1 b0 b1) (ha : a0 ≤ a) (ha' : a ≤ a1) (hb : b0 ≤ b) (hb' : b ≤ b1) :
    lam S F dir a b = lam S F' dir (a + da) (b + db) := by
  unfold Wave.lam
  rw [h.cap a b ha ha' hb hb']

theorem Agree.limited (h : Agree F F' dir da db a0 a1 b0 b1) (ha : a0 ≤ a - 2) (ha' : a + 1 ≤ a1) (hb : b0 ≤ b) (hb' : b ≤ b1) :
    limitedWave S F dir a b = limitedWave S F' dir (a + da) (b + db) := by
  have h0 := h.edge (S := S) (a := a) (by omega) (by omega) hb hb'
  have h1 := h.edge (S := S) (a := a - 1) (by omega) (by omega) hb hb'
  have h2 := h.edge (S := S) (a := a + 1) (by omega) (by omega) hb hb'
  have e1 : a + da - 1 = a - 1 + da := by omega
  have e2 : a + da + 1 = a + 1 + da := by omega
  have hu : ∀ w, wave S F dir (upwind S F dir a b w) b = wave S F' dir (upwind S F' dir (a + da) (b + db) w) (b + db) := by
    intro w
    unfold upwind
    rw [← h0.speed]
    by_cases hs : 0 < speed S F dir a b w
    · rw [if_pos hs, if_pos hs, e1, h1.wave]
    · rw [if_neg hs, if_neg hs, e2, h2.wave]
  funext w m
  simp only [limitedWave, jumpRatio, hu, h0.wave]

theorem Agree.corr (h : Agree F F' dir da db a0 a1 b0 b1) (ha : a0 ≤ a - 2) (ha' : a + 1 ≤ a1) (hb : b0 ≤ b) (hb' : b ≤ b1) :
    corr S F dir a b = corr S F' dir (a + da) (b + db) := by
  have h0 := h.edge (S := S) (a := a) (by omega) (by omega) hb hb'
  have e1 : a + da - 1 = a - 1 + da := by omega
  funext m
  simp only [Wave.corr, h0.speed, h.limited ha ha' hb hb', e1, ← h.lam (S := S) (a := a - 1) (b := b) (by omega) (by omega) hb hb',
    ← h.lam (S := S) (a := a) (b := b) (by omega) (by omega) hb hb']

theorem Agree.secondOrder (h : Agree F F' dir da db a0 a1 b0 b1) (ha : a0 ≤ a - 2) (ha' : a + 1 ≤ a1) (hb : b0 ≤ b) (hb' : b ≤ b1)
    (m : ℤ) : secondOrder S F dir a b m = secondOrder S F' dir (a + da) (b + db) m := by
  unfold Wave.secondOrder
  rw [h.corr ha ha' hb hb']

theorem Agree.splits (h : Agree F F' dir da db a0 a1 b0 b1) (ha : a0 ≤ a - 2) (ha' : a + 1 ≤ a1) (hb : b0 ≤ b) (hb' : b ≤ b1) :
    leftSplit S F dir a b = leftSplit S F' dir (a + da) (b + db) ∧ rightSplit S F dir a b = rightSplit S F' dir (a + da) (b + db) := by
  have h0 := h.edge (S := S) (a := a) (by omega) (by omega) hb hb'
  constructor
  · funext m; simp only [leftSplit, h0.left, h.corr ha ha' hb hb']
  · funext m; simp only [rightSplit, h0.right, h.corr ha ha' hb hb']

theorem Agree.auxes (h : Agree F F' dir da db a0 a1 b0 b1) (ha : a0 ≤ a) (ha' : a ≤ a1) (hb : b0 ≤ b - 1) (hb' : b + 1 ≤ b1) :
    auxes F dir a b = auxes F' dir (a + da) (b + db) := by
  funext k
  unfold Wave.auxes
  split_ifs
  · rw [h.aux a (b - 1) ha ha' (by omega) (by omega), show b + db - 1 = b - 1 + db by omega]
  · rw [h.aux a b ha ha' (by omega) (by omega)]
  · rw [h.aux a (b + 1) ha ha' (by omega) (by omega), show b + db + 1 = b + 1 + db by omega]

theorem Agree.split (h : Agree F F' dir da db a0 a1 b0 b1) (ha : a0 ≤ a - 1) (ha' : a ≤ a1) (hb : b0 ≤ b - 1) (hb' : b + 1 ≤ b1)
    (up : Bool) (ilr : Nat) (dq : Vec) : split S F dir a b up ilr dq = split S F' dir (a + da) (b + db) up ilr dq := by
  funext m
  unfold Wave.split
  rw [h.val (a - 1) b ha (by omega) (by omega) (by omega), h.val a b (by omega) ha' (by omega) (by omega),
    h.auxes (a := a - 1) ha (by omega) hb hb', h.auxes (a := a) (by omega) ha' hb hb', show a + da - 1 = a - 1 + da by omega]

theorem Agree.spill (h : Agree F F' dir da db a0 a1 b0 b1) (hlag : 0 ≤ S.lag ∧ S.lag ≤ 1) (ha : a0 ≤ a - 2) (ha' : a + 2 ≤ a1)
    (hb : b0 ≤ b - 1) (hb' : b + 1 ≤ b1) (up : Bool) (m : ℤ) :
    spill S F dir a b up m = spill S F' dir (a + da) (b + db) up m := by
  unfold Wave.spill
  rw [h.lam (a := a) (by omega) (by omega) (by omega) (by omega), h.lam (a := a - S.lag) (by omega) (by omega) (by omega) (by omega),
    (h.splits (a := a + 1) (by omega) (by omega) (by omega) (by omega)).1,
    (h.splits (a := a) (by omega) (by omega) (by omega) (by omega)).2,
    h.split (a := a + 1) (by omega) (by omega) hb hb', h.split (a := a) (by omega) (by omega) hb hb',
    show a + da + 1 = a + 1 + da by omega, show a + da - S.lag = a - S.lag + da by omega]

theorem Agree.fluxes (h : Agree F F' dir da db a0 a1 b0 b1) (ht : Agree F F' (3 - dir) db da b0 b1 a0 a1)
    (hlag : 0 ≤ S.lag ∧ S.lag ≤ 1) (ha : a0 ≤ a - 2) (ha' : a + 1 ≤ a1) (hb : b0 ≤ b - 2) (hb' : b + 2 ≤ b1) (m : ℤ) :
    fluxMinus S F dir a b m = fluxMinus S F' dir (a + da) (b + db) m ∧ fluxPlus S F dir a b m = fluxPlus S F' dir (a + da) (b + db) m := by
  have h0 := h.edge (S := S) (a := a) (b := b) (by omega) (by omega) (by omega) (by omega)
  have t : transverse S F dir a b m = transverse S F' dir (a + da) (b + db) m := by
    unfold transverse
    rw [ht.spill hlag (a := b) (b := a) hb hb' (by omega) ha', ht.spill hlag (a := b) (b := a - 1) hb hb' (by omega) (by omega),
      show a + da - 1 = a - 1 + da by omega]
  have s := h.secondOrder (S := S) (a := a) (b := b) ha ha' (by omega) (by omega) m
  unfold fluxMinus fluxPlus
  rw [t, s, h0.left, h0.right]
  exact ⟨rfl, rfl⟩

/-- The fields are the same in the five by five cells around `(i, j)` and `(i + di, j + dj)`. -/
def SameAround (F F' : Field) (i j di dj : ℤ) : Prop :=
  ∀ x y, i - 2 ≤ x → x ≤ i + 2 → j - 2 ≤ y → y ≤ j + 2 →
    (∀ dir, dir = 1 ∨ dir = 2 → F.Q dir x y = F'.Q dir (x + di) (y + dj)) ∧ F.A x y = F'.A (x + di) (y + dj) ∧
      F.cap x y = F'.cap (x + di) (y + dj)

theorem newValue_local (hlag : 0 ≤ S.lag ∧ S.lag ≤ 1) {i j di dj : ℤ} (h : SameAround F F' i j di dj) (m : ℤ) :
    newValue S F i j m = newValue S F' (i + di) (j + dj) m := by
  have h1 : Agree F F' 1 di dj (i - 2) (i + 2) (j - 2) (j + 2) :=
    ⟨fun a b x1 x2 x3 x4 => (h a b x1 x2 x3 x4).1 1 (Or.inl rfl), fun a b x1 x2 x3 x4 => (h a b x1 x2 x3 x4).2.1,
      fun a b x1 x2 x3 x4 => (h a b x1 x2 x3 x4).2.2⟩
  have h2 : Agree F F' 2 dj di (j - 2) (j + 2) (i - 2) (i + 2) :=
    ⟨fun a b x1 x2 x3 x4 => (h b a x3 x4 x1 x2).1 2 (Or.inr rfl), fun a b x1 x2 x3 x4 => (h b a x3 x4 x1 x2).2.1,
      fun a b x1 x2 x3 x4 => (h b a x3 x4 x1 x2).2.2⟩
  have c := h i j (by omega) (by omega) (by omega) (by omega)
  unfold newValue
  rw [(h1.fluxes h2 hlag (a := i + 1) (b := j) (by omega) (by omega) (by omega) (by omega) m).1,
    (h1.fluxes h2 hlag (a := i) (b := j) (by omega) (by omega) (by omega) (by omega) m).2,
    (h2.fluxes h1 hlag (a := j + 1) (b := i) (by omega) (by omega) (by omega) (by omega) m).1,
    (h2.fluxes h1 hlag (a := j) (b := i) (by omega) (by omega) (by omega) (by omega) m).2,
    c.1 1 (Or.inl rfl), c.2.2, show i + 1 + di = i + di + 1 by omega, show j + 1 + dj = j + dj + 1 by omega]

/-! ### Constants -/

/-- Without a jump there are no waves, and nothing is split into nothing. -/
structure Quiet (R : Solver) (u : Vec) : Prop where
  wave : ∀ dir al ar w m, R.wave dir u u al ar w m = 0
  left : ∀ dir al ar m, R.amdq dir u u al ar m = 0
  right : ∀ dir al ar m, R.apdq dir u u al ar m = 0
  down : ∀ dir ilr xl xr m, R.down dir ilr u u xl xr (fun _ => 0) m = 0
  up : ∀ dir ilr xl xr m, R.up dir ilr u u xl xr (fun _ => 0) m = 0

section
variable {u : Vec} (hR : Quiet S.R u)
include hR

theorem quiet_edge (h1 : F.val dir (a - 1) b = u) (h2 : F.val dir a b = u) :
    (∀ w m, wave S F dir a b w m = 0) ∧ (∀ m, left S F dir a b m = 0) ∧ ∀ m, right S F dir a b m = 0 := by
  refine ⟨fun w m => ?_, fun m => ?_, fun m => ?_⟩
  · unfold wave; rw [h1, h2]; exact hR.wave ..
  · unfold left; rw [h1, h2]; exact hR.left ..
  · unfold right; rw [h1, h2]; exact hR.right ..

theorem quiet_corr (h1 : F.val dir (a - 1) b = u) (h2 : F.val dir a b = u) (m : ℤ) : corr S F dir a b m = 0 := by
  obtain ⟨hw, _, _⟩ := quiet_edge hR h1 h2
  unfold corr
  refine Finset.sum_eq_zero fun w _ => ?_
  have : limitedWave S F dir a b w m = 0 := by
    unfold limitedWave
    rw [hw]
    split_ifs <;> simp
  rw [this, mul_zero]

theorem quiet_spill (h0 : F.val dir (a - 1) b = u) (h1 : F.val dir a b = u) (h2 : F.val dir (a + 1) b = u) (up : Bool) (m : ℤ) :
    spill S F dir a b up m = 0 := by
  have h1' : F.val dir (a + 1 - 1) b = u := by rw [add_sub_cancel_right]; exact h1
  have e1 : ∀ dq : Vec, (∀ m, dq m = 0) → comps S.meqn dq = fun _ => 0 := fun dq h => by
    funext m; unfold comps; rw [h, ite_self]
  obtain ⟨_, l1, _⟩ := quiet_edge hR h1' h2
  obtain ⟨_, _, r0⟩ := quiet_edge hR h0 h1
  have s1 : split S F dir (a + 1) b up 1 (leftSplit S F dir (a + 1) b) m = 0 := by
    unfold split
    rw [e1 _ (fun m => by unfold leftSplit; rw [l1, quiet_corr hR h1' h2]; simp), h1', h2]
    cases up
    · exact hR.down ..
    · exact hR.up ..
  have s2 : split S F dir a b up 2 (rightSplit S F dir a b) m = 0 := by
    unfold split
    rw [e1 _ (fun m => by unfold rightSplit; rw [r0, quiet_corr hR h0 h1]; simp), h0, h1]
    cases up
    · exact hR.down ..
    · exact hR.up ..
  unfold spill
  rw [s1, s2]
  ring

/-- Constants stay. -/
theorem newValue_constant {i j : ℤ} (h : ∀ dir, dir = 1 ∨ dir = 2 → ∀ x y, i - 1 ≤ x → x ≤ i + 1 → j - 1 ≤ y → y ≤ j + 1 → F.Q dir x y = u)
    (m : ℤ) : newValue S F i j m = u m := by
  have v1 : ∀ x y, i - 1 ≤ x → x ≤ i + 1 → j - 1 ≤ y → y ≤ j + 1 → F.val 1 x y = u := h 1 (Or.inl rfl)
  have v2 : ∀ x y, i - 1 ≤ x → x ≤ i + 1 → j - 1 ≤ y → y ≤ j + 1 → F.val 2 y x = u := h 2 (Or.inr rfl)
  have t1 : ∀ a, i ≤ a → a ≤ i + 1 → fluxMinus S F 1 a j m = 0 ∧ fluxPlus S F 1 a j m = 0 := by
    intro a h1 h2
    have w0 := v1 (a - 1) j (by omega) (by omega) (by omega) (by omega)
    have w1 := v1 a j (by omega) (by omega) (by omega) (by omega)
    obtain ⟨_, l, r⟩ := quiet_edge hR w0 w1
    have s : secondOrder S F 1 a j m = 0 := by unfold secondOrder; rw [quiet_corr hR w0 w1]; simp
    have t : transverse S F 1 a j m = 0 := by
      show (if 0 < S.trans then spill S F 2 j a false m + spill S F 2 j (a - 1) true m else 0) = 0
      rw [quiet_spill hR (v2 a (j - 1) (by omega) (by omega) (by omega) (by omega)) (v2 a j (by omega) (by omega) (by omega) (by omega))
        (v2 a (j + 1) (by omega) (by omega) (by omega) (by omega)),
        quiet_spill hR (v2 (a - 1) (j - 1) (by omega) (by omega) (by omega) (by omega)) (v2 (a - 1) j (by omega) (by omega) (by omega) (by omega))
        (v2 (a - 1) (j + 1) (by omega) (by omega) (by omega) (by omega))]
      simp
    unfold fluxMinus fluxPlus
    rw [l, r, s, t]
    simp
  have t2 : ∀ a, j ≤ a → a ≤ j + 1 → fluxMinus S F 2 a i m = 0 ∧ fluxPlus S F 2 a i m = 0 := by
    intro a h1 h2
    have w0 := v2 i (a - 1) (by omega) (by omega) (by omega) (by omega)
    have w1 := v2 i a (by omega) (by omega) (by omega) (by omega)
    obtain ⟨_, l, r⟩ := quiet_edge hR w0 w1
    have s : secondOrder S F 2 a i m = 0 := by unfold secondOrder; rw [quiet_corr hR w0 w1]; simp
    have t : transverse S F 2 a i m = 0 := by
      show (if 0 < S.trans then spill S F 1 i a false m + spill S F 1 i (a - 1) true m else 0) = 0
      rw [quiet_spill hR (v1 (i - 1) a (by omega) (by omega) (by omega) (by omega)) (v1 i a (by omega) (by omega) (by omega) (by omega))
        (v1 (i + 1) a (by omega) (by omega) (by omega) (by omega)),
        quiet_spill hR (v1 (i - 1) (a - 1) (by omega) (by omega) (by omega) (by omega)) (v1 i (a - 1) (by omega) (by omega) (by omega) (by omega))
        (v1 (i + 1) (a - 1) (by omega) (by omega) (by omega) (by omega))]
      simp
    unfold fluxMinus fluxPlus
    rw [l, r, s, t]
    simp
  unfold newValue
  rw [(t1 (i + 1) (by omega) (by omega)).1, (t1 i (by omega) (by omega)).2, (t2 (j + 1) (by omega) (by omega)).1, (t2 j (by omega) (by omega)).2,
    h 1 (Or.inl rfl) i j (by omega) (by omega) (by omega) (by omega)]
  ring

end

/-! ### Fluxes -/

/-- The solver is conservative: the fluctuations add up to the difference of the flux function `f`. -/
def ConservativeSolver (R : Solver) (n : Nat) (f : Nat → Vec → Vec) : Prop :=
  ∀ dir, dir = 1 ∨ dir = 2 → ∀ ql qr al ar m, 1 ≤ m → m ≤ (n : ℤ) → R.amdq dir ql qr al ar m + R.apdq dir ql qr al ar m = f dir qr m - f dir ql m

/-- The flux through edge `a`. -/
def edgeFlux (S : Scheme) (F : Field) (f : Nat → Vec → Vec) (dir : Nat) (a b m : ℤ) : ℚ :=
  f dir (F.val dir (a - 1) b) m + fluxMinus S F dir a b m

/-- From both sides it is the same. -/
theorem edgeFlux_right {f : Nat → Vec → Vec} (hR : ConservativeSolver S.R S.meqn f) (hdir : dir = 1 ∨ dir = 2) (m : ℤ) (hm : 1 ≤ m ∧ m ≤ (S.meqn : ℤ)) :
    edgeFlux S F f dir a b m = f dir (F.val dir a b) m + fluxPlus S F dir a b m := by
  have : left S F dir a b m + right S F dir a b m = f dir (F.val dir a b) m - f dir (F.val dir (a - 1) b) m := hR dir hdir _ _ _ _ m hm.1 hm.2
  unfold edgeFlux fluxMinus fluxPlus
  linear_combination this

theorem newValue_flux {f : Nat → Vec → Vec} (hR : ConservativeSolver S.R S.meqn f) {i j m : ℤ} (hm : 1 ≤ m ∧ m ≤ (S.meqn : ℤ)) :
    newValue S F i j m = F.Q 1 i j m - (S.ratio 1 * (edgeFlux S F f 1 (i + 1) j m - edgeFlux S F f 1 i j m) +
      S.ratio 2 * (edgeFlux S F f 2 (j + 1) i m - edgeFlux S F f 2 j i m)) / F.cap i j := by
  rw [edgeFlux_right hR (Or.inl rfl) (a := i) m hm, edgeFlux_right hR (Or.inr rfl) (a := j) m hm]
  unfold newValue edgeFlux
  rw [add_sub_cancel_right, add_sub_cancel_right]
  congr 2
  ring

end Fclaw.Wave

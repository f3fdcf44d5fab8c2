import Verif.Wave3.Stencil
import Mathlib.Tactic.LinearCombination
/-
Consequences of the formula: rotation and exchange of axes, constants, conservation, and where the quirks do not matter.
-/
set_option autoImplicit false
set_option linter.unusedSimpArgs false
set_option linter.unusedVariables false
namespace Fclaw.Wave3

open Wave (Vec comps dot phi)

/-! ### Rotation -/

/-- The axes x, y, z get the names z, x, y. -/
def Solver.rot (R : Solver) : Solver :=
  { wave := fun d => R.wave d.next, s := fun d => R.s d.next, amdq := fun d => R.amdq d.next, apdq := fun d => R.apdq d.next
    down := fun d => R.down d.next, up := fun d => R.up d.next, down2 := fun d => R.down2 d.next, up2 := fun d => R.up2 d.next }

def Scheme.rot (S : Scheme) : Scheme := { S with R := S.R.rot, ratio := fun d => S.ratio d.next }

def Field.rot (F : Field) : Field :=
  { Q := fun d i j k => F.Q d.next k i j, A := fun i j k => F.A k i j, cap := fun i j k => F.cap k i j }

section
variable (S : Scheme) (F : Field) (d : Dir) (a b c : ℤ)

theorem val_rot : F.rot.val d a b c = F.val d.next a b c := by cases d <;> rfl
theorem auxAt_rot : F.rot.auxAt d a b c = F.auxAt d.next a b c := by cases d <;> rfl
theorem lam_rot (t : Nat) : lam S.rot F.rot d a b c t = lam S F d.next a b c t := by
  rcases t with _ | _ | t <;> cases d <;> rfl

theorem wave_rot : wave S.rot F.rot d a b c = wave S F d.next a b c := by
  funext w m; unfold wave; simp only [val_rot, auxAt_rot]; rfl
theorem speed_rot : speed S.rot F.rot d a b c = speed S F d.next a b c := by
  funext w; unfold speed; simp only [val_rot, auxAt_rot]; rfl
theorem left_rot : left S.rot F.rot d a b c = left S F d.next a b c := by
  funext w; unfold left; simp only [val_rot, auxAt_rot]; rfl
theorem right_rot : right S.rot F.rot d a b c = right S F d.next a b c := by
  funext w; unfold right; simp only [val_rot, auxAt_rot]; rfl
theorem limitedWave_rot : limitedWave S.rot F.rot d a b c = limitedWave S F d.next a b c := by
  funext w m; unfold limitedWave jumpRatio upwind; simp only [wave_rot, speed_rot]; rfl
theorem corr_rot : corr S.rot F.rot d a b c = corr S F d.next a b c := by
  funext m; unfold corr; simp only [limitedWave_rot, speed_rot, lam_rot]; rfl
theorem around_rot : around F.rot d a b c = around F d.next a b c := by
  funext r s; unfold around; simp only [auxAt_rot]
theorem split_rot (t : Nat) (up : Bool) (imp : Nat) (dq : Vec) :
    split S.rot F.rot d a b c t up imp dq = split S F d.next a b c t up imp dq := by
  funext m; unfold split; simp only [val_rot, around_rot]; cases up <;> rfl
theorem split2_rot (t : Nat) (up : Bool) (imp impt : Nat) (dq : Vec) :
    split2 S.rot F.rot d a b c t up imp impt dq = split2 S F d.next a b c t up imp impt dq := by
  funext m; unfold split2; simp only [val_rot, around_rot]; cases up <;> rfl
theorem firstPart_rot (t : Nat) (up : Bool) (side : Nat) :
    firstPart S.rot F.rot d a b c t up side = firstPart S F d.next a b c t up side := by
  funext m; unfold firstPart; simp only [split_rot, left_rot, right_rot, corr_rot]; rfl
theorem twice_rot (t : Nat) (up first : Bool) (side : Nat) :
    twice S.rot F.rot d a b c t up first side = twice S F d.next a b c t up first side := by
  funext m; unfold twice; rw [split2_rot, firstPart_rot]
theorem spill_rot (t : Nat) (up : Bool) (s m : ℤ) :
    spill S.rot F.rot d a b c t up s m = spill S F d.next a b c t up s m := by
  unfold spill spill1 spill2 weightL weightR weightR0
  simp only [split_rot, left_rot, right_rot, corr_rot, twice_rot, lam_rot]
  rfl
theorem transverse_rot (m : ℤ) : transverse S.rot F.rot d a b c m = transverse S F d.next a b c m := by
  unfold transverse; simp only [spill_rot]; rfl
theorem flux_rot (m : ℤ) : fluxMinus S.rot F.rot d a b c m = fluxMinus S F d.next a b c m ∧
    fluxPlus S.rot F.rot d a b c m = fluxPlus S F d.next a b c m := by
  unfold fluxMinus fluxPlus secondOrder
  rw [left_rot, right_rot, corr_rot, transverse_rot]
  exact ⟨rfl, rfl⟩

end

theorem newValue_rot (S : Scheme) (F : Field) (i j k m : ℤ) (h : F.Q .y i j k = F.Q .x i j k) :
    newValue S.rot F.rot j k i m = newValue S F i j k m := by
  unfold newValue outflow
  simp only [flux_rot]
  have e : F.rot.Q .x j k i = F.Q .x i j k := h
  have ec : F.rot.cap j k i = F.cap i j k := rfl
  rw [e, ec]
  simp only [Scheme.rot, Dir.next]
  ring

/-! ### Exchange of two axes -/

/-- y and z. -/
def Dir.swap : Dir → Dir | .x => .x | .y => .z | .z => .y

/-- Directions 2 and 3 of a slice are exchanged. -/
def Solver.swap (R : Solver) : Solver :=
  { wave := fun d => R.wave d.swap, s := fun d => R.s d.swap, amdq := fun d => R.amdq d.swap, apdq := fun d => R.apdq d.swap
    down := fun d icoor imp ql qr al ar => R.down d.swap (5 - icoor) imp ql qr (fun r s => al s r) fun r s => ar s r
    up := fun d icoor imp ql qr al ar => R.up d.swap (5 - icoor) imp ql qr (fun r s => al s r) fun r s => ar s r
    down2 := fun d icoor imp impt ql qr al ar => R.down2 d.swap (5 - icoor) imp impt ql qr (fun r s => al s r) fun r s => ar s r
    up2 := fun d icoor imp impt ql qr al ar => R.up2 d.swap (5 - icoor) imp impt ql qr (fun r s => al s r) fun r s => ar s r }

def Scheme.swap (S : Scheme) : Scheme := { S with R := S.R.swap, ratio := fun d => S.ratio d.swap }

def Field.swap (F : Field) : Field :=
  { Q := fun d i j k => F.Q d.swap i k j, A := fun i j k => F.A i k j, cap := fun i j k => F.cap i k j }

section
variable (S : Scheme) (F : Field) (d : Dir) (a b c : ℤ)

theorem val_swap : F.swap.val d a b c = F.val d.swap a c b := by cases d <;> rfl
theorem auxAt_swap : F.swap.auxAt d a b c = F.auxAt d.swap a c b := by cases d <;> rfl
theorem lam_swap0 : lam S.swap F.swap d a b c 0 = lam S F d.swap a c b 0 := by cases d <;> rfl
theorem lam_swap (t : Nat) (ht : t = 1 ∨ t = 2) : lam S.swap F.swap d a b c t = lam S F d.swap a c b (3 - t) := by
  rcases ht with rfl | rfl <;> cases d <;> rfl
theorem wave_swap : wave S.swap F.swap d a b c = wave S F d.swap a c b := by
  funext w m; unfold wave; simp only [val_swap, auxAt_swap]; rfl
theorem speed_swap : speed S.swap F.swap d a b c = speed S F d.swap a c b := by
  funext w; unfold speed; simp only [val_swap, auxAt_swap]; rfl
theorem left_swap : left S.swap F.swap d a b c = left S F d.swap a c b := by
  funext w; unfold left; simp only [val_swap, auxAt_swap]; rfl
theorem right_swap : right S.swap F.swap d a b c = right S F d.swap a c b := by
  funext w; unfold right; simp only [val_swap, auxAt_swap]; rfl
theorem limitedWave_swap : limitedWave S.swap F.swap d a b c = limitedWave S F d.swap a c b := by
  funext w m; unfold limitedWave jumpRatio upwind; simp only [wave_swap, speed_swap]; rfl
theorem corr_swap : corr S.swap F.swap d a b c = corr S F d.swap a c b := by
  funext m; unfold corr; simp only [limitedWave_swap, speed_swap, lam_swap0]; rfl
theorem around_swap : (fun r s => around F.swap d a b c s r) = around F d.swap a c b := by
  funext r s; unfold around; simp only [auxAt_swap]
theorem split_swap (t : Nat) (ht : t = 1 ∨ t = 2) (up : Bool) (imp : Nat) (dq : Vec) :
    split S.swap F.swap d a b c t up imp dq = split S F d.swap a c b (3 - t) up imp dq := by
  funext m; unfold split; simp only [val_swap, ← around_swap]; rcases ht with rfl | rfl <;> cases up <;> rfl
theorem split2_swap (t : Nat) (ht : t = 1 ∨ t = 2) (up : Bool) (imp impt : Nat) (dq : Vec) :
    split2 S.swap F.swap d a b c t up imp impt dq = split2 S F d.swap a c b (3 - t) up imp impt dq := by
  funext m; unfold split2; simp only [val_swap, ← around_swap]; rcases ht with rfl | rfl <;> cases up <;> rfl

theorem three (t : Nat) (ht : t = 1 ∨ t = 2) : 3 - t = 1 ∨ 3 - t = 2 := by omega

theorem firstPart_swap (hq : S.quirks = false) (t : Nat) (ht : t = 1 ∨ t = 2) (up : Bool) (side : Nat) :
    firstPart S.swap F.swap d a b c t up side = firstPart S F d.swap a c b (3 - t) up side := by
  have e : corrTwice S.swap t = corrTwice S (3 - t) := by
    unfold corrTwice
    rw [hq, show S.swap.quirks = false from hq]
    rfl
  funext m
  unfold firstPart
  rw [e]
  simp only [split_swap S F d a b c _ (three t ht), left_swap, right_swap, corr_swap]
  rfl

theorem twice_swap (hq : S.quirks = false) (t : Nat) (ht : t = 1 ∨ t = 2) (up first : Bool) (side : Nat) :
    twice S.swap F.swap d a b c t up first side = twice S F d.swap a c b (3 - t) up first side := by
  funext m; unfold twice; rw [split2_swap _ _ _ _ _ _ _ ht, firstPart_swap _ _ _ _ _ _ hq _ ht]

theorem spill_swap (hq : S.quirks = false) (t : Nat) (ht : t = 1 ∨ t = 2) (up : Bool) (s m : ℤ) :
    spill S.swap F.swap d a b c t up s m = spill S F d.swap a c b (3 - t) up s m := by
  have hq' : S.swap.quirks = false := hq
  unfold spill spill1 spill2 weightL weightR weightR0
  rw [hq, hq']
  simp only [split_swap S F d _ b c t ht, left_swap, right_swap, corr_swap, twice_swap S F d _ b c hq t ht, lam_swap0,
    lam_swap S F d _ b c _ (three t ht), Bool.false_eq_true, if_false, Bool.false_and]
  rfl

theorem swap_next (d : Dir) : d.next.swap = d.swap.next.next ∧ d.next.next.swap = d.swap.next := by cases d <;> exact ⟨rfl, rfl⟩

theorem transverse_swap (hq : S.quirks = false) (m : ℤ) : transverse S.swap F.swap d a b c m = transverse S F d.swap a c b m := by
  unfold transverse
  simp only [spill_swap _ _ _ _ _ _ hq 2 (Or.inr rfl), spill_swap _ _ _ _ _ _ hq 1 (Or.inl rfl), (swap_next d).1, (swap_next d).2]
  refine if_congr Iff.rfl (Finset.sum_congr rfl fun s _ => ?_) rfl
  show spill S F d.swap.next.next b a (c - s) 1 false s m + spill S F d.swap.next.next b (a - 1) (c - s) 1 true s m +
    spill S F d.swap.next c (b - s) a 2 false s m + spill S F d.swap.next c (b - s) (a - 1) 2 true s m = _
  ring

theorem flux_swap (hq : S.quirks = false) (m : ℤ) : fluxMinus S.swap F.swap d a b c m = fluxMinus S F d.swap a c b m ∧
    fluxPlus S.swap F.swap d a b c m = fluxPlus S F d.swap a c b m := by
  unfold fluxMinus fluxPlus secondOrder
  rw [left_swap, right_swap, corr_swap, transverse_swap _ _ _ _ _ _ hq]
  exact ⟨rfl, rfl⟩

end

theorem newValue_swap (S : Scheme) (hq : S.quirks = false) (F : Field) (i j k m : ℤ) :
    newValue S.swap F.swap i k j m = newValue S F i j k m := by
  unfold newValue outflow
  simp only [flux_swap _ _ _ _ _ _ hq]
  have e : F.swap.Q .x i k j = F.Q .x i j k := rfl
  have ec : F.swap.cap i k j = F.cap i j k := rfl
  rw [e, ec]
  simp only [Scheme.swap, Dir.swap]
  ring

/-! ### Quirks -/

/-- The method. -/
def Scheme.proper (S : Scheme) : Scheme := { S with quirks := false }

section
variable (S : Scheme) (F : Field)

theorem twice_proper (hd : S.double ≠ 2) (d : Dir) (a b c : ℤ) (t : Nat) (up first : Bool) (side : Nat) :
    twice S.proper F d a b c t up first side = twice S F d a b c t up first side := by
  have e : ∀ t, corrTwice S t = false := by intro t; unfold corrTwice; simp [hd]
  have e' : ∀ t, corrTwice S.proper t = false := by intro t; unfold corrTwice Scheme.proper; simp [hd]
  funext m
  unfold twice firstPart
  rw [e, e']
  rfl

theorem spill_proper (h : S.double ≤ 0 ∨ (S.double ≠ 2 ∧ ∀ i j k i' j' k', F.cap i j k = F.cap i' j' k'))
    (d : Dir) (a b c : ℤ) (t : Nat) (up : Bool) (s m : ℤ) : spill S.proper F d a b c t up s m = spill S F d a b c t up s m := by
  have e1 : spill1 S.proper F d a b c t up m = spill1 S F d a b c t up m := rfl
  have e0 : S.proper.double = S.double := rfl
  unfold spill
  rw [e0, e1]
  rcases h with h | ⟨h, hc⟩
  · have hn : ¬0 < S.double := by omega
    rw [if_neg hn, if_neg hn]
  · have hl : ∀ x t, lam S F d x b c t = lam S F d a b c t := by
      intro x t; unfold lam; cases d <;> simp only [place] <;> rw [hc]
    have hl' : ∀ x t, lam S.proper F d x b c t = lam S F d a b c t := fun x t => hl x t
    have e2 : spill2 S.proper F d a b c t up s m = spill2 S F d a b c t up s m := by
      unfold spill2 weightL weightR weightR0
      simp only [twice_proper S F h, hl, hl']
    rw [e2]

theorem newValue_proper (h : S.double ≤ 0 ∨ (S.double ≠ 2 ∧ ∀ i j k i' j' k', F.cap i j k = F.cap i' j' k')) (i j k m : ℤ) :
    newValue S.proper F i j k m = newValue S F i j k m := by
  have ht : ∀ d a b c, transverse S.proper F d a b c m = transverse S F d a b c m := by
    intro d a b c
    unfold transverse
    simp only [spill_proper S F h]
    rfl
  have hm : ∀ d a b c, fluxMinus S.proper F d a b c m = fluxMinus S F d a b c m := fun d a b c => by
    unfold fluxMinus; rw [ht]; rfl
  have hp : ∀ d a b c, fluxPlus S.proper F d a b c m = fluxPlus S F d a b c m := fun d a b c => by
    unfold fluxPlus; rw [ht]; rfl
  unfold newValue outflow
  simp only [hm, hp]
  rfl

end

/-! ### Constants -/

/-- Without a jump there are no waves, and nothing is split into nothing. -/
structure Quiet (R : Solver) (u : Vec) : Prop where
  wave : ∀ d al ar w m, R.wave d u u al ar w m = 0
  left : ∀ d al ar m, R.amdq d u u al ar m = 0
  right : ∀ d al ar m, R.apdq d u u al ar m = 0
  down : ∀ d t imp al ar m, R.down d t imp u u al ar (fun _ => 0) m = 0
  up : ∀ d t imp al ar m, R.up d t imp u u al ar (fun _ => 0) m = 0
  down2 : ∀ d t imp impt al ar m, R.down2 d t imp impt u u al ar (fun _ => 0) m = 0
  up2 : ∀ d t imp impt al ar m, R.up2 d t imp impt u u al ar (fun _ => 0) m = 0

section
variable {S : Scheme} {F : Field} {u : Vec} (hR : Quiet S.R u) (hF : ∀ d i j k, F.Q d i j k = u) (d : Dir) (a b c : ℤ)
include hR hF

omit hR in
theorem const_val : F.val d a b c = u := by cases d <;> exact hF _ _ _ _

theorem const_left : left S F d a b c = fun _ => 0 := by
  funext m; unfold left; rw [const_val hF, const_val hF]; exact hR.left ..
theorem const_right : right S F d a b c = fun _ => 0 := by
  funext m; unfold right; rw [const_val hF, const_val hF]; exact hR.right ..
theorem const_corr : corr S F d a b c = fun _ => 0 := by
  funext m
  unfold corr
  refine Finset.sum_eq_zero fun w _ => ?_
  have : limitedWave S F d a b c w m = 0 := by
    have e : ∀ m, wave S F d a b c w m = 0 := by
      intro m; unfold wave; rw [const_val hF, const_val hF]; exact hR.wave ..
    unfold limitedWave
    split
    · exact e m
    · rw [e, mul_zero]
  rw [this, mul_zero]
theorem const_split (t : Nat) (up : Bool) (imp : Nat) : split S F d a b c t up imp (fun _ => 0) = fun _ => 0 := by
  have e : comps S.meqn (fun _ => 0) = fun _ => 0 := by funext m; unfold comps; split <;> rfl
  funext m
  unfold split
  rw [const_val hF, const_val hF, e]
  cases up
  · exact hR.down ..
  · exact hR.up ..
theorem const_twice (t : Nat) (up first : Bool) (side : Nat) : twice S F d a b c t up first side = fun _ => 0 := by
  have e : comps S.meqn (fun _ => 0) = fun _ => 0 := by funext m; unfold comps; split <;> rfl
  have ef : firstPart S F d a b c t first side = fun _ => 0 := by
    funext m
    unfold firstPart
    rw [const_left hR hF, const_right hR hF, const_corr hR hF]
    simp only [const_split hR hF]
    split_ifs <;> ring
  funext m
  unfold twice split2
  rw [ef, const_val hF, const_val hF, e]
  cases up
  · exact hR.down2 ..
  · exact hR.up2 ..
theorem const_spill (t : Nat) (up : Bool) (s m : ℤ) : spill S F d a b c t up s m = 0 := by
  unfold spill spill1 spill2
  simp only [const_left hR hF, const_right hR hF, const_corr hR hF, const_split hR hF, const_twice hR hF]
  split_ifs <;> ring
theorem const_flux (m : ℤ) : fluxMinus S F d a b c m = 0 ∧ fluxPlus S F d a b c m = 0 := by
  have e : transverse S F d a b c m = 0 := by
    unfold transverse
    simp only [const_spill hR hF]
    simp
  unfold fluxMinus fluxPlus secondOrder
  rw [e, const_left hR hF, const_right hR hF, const_corr hR hF]
  simp

end

/-- Where all values are the same, nothing happens. -/
theorem newValue_const {S : Scheme} {F : Field} {u : Vec} (hR : Quiet S.R u) (i j k m : ℤ)
    (hF : ∀ d i' j' k', nearby i j k i' j' k' → F.Q d i' j' k' = u) : newValue S F i j k m = u m := by
  rw [newValue_congr S i j k m (G := { F with Q := fun _ _ _ _ => u }) ⟨fun d i' j' k' h => hF d i' j' k' h, fun _ _ _ _ => rfl, fun _ _ _ _ => rfl⟩]
  unfold newValue outflow
  simp only [const_flux hR (F := { F with Q := fun _ _ _ _ => u }) fun _ _ _ _ => rfl]
  ring

/-! ### Conservation -/

/-- The solver is conservative: the fluctuations add up to the difference of the flux function `f`. -/
def ConservativeSolver (R : Solver) (n : Nat) (f : Dir → Vec → Vec) : Prop :=
  ∀ d ql qr al ar m, 1 ≤ m → m ≤ (n : ℤ) → R.amdq d ql qr al ar m + R.apdq d ql qr al ar m = f d qr m - f d ql m

/-- The flux through face `a`. -/
def faceFlux (S : Scheme) (F : Field) (f : Dir → Vec → Vec) (d : Dir) (a b c m : ℤ) : ℚ :=
  f d (F.val d (a - 1) b c) m + fluxMinus S F d a b c m

/-- From both sides it is the same. -/
theorem faceFlux_right {S : Scheme} {F : Field} {f : Dir → Vec → Vec} (hR : ConservativeSolver S.R S.meqn f) (d : Dir) (a b c m : ℤ)
    (hm : 1 ≤ m ∧ m ≤ (S.meqn : ℤ)) : faceFlux S F f d a b c m = f d (F.val d a b c) m + fluxPlus S F d a b c m := by
  have : left S F d a b c m + right S F d a b c m = f d (F.val d a b c) m - f d (F.val d (a - 1) b c) m := hR d _ _ _ _ m hm.1 hm.2
  unfold faceFlux fluxMinus fluxPlus
  linear_combination this

theorem outflow_flux {S : Scheme} {F : Field} {f : Dir → Vec → Vec} (hR : ConservativeSolver S.R S.meqn f) (i j k m : ℤ)
    (hm : 1 ≤ m ∧ m ≤ (S.meqn : ℤ)) : outflow S F i j k m =
      S.ratio .x * (faceFlux S F f .x (i + 1) j k m - faceFlux S F f .x i j k m) +
      S.ratio .y * (faceFlux S F f .y (j + 1) k i m - faceFlux S F f .y j k i m) +
      S.ratio .z * (faceFlux S F f .z (k + 1) i j m - faceFlux S F f .z k i j m) := by
  rw [faceFlux_right hR .x i, faceFlux_right hR .y j, faceFlux_right hR .z k]
  · unfold outflow faceFlux
    rw [add_sub_cancel_right, add_sub_cancel_right, add_sub_cancel_right]
    ring
  all_goals exact hm

end Fclaw.Wave3

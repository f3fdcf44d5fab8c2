import Verif.Wave3.Spec
import Mathlib.Tactic.Ring
import Mathlib.Tactic.Linarith
/-
The new value of a cell depends on the cells up to two cells away.
-/
set_option autoImplicit false
set_option linter.unusedSimpArgs false
set_option linter.unusedVariables false
namespace Fclaw.Wave3

open Wave (Vec comps dot phi)

/-- The same data in the cells `P`. -/
structure Agree (P : ℤ → ℤ → ℤ → Prop) (F G : Field) : Prop where
  Q : ∀ d i j k, P i j k → F.Q d i j k = G.Q d i j k
  A : ∀ i j k, P i j k → F.A i j k = G.A i j k
  cap : ∀ i j k, P i j k → F.cap i j k = G.cap i j k

/-- The cells that matter at an edge. -/
def Hood (P : ℤ → ℤ → ℤ → Prop) (d : Dir) (a b c : ℤ) : Prop :=
  ∀ a' b' c', (a - 2 ≤ a' ∧ a' ≤ a + 1) → (b - 1 ≤ b' ∧ b' ≤ b + 1) → (c - 1 ≤ c' ∧ c' ≤ c + 1) → place P d a' b' c'

section
variable {P : ℤ → ℤ → ℤ → Prop} {S : Scheme} {F G : Field} {d : Dir} {a b c : ℤ}

theorem val_congr (h : Agree P F G) (hp : place P d a b c) : F.val d a b c = G.val d a b c := by
  cases d <;> exact h.Q _ _ _ _ hp

theorem auxAt_congr (h : Agree P F G) (hp : place P d a b c) : F.auxAt d a b c = G.auxAt d a b c := by
  cases d <;> exact h.A _ _ _ hp

theorem cap_congr (h : Agree P F G) (hp : place P d a b c) : place F.cap d a b c = place G.cap d a b c := by
  cases d <;> exact h.cap _ _ _ hp

theorem lam_congr (h : Agree P F G) (hp : place P d a b c) (t : Nat) : lam S F d a b c t = lam S G d a b c t := by
  unfold lam; rw [cap_congr h hp]

theorem wave_congr (h : Agree P F G) (h1 : place P d (a - 1) b c) (h2 : place P d a b c) (w : ℤ) :
    wave S F d a b c w = wave S G d a b c w := by
  funext m; unfold wave; rw [val_congr h h1, val_congr h h2, auxAt_congr h h1, auxAt_congr h h2]

theorem speed_congr (h : Agree P F G) (h1 : place P d (a - 1) b c) (h2 : place P d a b c) (w : ℤ) :
    speed S F d a b c w = speed S G d a b c w := by
  unfold speed; rw [val_congr h h1, val_congr h h2, auxAt_congr h h1, auxAt_congr h h2]

theorem left_congr (h : Agree P F G) (h1 : place P d (a - 1) b c) (h2 : place P d a b c) :
    left S F d a b c = left S G d a b c := by
  funext m; unfold left; rw [val_congr h h1, val_congr h h2, auxAt_congr h h1, auxAt_congr h h2]

theorem right_congr (h : Agree P F G) (h1 : place P d (a - 1) b c) (h2 : place P d a b c) :
    right S F d a b c = right S G d a b c := by
  funext m; unfold right; rw [val_congr h h1, val_congr h h2, auxAt_congr h h1, auxAt_congr h h2]

theorem limitedWave_congr (h : Agree P F G) (hp : Hood P d a b c) (w m : ℤ) :
    limitedWave S F d a b c w m = limitedWave S G d a b c w m := by
  have p : ∀ x, a - 2 ≤ x ∧ x ≤ a + 1 → place P d x b c := fun x hx => hp x b c hx (by omega) (by omega)
  have e0 : wave S F d a b c w = wave S G d a b c w := wave_congr h (p _ (by omega)) (p _ (by omega)) w
  have e1 : wave S F d (a - 1) b c w = wave S G d (a - 1) b c w := wave_congr h (p _ (by omega)) (p _ (by omega)) w
  have e2 : wave S F d (a + 1) b c w = wave S G d (a + 1) b c w := wave_congr h (p _ (by omega)) (p _ (by omega)) w
  have es : speed S F d a b c w = speed S G d a b c w := speed_congr h (p _ (by omega)) (p _ (by omega)) w
  have er : jumpRatio S F d a b c w = jumpRatio S G d a b c w := by
    unfold jumpRatio upwind
    rw [es]
    split
    · rw [e0, e1]
    · rw [e0, e2]
  unfold limitedWave
  rw [er, e0]

theorem corr_congr (h : Agree P F G) (hp : Hood P d a b c) : corr S F d a b c = corr S G d a b c := by
  have p : ∀ x, a - 2 ≤ x ∧ x ≤ a + 1 → place P d x b c := fun x hx => hp x b c hx (by omega) (by omega)
  funext m
  unfold corr
  refine Finset.sum_congr rfl fun w _ => ?_
  rw [limitedWave_congr h hp, speed_congr h (p _ (by omega)) (p _ (by omega)), lam_congr h (p _ (by omega)),
    lam_congr h (p _ (by omega))]

theorem around_congr (h : Agree P F G)
    (hp : ∀ b' c', (b - 1 ≤ b' ∧ b' ≤ b + 1) → (c - 1 ≤ c' ∧ c' ≤ c + 1) → place P d a b' c') : around F d a b c = around G d a b c := by
  funext r s
  unfold around
  refine auxAt_congr h (hp _ _ ?_ ?_) <;> beta_reduce <;> split_ifs <;> omega

theorem split_congr (h : Agree P F G) (hp : Hood P d a b c) (t : Nat) (up : Bool) (imp : Nat) (dq : Vec) :
    split S F d a b c t up imp dq = split S G d a b c t up imp dq := by
  have p : ∀ x, a - 2 ≤ x ∧ x ≤ a + 1 → place P d x b c := fun x hx => hp x b c hx (by omega) (by omega)
  funext m
  unfold split
  rw [val_congr h (p (a - 1) (by omega)), val_congr h (p a (by omega)),
    around_congr (a := a - 1) h fun b' c' hb hc => hp _ _ _ (by omega) hb hc, around_congr (a := a) h fun b' c' hb hc => hp _ _ _ (by omega) hb hc]

theorem split2_congr (h : Agree P F G) (hp : Hood P d a b c) (t : Nat) (up : Bool) (imp impt : Nat) (dq : Vec) :
    split2 S F d a b c t up imp impt dq = split2 S G d a b c t up imp impt dq := by
  have p : ∀ x, a - 2 ≤ x ∧ x ≤ a + 1 → place P d x b c := fun x hx => hp x b c hx (by omega) (by omega)
  funext m
  unfold split2
  rw [val_congr h (p (a - 1) (by omega)), val_congr h (p a (by omega)),
    around_congr (a := a - 1) h fun b' c' hb hc => hp _ _ _ (by omega) hb hc, around_congr (a := a) h fun b' c' hb hc => hp _ _ _ (by omega) hb hc]

theorem twice_congr (h : Agree P F G) (hp : Hood P d a b c) (t : Nat) (up first : Bool) (side : Nat) :
    twice S F d a b c t up first side = twice S G d a b c t up first side := by
  have p : ∀ x, a - 2 ≤ x ∧ x ≤ a + 1 → place P d x b c := fun x hx => hp x b c hx (by omega) (by omega)
  have e : firstPart S F d a b c t first side = firstPart S G d a b c t first side := by
    funext m
    unfold firstPart
    rw [left_congr h (p _ (by omega)) (p _ (by omega)), right_congr h (p _ (by omega)) (p _ (by omega)), corr_congr h hp]
    simp only [split_congr h hp]
  funext m
  unfold twice
  rw [e, split2_congr h hp]

theorem spill_congr (h : Agree P F G) (hp : Hood P d a b c) (hp' : Hood P d (a + 1) b c) (t : Nat) (up : Bool) (s m : ℤ) :
    spill S F d a b c t up s m = spill S G d a b c t up s m := by
  have p : ∀ x, a - 2 ≤ x ∧ x ≤ a + 1 → place P d x b c := fun x hx => hp x b c hx (by omega) (by omega)
  have p' : ∀ x, a - 2 ≤ x ∧ x ≤ a + 2 → place P d x b c := fun x hx => by
    by_cases hx' : x ≤ a + 1
    · exact p x ⟨hx.1, hx'⟩
    · exact hp' x b c (by omega) (by omega) (by omega)
  have l0 : ∀ t, lam S F d a b c t = lam S G d a b c t := lam_congr h (p _ (by omega))
  have lm : ∀ t, lam S F d (a - 1) b c t = lam S G d (a - 1) b c t := lam_congr h (p _ (by omega))
  have lp : ∀ t, lam S F d (a + 1) b c t = lam S G d (a + 1) b c t := lam_congr h (p _ (by omega))
  have e1 : spill1 S F d a b c t up m = spill1 S G d a b c t up m := by
    unfold spill1
    simp only [split_congr h hp, split_congr h hp', corr_congr h hp, corr_congr h hp', l0,
      left_congr h (p' (a + 1 - 1) (by omega)) (p' (a + 1) (by omega)), right_congr h (p _ (by omega)) (p a (by omega))]
  have wl : weightL S F d a b c t = weightL S G d a b c t := by
    unfold weightL
    split
    · rw [l0, lp]
    · rw [l0, l0]
  have wr : weightR S F d a b c t = weightR S G d a b c t := by
    unfold weightR; rw [l0, l0]
  have w0 : weightR0 S F d a b c t up = weightR0 S G d a b c t up := by
    unfold weightR0
    split
    · rw [lm, l0]
    · rw [l0, l0]
  have e2 : spill2 S F d a b c t up s m = spill2 S G d a b c t up s m := by
    unfold spill2
    rw [wl, wr, w0]
    simp only [twice_congr h hp, twice_congr h hp']
  unfold spill
  rw [e1, e2]

theorem secondOrder_congr (h : Agree P F G) (hp : Hood P d a b c) (m : ℤ) :
    secondOrder S F d a b c m = secondOrder S G d a b c m := by
  unfold secondOrder; rw [corr_congr h hp]

end

/-- The cells that matter at an edge when waves come from all sides. -/
def Hood2 (P : ℤ → ℤ → ℤ → Prop) (d : Dir) (a b c : ℤ) : Prop :=
  ∀ a' b' c', (a - 2 ≤ a' ∧ a' ≤ a + 1) → (b - 2 ≤ b' ∧ b' ≤ b + 2) → (c - 2 ≤ c' ∧ c' ≤ c + 2) → place P d a' b' c'

theorem place_next {α : Type} (f : ℤ → ℤ → ℤ → α) (d : Dir) (a b c : ℤ) : place f d.next b c a = place f d a b c := by
  cases d <;> rfl

section
variable {P : ℤ → ℤ → ℤ → Prop} {S : Scheme} {F G : Field} {d : Dir} {a b c : ℤ}

theorem transverse_congr (h : Agree P F G) (hp : Hood2 P d a b c) (m : ℤ) :
    transverse S F d a b c m = transverse S G d a b c m := by
  unfold transverse
  refine if_congr Iff.rfl (Finset.sum_congr rfl fun s hs => ?_) rfl
  have hs' : -1 ≤ s ∧ s ≤ 1 := by
    have : s = -1 ∨ s = 0 ∨ s = 1 := by simpa using hs
    omega
  have n1 : ∀ x y w : ℤ, (b ≤ x ∧ x ≤ b + 1) → (c - 1 ≤ y ∧ y ≤ c + 1) → (a - 1 ≤ w ∧ w ≤ a) → Hood P d.next x y w := by
    intro x y w hx hy hw a' b' c' ha hb hc
    rw [place_next]
    exact hp _ _ _ (by omega) (by omega) (by omega)
  have n2 : ∀ x y w : ℤ, (c ≤ x ∧ x ≤ c + 1) → (a - 1 ≤ y ∧ y ≤ a) → (b - 1 ≤ w ∧ w ≤ b + 1) → Hood P d.next.next x y w := by
    intro x y w hx hy hw a' b' c' ha hb hc
    rw [place_next, place_next]
    exact hp _ _ _ (by omega) (by omega) (by omega)
  rw [spill_congr h (n1 _ _ _ (by omega) (by omega) (by omega)) (n1 _ _ _ (by omega) (by omega) (by omega)),
    spill_congr h (n1 b (c - s) (a - 1) (by omega) (by omega) (by omega)) (n1 _ _ _ (by omega) (by omega) (by omega)),
    spill_congr h (n2 c a (b - s) (by omega) (by omega) (by omega)) (n2 _ _ _ (by omega) (by omega) (by omega)),
    spill_congr h (n2 c (a - 1) (b - s) (by omega) (by omega) (by omega)) (n2 _ _ _ (by omega) (by omega) (by omega))]

theorem flux_congr (h : Agree P F G) (hp : Hood2 P d a b c) (m : ℤ) :
    fluxMinus S F d a b c m = fluxMinus S G d a b c m ∧ fluxPlus S F d a b c m = fluxPlus S G d a b c m := by
  have p : ∀ x, a - 2 ≤ x ∧ x ≤ a + 1 → place P d x b c := fun x hx => hp x b c hx (by omega) (by omega)
  have ph : Hood P d a b c := fun a' b' c' ha hb hc => hp _ _ _ ha (by omega) (by omega)
  unfold fluxMinus fluxPlus
  rw [left_congr h (p _ (by omega)) (p _ (by omega)), right_congr h (p _ (by omega)) (p _ (by omega)), secondOrder_congr h ph,
    transverse_congr h hp]
  exact ⟨rfl, rfl⟩

end

/-- Up to two cells away. -/
def nearby (i j k i' j' k' : ℤ) : Prop :=
  (i - 2 ≤ i' ∧ i' ≤ i + 2) ∧ (j - 2 ≤ j' ∧ j' ≤ j + 2) ∧ k - 2 ≤ k' ∧ k' ≤ k + 2

theorem newValue_congr (S : Scheme) {F G : Field} (i j k m : ℤ) (h : Agree (nearby i j k) F G) :
    newValue S F i j k m = newValue S G i j k m := by
  have x1 := fun a (ha : i ≤ a ∧ a ≤ i + 1) => flux_congr (S := S) h (d := .x) (a := a) (b := j) (c := k) (fun a' b' c' ha hb hc => by
    simp only [place, nearby]; omega) m
  have x2 := fun a (ha : j ≤ a ∧ a ≤ j + 1) => flux_congr (S := S) h (d := .y) (a := a) (b := k) (c := i) (fun a' b' c' ha hb hc => by
    simp only [place, nearby]; omega) m
  have x3 := fun a (ha : k ≤ a ∧ a ≤ k + 1) => flux_congr (S := S) h (d := .z) (a := a) (b := i) (c := j) (fun a' b' c' ha hb hc => by
    simp only [place, nearby]; omega) m
  unfold newValue outflow
  have h0 : nearby i j k i j k := by unfold nearby; omega
  rw [h.Q _ _ _ _ h0, h.cap _ _ _ h0, (x1 (i + 1) (by omega)).1, (x1 i (by omega)).2, (x2 (j + 1) (by omega)).1, (x2 j (by omega)).2,
    (x3 (k + 1) (by omega)).1, (x3 k (by omega)).2]

end Fclaw.Wave3

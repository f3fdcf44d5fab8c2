import Verif.Wave3.Loops
import Verif.Wave.Step
/-
What the sweeps see at corners.
-/
set_option autoImplicit false
set_option linter.unusedSimpArgs false
set_option linter.unusedVariables false
namespace Fclaw.Wave3

open Wave (atCorner cornerNo turned cornerI cornerJ corner_cell corner_surj turned_inside ixyOf depthX depthY)

theorem assign_assigns {α : Type} [DecidableEq α] {M0 : α → ℚ} {C : α → Prop} {v : α → ℚ} (c : α) (e : (α → ℚ) → ℚ)
    (h : ∀ M, (∀ l, ¬C l → M l = M0 l) → e M = v c) : Assigns M0 C (fun l => l = c) v fun M => assign c (e M) M := by
  intro M hM l
  unfold assign
  refine ⟨fun hl => ?_, fun hl => ?_⟩
  · beta_reduce at hl ⊢; rw [if_pos hl, hl]; exact h M hM
  · beta_reduce at hl ⊢; rw [if_neg hl]

theorem Assigns.congr {α : Type} {M0 : α → ℚ} {C D D' : α → Prop} {v : α → ℚ} {f : (α → ℚ) → α → ℚ} (h : Assigns M0 C D v f)
    (e : ∀ l, D l ↔ D' l) : Assigns M0 C D' v f := by
  intro M hM l
  rw [← e]
  exact h M hM l

theorem fixCorners_assigns (z : Shape) (h1 : z.mbc ≤ z.mx) (h2 : z.mbc ≤ z.my) (y : Bool) (count : ℤ → ℤ) (M0 : QArr) :
    Assigns M0 (fun l => atCorner z.plane l.1 l.2.1)
      (fun l => z.plane.inGrid l.1 l.2.1 ∧ (1 - (z.mbc : ℤ) ≤ l.2.2.1 ∧ l.2.2.1 ≤ z.mz + z.mbc) ∧ (1 ≤ l.2.2.2 ∧ l.2.2.2 ≤ z.meqn) ∧
        atCorner z.plane l.1 l.2.1 ∧ count (cornerNo z.plane l.1 l.2.1) = 3)
      (fun l => M0 ((turned z.plane l.1 l.2.1 (ixyOf y)).1, (turned z.plane l.1 l.2.1 (ixyOf y)).2, l.2.2.1, l.2.2.2))
      (fixCorners z (if y then 1 else 0) count) := by
  have key : Assigns M0 (fun l => atCorner z.plane l.1 l.2.1)
      (fun l => ∃ kz, (1 - (z.mbc : ℤ) ≤ kz ∧ kz ≤ z.mz + z.mbc) ∧ ∃ k, (0 ≤ k ∧ k ≤ 3) ∧ count k = 3 ∧
        ∃ a, (1 ≤ a ∧ a ≤ (z.mbc : ℤ)) ∧ ∃ b, (1 ≤ b ∧ b ≤ (z.mbc : ℤ)) ∧ ∃ m, (1 ≤ m ∧ m ≤ (z.meqn : ℤ)) ∧
          l = (cornerI z.plane k a, cornerJ z.plane k b, kz, m))
      (fun l => M0 ((turned z.plane l.1 l.2.1 (ixyOf y)).1, (turned z.plane l.1 l.2.1 (ixyOf y)).2, l.2.2.1, l.2.2.2))
      (fixCorners z (if y then 1 else 0) count) := by
    unfold fixCorners
    have hcell : ∀ k a b : ℤ, (0 ≤ k ∧ k ≤ 3) → (1 ≤ a ∧ a ≤ (z.mbc : ℤ)) → (1 ≤ b ∧ b ≤ (z.mbc : ℤ)) →
        atCorner z.plane (cornerI z.plane k a) (cornerJ z.plane k b) :=
      fun k a b hk ha hb => (corner_cell (z := z.plane) hk ha hb).2.1
    refine loop_assigns ?_ fun kz z1 z2 => loop_assigns ?_ fun k k1 k2 => ?_
    · rintro kz l _ _ ⟨k, hk, _, a, ha, b, hb, m, hm, rfl⟩; exact hcell k a b hk ha hb
    · rintro k l k1 k2 ⟨_, a, ha, b, hb, m, hm, rfl⟩; exact hcell k a b ⟨k1, k2⟩ ha hb
    by_cases hc : count k = 3
    swap
    · intro M hM l
      beta_reduce
      rw [if_pos hc]
      exact ⟨fun h => absurd h.1 hc, fun _ => rfl⟩
    have : ∀ (A B : QArr → QArr), (fun M => if count k ≠ 3 then A M else B M) = B := by
      intro A B; funext M; rw [if_neg (by simp [hc])]
    dsimp only
    rw [this fun M => M]
    refine Assigns.congr (D := fun l => ∃ a, (1 ≤ a ∧ a ≤ (z.mbc : ℤ)) ∧ ∃ b, (1 ≤ b ∧ b ≤ (z.mbc : ℤ)) ∧
      ∃ m, (1 ≤ m ∧ m ≤ (z.meqn : ℤ)) ∧ l = (cornerI z.plane k a, cornerJ z.plane k b, kz, m)) ?_ fun l => by simp [hc]
    refine loop_assigns ?_ fun a a1 a2 => loop_assigns ?_ fun b b1 b2 => loop_assigns ?_ fun m m1 m2 => ?_
    · rintro a l a1 a2 ⟨b, hb, m, hm, rfl⟩; exact hcell k a b ⟨k1, k2⟩ ⟨a1, a2⟩ hb
    · rintro b l b1 b2 ⟨m, hm, rfl⟩; exact hcell k a b ⟨k1, k2⟩ ⟨a1, a2⟩ ⟨b1, b2⟩
    · rintro m l _ _ rfl; exact hcell k a b ⟨k1, k2⟩ ⟨a1, a2⟩ ⟨b1, b2⟩
    have hg := corner_cell (z := z.plane) (k := k) (a := a) (b := b) ⟨k1, k2⟩ ⟨a1, a2⟩ ⟨b1, b2⟩
    have hin := turned_inside (z := z.plane) h1 h2 (y := y) hg.1 hg.2.1
    have e : ∀ X Y : ℤ, X = (turned z.plane (cornerI z.plane k a) (cornerJ z.plane k b) (ixyOf y)).1 →
        Y = (turned z.plane (cornerI z.plane k a) (cornerJ z.plane k b) (ixyOf y)).2 →
        Assigns M0 (fun l => atCorner z.plane l.1 l.2.1) (fun l => l = (cornerI z.plane k a, cornerJ z.plane k b, kz, m))
          (fun l => M0 ((turned z.plane l.1 l.2.1 (ixyOf y)).1, (turned z.plane l.1 l.2.1 (ixyOf y)).2, l.2.2.1, l.2.2.2))
          fun q => assign (cornerI z.plane k a, cornerJ z.plane k b, kz, m) (q (X, Y, kz, m)) q := by
      rintro X Y rfl rfl
      exact assign_assigns _ (fun q => q (_, _, kz, m)) fun M hM => hM _ hin.2
    apply e
    · unfold turned cornerI cornerJ depthX depthY ixyOf
      clear this e hcell hin hc hg
      interval_cases k <;> cases y <;> simp [Shape.plane] <;> split_ifs <;> omega
    · unfold turned cornerI cornerJ depthX depthY ixyOf
      clear this e hcell hin hc hg
      interval_cases k <;> cases y <;> simp [Shape.plane] <;> split_ifs <;> omega
  refine key.congr ?_
  rintro ⟨i, j, k', m⟩
  constructor
  · rintro ⟨kz, hkz, k, hk, hc, a, ha, b, hb, m', hm, e⟩
    simp only [Prod.mk.injEq] at e
    obtain ⟨rfl, rfl, rfl, rfl⟩ := e
    have := corner_cell (z := z.plane) hk ha hb
    exact ⟨this.1, hkz, hm, this.2.1, by rw [this.2.2]; exact hc⟩
  · rintro ⟨hg, hkz, hm, hc, h3⟩
    obtain ⟨hk, a, b, ha, hb, e1, e2⟩ := corner_surj hg hc
    exact ⟨k', hkz, _, hk, h3, a, ha, b, hb, m, hm, by dsimp only at e1 e2 ⊢; rw [← e1, ← e2]⟩

/-- What the sweeps see. -/
theorem fixCorners_spec (z : Shape) (h1 : z.mbc ≤ z.mx) (h2 : z.mbc ≤ z.my) (y : Bool) (count : ℤ → ℤ) (M M0 : QArr)
    (hM : ∀ i j k m, ¬atCorner z.plane i j → M (i, j, k, m) = M0 (i, j, k, m))
    (hM' : ∀ i j k m, ¬count (cornerNo z.plane i j) = 3 → M (i, j, k, m) = M0 (i, j, k, m)) :
    (∀ i j k m, z.plane.inGrid i j → (1 - (z.mbc : ℤ) ≤ k ∧ k ≤ z.mz + z.mbc) → (1 ≤ m ∧ m ≤ (z.meqn : ℤ)) →
      fixCorners z (if y then 1 else 0) count M (i, j, k, m) =
        M0 ((Wave.sweepCell z.plane i j count (ixyOf y)).1, (Wave.sweepCell z.plane i j count (ixyOf y)).2, k, m)) ∧
    (∀ i j k m, ¬(atCorner z.plane i j ∧ count (cornerNo z.plane i j) = 3) →
      fixCorners z (if y then 1 else 0) count M (i, j, k, m) = M0 (i, j, k, m)) := by
  have h := fixCorners_assigns z h1 h2 y count M0 M fun l hl => hM _ _ _ _ hl
  constructor
  · intro i j k m hg hk hm
    unfold Wave.sweepCell
    by_cases hc : atCorner z.plane i j ∧ count (cornerNo z.plane i j) = 3
    · rw [if_pos hc]
      exact (h (i, j, k, m)).1 ⟨hg, hk, hm, hc.1, hc.2⟩
    · rw [if_neg hc, (h (i, j, k, m)).2 fun h => hc h.2.2.2]
      by_cases hc' : atCorner z.plane i j
      · exact hM' _ _ _ _ fun h => hc ⟨hc', h⟩
      · exact hM _ _ _ _ hc'
  · intro i j k m hc
    rw [(h (i, j, k, m)).2 fun h => hc h.2.2.2]
    by_cases hc' : atCorner z.plane i j
    · exact hM' _ _ _ _ fun h => hc ⟨hc', h⟩
    · exact hM _ _ _ _ hc'

end Fclaw.Wave3

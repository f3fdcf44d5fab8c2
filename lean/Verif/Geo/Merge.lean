import Verif.Geo.Spec
import Mathlib.Tactic.Linarith
import Mathlib.Tactic.Ring
import Mathlib.Tactic.FieldSimp
import Mathlib.Tactic.SplitIfs
import Mathlib.Tactic.Positivity
import Mathlib.Tactic.NormNum
import Mathlib.Tactic.LinearCombination
/-
Helpers for C82: the water of four cells in one.
-/
set_option autoImplicit false
set_option linter.unusedSimpArgs false
set_option linter.unusedVariables false
namespace Fclaw.Geo

variable {tol : ℚ} {w : Nat → Nat → Water} {g : Nat → Nat → Ground} {G : Ground}

/-- For each of the four cells. -/
def All4 (p : Nat → Nat → Prop) : Prop := ∀ x y : Nat, x < 2 → y < 2 → p x y

theorem all4 {p : Nat → Nat → Prop} (h : All4 p) : p 0 0 ∧ p 1 0 ∧ p 0 1 ∧ p 1 1 :=
  ⟨h 0 0 (by omega) (by omega), h 1 0 (by omega) (by omega), h 0 1 (by omega) (by omega), h 1 1 (by omega) (by omega)⟩

theorem merged_nonneg (ht : 0 ≤ tol) (hh : All4 fun x y => 0 ≤ (w x y).h) (hk : All4 fun x y => 0 < (g x y).κ)
    (hG : 0 < G.κ) : 0 ≤ (merged tol w g G).h := by
  unfold merged
  dsimp only
  split_ifs with hn
  · exact le_refl _
  · apply div_nonneg _ (le_of_lt hG)
    apply le_min _ (le_max_right _ _)
    obtain ⟨a, b, c, e⟩ := all4 hh
    obtain ⟨a', b', c', e'⟩ := all4 hk
    apply div_nonneg
    · unfold sum4; dsimp only at *; positivity
    · unfold wetCells wetSum sum4; dsimp only at *; split_ifs <;> norm_num

/-- The total of the water, when something is wet. -/
theorem total_pos (ht : 0 ≤ tol) (hh : All4 fun x y => 0 ≤ (w x y).h) (hk : All4 fun x y => 0 < (g x y).κ)
    (hn : wetCells tol w g ≠ 0) : 0 < sum4 fun x y => (w x y).h * (g x y).κ := by
  obtain ⟨a, b, c, e⟩ := all4 hh
  obtain ⟨a', b', c', e'⟩ := all4 hk
  have p1 := mul_nonneg a (le_of_lt a')
  have p2 := mul_nonneg b (le_of_lt b')
  have p3 := mul_nonneg c (le_of_lt c')
  have p4 := mul_nonneg e (le_of_lt e')
  unfold sum4
  by_contra hc
  apply hn
  dsimp only at hc
  unfold wetCells wetSum sum4
  dsimp only
  have no : ∀ (v : Water) (f : Ground), v.h * f.κ ≤ tol → ¬ Wet tol v f := fun v f h => not_lt.2 h
  rw [if_neg (no _ _ (by linarith)), if_neg (no _ _ (by linarith)), if_neg (no _ _ (by linarith)),
    if_neg (no _ _ (by linarith))]
  norm_num

/-- The heart of `merged_rest`: surfaces at height `sG`. -/
theorem rest_core {p1 p2 p3 p4 : Prop} [Decidable p1] [Decidable p2] [Decidable p3] [Decidable p4]
    {A B C E ba bb bc be bG sa sb sc se sG : ℚ} (ht : 0 ≤ tol)
    (h1 : (p1 ∧ A = sa - ba ∧ tol < A) ∨ (¬ p1 ∧ sa - ba ≤ tol ∧ 0 ≤ A))
    (h2 : (p2 ∧ B = sb - bb ∧ tol < B) ∨ (¬ p2 ∧ sb - bb ≤ tol ∧ 0 ≤ B))
    (h3 : (p3 ∧ C = sc - bc ∧ tol < C) ∨ (¬ p3 ∧ sc - bc ≤ tol ∧ 0 ≤ C))
    (h4 : (p4 ∧ E = se - be ∧ tol < E) ∨ (¬ p4 ∧ se - be ≤ tol ∧ 0 ≤ E))
    (hb : ba + bb + bc + be = 4 * bG) (hs : sa + sb + sc + se = 4 * sG)
    (hu : (sa = sG ∧ sb = sG ∧ sc = sG ∧ se = sG) ∨ (p1 ∧ p2 ∧ p3 ∧ p4))
    (hn : (if p1 then (1 : ℚ) else 0) + (if p2 then 1 else 0) + (if p3 then 1 else 0) + (if p4 then 1 else 0) ≠ 0) :
    min ((A + B + C + E) /
        ((if p1 then (1 : ℚ) else 0) + (if p2 then 1 else 0) + (if p3 then 1 else 0) + (if p4 then 1 else 0)))
      (max (((if p1 then A + ba else 0) + (if p2 then B + bb else 0) + (if p3 then C + bc else 0) +
        (if p4 then E + be else 0)) /
        ((if p1 then (1 : ℚ) else 0) + (if p2 then 1 else 0) + (if p3 then 1 else 0) + (if p4 then 1 else 0)) - bG) 0) =
      max (sG - bG) 0 := by
  have key : ∀ H T X : ℚ, T = X → X ≤ H → 0 ≤ H → min H (max T 0) = max X 0 := by
    intro H T X h1 h2 h3; rw [h1]; exact min_eq_right (max_le h2 h3)
  apply key
  · rcases h1 with ⟨u1, x1, y1⟩ | ⟨u1, x1, y1⟩ <;> rcases h2 with ⟨u2, x2, y2⟩ | ⟨u2, x2, y2⟩ <;>
      rcases h3 with ⟨u3, x3, y3⟩ | ⟨u3, x3, y3⟩ <;> rcases h4 with ⟨u4, x4, y4⟩ | ⟨u4, x4, y4⟩ <;>
      simp only [u1, u2, u3, u4, if_true, if_false, and_true, and_false, or_false, not_true, not_false_iff] at hu hn ⊢ <;>
      first
        | (exfalso; apply hn; norm_num; done)
        | (norm_num; linarith)
        | (obtain ⟨q1, q2, q3, q4⟩ := hu; norm_num; linarith)
  · rcases h1 with ⟨u1, x1, y1⟩ | ⟨u1, x1, y1⟩ <;> rcases h2 with ⟨u2, x2, y2⟩ | ⟨u2, x2, y2⟩ <;>
      rcases h3 with ⟨u3, x3, y3⟩ | ⟨u3, x3, y3⟩ <;> rcases h4 with ⟨u4, x4, y4⟩ | ⟨u4, x4, y4⟩ <;>
      simp only [u1, u2, u3, u4, if_true, if_false] at hn ⊢ <;>
      first
        | (exfalso; apply hn; norm_num; done)
        | (norm_num; linarith)
  · have a0 : 0 ≤ A := by rcases h1 with ⟨_, _, h⟩ | ⟨_, _, h⟩ <;> linarith
    have b0 : 0 ≤ B := by rcases h2 with ⟨_, _, h⟩ | ⟨_, _, h⟩ <;> linarith
    have c0 : 0 ≤ C := by rcases h3 with ⟨_, _, h⟩ | ⟨_, _, h⟩ <;> linarith
    have e0 : 0 ≤ E := by rcases h4 with ⟨_, _, h⟩ | ⟨_, _, h⟩ <;> linarith
    apply div_nonneg (by linarith)
    split_ifs <;> norm_num

theorem merged_rest (ht : 0 ≤ tol) {s : ℚ} (hk : All4 fun x y => 0 < (g x y).κ) (hG : 0 < G.κ)
    (hr : All4 fun x y => AtRest tol s (w x y) (g x y)) (hc : Consistent g G)
    (hs : s = 0 ∨ (All4 fun x y => (g x y).κ = G.κ) ∨ All4 fun x y => Wet tol (w x y) (g x y)) :
    AtRest tol s (merged tol w g G) G := by
  obtain ⟨⟨a1, a2, a3⟩, ⟨b1, b2, b3⟩, ⟨c1, c2, c3⟩, ⟨e1, e2, e3⟩⟩ := all4 hr
  obtain ⟨ka, kb, kc, ke⟩ := all4 hk
  -- how much water there would be
  have one : ∀ (v : Water) (f : Ground), 0 < f.κ → (v.h = max (s - f.b) 0 ∨ v.h = 0 ∧ (s - f.b) * f.κ ≤ tol) →
      (Wet tol v f → v.h * f.κ = s * f.κ - f.b * f.κ) ∧ (¬ Wet tol v f → s * f.κ - f.b * f.κ ≤ tol) ∧ 0 ≤ v.h * f.κ := by
    intro v f hf h
    unfold Wet
    refine ⟨fun hw => ?_, fun hw => ?_, ?_⟩
    · rcases h with h | ⟨h, _⟩
      · rcases le_total (s - f.b) 0 with h0 | h0
        · rw [max_eq_right h0] at h; rw [h] at hw; linarith
        · rw [max_eq_left h0] at h; rw [h]; ring
      · rw [h] at hw; linarith
    · rcases h with h | ⟨_, h⟩
      · have : s - f.b ≤ v.h := by rw [h]; exact le_max_left _ _
        have := mul_le_mul_of_nonneg_right this (le_of_lt hf)
        linarith
      · linarith
    · rcases h with h | ⟨h, _⟩
      · rw [h]; exact mul_nonneg (le_max_right _ _) (le_of_lt hf)
      · rw [h]; simp
  have ha := one _ _ ka a3
  have hb := one _ _ kb b3
  have hcc := one _ _ kc c3
  have he := one _ _ ke e3
  obtain ⟨hc1, hc2⟩ := hc
  unfold AtRest merged
  dsimp only
  have z1 : wetSum tol w g (fun x y => (w x y).hu * (g x y).κ) = 0 := by
    simp [wetSum, sum4, a1, b1, c1, e1]
  have z2 : wetSum tol w g (fun x y => (w x y).hv * (g x y).κ) = 0 := by
    simp [wetSum, sum4, a2, b2, c2, e2]
  rw [z1, z2]
  refine ⟨by simp, by simp, ?_⟩
  have hmain : wetCells tol w g ≠ 0 → min (sum4 (fun x y => (w x y).h * (g x y).κ) / wetCells tol w g)
      (max ((wetSum tol w g fun x y => (w x y).h * (g x y).κ + (g x y).b * (g x y).κ) / wetCells tol w g - G.b * G.κ) 0) =
      max ((s - G.b) * G.κ) 0 := by
    have hks : (All4 fun x y => (g x y).κ = G.κ) → s * (g 0 0).κ = s * G.κ ∧ s * (g 1 0).κ = s * G.κ ∧
        s * (g 0 1).κ = s * G.κ ∧ s * (g 1 1).κ = s * G.κ := by
      intro h
      obtain ⟨h1, h2, h3, h4⟩ := all4 h
      rw [h1, h2, h3, h4]; exact ⟨rfl, rfl, rfl, rfl⟩
    have hz : s = 0 → s * (g 0 0).κ = s * G.κ ∧ s * (g 1 0).κ = s * G.κ ∧
        s * (g 0 1).κ = s * G.κ ∧ s * (g 1 1).κ = s * G.κ := by rintro rfl; simp
    have hs4 : s * (g 0 0).κ + s * (g 1 0).κ + s * (g 0 1).κ + s * (g 1 1).κ = 4 * (s * G.κ) := by
      unfold sum4 at hc1; linear_combination s * hc1
    unfold sum4 at hc2
    have hs' : (s * (g 0 0).κ = s * G.κ ∧ s * (g 1 0).κ = s * G.κ ∧ s * (g 0 1).κ = s * G.κ ∧ s * (g 1 1).κ = s * G.κ) ∨
        (Wet tol (w 0 0) (g 0 0) ∧ Wet tol (w 1 0) (g 1 0) ∧ Wet tol (w 0 1) (g 0 1) ∧ Wet tol (w 1 1) (g 1 1)) := by
      rcases hs with h | h | h
      · exact Or.inl (hz h)
      · exact Or.inl (hks h)
      · exact Or.inr (all4 h)
    have hsG : (s - G.b) * G.κ = s * G.κ - G.b * G.κ := by ring
    rw [hsG]
    have alt : ∀ (v : Water) (f : Ground), ((Wet tol v f → v.h * f.κ = s * f.κ - f.b * f.κ) ∧
        (¬ Wet tol v f → s * f.κ - f.b * f.κ ≤ tol) ∧ 0 ≤ v.h * f.κ) →
        (Wet tol v f ∧ v.h * f.κ = s * f.κ - f.b * f.κ ∧ tol < v.h * f.κ) ∨
        (¬ Wet tol v f ∧ s * f.κ - f.b * f.κ ≤ tol ∧ 0 ≤ v.h * f.κ) := by
      intro v f h
      by_cases hw : Wet tol v f
      · exact Or.inl ⟨hw, h.1 hw, hw⟩
      · exact Or.inr ⟨hw, h.2.1 hw, h.2.2⟩
    exact rest_core ht (alt _ _ ha) (alt _ _ hb) (alt _ _ hcc) (alt _ _ he) hc2 hs4 hs'
  by_cases hn : wetCells tol w g = 0
  · right
    rw [if_pos hn]
    refine ⟨rfl, ?_⟩
    have n4 : ¬ Wet tol (w 0 0) (g 0 0) ∧ ¬ Wet tol (w 1 0) (g 1 0) ∧ ¬ Wet tol (w 0 1) (g 0 1) ∧ ¬ Wet tol (w 1 1) (g 1 1) := by
      unfold wetCells wetSum sum4 at hn
      refine ⟨?_, ?_, ?_, ?_⟩ <;> intro h <;> simp only [h, if_true] at hn <;> split_ifs at hn <;> norm_num at hn
    have q1 := ha.2.1 n4.1
    have q2 := hb.2.1 n4.2.1
    have q3 := hcc.2.1 n4.2.2.1
    have q4 := he.2.1 n4.2.2.2
    have hs4 : s * (g 0 0).κ + s * (g 1 0).κ + s * (g 0 1).κ + s * (g 1 1).κ = 4 * (s * G.κ) := by
      unfold sum4 at hc1; linear_combination s * hc1
    unfold sum4 at hc2
    have hsG : (s - G.b) * G.κ = s * G.κ - G.b * G.κ := by ring
    rw [hsG]
    linarith
  · left
    rw [if_neg hn, hmain hn]
    rcases le_total (s - G.b) 0 with h | h
    · rw [max_eq_right h, max_eq_right (mul_nonpos_of_nonpos_of_nonneg h (le_of_lt hG))]; simp
    · rw [max_eq_left h, max_eq_left (mul_nonneg h (le_of_lt hG))]
      field_simp

theorem merged_velocity (ht : 0 ≤ tol) (hh : All4 fun x y => 0 ≤ (w x y).h) (hk : All4 fun x y => 0 < (g x y).κ)
    (hG : 0 < G.κ) {lo hi : ℚ} (hlo : lo ≤ 0) (hhi : 0 ≤ hi) :
    ((All4 fun x y => lo * (w x y).h ≤ (w x y).hu ∧ (w x y).hu ≤ hi * (w x y).h) →
      lo * (merged tol w g G).h ≤ (merged tol w g G).hu ∧ (merged tol w g G).hu ≤ hi * (merged tol w g G).h) ∧
    ((All4 fun x y => lo * (w x y).h ≤ (w x y).hv ∧ (w x y).hv ≤ hi * (w x y).h) →
      lo * (merged tol w g G).h ≤ (merged tol w g G).hv ∧ (merged tol w g G).hv ≤ hi * (merged tol w g G).h) := by
  have h0 := merged_nonneg ht hh hk hG (w := w)
  have main : ∀ m : Nat → Nat → ℚ, (All4 fun x y => lo * (w x y).h ≤ m x y ∧ m x y ≤ hi * (w x y).h) →
      lo * (merged tol w g G).h ≤ (merged tol w g G).h * ((wetSum tol w g fun x y => m x y * (g x y).κ) /
        (sum4 fun x y => (w x y).h * (g x y).κ)) ∧
      (merged tol w g G).h * ((wetSum tol w g fun x y => m x y * (g x y).κ) /
        (sum4 fun x y => (w x y).h * (g x y).κ)) ≤ hi * (merged tol w g G).h := by
    intro m hm
    by_cases hn : wetCells tol w g = 0
    · have : (merged tol w g G).h = 0 := by unfold merged; dsimp only; rw [if_pos hn]
      rw [this]; simp
    · have tp := total_pos ht hh hk hn
      have hb : lo * (sum4 fun x y => (w x y).h * (g x y).κ) ≤ (wetSum tol w g fun x y => m x y * (g x y).κ) ∧
          (wetSum tol w g fun x y => m x y * (g x y).κ) ≤ hi * (sum4 fun x y => (w x y).h * (g x y).κ) := by
        have one : ∀ x y : Nat, x < 2 → y < 2 →
            lo * ((w x y).h * (g x y).κ) ≤ (if Wet tol (w x y) (g x y) then m x y * (g x y).κ else 0) ∧
            (if Wet tol (w x y) (g x y) then m x y * (g x y).κ else 0) ≤ hi * ((w x y).h * (g x y).κ) := by
          intro x y hx hy
          have k := le_of_lt (hk x y hx hy)
          have hp := mul_nonneg (hh x y hx hy) k
          obtain ⟨m1, m2⟩ := hm x y hx hy
          try dsimp only at k hp m1 m2
          split_ifs
          · have q1 := mul_le_mul_of_nonneg_right m1 k
            have q2 := mul_le_mul_of_nonneg_right m2 k
            constructor <;> linarith
          · exact ⟨mul_nonpos_of_nonpos_of_nonneg hlo hp, mul_nonneg hhi hp⟩
        obtain ⟨⟨a1, a2⟩, ⟨b1, b2⟩, ⟨c1, c2⟩, ⟨e1, e2⟩⟩ := all4 (p := fun x y => _) one
        unfold wetSum sum4
        dsimp only
        constructor <;> linarith
      have hlo' : lo ≤ (wetSum tol w g fun x y => m x y * (g x y).κ) / (sum4 fun x y => (w x y).h * (g x y).κ) := by
        rw [le_div_iff₀ tp]; exact hb.1
      have hhi' : (wetSum tol w g fun x y => m x y * (g x y).κ) / (sum4 fun x y => (w x y).h * (g x y).κ) ≤ hi := by
        rw [div_le_iff₀ tp]; exact hb.2
      have q1 := mul_le_mul_of_nonneg_left hlo' h0
      have q2 := mul_le_mul_of_nonneg_left hhi' h0
      constructor <;> linarith
  exact ⟨main _, main _⟩

theorem merged_conserves (ht : 0 ≤ tol) (hk : All4 fun x y => 0 < (g x y).κ)
    (hG : 0 < G.κ) (hc : Consistent g G) (hw : All4 fun x y => Wet tol (w x y) (g x y)) :
    4 * ((merged tol w g G).h * G.κ) = sum4 (fun x y => (w x y).h * (g x y).κ) ∧
    4 * ((merged tol w g G).hu * G.κ) = sum4 (fun x y => (w x y).hu * (g x y).κ) ∧
    4 * ((merged tol w g G).hv * G.κ) = sum4 (fun x y => (w x y).hv * (g x y).κ) := by
  obtain ⟨a, b, c, e⟩ := all4 hw
  have n4 : wetCells tol w g = 4 := by
    unfold wetCells wetSum sum4; simp only [a, b, c, e, if_true]; norm_num
  have ws : ∀ f : Nat → Nat → ℚ, wetSum tol w g f = sum4 f := by
    intro f; unfold wetSum sum4; simp only [a, b, c, e, if_true]
  have tp : 0 < sum4 fun x y => (w x y).h * (g x y).κ := by
    unfold Wet at a b c e; unfold sum4; dsimp only; linarith
  have hk4 : (merged tol w g G).h = (sum4 fun x y => (w x y).h * (g x y).κ) / 4 / G.κ := by
    unfold merged
    dsimp only
    rw [n4, if_neg (by norm_num), ws]
    congr 1
    have e1 : (sum4 fun x y => (w x y).h * (g x y).κ + (g x y).b * (g x y).κ) / 4 - G.b * G.κ =
        (sum4 fun x y => (w x y).h * (g x y).κ) / 4 := by
      obtain ⟨_, h2⟩ := hc
      unfold sum4 at h2 ⊢
      dsimp only at h2 ⊢
      linarith
    rw [e1, max_eq_left (by linarith), min_self]
  have hu : (merged tol w g G).hu = (merged tol w g G).h * ((sum4 fun x y => (w x y).hu * (g x y).κ) /
      sum4 fun x y => (w x y).h * (g x y).κ) := by unfold merged; dsimp only; rw [ws, ws]
  have hv : (merged tol w g G).hv = (merged tol w g G).h * ((sum4 fun x y => (w x y).hv * (g x y).κ) /
      sum4 fun x y => (w x y).h * (g x y).κ) := by unfold merged; dsimp only; rw [ws, ws]
  rw [hu, hv, hk4]
  have hG' := ne_of_gt hG
  have tp' := ne_of_gt tp
  refine ⟨?_, ?_, ?_⟩ <;> field_simp

/-- No more water than in the wet cells, each counted as a whole coarse cell's share. -/
theorem merged_le (hG : 0 < G.κ) :
    wetCells tol w g * ((merged tol w g G).h * G.κ) ≤ sum4 (fun x y => (w x y).h * (g x y).κ) ∨ wetCells tol w g = 0 := by
  by_cases hn : wetCells tol w g = 0
  · exact Or.inr hn
  · left
    have np : 0 < wetCells tol w g := by
      refine lt_of_le_of_ne ?_ (Ne.symm hn)
      unfold wetCells wetSum sum4; dsimp only; split_ifs <;> norm_num
    have e : (merged tol w g G).h * G.κ = min ((sum4 fun x y => (w x y).h * (g x y).κ) / wetCells tol w g)
        (max ((wetSum tol w g fun x y => (w x y).h * (g x y).κ + (g x y).b * (g x y).κ) / wetCells tol w g - G.b * G.κ) 0) := by
      unfold merged
      dsimp only
      rw [if_neg hn]
      field_simp
    rw [e]
    have := min_le_left ((sum4 fun x y => (w x y).h * (g x y).κ) / wetCells tol w g)
        (max ((wetSum tol w g fun x y => (w x y).h * (g x y).κ + (g x y).b * (g x y).κ) / wetCells tol w g - G.b * G.κ) 0)
    have := mul_le_mul_of_nonneg_left this (le_of_lt np)
    rw [mul_div_cancel₀ _ hn] at this
    exact this

end Fclaw.Geo

import Verif.GeoBc.Lemmas
/-
The four sides.
-/
set_option autoImplicit false
set_option linter.unusedSimpArgs false
set_option linter.unusedVariables false
namespace Fclaw.GeoBc

open Fort
open Bc (Out ofOption Kind image sign behindWall)

open Classical in
/-- What a side in x does. -/
def XSpec (d : Sizes) (a : Arr) (lo hi : Kind) (M M' : Mem) : Prop := ∀ e, d.has e = true →
  M' e = if Touched d a e then (if e.1 = a then sign d.mx lo hi e.2.1 e.2.2.2 2 else 1) * M (e.1, image d.mx lo hi e.2.1, e.2.2) else M e

open Classical in
/-- What a side in y does. -/
def YSpec (d : Sizes) (a : Arr) (lo hi : Kind) (M M' : Mem) : Prop := ∀ e, d.has e = true →
  M' e = if Touched d a e then (if e.1 = a then sign d.my lo hi e.2.2.1 e.2.2.2 3 else 1) * M (e.1, e.2.1, image d.my lo hi e.2.2.1, e.2.2.2) else M e

variable {d : Sizes} {a : Arr} {dst src w : ℤ → ℤ} {S : ℤ → Prop} {lo hi : Kind}

theorem x_extrap (ha : a ≠ .aux) (hx : 1 ≤ d.maux) (s : Side d.mx d.mbc dst src w S) (h1 : ∀ i, S i → image d.mx lo hi i = w i)
    (h0 : ∀ i, ¬ S i → image d.mx lo hi i = i) (hb : ∀ i, ¬ behindWall d.mx lo hi i) (M : Mem) :
    ∃ M', xSide d a dst src M = some M' ∧ XSpec d a lo hi M M' := by
  obtain ⟨M', e, p, q⟩ := xSide_pulls d a ha hx dst src w S s M
  refine ⟨M', e, fun e he => ?_⟩
  have hs : sign d.mx lo hi e.2.1 e.2.2.2 2 = 1 := by rw [sign, if_neg (fun h => hb _ h.1)]
  by_cases t : Touched d a e
  · rw [if_pos t, hs, ite_self]
    by_cases c : S e.2.1
    · rw [p e ⟨t, he, c⟩, h1 _ c]
    · rw [q e (fun h => c h.2.2), h0 _ c, one_mul]
  · rw [if_neg t, q e (fun h => t h.1)]

theorem y_extrap (ha : a ≠ .aux) (hx : 1 ≤ d.maux) (s : Side d.my d.mbc dst src w S) (h1 : ∀ i, S i → image d.my lo hi i = w i)
    (h0 : ∀ i, ¬ S i → image d.my lo hi i = i) (hb : ∀ i, ¬ behindWall d.my lo hi i) (M : Mem) :
    ∃ M', ySide d a dst src M = some M' ∧ YSpec d a lo hi M M' := by
  obtain ⟨M', e, p, q⟩ := ySide_pulls d a ha hx dst src w S s M
  refine ⟨M', e, fun e he => ?_⟩
  have hs : sign d.my lo hi e.2.2.1 e.2.2.2 3 = 1 := by rw [sign, if_neg (fun h => hb _ h.1)]
  by_cases t : Touched d a e
  · rw [if_pos t, hs, ite_self]
    by_cases c : S e.2.2.1
    · rw [p e ⟨t, he, c⟩, h1 _ c]
    · rw [q e (fun h => c h.2.2), h0 _ c, one_mul]
  · rw [if_neg t, q e (fun h => t h.1)]

theorem x_wall (ha : a ≠ .aux) (hx : 1 ≤ d.maux) (hm : 3 ≤ d.meqn) (s : Side d.mx d.mbc dst src w S) (h1 : ∀ i, S i → image d.mx lo hi i = w i)
    (h0 : ∀ i, ¬ S i → image d.mx lo hi i = i) (hb : ∀ i, behindWall d.mx lo hi i ↔ S i) (M : Mem) :
    ∃ M', (xSide d a dst src M).bind (xNegate d a dst src) = some M' ∧ XSpec d a lo hi M M' := by
  obtain ⟨M1, e1, p1, q1⟩ := xSide_pulls d a ha hx dst src w S s M
  obtain ⟨M', e2, p, q⟩ := xNegate_pulls d a ha hm dst src w S s M1
  refine ⟨M', by rw [e1]; exact e2, fun e he => ?_⟩
  by_cases t : Touched d a e
  · rw [if_pos t]
    by_cases c : S e.2.1
    · rw [h1 _ c]
      by_cases n : e.1 = a ∧ e.2.2.2 = 2
      · rw [p e ⟨n, he, c⟩, q1 _ (fun h => s.hn _ c h.2.2), if_pos n.1, sign, if_pos ⟨(hb _).2 c, n.2⟩]
      · rw [q e (fun h => n h.1), p1 e ⟨t, he, c⟩]
        congr 1
        by_cases k : e.1 = a
        · rw [if_pos k, sign, if_neg (fun h => n ⟨k, h.2⟩)]
        · rw [if_neg k]
    · have hs : sign d.mx lo hi e.2.1 e.2.2.2 2 = 1 := by rw [sign, if_neg (fun h => c ((hb _).1 h.1))]
      rw [q e (fun h => c h.2.2), q1 e (fun h => c h.2.2), h0 _ c, hs, ite_self, one_mul]
  · rw [if_neg t, q e (fun h => t (Or.inl ⟨h.1.1, by rw [h.1.2]; omega, by rw [h.1.2]; omega⟩)), q1 e (fun h => t h.1)]

theorem y_wall (ha : a ≠ .aux) (hx : 1 ≤ d.maux) (hm : 3 ≤ d.meqn) (s : Side d.my d.mbc dst src w S) (h1 : ∀ i, S i → image d.my lo hi i = w i)
    (h0 : ∀ i, ¬ S i → image d.my lo hi i = i) (hb : ∀ i, behindWall d.my lo hi i ↔ S i) (M : Mem) :
    ∃ M', (ySide d a dst src M).bind (yNegate d a dst src) = some M' ∧ YSpec d a lo hi M M' := by
  obtain ⟨M1, e1, p1, q1⟩ := ySide_pulls d a ha hx dst src w S s M
  obtain ⟨M', e2, p, q⟩ := yNegate_pulls d a ha hm dst src w S s M1
  refine ⟨M', by rw [e1]; exact e2, fun e he => ?_⟩
  by_cases t : Touched d a e
  · rw [if_pos t]
    by_cases c : S e.2.2.1
    · rw [h1 _ c]
      by_cases n : e.1 = a ∧ e.2.2.2 = 3
      · rw [p e ⟨n, he, c⟩, q1 _ (fun h => s.hn _ c h.2.2), if_pos n.1, sign, if_pos ⟨(hb _).2 c, n.2⟩]
      · rw [q e (fun h => n h.1), p1 e ⟨t, he, c⟩]
        congr 1
        by_cases k : e.1 = a
        · rw [if_pos k, sign, if_neg (fun h => n ⟨k, h.2⟩)]
        · rw [if_neg k]
    · have hs : sign d.my lo hi e.2.2.1 e.2.2.2 3 = 1 := by rw [sign, if_neg (fun h => c ((hb _).1 h.1))]
      rw [q e (fun h => c h.2.2), q1 e (fun h => c h.2.2), h0 _ c, hs, ite_self, one_mul]
  · rw [if_neg t, q e (fun h => t (Or.inl ⟨h.1.1, by rw [h.1.2]; omega, by rw [h.1.2]; omega⟩)), q1 e (fun h => t h.1)]

theorem x_none (M : Mem) : XSpec d a .none .none M M := by
  intro e _
  have : image d.mx .none .none e.2.1 = e.2.1 := by unfold image; split_ifs <;> rfl
  have hs : sign d.mx .none .none e.2.1 e.2.2.2 2 = 1 := by rw [sign, if_neg (by rintro ⟨⟨_, h⟩ | ⟨_, h⟩, _⟩ <;> cases h)]
  rw [this, hs, ite_self, one_mul, ite_self]

theorem y_none (M : Mem) : YSpec d a .none .none M M := by
  intro e _
  have : image d.my .none .none e.2.2.1 = e.2.2.1 := by unfold image; split_ifs <;> rfl
  have hs : sign d.my .none .none e.2.2.1 e.2.2.2 3 = 1 := by rw [sign, if_neg (by rintro ⟨⟨_, h⟩ | ⟨_, h⟩, _⟩ <;> cases h)]
  rw [this, hs, ite_self, one_mul, ite_self]

/-- The four kinds of sides. -/
theorem low_extrap (n mbc : ℕ) (hn : 1 ≤ n) : Side n mbc (fun b => 1 - b) (fun _ => 1) (fun _ => 1) (fun i => i < 1) where
  hS := fun i h1 h2 => ⟨fun h => ⟨1 - i, by omega, by omega⟩, by rintro ⟨b, h, rfl⟩; omega⟩
  hd := fun b h1 h2 => by omega
  hs := fun b h1 h2 => by omega
  hw := fun b h1 h2 => rfl
  hn := fun i h => by omega

theorem low_wall (n mbc : ℕ) : Side n mbc (fun b => 1 - b) (fun b => b) (fun i => 1 - i) (fun i => i < 1) where
  hS := fun i h1 h2 => ⟨fun h => ⟨1 - i, by omega, by omega⟩, by rintro ⟨b, h, rfl⟩; omega⟩
  hd := fun b h1 h2 => by omega
  hs := fun b h1 h2 => by omega
  hw := fun b h1 h2 => by omega
  hn := fun i h => by omega

theorem high_extrap (n mbc : ℕ) (hn : 1 ≤ n) : Side n mbc (fun b => n + b) (fun _ => n) (fun _ => n) (fun i => (n : ℤ) < i) where
  hS := fun i h1 h2 => ⟨fun h => ⟨i - n, by omega, by omega⟩, by rintro ⟨b, h, rfl⟩; omega⟩
  hd := fun b h1 h2 => by omega
  hs := fun b h1 h2 => by omega
  hw := fun b h1 h2 => rfl
  hn := fun i h => by omega

theorem high_wall (n mbc : ℕ) (hn : 1 ≤ n) : Side n mbc (fun b => n + b) (fun b => n + 1 - b) (fun i => 2 * n + 1 - i) (fun i => (n : ℤ) < i) where
  hS := fun i h1 h2 => ⟨fun h => ⟨i - n, by omega, by omega⟩, by rintro ⟨b, h, rfl⟩; omega⟩
  hd := fun b h1 h2 => by omega
  hs := fun b h1 h2 => by omega
  hw := fun b h1 h2 => by omega
  hn := fun i h => by omega

/-- The condition for a code. -/
def kOf (mth : ℤ) : Kind := if mth = 1 then .extrap else if mth = 3 then .wall else .none

theorem select_extrap (e w : Mem → Option Mem) (M : Mem) : select 1 e w M = ofOption (e M) := by simp [select]
theorem select_wall (e w : Mem → Option Mem) (M : Mem) : select 3 e w M = ofOption (w M) := by simp [select]
theorem select_other (mth : ℤ) (h0 : mth ≠ 0) (h1 : mth ≠ 1) (h3 : mth ≠ 3) (e w : Mem → Option Mem) (M : Mem) : select mth e w M = .ok M := by
  unfold select
  rw [if_neg (by omega), if_neg (by omega)]
  split_ifs with h
  · rfl
  · omega
  · rfl

theorem image_low (n : ℕ) (i : ℤ) : (i < 1 → image n .extrap .none i = 1 ∧ image n .wall .none i = 1 - i) ∧
    (¬ i < 1 → image n .extrap .none i = i ∧ image n .wall .none i = i) := by
  unfold image
  constructor <;> intro h
  · simp [h]
  · simp only [h, if_false]; split_ifs <;> exact ⟨rfl, rfl⟩

theorem image_high (n : ℕ) (hn : 1 ≤ n) (i : ℤ) : ((n : ℤ) < i → image n .none .extrap i = n ∧ image n .none .wall i = 2 * n + 1 - i) ∧
    (¬ (n : ℤ) < i → image n .none .extrap i = i ∧ image n .none .wall i = i) := by
  unfold image
  constructor <;> intro h
  · have : ¬ i < 1 := by omega
    simp [h, this]
  · simp only [h, if_false]; split_ifs <;> exact ⟨rfl, rfl⟩

theorem left_spec (ha : a ≠ .aux) (hx : 1 ≤ d.maux) (hm : 3 ≤ d.meqn) (hn : 1 ≤ d.mx) (mth : ℤ) (h0 : mth ≠ 0) (M : Mem) :
    ∃ M', left d a mth M = .ok M' ∧ XSpec d a (kOf mth) .none M M' := by
  unfold left kOf
  by_cases c1 : mth = 1
  · subst c1
    obtain ⟨M', e, h⟩ := x_extrap (lo := .extrap) (hi := .none) ha hx (low_extrap d.mx d.mbc hn) (fun i h => ((image_low d.mx i).1 h).1)
      (fun i h => ((image_low d.mx i).2 h).1) (by rintro i (⟨_, h⟩ | ⟨_, h⟩) <;> cases h) M
    exact ⟨M', by rw [select_extrap, e]; rfl, by simpa using h⟩
  · by_cases c3 : mth = 3
    · subst c3
      obtain ⟨M', e, h⟩ := x_wall (lo := .wall) (hi := .none) ha hx hm (low_wall d.mx d.mbc) (fun i h => ((image_low d.mx i).1 h).2)
        (fun i h => ((image_low d.mx i).2 h).2) (by intro i; simp [behindWall]) M
      exact ⟨M', by rw [select_wall, e]; rfl, by simpa using h⟩
    · exact ⟨M, select_other mth h0 c1 c3 _ _ M, by rw [if_neg c1, if_neg c3]; exact x_none M⟩

theorem right_spec (ha : a ≠ .aux) (hx : 1 ≤ d.maux) (hm : 3 ≤ d.meqn) (hn : 1 ≤ d.mx) (mth : ℤ) (h0 : mth ≠ 0) (M : Mem) :
    ∃ M', right d a mth M = .ok M' ∧ XSpec d a .none (kOf mth) M M' := by
  unfold right kOf
  by_cases c1 : mth = 1
  · subst c1
    obtain ⟨M', e, h⟩ := x_extrap (lo := .none) (hi := .extrap) ha hx (high_extrap d.mx d.mbc hn) (fun i h => ((image_high d.mx hn i).1 h).1)
      (fun i h => ((image_high d.mx hn i).2 h).1) (by rintro i (⟨_, h⟩ | ⟨_, h⟩) <;> cases h) M
    exact ⟨M', by rw [select_extrap, e]; rfl, by simpa using h⟩
  · by_cases c3 : mth = 3
    · subst c3
      obtain ⟨M', e, h⟩ := x_wall (lo := .none) (hi := .wall) ha hx hm (high_wall d.mx d.mbc hn) (fun i h => ((image_high d.mx hn i).1 h).2)
        (fun i h => ((image_high d.mx hn i).2 h).2) (by intro i; simp [behindWall]) M
      exact ⟨M', by rw [select_wall, e]; rfl, by simpa using h⟩
    · exact ⟨M, select_other mth h0 c1 c3 _ _ M, by rw [if_neg c1, if_neg c3]; exact x_none M⟩

theorem bottom_spec (ha : a ≠ .aux) (hx : 1 ≤ d.maux) (hm : 3 ≤ d.meqn) (hn : 1 ≤ d.my) (mth : ℤ) (h0 : mth ≠ 0) (M : Mem) :
    ∃ M', bottom d a mth M = .ok M' ∧ YSpec d a (kOf mth) .none M M' := by
  unfold bottom kOf
  by_cases c1 : mth = 1
  · subst c1
    obtain ⟨M', e, h⟩ := y_extrap (lo := .extrap) (hi := .none) ha hx (low_extrap d.my d.mbc hn) (fun i h => ((image_low d.my i).1 h).1)
      (fun i h => ((image_low d.my i).2 h).1) (by rintro i (⟨_, h⟩ | ⟨_, h⟩) <;> cases h) M
    exact ⟨M', by rw [select_extrap, e]; rfl, by simpa using h⟩
  · by_cases c3 : mth = 3
    · subst c3
      obtain ⟨M', e, h⟩ := y_wall (lo := .wall) (hi := .none) ha hx hm (low_wall d.my d.mbc) (fun i h => ((image_low d.my i).1 h).2)
        (fun i h => ((image_low d.my i).2 h).2) (by intro i; simp [behindWall]) M
      exact ⟨M', by rw [select_wall, e]; rfl, by simpa using h⟩
    · exact ⟨M, select_other mth h0 c1 c3 _ _ M, by rw [if_neg c1, if_neg c3]; exact y_none M⟩

theorem top_spec (ha : a ≠ .aux) (hx : 1 ≤ d.maux) (hm : 3 ≤ d.meqn) (hn : 1 ≤ d.my) (mth : ℤ) (h0 : mth ≠ 0) (M : Mem) :
    ∃ M', top d a mth M = .ok M' ∧ YSpec d a .none (kOf mth) M M' := by
  unfold top kOf
  by_cases c1 : mth = 1
  · subst c1
    obtain ⟨M', e, h⟩ := y_extrap (lo := .none) (hi := .extrap) ha hx (high_extrap d.my d.mbc hn) (fun i h => ((image_high d.my hn i).1 h).1)
      (fun i h => ((image_high d.my hn i).2 h).1) (by rintro i (⟨_, h⟩ | ⟨_, h⟩) <;> cases h) M
    exact ⟨M', by rw [select_extrap, e]; rfl, by simpa using h⟩
  · by_cases c3 : mth = 3
    · subst c3
      obtain ⟨M', e, h⟩ := y_wall (lo := .none) (hi := .wall) ha hx hm (high_wall d.my d.mbc hn) (fun i h => ((image_high d.my hn i).1 h).2)
        (fun i h => ((image_high d.my hn i).2 h).2) (by intro i; simp [behindWall]) M
      exact ⟨M', by rw [select_wall, e]; rfl, by simpa using h⟩
    · exact ⟨M, select_other mth h0 c1 c3 _ _ M, by rw [if_neg c1, if_neg c3]; exact y_none M⟩

end Fclaw.GeoBc

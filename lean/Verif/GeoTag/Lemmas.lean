import Verif.GeoTag.Spec
/-
Lemmas about the model of GeoClaw's criteria.
-/
set_option autoImplicit false
namespace Fclaw.GeoTag

theorem intersects_iff (B : Box) (t : ℝ) (r : Region) (hB : B.Proper) (hr : r.Proper) :
    intersects B.x0 B.y0 B.x1 B.y1 t r = true ↔ r.Touches t B := by
  unfold intersects Region.Touches
  constructor
  · intro h
    split at h
    · simp at h
    · split at h
      · simp at h
      · split at h
        · simp at h
        · rename_i a b c
          push Not at a b c
          refine ⟨a.1, a.2, max B.x0 r.xLow, max B.y0 r.yLow, ⟨le_max_left _ _, max_le hB.x b.1, le_max_left _ _, max_le hB.y c.1⟩,
            ⟨le_max_right _ _, max_le b.2 hr.x, le_max_right _ _, max_le c.2 hr.y⟩⟩
  · rintro ⟨t0, t1, x, y, ⟨a, b, c, d⟩, ⟨e, f, g, h⟩⟩
    rw [if_neg (by push Not; exact ⟨t0, t1⟩), if_neg (by push Not; constructor <;> linarith),
      if_neg (by push Not; constructor <;> linarith)]

theorem foldMin_lt (f : Region → Bool) (l : List Region) (a level : ℤ) :
    level < l.foldl (fun a r => if f r then min a r.minLevel else a) a ↔ level < a ∧ ∀ r ∈ l, f r = true → level < r.minLevel := by
  induction l generalizing a with
  | nil => simp
  | cons r l ih =>
    rw [List.foldl_cons, ih]
    by_cases h : f r = true
    · simp [h, and_assoc]
    · simp [h]

theorem foldMin_le (f : Region → Bool) (l : List Region) (a level : ℤ) :
    level ≤ l.foldl (fun a r => if f r then min a r.minLevel else a) a ↔ level ≤ a ∧ ∀ r ∈ l, f r = true → level ≤ r.minLevel := by
  induction l generalizing a with
  | nil => simp
  | cons r l ih =>
    rw [List.foldl_cons, ih]
    by_cases h : f r = true
    · simp [h, and_assoc]
    · simp [h]

theorem foldMax_le (f : Region → Bool) (l : List Region) (a level : ℤ) :
    l.foldl (fun a r => if f r then max a r.maxLevel else a) a ≤ level ↔ a ≤ level ∧ ∀ r ∈ l, f r = true → r.maxLevel ≤ level := by
  induction l generalizing a with
  | nil => simp
  | cons r l ih =>
    rw [List.foldl_cons, ih]
    by_cases h : f r = true
    · simp [h, and_assoc]
    · simp [h]

theorem foldMax_lt (f : Region → Bool) (l : List Region) (a level : ℤ) :
    l.foldl (fun a r => if f r then max a r.maxLevel else a) a < level ↔ a < level ∧ ∀ r ∈ l, f r = true → r.maxLevel < level := by
  induction l generalizing a with
  | nil => simp
  | cons r l ih =>
    rw [List.foldl_cons, ih]
    by_cases h : f r = true
    · simp [h, and_assoc]
    · simp [h]

/-- What `testRegions` says for refinement. -/
theorem regions_refine (l : List Region) (level : ℤ) (B : Box) (t : ℝ) (hB : B.Proper) (hl : ∀ r ∈ l, r.Proper)
    (h0 : 0 ≤ level) :
    let some := ∃ r ∈ l, r.Touches t B
    let below := ∀ r ∈ l, r.Touches t B → level < r.minLevel
    let above := ∀ r ∈ l, r.Touches t B → r.maxLevel ≤ level
    let tag := testRegions l level B.x0 B.y0 B.x1 B.y1 t 1
    (some ∧ below → tag = 1) ∧ (some ∧ ¬ below ∧ above → tag = 0) ∧ (¬ some ∨ (¬ below ∧ ¬ above) → tag = -1) := by
  classical
  intro some below above tag
  have hT : ∀ r ∈ l, (intersects B.x0 B.y0 B.x1 B.y1 t r = true ↔ r.Touches t B) := fun r h => intersects_iff B t r hB (hl r h)
  have hs : l.any (intersects B.x0 B.y0 B.x1 B.y1 t) = true ↔ some := by
    rw [List.any_eq_true]
    exact ⟨fun ⟨r, a, b⟩ => ⟨r, a, (hT r a).mp b⟩, fun ⟨r, a, b⟩ => ⟨r, a, (hT r a).mpr b⟩⟩
  have hb : ∀ x : ℤ, (∀ r ∈ l, intersects B.x0 B.y0 B.x1 B.y1 t r = true → x < r.minLevel) ↔
      ∀ r ∈ l, r.Touches t B → x < r.minLevel :=
    fun x => ⟨fun h r a b => h r a ((hT r a).mpr b), fun h r a b => h r a ((hT r a).mp b)⟩
  have ha : (∀ r ∈ l, intersects B.x0 B.y0 B.x1 B.y1 t r = true → r.maxLevel ≤ level) ↔ above :=
    ⟨fun h r a b => h r a ((hT r a).mpr b), fun h r a b => h r a ((hT r a).mp b)⟩
  have h100 : some → below → level < 100 := by
    rintro ⟨r, a, b⟩ c
    have := c r a b
    have := (hl r a).order
    have := (hl r a).high
    omega
  have e : tag = if ¬ some then -1 else if level < 100 ∧ below then 1 else if above then 0 else -1 := by
    simp only [tag, testRegions]
    have e1 := (foldMin_lt (intersects B.x0 B.y0 B.x1 B.y1 t) l 100 level).trans (and_congr_right fun _ => hb level)
    have e2 := (foldMax_le (intersects B.x0 B.y0 B.x1 B.y1 t) l 0 level).trans ((and_congr_right fun _ => ha).trans (and_iff_right h0))
    rw [if_congr (not_congr hs) rfl (if_pos (by norm_num : (1 : ℤ) ≠ 0)), if_congr Iff.rfl rfl (if_congr e1 rfl (if_congr e2 rfl rfl))]
  by_cases hsome : some
  · by_cases hbelow : below
    · refine ⟨fun _ => ?_, fun h => absurd hbelow h.2.1, fun h => ?_⟩
      · rw [e, if_neg (not_not.mpr hsome), if_pos ⟨h100 hsome hbelow, hbelow⟩]
      · rcases h with h | h
        · exact absurd hsome h
        · exact absurd hbelow h.1
    · refine ⟨fun h => absurd h.2 hbelow, fun h => ?_, fun h => ?_⟩
      · rw [e, if_neg (not_not.mpr hsome), if_neg (fun x => hbelow x.2), if_pos h.2.2]
      · rcases h with h | h
        · exact absurd hsome h
        · rw [e, if_neg (not_not.mpr hsome), if_neg (fun x => hbelow x.2), if_neg h.2]
  · exact ⟨fun h => absurd h.1 hsome, fun h => absurd h.1 hsome, fun _ => by rw [e, if_pos hsome]⟩

/-- What `testRegions` says for coarsening. -/
theorem regions_coarsen (l : List Region) (level : ℤ) (B : Box) (t : ℝ) (hB : B.Proper) (hl : ∀ r ∈ l, r.Proper)
    (h0 : 0 < level) :
    let some := ∃ r ∈ l, r.Touches t B
    let below := ∀ r ∈ l, r.Touches t B → level ≤ r.minLevel
    let above := ∀ r ∈ l, r.Touches t B → r.maxLevel < level
    let tag := testRegions l level B.x0 B.y0 B.x1 B.y1 t 0
    (some ∧ below → tag = 0) ∧ (some ∧ ¬ below ∧ above → tag = 1) ∧ (¬ some ∨ (¬ below ∧ ¬ above) → tag = -1) := by
  classical
  intro some below above tag
  have hT : ∀ r ∈ l, (intersects B.x0 B.y0 B.x1 B.y1 t r = true ↔ r.Touches t B) := fun r h => intersects_iff B t r hB (hl r h)
  have hs : l.any (intersects B.x0 B.y0 B.x1 B.y1 t) = true ↔ some := by
    rw [List.any_eq_true]
    exact ⟨fun ⟨r, a, b⟩ => ⟨r, a, (hT r a).mp b⟩, fun ⟨r, a, b⟩ => ⟨r, a, (hT r a).mpr b⟩⟩
  have hb : (∀ r ∈ l, intersects B.x0 B.y0 B.x1 B.y1 t r = true → level ≤ r.minLevel) ↔ below :=
    ⟨fun h r a b => h r a ((hT r a).mpr b), fun h r a b => h r a ((hT r a).mp b)⟩
  have ha : (∀ r ∈ l, intersects B.x0 B.y0 B.x1 B.y1 t r = true → r.maxLevel < level) ↔ above :=
    ⟨fun h r a b => h r a ((hT r a).mpr b), fun h r a b => h r a ((hT r a).mp b)⟩
  have h100 : some → below → level ≤ 100 := by
    rintro ⟨r, a, b⟩ c
    have := c r a b
    have := (hl r a).order
    have := (hl r a).high
    omega
  have e : tag = if ¬ some then -1 else if level ≤ 100 ∧ below then 0 else if above then 1 else -1 := by
    simp only [tag, testRegions]
    have e1 := (foldMin_le (intersects B.x0 B.y0 B.x1 B.y1 t) l 100 level).trans (and_congr_right fun _ => hb)
    have e2 := (foldMax_lt (intersects B.x0 B.y0 B.x1 B.y1 t) l 0 level).trans ((and_congr_right fun _ => ha).trans (and_iff_right h0))
    rw [if_congr (not_congr hs) rfl (if_neg (by norm_num : ¬ (0 : ℤ) ≠ 0)), if_congr Iff.rfl rfl (if_congr e1 rfl (if_congr e2 rfl rfl))]
  by_cases hsome : some
  · by_cases hbelow : below
    · refine ⟨fun _ => ?_, fun h => absurd hbelow h.2.1, fun h => ?_⟩
      · rw [e, if_neg (not_not.mpr hsome), if_pos ⟨h100 hsome hbelow, hbelow⟩]
      · rcases h with h | h
        · exact absurd hsome h
        · exact absurd hbelow h.1
    · refine ⟨fun h => absurd h.2 hbelow, fun h => ?_, fun h => ?_⟩
      · rw [e, if_neg (not_not.mpr hsome), if_neg (fun x => hbelow x.2), if_pos h.2.2]
      · rcases h with h | h
        · exact absurd hsome h
        · rw [e, if_neg (not_not.mpr hsome), if_neg (fun x => hbelow x.2), if_neg h.2]
  · exact ⟨fun h => absurd h.1 hsome, fun h => absurd h.1 hsome, fun _ => by rw [e, if_pos hsome]⟩

theorem flag_iff (P : Params) (c : Cell) (xc yc t : ℝ) (level initFlag : ℤ) (co : Bool) :
    0 < flag2refine P c xc yc t level initFlag co ↔
      ¬ (initFlag ≠ 0 ∧ co = true) ∧ P.allowflag xc yc t level = true ∧ Wave P (if co then 1 / 2 else 1) level c := by
  unfold flag2refine Wave
  by_cases h1 : initFlag ≠ 0 ∧ co = true
  · rw [if_pos h1]; simp [h1]
  rw [if_neg h1]
  by_cases h2 : P.allowflag xc yc t level = true
  swap
  · rw [if_pos h2]; simp [h2]
  rw [if_neg (not_not.mpr h2)]
  simp only []
  by_cases h3 : c.h > P.dryTolerance
  swap
  · rw [if_neg h3]
    constructor
    · intro h; exact absurd h (by norm_num)
    · intro h; exact absurd h.2.2.1 h3
  rw [if_pos h3]
  generalize (if co = true then (1 / 2 : ℝ) else 1) = th
  by_cases h4 : |c.h + c.b - P.seaLevel| > th * P.waveTolerance
  · rw [if_pos h4]
    exact ⟨fun _ => ⟨h1, h2, h3, Or.inl h4⟩, fun _ => one_pos⟩
  rw [if_neg h4]
  have key : ((List.range (min (P.numSpeeds : ℤ) P.maxlevel).toNat).any fun k =>
      decide (Real.sqrt (c.hu ^ 2 + c.hv ^ 2) / c.h > th * P.speedTolerance (k + 1) ∧ level ≤ (k + 1 : ℕ))) = true ↔
      ∃ m : ℕ, 1 ≤ m ∧ m ≤ P.numSpeeds ∧ (m : ℤ) ≤ P.maxlevel ∧ level ≤ m ∧
        th * P.speedTolerance m < Real.sqrt (c.hu ^ 2 + c.hv ^ 2) / c.h := by
    rw [List.any_eq_true]
    constructor
    · rintro ⟨k, hk, hd⟩
      rw [List.mem_range] at hk
      rw [decide_eq_true_eq] at hd
      exact ⟨k + 1, by omega, by omega, by omega, hd.2, hd.1⟩
    · rintro ⟨m, m1, m2, m3, m4, m5⟩
      refine ⟨m - 1, by rw [List.mem_range]; omega, ?_⟩
      rw [decide_eq_true_eq, show m - 1 + 1 = m by omega]
      exact ⟨m5, m4⟩
  split
  · rename_i h5
    exact ⟨fun _ => ⟨h1, h2, h3, Or.inr (key.mp h5)⟩, fun _ => one_pos⟩
  · rename_i h5
    constructor
    · intro h; exact absurd h (by norm_num)
    · rintro ⟨_, _, _, h | h⟩
      · exact absurd h h4
      · exact absurd (key.mpr h) h5

theorem flagged_iff (P : Params) (p : Patch) (t : ℝ) (level initFlag : ℤ) (co : Bool) :
    flagged P p t level initFlag co = true ↔
      ¬ (initFlag ≠ 0 ∧ co = true) ∧ WaveIn P (if co then 1 / 2 else 1) t level p := by
  unfold flagged WaveIn
  simp only [List.any_eq_true, List.mem_range, decide_eq_true_eq, flag_iff]
  constructor
  · rintro ⟨j, hj, i, hi, a, b, c⟩
    exact ⟨a, i + 1, j + 1, by omega, by omega, by omega, by omega, b, c⟩
  · rintro ⟨a, i, j, i1, i2, j1, j2, b, c⟩
    refine ⟨j - 1, by omega, i - 1, by omega, ?_⟩
    rw [show i - 1 + 1 = i by omega, show j - 1 + 1 = j by omega]
    exact ⟨a, b, c⟩

theorem fort_iff (P : Params) (p : Fin 4 → Patch) (t : ℝ) (level initFlag : ℤ) :
    fortTag4coarsening P p t level initFlag =
      if ∃ k, flagged P (p k) t level initFlag true = true then 0 else 1 := by
  have key : ∀ k, testCoarsen P (p k) t level initFlag = if flagged P (p k) t level initFlag true = true then 0 else 1 := by
    intro k; rfl
  unfold fortTag4coarsening
  simp only [key, Fin.exists_fin_succ]
  by_cases h0 : flagged P (p 0) t level initFlag true = true <;>
  by_cases h1 : flagged P (p 1) t level initFlag true = true <;>
  by_cases h2 : flagged P (p 2) t level initFlag true = true <;>
  by_cases h3 : flagged P (p 3) t level initFlag true = true <;>
  simp [h0, h1, h2, h3]

theorem wave_half (P : Params) (level : ℤ) (c : Cell) (h0 : 0 ≤ P.dryTolerance) (h : Wave P 1 level c) : Wave P (1 / 2) level c := by
  obtain ⟨a, b⟩ := h
  have half : ∀ x y : ℝ, 0 ≤ x → 1 * y < x → 1 / 2 * y < x := by
    intro x y hx h
    by_cases hy : 0 ≤ y
    · linarith
    · linarith
  refine ⟨a, ?_⟩
  rcases b with b | ⟨m, m1, m2, m3, m4, m5⟩
  · exact Or.inl (half _ _ (abs_nonneg _) b)
  · exact Or.inr ⟨m, m1, m2, m3, m4, half _ _ (div_nonneg (Real.sqrt_nonneg _) (by linarith)) m5⟩

end Fclaw.GeoTag

import Verif.Dtopo.Ground
import Verif.GeoRun.Spec
import Mathlib.Tactic.NormNum
/-
C100: the ground of a GeoClaw run at a time is the initial ground plus all displacements at this time.
-/
set_option autoImplicit false
set_option linter.unusedVariables false
set_option linter.unusedSimpArgs false
namespace Fclaw.Dtopo

open Fort

noncomputable section

/-! ### One file with displacements -/

/-- C100: at a point of the area, from the beginning of the motion on, the program reads the file inside its bounds and
comes to the displacement that the file describes, and to no other. -/
theorem C100_displacement (m : Move) (hm : m.Valid) (x y t : ℝ) (hc : m.Covers x y) (ht : m.t0 ≤ t) :
    ∃ d, m.dz x y t = some d ∧ m.Displaces x y t d ∧ ∀ d', m.Displaces x y t d' → d' = d :=
  ⟨_, dz_eq m hm x y t hc ht, disp_displaces m hm x y t,
    fun d' h => displaces_unique m hm x y t _ _ h (disp_displaces m hm x y t)⟩

theorem lerp_mem (a b s lo hi : ℝ) (h0 : 0 ≤ s) (h1 : s ≤ 1) (a1 : lo ≤ a) (a2 : a ≤ hi) (b1 : lo ≤ b) (b2 : b ≤ hi) :
    lo ≤ lerp a b s ∧ lerp a b s ≤ hi := by
  unfold lerp
  constructor <;> nlinarith

theorem plane_mem (m : Move) (hm : m.Valid) (k j i : ℤ) (x y lo hi : ℝ)
    (h : ∀ j' i' : ℤ, 1 ≤ j' → j' ≤ m.my → 1 ≤ i' → i' ≤ m.mx → lo ≤ m.value k j' i' ∧ m.value k j' i' ≤ hi)
    (i1 : 1 ≤ i) (i2 : i < m.mx) (j1 : 1 ≤ j) (j2 : j < m.my)
    (c1 : m.col i ≤ x) (c2 : x ≤ m.col (i + 1)) (c3 : m.row (j + 1) ≤ y) (c4 : y ≤ m.row j) :
    lo ≤ m.plane k j i x y ∧ m.plane k j i x y ≤ hi := by
  have hdx := hm.dx
  have hdy := hm.dy
  have sx0 : 0 ≤ (x - m.col i) / m.dx := div_nonneg (by linarith) hdx.le
  have sx1 : (x - m.col i) / m.dx ≤ 1 := by
    rw [div_le_one hdx]; unfold Move.col at c2 ⊢; push_cast at c2; linarith
  have sy0 : 0 ≤ (m.row j - y) / m.dy := div_nonneg (by linarith) hdy.le
  have sy1 : (m.row j - y) / m.dy ≤ 1 := by
    rw [div_le_one hdy]; unfold Move.row at c3 ⊢; push_cast at c3; linarith
  have v1 := h j i j1 (by omega) i1 (by omega)
  have v2 := h j (i + 1) j1 (by omega) (by omega) (by omega)
  have v3 := h (j + 1) i (by omega) (by omega) i1 (by omega)
  have v4 := h (j + 1) (i + 1) (by omega) (by omega) (by omega) (by omega)
  have p := lerp_mem _ _ _ lo hi sx0 sx1 v1.1 v1.2 v2.1 v2.2
  have q := lerp_mem _ _ _ lo hi sx0 sx1 v3.1 v3.2 v4.1 v4.2
  exact lerp_mem _ _ _ lo hi sy0 sy1 p.1 p.2 q.1 q.2

/-- C100: the displacement lies between the smallest and the largest value of the file. -/
theorem C100_bounds (m : Move) (hm : m.Valid) (lo hi : ℝ)
    (h : ∀ k j i : ℤ, 1 ≤ k → k ≤ m.mt → 1 ≤ j → j ≤ m.my → 1 ≤ i → i ≤ m.mx → lo ≤ m.value k j i ∧ m.value k j i ≤ hi)
    (x y t d : ℝ) (hc : m.Covers x y) (ht : m.t0 ≤ t) (hd : m.dz x y t = some d) : lo ≤ d ∧ d ≤ hi := by
  rw [dz_eq m hm x y t hc ht, Option.some.injEq] at hd
  subst hd
  obtain ⟨i, j, i1, i2, j1, j2, c1, c2, c3, c4⟩ := cell_spec m hm x y hc
  have hp : ∀ k : ℤ, 1 ≤ k → k ≤ m.mt → lo ≤ m.plane k (m.cell x y).2 (m.cell x y).1 x y ∧
      m.plane k (m.cell x y).2 (m.cell x y).1 x y ≤ hi := by
    intro k k1 k2
    rw [plane_cell m hm k x y i j i1 i2 j1 j2 c1 c2 c3 c4]
    exact plane_mem m hm k j i x y lo hi (fun j' i' a b c d => h k j' i' k1 k2 a b c d) i1 i2 j1 j2 c1 c2 c3 c4
  obtain ⟨⟨a1, a2⟩, b1, b2⟩ := bracket_range m hm t
  have hτ : 0 ≤ (m.bracket t).2.2 ∧ (m.bracket t).2.2 ≤ 1 := by
    unfold Move.bracket
    split
    · norm_num
    · dsimp only
      refine ⟨le_max_right _ _, max_le ?_ zero_le_one⟩
      have : ∀ z : ℝ, 1 - max 0 z ≤ 1 := fun z => by linarith [le_max_left 0 z]
      exact this _
  have p := hp _ a1 a2
  have q := hp _ b1 b2
  unfold Move.disp
  rw [if_pos ⟨hc, ht⟩]
  have r := lerp_mem _ _ (m.bracket t).2.2 lo hi hτ.1 hτ.2 q.1 q.2 p.1 p.2
  unfold lerp at r
  constructor <;> linarith [r.1, r.2]

/-- Nodes at 0, 1, 2 and times 0, 1, 2. -/
def exMove : Move := ⟨3, 3, 3, 0, 2, 0, 2, 0, 2, 1, 1, 1, fun a => a⟩

theorem exMove_valid : exMove.Valid := by
  constructor <;> norm_num [exMove]


/-- Covered, after the beginning, with bounds for the values. -/
example : exMove.Valid ∧ exMove.Covers (1 / 2) (3 / 2) ∧ exMove.t0 ≤ 5 / 4 ∧
    (∀ k j i : ℤ, 1 ≤ k → k ≤ exMove.mt → 1 ≤ j → j ≤ exMove.my → 1 ≤ i → i ≤ exMove.mx →
      1 ≤ exMove.value k j i ∧ exMove.value k j i ≤ 27) := by
  refine ⟨exMove_valid, ⟨⟨by norm_num [exMove], by norm_num [exMove]⟩, by norm_num [exMove], by norm_num [exMove]⟩,
    by norm_num [exMove], ?_⟩
  intro k j i k1 k2 j1 j2 i1 i2
  have h := index_range exMove.mx exMove.my exMove.mt k j i k1 k2 j1 j2 i1 i2
  unfold Move.value exMove at *
  dsimp only at *
  constructor
  · exact_mod_cast h.1
  · have := h.2
    norm_num at this
    exact_mod_cast this

/-- In the first cell, at the middle of its side, a quarter after the second time. -/
example : exMove.Displaces (1 / 2) (3 / 2) (5 / 4) (57 / 4) := by
  have h := disp_displaces exMove exMove_valid (1 / 2) (3 / 2) (5 / 4)
  have hc : exMove.Covers (1 / 2) (3 / 2) :=
    ⟨⟨by norm_num [exMove], by norm_num [exMove]⟩, by norm_num [exMove], by norm_num [exMove]⟩
  have := (h.2.2 hc (by norm_num [exMove]) 1 1 (by norm_num) (by norm_num [exMove]) (by norm_num)
    (by norm_num [exMove]) (by norm_num [exMove, Move.col]) (by norm_num [exMove, Move.col])
    (by norm_num [exMove, Move.row]) (by norm_num [exMove, Move.row])).2 2 (by norm_num) (by norm_num [exMove])
    (by norm_num [exMove, Move.at]) (by norm_num [exMove, Move.at])
  have e : exMove.disp (1 / 2) (3 / 2) (5 / 4) = 57 / 4 := by
    rw [this]
    norm_num [lerp, Move.plane, Move.value, Move.col, Move.row, Move.at, exMove]
  rwa [e] at h

/-! ### The ground -/

/-- C100: after calls at nondecreasing times, the heights of every file for which initial heights are kept are these plus the sum of all
displacements at the time of the last call, no matter at which times there were calls before. The other files
are as they were. No array is accessed outside its bounds. -/
theorem C100_ground (S : Setup) (huge : ℝ) (hS : S.Valid huge) (ts : List ℝ) (t : ℝ)
    (h : (-huge :: (ts ++ [t])).Pairwise (· ≤ ·)) :
    ∃ s, S.updates (ts ++ [t]) (S.start huge) = some s ∧
      ∀ f : ℤ, 1 ≤ f → f ≤ S.nfiles →
        (S.save f > 0 → S.GroundAt f t (s.work f)) ∧ (¬ S.save f > 0 → s.work f = (S.file f).topo0) := by
  obtain ⟨s, e, hI⟩ := inv_updates S hS.moves hS.count huge ts _ _ t le_rfl h (inv_start S huge hS.begins)
  refine ⟨s, e, fun f f1 f2 => ⟨fun h => good_groundAt S hS.moves f t _ (hI.ground f f1 f2 h), fun h => ?_⟩⟩
  exact hI.still f f1 f2 (not_lt.1 h)

/-- C100: this says what the heights are: two arrays that satisfy it agree at all nodes. -/
theorem C100_determined (S : Setup) (huge : ℝ) (hS : S.Valid huge) (f : ℤ) (t : ℝ) (w w' : ℤ → ℝ)
    (h : S.GroundAt f t w) (h' : S.GroundAt f t w') (i j : ℤ) (i1 : 1 ≤ i) (i2 : i ≤ (S.file f).mx) (j1 : 1 ≤ j)
    (j2 : j ≤ (S.file f).my) : w (node (S.file f).mx j i) = w' (node (S.file f).mx j i) := by
  rw [groundAt_good S hS.moves f t w h i j i1 i2 j1 j2, groundAt_good S hS.moves f t w' h' i j i1 i2 j1 j2]

/-! ### Which initial heights are kept -/

theorem foldl_last {α β : Type} (g : β → α) (l : List β) (b : β) (a : α) :
    (l ++ [b]).foldl (fun _ j => g j) a = g b := by
  rw [List.foldl_append]
  rfl

theorem range_last (lo hi : ℤ) (h : lo ≤ hi) : ∃ l, range lo hi = l ++ [hi] := by
  unfold range
  obtain ⟨n, hn⟩ : ∃ n : ℕ, (hi + 1 - lo).toNat = n + 1 := ⟨(hi - lo).toNat, by omega⟩
  rw [hn, List.range_succ, List.map_append]
  refine ⟨(List.range n).map fun (n : Nat) => lo + (n : ℤ), ?_⟩
  congr 1
  simp only [List.map_cons, List.map_nil, List.cons.injEq, and_true]
  omega

theorem touch_iff (h : Heights) (m : Move) (h1 : h.xlow ≤ h.xhi) (h2 : h.ylow ≤ h.yhi) (h3 : m.xlow ≤ m.xhi)
    (h4 : m.ylow ≤ m.yhi) :
    Touch h m ↔ ¬ (h.xhi < m.xlow ∨ h.xlow > m.xhi ∨ h.yhi < m.ylow ∨ h.ylow > m.yhi) := by
  constructor
  · rintro ⟨x, y, a, b, c, d⟩ hn
    rcases hn with hn | hn | hn | hn <;> linarith [a.1, a.2, b.1, b.2, c.1, c.2, d.1, d.2]
  · intro hn
    push Not at hn
    obtain ⟨a, b, c, d⟩ := hn
    refine ⟨max h.xlow m.xlow, max h.ylow m.ylow, ⟨le_max_left _ _, max_le h1 a⟩, ⟨le_max_left _ _, max_le h2 c⟩,
      ⟨le_max_right _ _, max_le b h3⟩, le_max_right _ _, max_le d h4⟩

theorem heights_le (h : Heights) (hv : h.Valid) : h.xlow ≤ h.xhi ∧ h.ylow ≤ h.yhi := by
  have m1 : (1 : ℝ) ≤ h.mx := by exact_mod_cast hv.mx
  have m2 : (1 : ℝ) ≤ h.my := by exact_mod_cast hv.my
  have a := mul_nonneg hv.dx.le (sub_nonneg.2 m1)
  have b := mul_nonneg hv.dy.le (sub_nonneg.2 m2)
  rw [hv.xhi, hv.yhi]
  constructor <;> linarith

theorem move_le (m : Move) (hv : m.Valid) : m.xlow ≤ m.xhi ∧ m.ylow ≤ m.yhi := by
  have m1 : (2 : ℝ) ≤ m.mx := by exact_mod_cast hv.mx
  have m2 : (2 : ℝ) ≤ m.my := by exact_mod_cast hv.my
  have a := mul_nonneg hv.dx.le (by linarith : (0 : ℝ) ≤ (m.mx : ℝ) - 1)
  have b := mul_nonneg hv.dy.le (by linarith : (0 : ℝ) ≤ (m.my : ℝ) - 1)
  rw [hv.xhi, hv.yhi]
  constructor <;> linarith

/-- C100: the initial heights are kept for the nodes of the displacements, and for a file that has been read exactly if its area has a
point in common with that of the last file with displacements. They should be kept if it has one with that of any of them. -/
theorem C100_saved_partial (S : Setup) (huge : ℝ) (hS : S.Valid huge) (f : ℤ) (f1 : 1 ≤ f) (f2 : f ≤ S.nfiles) :
    S.save f > 0 ↔ f > (S.nfiles : ℤ) - S.moves.n ∨ (1 ≤ S.moves.n ∧ Touch (S.file f) (S.moves.move S.moves.n)) := by
  unfold Setup.save
  by_cases h : f > (S.nfiles : ℤ) - S.moves.n
  · rw [if_pos h]
    exact ⟨fun _ => Or.inl h, fun _ => by norm_num⟩
  · rw [if_neg h]
    unfold Setup.saveRead
    by_cases hn : 1 ≤ S.moves.n
    · obtain ⟨l, hl⟩ := range_last ((S.nfiles : ℤ) - S.moves.n + 1) S.nfiles (by omega)
      rw [hl, foldl_last]
      have hv := hS.moves S.moves.n (by exact_mod_cast hn) le_rfl
      obtain ⟨e1, e2, e3, e4⟩ := hS.same S.moves.n (by exact_mod_cast hn) le_rfl
      have e : (S.nfiles : ℤ) - S.moves.n + S.moves.n = S.nfiles := by ring
      rw [e] at e1 e2 e3 e4
      rw [e1, e2, e3, e4]
      have a := heights_le _ (hS.files f f1 f2)
      have b := move_le _ hv
      have t := touch_iff (S.file f) (S.moves.move S.moves.n) a.1 a.2 b.1 b.2
      split
      · rename_i hno
        simp only [gt_iff_lt, lt_self_iff_false, false_iff, not_or, not_and]
        exact ⟨by omega, fun _ ht => t.1 ht hno⟩
      · rename_i hno
        exact ⟨fun _ => Or.inr ⟨hn, t.2 hno⟩, fun _ => by norm_num⟩
    · have e0 : range ((S.nfiles : ℤ) - S.moves.n + 1) S.nfiles = [] := by
        unfold range
        have : ((S.nfiles : ℤ) + 1 - ((S.nfiles : ℤ) - S.moves.n + 1)).toNat = 0 := by omega
        rw [this]
        rfl
      rw [e0]
      simp only [List.foldl_nil, gt_iff_lt, lt_self_iff_false, false_iff, not_or, not_and]
      exact ⟨by omega, fun h' => absurd h' hn⟩

/-- C100: so the ground is right for every file whose area has a point in common with that of the last file with displacements, or
with none; in particular for all files if there is one file with displacements. What is missing are files which meet another than
the last one only. -/
theorem C100_all_partial (S : Setup) (huge : ℝ) (hS : S.Valid huge) (ts : List ℝ) (t : ℝ)
    (h : (-huge :: (ts ++ [t])).Pairwise (· ≤ ·)) :
    ∃ s, S.updates (ts ++ [t]) (S.start huge) = some s ∧
      ∀ f : ℤ, 1 ≤ f → f ≤ S.nfiles →
        (f > (S.nfiles : ℤ) - S.moves.n ∨ (1 ≤ S.moves.n ∧ Touch (S.file f) (S.moves.move S.moves.n)) ∨
          ∀ m : ℤ, 1 ≤ m → m ≤ S.moves.n → ¬ Touch (S.file f) (S.moves.move m)) →
        S.GroundAt f t (s.work f) := by
  obtain ⟨s, e, hs⟩ := C100_ground S huge hS ts t h
  refine ⟨s, e, ?_⟩
  intro f f1 f2 hf
  by_cases hp : S.save f > 0
  · exact (hs f f1 f2).1 hp
  · have hno : ∀ m : ℤ, 1 ≤ m → m ≤ S.moves.n → ¬ Touch (S.file f) (S.moves.move m) := by
      rw [C100_saved_partial S huge hS f f1 f2] at hp
      rcases hf with hf | hf | hf
      · exact absurd (Or.inl hf) hp
      · exact absurd (Or.inr hf) hp
      · exact hf
    rw [(hs f f1 f2).2 hp]
    intro i j i1 i2 j1 j2
    refine ⟨fun _ => 0, ?_, by rw [Finset.sum_const_zero, add_zero]⟩
    intro m m1 m2
    have hv := hS.files f f1 f2
    have hc : ¬ (S.moves.move m).Covers ((S.file f).xlow + ((i : ℝ) - 1) * (S.file f).dx)
          ((S.file f).yhi - ((j : ℝ) - 1) * (S.file f).dy) := by
      intro hc
      refine hno m m1 m2 ⟨_, _, ?_, ?_, hc⟩
      · have a1 : (1 : ℝ) ≤ i := by exact_mod_cast i1
        have a2 : (i : ℝ) ≤ (S.file f).mx := by exact_mod_cast i2
        rw [hv.xhi]
        constructor
        · have := mul_nonneg (sub_nonneg.2 a1) hv.dx.le; linarith
        · have := mul_le_mul_of_nonneg_right a2 hv.dx.le; linarith
      · have a1 : (1 : ℝ) ≤ j := by exact_mod_cast j1
        have a2 : (j : ℝ) ≤ (S.file f).my := by exact_mod_cast j2
        constructor
        · have := mul_le_mul_of_nonneg_right a2 hv.dy.le
          rw [hv.yhi]
          linarith
        · have := mul_nonneg (sub_nonneg.2 a1) hv.dy.le; linarith
    exact ⟨fun _ => rfl, fun _ => rfl, fun h => absurd h hc⟩

/-- A square of 2 × 2 nodes with lower left corner `(a, a)`, moved by 1 at time 0. -/
def exLift (a : ℝ) : Move := ⟨2, 2, 1, a, a + 1, a, a + 1, 0, 0, 1, 1, 0, fun _ => 1⟩
def exSquare (a : ℝ) : Heights := ⟨2, 2, a, a + 1, a, a + 1, 1, 1, fun _ => 0⟩

/-- Two files with displacements, the first one where the file with heights is. -/
def exSetup : Setup := ⟨⟨2, fun m => if m = 1 then exLift 0 else exLift 10⟩, 3, fun f => if f = 3 then exSquare 10 else exSquare 0⟩

theorem exSetup_valid : exSetup.Valid 5 where
  moves := by
    intro m _ _
    have : ∀ a, (exLift a).Valid := by
      intro a
      constructor <;> norm_num [exLift]
    unfold exSetup
    dsimp only
    split <;> exact this _
  files := by
    intro f _ _
    have : ∀ a, (exSquare a).Valid := by
      intro a
      constructor <;> norm_num [exSquare]
    unfold exSetup
    dsimp only
    split <;> exact this _
  count := by norm_num [exSetup]
  same := by
    intro m m1 m2
    have : m = 1 ∨ m = 2 := by
      have : m ≤ 2 := m2
      omega
    rcases this with rfl | rfl <;> norm_num [exSetup, exLift, exSquare]
  begins := by
    intro m _ _
    unfold exSetup
    dsimp only
    split <;> norm_num [exLift]

theorem exTimes : ((-5 : ℝ) :: ([-1] ++ [2])).Pairwise (· ≤ ·) := by
  simp only [List.cons_append, List.nil_append, List.pairwise_cons, List.mem_cons, List.not_mem_nil, or_false,
    forall_eq_or_imp, forall_eq, List.Pairwise.nil, and_true, IsEmpty.forall_iff, implies_true]
  norm_num

example : exSetup.Valid 5 ∧ ((-5 : ℝ) :: ([-1] ++ [2])).Pairwise (· ≤ ·) := ⟨exSetup_valid, exTimes⟩

theorem exSetup_unsaved : ¬ exSetup.save 1 > 0 := by
  rw [C100_saved_partial exSetup 5 exSetup_valid 1 le_rfl (by norm_num [exSetup])]
  rintro (h | ⟨_, x, y, ⟨_, h1⟩, _, ⟨h2, _⟩, _⟩)
  · norm_num [exSetup] at h
  · norm_num [exSetup, exSquare] at h1
    norm_num [exSetup, exLift] at h2
    linarith

theorem exSetup_wrong : ¬ exSetup.GroundAt 1 2 (exSetup.file 1).topo0 := by
  intro h
  obtain ⟨d, hd, e⟩ := h 1 1 le_rfl (by norm_num [exSetup, exSquare]) le_rfl (by norm_num [exSetup, exSquare])
  have d1 := hd 1 le_rfl (by norm_num [exSetup])
  have d2 := hd 2 (by norm_num) (by norm_num [exSetup])
  have g1 : d 1 = 1 := by
    have hc : (exLift 0).Covers 0 1 := by norm_num [Move.Covers, exLift]
    have e1 : exSetup.moves.move 1 = exLift 0 := rfl
    have e2 : exSetup.file 1 = exSquare 0 := by norm_num [exSetup]
    rw [e1, e2] at d1
    norm_num [exSquare] at d1
    have := (d1.2.2 hc (by norm_num [exLift]) 1 1 (by norm_num) (by norm_num [exLift]) (by norm_num)
      (by norm_num [exLift]) (by norm_num [exLift, Move.col]) (by norm_num [exLift, Move.col])
      (by norm_num [exLift, Move.row]) (by norm_num [exLift, Move.row])).1 (by norm_num [exLift])
    rw [this]
    norm_num [lerp, Move.plane, Move.value, Move.col, Move.row, exLift]
  have g2 : d 2 = 0 := by
    refine d2.1 ?_
    rintro ⟨⟨h, _⟩, _⟩
    norm_num [exSetup, exSquare, exLift] at h
  have hI : Finset.Icc (1 : ℤ) exSetup.moves.n = {1, 2} := rfl
  rw [hI, Finset.sum_pair (by norm_num), g1, g2] at e
  norm_num at e

/-- C100 is violated with two files with displacements: a file with heights that meets the first of them, but not the second,
is not moved, since the loop that looks for a common point overwrites what it found for earlier files. -/
theorem C100_saved_counterexample :
    ∃ (S : Setup) (huge : ℝ) (ts : List ℝ) (t : ℝ), S.Valid huge ∧ (-huge :: (ts ++ [t])).Pairwise (· ≤ ·) ∧
      ∃ s, S.updates (ts ++ [t]) (S.start huge) = some s ∧ ¬ S.GroundAt 1 t (s.work 1) := by
  refine ⟨exSetup, 5, [-1], 2, exSetup_valid, exTimes, ?_⟩
  obtain ⟨s, e, hs⟩ := C100_ground exSetup 5 exSetup_valid [-1] 2 exTimes
  refine ⟨s, e, ?_⟩
  rw [(hs 1 le_rfl (by norm_num [exSetup])).2 exSetup_unsaved]
  exact exSetup_wrong

end

/-! ### When patches take the heights -/

theorem auxTime_append (g : ℚ × ℚ) (ts us : List ℚ) (h : ∀ t ∈ us, checkDtopotime g t = false) :
    auxTime g (ts ++ us) = auxTime g ts := by
  unfold auxTime
  rw [List.foldl_append]
  generalize List.foldl _ none ts = a
  induction us generalizing a with
  | nil => rfl
  | cons u us ih =>
    rw [List.foldl_cons, h u List.mem_cons_self]
    exact ih (fun t ht => h t (List.mem_cons_of_mem _ ht)) a

theorem check_iff (g : ℚ × ℚ) (hg : g.1 < g.2) (t : ℚ) : checkDtopotime g t = true ↔ g.1 ≤ t ∧ t ≤ g.2 := by
  unfold checkDtopotime
  rw [if_pos hg]
  have h0 : 0 < g.2 - g.1 := by linarith
  simp only [Bool.and_eq_true, decide_eq_true_eq, ge_iff_le]
  rw [le_div_iff₀ h0, div_le_one h0, zero_mul]
  constructor
  · rintro ⟨a, b⟩; exact ⟨by linarith, by linarith⟩
  · rintro ⟨a, b⟩; exact ⟨by linarith, by linarith⟩

/-- C100: a patch that takes a step which begins at the end of the motion keeps the ground of this time, the final one. What is missing
is that such a step need not exist. -/
theorem C100_final_partial (g : ℚ × ℚ) (hg : g.1 < g.2) (ts : List ℚ) (hs : ts.Pairwise (· ≤ ·)) (h : g.2 ∈ ts) :
    auxTime g ts = some g.2 := by
  induction ts using List.reverseRecOn with
  | nil => cases h
  | append_singleton ts t ih =>
    rw [List.pairwise_append] at hs
    by_cases hc : checkDtopotime g t = true
    · have ht := (check_iff g hg t).1 hc
      have e : t = g.2 := by
        rcases List.mem_append.1 h with h1 | h1
        · exact le_antisymm ht.2 (hs.2.2 _ h1 t (List.mem_singleton.2 rfl))
        · exact (List.mem_singleton.1 h1).symm
      unfold auxTime
      rw [List.foldl_append, List.foldl_cons, List.foldl_nil, hc, e]
      rfl
    · have hc' : checkDtopotime g t = false := by simpa using hc
      rw [auxTime_append g ts [t] (fun u hu => by rw [List.mem_singleton.1 hu]; exact hc')]
      refine ih hs.1 ?_
      rcases List.mem_append.1 h with h1 | h1
      · exact h1
      · exfalso
        rw [← List.mem_singleton.1 h1] at hc
        exact hc ((check_iff g hg g.2).2 ⟨hg.le, le_rfl⟩)

example : ((0 : ℚ), (1 : ℚ)).1 < ((0 : ℚ), (1 : ℚ)).2 ∧ ([0, 1 / 2, 1, 3 / 2] : List ℚ).Pairwise (· ≤ ·) ∧
    ((0 : ℚ), (1 : ℚ)).2 ∈ ([0, 1 / 2, 1, 3 / 2] : List ℚ) := by
  refine ⟨by norm_num, by decide +kernel, by decide +kernel⟩

/-- Steps of length 1.005, a motion in the first unit of time. -/
def exStale : Run.Opts :=
  { fixedDt := true, advanceOneStep := false, reduceCfl := false, subcycle := false, outstyleUsesMaxlevel := false,
    saveAux := false, levelFactor := 1, nout := 1, nstep := 1, regridInterval := 0, tfinal := 4, initialDt := 201 / 200,
    maxCfl := 1, desiredCfl := 9 / 10 }

/-- C100 is violated by a run in which a step ends less than 1% after the end of the motion: `step_dtopo` stretches the motion to the end
of the step, no step begins at the end of the motion and the check for the interval of the motion fails from the next one on. All patches keep the
ground of a time before the end of the motion, here three quarters of it, although the run goes on to four times its length. -/
theorem C100_stale_counterexample :
    ∃ (o : Run.Opts) (w : GeoRun.World Unit) (g : GeoRun.Motion) (s : GeoRun.St Unit), g.lo < g.hi ∧
      GeoRun.run1 o w g 10 (GeoRun.start1 o ()) = some s ∧ 4 * g.hi ≤ s.t ∧ s.n = o.nout ∧
      auxTime (g.lo, g.hi) ((GeoRun.kept s.log).map fun c => c.t) = some (603 / 800) ∧ 603 / 800 < g.hi := by
  have h : (match GeoRun.run1 exStale ⟨fun _ _ _ => ((), 1 / 2), fun _ _ => (), fun _ => ()⟩ ⟨0, 1, 1 / 2⟩ 10
      (GeoRun.start1 exStale ()) with
      | none => false
      | some s => decide (4 ≤ s.t ∧ s.n = 1 ∧
        auxTime (0, 1) ((GeoRun.kept s.log).map fun c => c.t) = some (603 / 800))) = true := by decide +kernel
  refine ⟨exStale, ⟨fun _ _ _ => ((), 1 / 2), fun _ _ => (), fun _ => ()⟩, ⟨0, 1, 1 / 2⟩, ?_⟩
  generalize GeoRun.run1 exStale _ _ 10 _ = r at h
  cases r with
  | none => cases h
  | some s =>
    simp only [decide_eq_true_eq] at h
    exact ⟨s, by norm_num, rfl, by linarith [h.1], h.2.1, h.2.2, by norm_num⟩

end Fclaw.Dtopo

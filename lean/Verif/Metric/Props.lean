/-
C73: cell areas of mapped grids.
-/
import Verif.Metric.Lemmas
import Mathlib.Tactic.NormNum
import Mathlib.Tactic.IntervalCases

set_option autoImplicit false
set_option linter.unusedSimpArgs false
set_option linter.unusedVariables false
namespace Fclaw.Metric

open Fort Transfer

/-! ### Affine maps -/

theorem normCross_smul (s t : ℝ) (u v : Vec) :
    normCross (s * u.1, s * u.2.1, s * u.2.2) (t * v.1, t * v.2.1, t * v.2.2) = |s * t| * normCross u v := by
  unfold normCross
  dsimp only
  rw [← Real.sqrt_sq_eq_abs, ← Real.sqrt_mul (sq_nonneg _)]
  congr 1
  ring

theorem proper_splits (M : Map ℝ Vec ℝ) (hM : Proper M) : Splits M := by
  intro ha h k X Y
  obtain ⟨p, u, v, e⟩ := hM.2 ha
  have key : ∀ (h k : ℝ) (X Y : ℤ), small M h k X Y = |h * k| * normCross u v := by
    intro h k X Y
    unfold small
    rw [hM.1, e, e, e, e]
    unfold getAreaApprox
    dsimp only
    rw [← normCross_smul]
    congr 1 <;> (simp only [Prod.mk.injEq]; push_cast; refine ⟨?_, ?_, ?_⟩ <;> ring)
  rw [key, key, key, key, key]
  rw [show 2 * h * (2 * k) = 4 * (h * k) by ring, abs_mul, abs_of_pos (by norm_num : (0 : ℝ) < 4)]
  ring

/-! ### All histories give the same areas -/

theorem built_value {K P A : Type} [Field K] [CharZero K] [AddCommMonoid A] {d : Dims} (hE : Even2 d) (hsq : d.mx = d.my)
    (hb : 1 ≤ d.mbc) {M : Map K P A} (hM : Splits M) {maxlevel : Nat} {Q : Quad} {a : Areas A} (h : Built d M maxlevel Q a) :
    ∀ c, Stored d c → a c = value d M maxlevel Q c := by
  induction h with
  | scratch Q s a a' hl e =>
    intro c hc
    obtain ⟨a2, e2, x, _⟩ := computeArea_sets d hE M hM maxlevel Q hl false s a
    unfold build at e
    rw [e] at e2
    cases e2
    exact x c ⟨hc, by simp⟩
  | merged Q s fine a a' hl _ e ih =>
    obtain ⟨a2, e2, x⟩ := buildFromFine_spec d hE hsq hb M hM maxlevel Q hl s fine ih a
    rw [e] at e2
    cases e2
    exact x

theorem stored_coarse {d : Dims} {c : ℤ × ℤ} (hc : c ∈ coarseCells d) : Stored d c := by
  obtain ⟨i, j⟩ := c
  rw [mem_coarseCells] at hc
  unfold Stored
  dsimp only
  omega

theorem value_sum {K P A : Type} [Field K] [CharZero K] [AddCommMonoid A] {d : Dims} (hE : Even2 d)
    (M : Map K P A) (maxlevel : Nat) (Q : Quad) (hl : Q.level < maxlevel) (C : ℤ × ℤ) (hC : C ∈ coarseCells d) :
    value d M maxlevel Q C =
      ∑ c ∈ fineCells d with parent d c = C, value d M maxlevel (Q.child c.1) (c.2.1, c.2.2) := by
  obtain ⟨g, i, j, hg, hi, hj, rfl⟩ := quadrant d hE C hC
  rw [fibre d hE g i j hg hi hj, value_split d hE M maxlevel Q hl g i j]
  rw [Finset.sum_insert, Finset.sum_insert, Finset.sum_insert, Finset.sum_singleton]
  · simp only [add_assoc]
  all_goals
    simp only [Finset.mem_insert, Finset.mem_singleton, Prod.mk.injEq, true_and, not_or]
    omega

/-- **C73** (partial: square patches only, see the counterexample). The areas of a patch, ghost cells included,
do not depend on how the patch came into being: built from scratch, or by merging children, any number of times.
The map is arbitrary if it does not say that it is affine. -/
theorem C73_same_partial (d : Dims) (hE : Even2 d) (hsq : d.mx = d.my) (hb : 1 ≤ d.mbc) (M : Map ℝ Vec ℝ) (hM : Proper M)
    (maxlevel : Nat) (Q : Quad) (a b : Areas ℝ) (ha : Built d M maxlevel Q a) (hb' : Built d M maxlevel Q b) :
    ∀ c, Stored d c → a c = b c := by
  intro c hc
  rw [built_value hE hsq hb (proper_splits M hM) ha c hc, built_value hE hsq hb (proper_splits M hM) hb' c hc]

/-- Whatever function is used for the area of a small quadrilateral, if it is applied on the finest level. -/
theorem C73_any_element_partial {K P A : Type} [Field K] [CharZero K] [AddCommMonoid A] (d : Dims) (hE : Even2 d)
    (hsq : d.mx = d.my) (hb : 1 ≤ d.mbc) (M : Map K P A) (hM : M.affine = false)
    (maxlevel : Nat) (Q : Quad) (a b : Areas A) (ha : Built d M maxlevel Q a) (hb' : Built d M maxlevel Q b) :
    ∀ c, Stored d c → a c = b c := by
  have hS : Splits M := by intro h; rw [hM] at h; cases h
  intro c hc
  rw [built_value hE hsq hb hS ha c hc, built_value hE hsq hb hS hb' c hc]

/-- **C73**. Built from scratch, on a patch of any even size, the area of a cell is the sum of the areas of the
four cells it is divided into when the patch is refined. -/
theorem C73_sum (d : Dims) (hE : Even2 d) (M : Map ℝ Vec ℝ) (hM : Proper M) (maxlevel : Nat) (Q : Quad) (hl : Q.level < maxlevel) (s : Store Vec)
    (a : Areas ℝ) (sf : ℤ → Store Vec) (af : ℤ → Areas ℝ) :
    ∃ kc, build d M maxlevel Q.level (Q.geom d) s a = some kc ∧
    ∃ kf : ℤ → Areas ℝ, (∀ g, build d M maxlevel (Q.child g).level ((Q.child g).geom d) (sf g) (af g) = some (kf g)) ∧
      ∀ C ∈ coarseCells d, kc C = ∑ c ∈ fineCells d with parent d c = C, kf c.1 (c.2.1, c.2.2) := by
  have hS := proper_splits M hM
  obtain ⟨kc, e, x, _⟩ := computeArea_sets d hE M hS maxlevel Q (Nat.le_of_lt hl) false s a
  have H := fun g => computeArea_sets d hE M hS maxlevel (Q.child g) hl false (sf g) (af g)
  choose kf e' x' _ using H
  refine ⟨kc, e, kf, e', ?_⟩
  intro C hC
  have x1 : kc C = value d M maxlevel Q C := x C ⟨stored_coarse hC, by simp⟩
  rw [x1, value_sum hE M maxlevel Q hl C hC]
  refine Finset.sum_congr rfl fun c hc => ?_
  obtain ⟨g, i, j⟩ := c
  rw [Finset.mem_filter, mem_fineCells] at hc
  symm
  refine x' g (i, j) ⟨stored_coarse ((mem_coarseCells d i j).2 hc.1.2), by simp⟩

/-- Nothing fails: no access outside the bounds of an array, whatever memory holds when it is allocated. -/
theorem C73_progress (d : Dims) (hE : Even2 d) (hsq : d.mx = d.my) (hb : 1 ≤ d.mbc) (M : Map ℝ Vec ℝ) (hM : Proper M)
    (maxlevel : Nat) (Q : Quad) (s : Store Vec) (a : Areas ℝ) :
    (Q.level ≤ maxlevel → ∃ a', build d M maxlevel Q.level (Q.geom d) s a = some a' ∧ Built d M maxlevel Q a') ∧
    (Q.level < maxlevel → ∀ fine : ℤ → Areas ℝ, (∀ g, 0 ≤ g → g ≤ 3 → Built d M maxlevel (Q.child g) (fine g)) →
      ∃ a', buildFromFine d M maxlevel Q.level (Q.geom d) s fine a = some a' ∧ Built d M maxlevel Q a') := by
  have hS := proper_splits M hM
  constructor
  · intro hl
    obtain ⟨a', e, _⟩ := computeArea_sets d hE M hS maxlevel Q hl false s a
    exact ⟨a', e, .scratch Q s a a' hl e⟩
  · intro hl fine hf
    obtain ⟨a', e, _⟩ := buildFromFine_spec d hE hsq hb M hS maxlevel Q hl s fine
      (fun g h1 h2 => built_value hE hsq hb hS (hf g h1 h2)) a
    exact ⟨a', e, .merged Q s fine a a' hl hf e⟩

/-! ### Whole meshes -/

theorem total_split {K P A : Type} [Field K] [CharZero K] [AddCommMonoid A] {d : Dims} (hE : Even2 d)
    (M : Map K P A) (maxlevel : Nat) (Q : Quad) (hl : Q.level < maxlevel) :
    ∑ C ∈ coarseCells d, value d M maxlevel Q C =
      ((List.finRange 4).map fun k => ∑ c ∈ coarseCells d, value d M maxlevel (Q.child (k.val : ℤ)) c).sum := by
  rw [Finset.sum_congr rfl (fun C hC => value_sum hE M maxlevel Q hl C hC),
    Finset.sum_fiberwise_of_maps_to (fun c hc => parent_mem d hE c hc) (fun c => value d M maxlevel (Q.child c.1) (c.2.1, c.2.2))]
  unfold fineCells
  rw [Finset.sum_product]
  have : Finset.Icc (0 : ℤ) 3 = {0, 1, 2, 3} := by decide
  rw [this, Finset.sum_insert (by decide), Finset.sum_insert (by decide), Finset.sum_insert (by decide), Finset.sum_singleton]
  rw [show List.finRange 4 = [0, 1, 2, 3] from rfl]
  simp only [List.map_cons, List.map_nil, List.sum_cons, List.sum_nil, add_zero]
  rfl

theorem sum_flatMap' {α A : Type} [AddCommMonoid A] (f : α → List A) : ∀ l : List α,
    (l.flatMap f).sum = (l.map fun x => (f x).sum).sum
  | [] => rfl
  | x :: l => by rw [List.flatMap_cons, List.sum_append, sum_flatMap' f l, List.map_cons, List.sum_cons]

theorem tree_total {K P A : Type} [Field K] [CharZero K] [AddCommMonoid A] {d : Dims} (hE : Even2 d)
    (M : Map K P A) (maxlevel : Nat) (t : Adapt.Tree 4) : ∀ q : Domain.Path 4,
    (∀ q' ∈ t.leaves q, (quadAt q').level ≤ maxlevel) →
    ((t.leaves q).map fun q' => ∑ c ∈ coarseCells d, value d M maxlevel (quadAt q') c).sum =
      ∑ c ∈ coarseCells d, value d M maxlevel (quadAt q) c := by
  have hlev : ∀ (q : Domain.Path 4) (Q : Quad), (q.foldl (fun Q k => Q.child (k.val : ℤ)) Q).level = Q.level + q.length := by
    intro q
    induction q with
    | nil => intro Q; rfl
    | cons k q ih => intro Q; rw [List.foldl_cons, ih]; simp [Quad.child]; omega
  have hlev' : ∀ q : Domain.Path 4, (quadAt q).level = q.length := by
    intro q; unfold quadAt; rw [hlev]; simp
  have deep : ∀ (t : Adapt.Tree 4) (q : Domain.Path 4), ∃ q' ∈ t.leaves q, q.length ≤ q'.length := by
    intro t
    induction t with
    | leaf => intro q; exact ⟨q, by simp [Adapt.Tree.leaves], le_rfl⟩
    | node kids ih =>
      intro q
      obtain ⟨q', h1, h2⟩ := ih 0 (q ++ [0])
      refine ⟨q', ?_, by simp at h2; omega⟩
      unfold Adapt.Tree.leaves
      rw [List.mem_flatMap]
      exact ⟨0, List.mem_finRange 0, h1⟩
  induction t with
  | leaf => intro q _; simp [Adapt.Tree.leaves]
  | node kids ih =>
    intro q hq
    have hlt : (quadAt q).level < maxlevel := by
      obtain ⟨q', h1, h2⟩ := deep (kids 0) (q ++ [0])
      have := hq q' (by unfold Adapt.Tree.leaves; rw [List.mem_flatMap]; exact ⟨0, List.mem_finRange 0, h1⟩)
      rw [hlev'] at this
      rw [hlev']
      simp at h2
      omega
    rw [total_split hE M maxlevel (quadAt q) hlt]
    unfold Adapt.Tree.leaves
    rw [List.map_flatMap, sum_flatMap']
    congr 1
    refine List.map_congr_left fun k _ => ?_
    rw [ih k (q ++ [k]) (fun q' hq' => hq q' (by
      unfold Adapt.Tree.leaves; rw [List.mem_flatMap]; exact ⟨k, List.mem_finRange k, hq'⟩))]
    simp [quadAt, List.foldl_append]

/-- **C73** (partial: square patches only). The total area of a block is the same for all meshes, however they
have been refined and coarsened. -/
theorem C73_total_partial (d : Dims) (hE : Even2 d) (hsq : d.mx = d.my) (hb : 1 ≤ d.mbc) (M : Map ℝ Vec ℝ) (hM : Proper M)
    (maxlevel : Nat) (t : Adapt.Tree 4) (a : Domain.Path 4 → Areas ℝ)
    (ha : ∀ q ∈ t.leaves [], Built d M maxlevel (quadAt q) (a q)) (root : Areas ℝ) (hr : Built d M maxlevel ⟨0, 0, 0⟩ root) :
    ((t.leaves []).map fun q => ∑ c ∈ coarseCells d, a q c).sum = ∑ c ∈ coarseCells d, root c := by
  have hS := proper_splits M hM
  rw [Finset.sum_congr rfl (fun c hc => built_value hE hsq hb hS hr c (stored_coarse hc))]
  have := tree_total hE M maxlevel t [] (fun q hq => by
    cases ha q hq with
    | scratch _ _ _ _ hl _ => exact hl
    | merged _ _ _ _ _ hl _ _ => exact Nat.le_of_lt hl)
  rw [show quadAt [] = ⟨0, 0, 0⟩ from rfl] at this
  rw [← this]
  congr 1
  refine List.map_congr_left fun q hq => ?_
  exact Finset.sum_congr rfl fun c hc => built_value hE hsq hb hS (ha q hq) c (stored_coarse hc)

/-! ### Counterexamples -/

/-- The plane, without saying that the map is affine. -/
def plane : Map ℚ (ℚ × ℚ) ℚ := ⟨fun x y => (x, y), false, fun p00 p10 p01 _ => (p10.1 - p00.1) * (p01.2 - p00.2)⟩

/-- On patches of 4 by 8 cells, a patch that was merged from its children keeps whatever was in memory in its
topmost row of cells: `average_area` shifts by half of `mx` also in the second direction. -/
theorem C73_counterexample :
    let d : Dims := ⟨4, 8, 1, 1⟩
    let Q : Quad := ⟨0, 0, 0⟩
    ∃ kf : ℤ → Areas ℚ, (∀ g, 0 ≤ g → g ≤ 3 → Built d plane 1 (Q.child g) (kf g)) ∧
    ∃ merged scratch, Built d plane 1 Q merged ∧ Built d plane 1 Q scratch ∧
      merged (1, 8) = 0 ∧ scratch (1, 8) = 1 / 32 := by
  intro d Q
  have hE : Even2 d := ⟨by decide, by decide, by decide, by decide⟩
  have hS : Splits plane := by intro h; cases h
  have H := fun g => computeArea_sets d hE plane hS 1 (Q.child g) (Nat.le_refl 1) false (fun _ => (0, 0)) (fun _ => 0)
  choose kf e x _ using H
  have hval : ∀ c, value d plane 1 Q c = 1 / 32 := by
    intro c
    have : ∀ (h k : ℚ) (X Y : ℤ), small plane h k X Y = h * k := by
      intro h k X Y
      simp only [small, plane]
      push_cast
      ring
    unfold value
    rw [show (((2 ^ (1 - Q.level) : Nat) : ℤ)) = 2 * 1 from rfl, block_double _ _ _ _ _ _ (by norm_num)]
    simp only [block_one, this]
    norm_num [d]
  obtain ⟨sc, es, xs, _⟩ := computeArea_sets d hE plane hS 1 Q (Nat.zero_le 1) false (fun _ => (0, 0)) (fun _ => 0)
  have hk : ∀ g, 0 ≤ g → g ≤ 3 → Built d plane 1 (Q.child g) (kf g) := fun g _ _ => .scratch _ _ _ _ (Nat.le_refl 1) (e g)
  -- the four averages leave row 8 alone
  have avg : ∀ g, 0 ≤ g → g ≤ 3 → ∀ a : Areas ℚ, ∃ a', averageArea d g (kf g) a = some a' ∧ a' (1, 8) = a (1, 8) := by
    intro g h0 h3 a
    have rdok : ∀ i j : ℤ, 0 ≤ i → i ≤ 3 → 0 ≤ j → j ≤ 5 → ∃ v : ℚ, (doLoop 0 3 (fun m (sum : ℚ) =>
        (rdA d (kf g) ((i - 1) * 2 + (m % 2 + 1), (j - 1) * 2 + (m / 2 + 1))).bind fun kf => some (sum + kf)) (0 : ℚ)) = some v := by
      intro i j i0 i1 j0 j1
      rw [doLoop_sum _ (fun m => kf g ((i - 1) * 2 + (m % 2 + 1), (j - 1) * 2 + (m / 2 + 1)))]
      · exact ⟨_, rfl⟩
      · intro m m0 m1 s
        rw [rdA, if_pos]
        · rfl
        · rw [inArea_iff]; simp only [Stored, d]; omega
    have one : ∀ i j : ℤ, 0 ≤ i → i ≤ 3 → 0 ≤ j → j ≤ 5 → ∀ ic jc : ℤ, 0 ≤ ic → ic ≤ 2 → 0 ≤ jc → jc ≤ 2 →
        ∃ w : ℤ × ℤ → ℚ, Sets (fun (a : Areas ℚ) => a) (fun c => c = (i + ic, j + jc)) w (fun a =>
        (doLoop 0 3 (fun m (sum : ℚ) =>
          (rdA d (kf g) ((i - 1) * 2 + (m % 2 + 1), (j - 1) * 2 + (m / 2 + 1))).bind fun kf => some (sum + kf)) (0 : ℚ)).bind
          fun sum => wrA d a (i + ic, j + jc) sum) := by
      intro i j i0 i1 j0 j1 ic jc c0 c1 d0 d1
      obtain ⟨v, hv⟩ := rdok i j i0 i1 j0 j1
      refine ⟨fun _ => v, ?_⟩
      have := Sets.wrA d (i + ic, j + jc) v (fun _ => v) (by simp only [Stored, d]; omega) rfl
      simp only [hv]
      exact this
    -- every pass keeps row 8
    have keep : ∀ (lo hi : ℤ) (f : ℤ → Areas ℚ → Option (Areas ℚ)),
        (∀ k, lo ≤ k → k ≤ hi → ∀ a, ∃ a', f k a = some a' ∧ a' (1, 8) = a (1, 8)) →
        ∀ a, ∃ a', doLoop lo hi f a = some a' ∧ a' (1, 8) = a (1, 8) := by
      intro lo hi f hf a
      have : ∀ ks : List ℤ, (∀ k ∈ ks, lo ≤ k ∧ k ≤ hi) → ∀ a, ∃ a', Fort.loop ks f a = some a' ∧ a' (1, 8) = a (1, 8) := by
        intro ks
        induction ks with
        | nil => intro _ a; exact ⟨a, rfl, rfl⟩
        | cons k ks ih =>
          intro hks a
          obtain ⟨a1, e1, x1⟩ := hf k (hks k (List.mem_cons_self ..)).1 (hks k (List.mem_cons_self ..)).2 a
          obtain ⟨a2, e2, x2⟩ := ih (fun k' hk' => hks k' (List.mem_cons_of_mem _ hk')) a1
          exact ⟨a2, by simp [Fort.loop, e1, e2], by rw [x2, x1]⟩
      exact this (range lo hi) (fun k hk => (mem_range lo hi k).1 hk) a
    unfold averageArea
    dsimp only
    refine keep _ _ _ (fun j j0 j1 => keep _ _ _ (fun i i0 i1 a => ?_)) a
    have hic : 0 ≤ g % 2 * ((d.mx : Nat) : ℤ) / 2 ∧ g % 2 * ((d.mx : Nat) : ℤ) / 2 ≤ 2 := by
      simp only [d]; interval_cases g <;> norm_num
    have hjc : 0 ≤ (g - g % 2) / 2 * ((d.mx : Nat) : ℤ) / 2 ∧ (g - g % 2) / 2 * ((d.mx : Nat) : ℤ) / 2 ≤ 2 := by
      simp only [d]; interval_cases g <;> norm_num
    have j1' : j ≤ 5 := by simpa [d] using j1
    have i1' : i ≤ 3 := by simpa [d] using i1
    obtain ⟨w, hw⟩ := one i j i0 i1' j0 j1' _ _ hic.1 hic.2 hjc.1 hjc.2
    obtain ⟨a', e', _, y⟩ := hw a
    refine ⟨a', e', y (1, 8) ?_⟩
    intro hc
    rw [Prod.mk.injEq] at hc
    omega
  obtain ⟨a1, e1, y1⟩ := avg 0 (by norm_num) (by norm_num) (fun _ => 0)
  obtain ⟨a2, e2, y2⟩ := avg 1 (by norm_num) (by norm_num) a1
  obtain ⟨a3, e3, y3⟩ := avg 2 (by norm_num) (by norm_num) a2
  obtain ⟨a4, e4, y4⟩ := avg 3 (by norm_num) (by norm_num) a3
  obtain ⟨a5, e5, _, y5⟩ := computeArea_sets d hE plane hS 1 Q (Nat.zero_le 1) true (fun _ => (0, 0)) a4
  refine ⟨kf, hk, a5, sc, .merged Q (fun _ => (0, 0)) kf (fun _ => 0) a5 (by decide) hk ?_, .scratch Q _ _ _ (Nat.zero_le 1) es, ?_, ?_⟩
  · unfold buildFromFine
    rw [doLoop_zero_three]
    simp only [e1, e2, e3, e4, Option.bind_some]
    exact e5
  · have : a5 (1, 8) = a4 (1, 8) := y5 (1, 8) (fun h => h.2 (by decide))
    rw [this, y4, y3, y2, y1]
  · have x8 : sc (1, 8) = value d plane 1 Q (1, 8) := xs (1, 8) ⟨by simp only [Stored, d]; omega, by decide⟩
    rw [x8, hval]

/-- Extruded meshes are refined in two of three directions, but volumes are computed with the same number of
subcells in all three: the volume of a cell is not the sum of the volumes of the four cells it is divided
into, and it changes when a patch is built from its children. -/
theorem C73_extruded_counterexample :
    let c2m : ℚ → ℚ → ℚ → ℚ × ℚ × ℚ := fun x y z => (x * (1 + z * z), y, z)
    cellVolume c2m (2 ^ (1 - 0)) 0 0 0 1 1 1 = 11 / 8 ∧ averagedVolume c2m (2 ^ (1 - 1)) 0 0 0 1 1 1 = 3 / 2 := by
  decide +kernel

/-! ### Examples -/

/-- Half a cylinder, and a shear that says that it is affine. -/
noncomputable def cylinder : Map ℝ Vec ℝ := ⟨fun x y => (x * x, x * (1 - x), y), false, getAreaApprox⟩

noncomputable def shear : Map ℝ Vec ℝ :=
  ⟨fun x y => (0 + x * 1 + y * 1, 0 + x * 0 + y * 2, 0 + x * 0 + y * 0), true, getAreaApprox⟩

theorem cylinder_proper : Proper cylinder := ⟨rfl, fun h => by cases h⟩
theorem shear_proper : Proper shear := ⟨rfl, fun _ => ⟨(0, 0, 0), (1, 0, 0), (1, 2, 0), fun _ _ => rfl⟩⟩

example : ∃ a b : Areas ℝ, Built ⟨8, 8, 2, 1⟩ cylinder 3 ⟨1, 0, 1⟩ a ∧ Built ⟨8, 8, 2, 1⟩ cylinder 3 ⟨1, 0, 1⟩ b := by
  have hE : Even2 (⟨8, 8, 2, 1⟩ : Dims) := ⟨by decide, by decide, by decide, by decide⟩
  have H := fun Q => C73_progress ⟨8, 8, 2, 1⟩ hE rfl (by decide) cylinder cylinder_proper 3 Q (fun _ => (0, 0, 0)) (fun _ => 7)
  obtain ⟨a, _, ha⟩ := (H ⟨1, 0, 1⟩).1 (by decide)
  have hf : ∀ g, ∃ f, Built ⟨8, 8, 2, 1⟩ cylinder 3 ((⟨1, 0, 1⟩ : Quad).child g) f := fun g => by
    obtain ⟨f, _, h⟩ := (H ((⟨1, 0, 1⟩ : Quad).child g)).1 (by show 2 ≤ 3; decide)
    exact ⟨f, h⟩
  choose fine hfine using hf
  obtain ⟨b, _, hb⟩ := (H ⟨1, 0, 1⟩).2 (by decide) fine (fun g _ _ => hfine g)
  exact ⟨a, b, ha, hb⟩

example : Even2 (⟨8, 16, 2, 1⟩ : Dims) ∧ Proper shear ∧ (⟨1, 0, 1⟩ : Quad).level < 3 :=
  ⟨⟨by decide, by decide, by decide, by decide⟩, shear_proper, by decide⟩

example : (Adapt.Tree.node (C := 4) fun k => if k = 1 then .node fun _ => .leaf else .leaf).leaves [] =
    [[0], [1, 0], [1, 1], [1, 2], [1, 3], [2], [3]] := by
  simp [Adapt.Tree.leaves, List.finRange]

end Fclaw.Metric

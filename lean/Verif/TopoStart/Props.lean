import Verif.TopoStart.Run
import Verif.Topo.Props
/-
C104: the heights at the start of a GeoClaw program with moving ground.
-/
set_option autoImplicit false
set_option linter.unusedVariables false
namespace Fclaw.TopoStart

open Fort

noncomputable section

/-- The program starts without an access outside of an array or the use of a value that is not there yet, and each file with topography keeps the
values that have been read. -/
theorem C104_read (I : Input) (hI : I.Valid) : ∃ s, I.start = some s ∧
    ∀ f i j : ℤ, I.files.IsFile f → 1 ≤ i → i ≤ (I.files.file f).mx → 1 ≤ j → j ≤ (I.files.file f).my →
      s.height I f i j = some ((I.files.file f).zz (i, j)) := by
  obtain ⟨s, e, h, _⟩ := start_all I hI
  refine ⟨s, e, ?_⟩
  intro f i j hf hi1 hi2 hj1 hj2
  have ef := file_read I f hf.2
  have hb := elem_mtopo I f i j hi1 (by rw [ef]; exact hi2) hj1 (by rw [ef]; exact hj2)
  rw [ef] at hb
  have := h f _ hf.1 hf.2 hb.1 hb.2
  rw [content_eq _ _ _ hi1 hi2] at this
  unfold Started.height
  rw [ef, ← this]
  congr 1
  ring

/-- At each node of a file with displacements, where there are data, the ground is that of the finest file with topography. Where there are none the height has
no value: see `C104_uncovered_counterexample`. -/
theorem C104_ground_partial (I : Input) (hI : I.Valid) (s : Started) (hs : I.start = some s) (m i j : ℤ) (hm1 : 1 ≤ m) (hm2 : m ≤ I.moves.n)
    (hi1 : 1 ≤ i) (hi2 : i ≤ (I.moves.move m).mx) (hj1 : 1 ≤ j) (hj2 : j ≤ (I.moves.move m).my) :
    (point (I.moves.move m) i j ∈ I.files.covered → ∀ S, I.files.IsGround S →
      s.height I (I.grid m) i j = some (S (point (I.moves.move m) i j))) ∧
    (point (I.moves.move m) i j ∉ I.files.covered → s.height I (I.grid m) i j = none) := by
  obtain ⟨s', e, _, h, _⟩ := start_all I hI
  rw [e] at hs
  obtain rfl : s' = s := Option.some.inj hs
  have hn := h m i j ⟨⟨hm1, hm2⟩, ⟨hi1, hi2⟩, hj1, hj2⟩
  have ee : s'.height I (I.grid m) i j = s'.work (I.elem m i j) := by
    unfold Started.height Input.elem
    rw [file_grid I m hm1]
    congr 1
    show I.i0topo (I.grid m) + (j - 1) * ((I.moves.move m).mx : ℤ) + (i - 1) = _
    ring
  rw [ee]
  refine ⟨?_, hn.2⟩
  intro hc S hS
  obtain ⟨a, ha⟩ := Topo.exists_finest I.files _ hc
  rw [hn.1 a ha, hS _ a ha]

theorem last_wins (lo hi : ℤ) (h : lo ≤ hi) (P : ℤ → Prop) [DecidablePred P] (s : ℤ) :
    (range lo hi).foldl (fun _ j => if P j then (0 : ℤ) else 1) s = if P hi then 0 else 1 := by
  obtain ⟨k, rfl⟩ : ∃ k : ℕ, hi = lo + k := ⟨(hi - lo).toNat, by omega⟩
  have : range lo (lo + k) = range lo (lo + k - 1) ++ [lo + (k : ℤ)] := by
    unfold range
    have h1 : (lo + (k : ℤ) + 1 - lo).toNat = k + 1 := by omega
    have h2 : (lo + (k : ℤ) - 1 + 1 - lo).toNat = k := by omega
    rw [h1, h2, List.range_succ, List.map_append]
    rfl
  rw [this, List.foldl_append]
  rfl

theorem save_grid (I : Input) (m : ℤ) (h : 1 ≤ m) : I.save (I.grid m) = 1 := by
  unfold Input.save Dtopo.Setup.save
  rw [if_pos]
  show I.grid m > (I.n : ℤ) - I.moves.n
  rw [n_sub]; unfold Input.grid; omega

theorem save_meets (I : Input) (f : ℤ) (hf : f ≤ I.files.n) (hn : 1 ≤ I.moves.n) (hm : Meets (I.files.file f) (I.moves.move I.moves.n)) :
    I.save f = 1 := by
  unfold Input.save Dtopo.Setup.save
  rw [if_neg (by show ¬ (f > (I.n : ℤ) - I.moves.n); rw [n_sub]; omega)]
  unfold Dtopo.Setup.saveRead
  simp only
  rw [last_wins _ _ (by omega), if_neg]
  have eN : ((I.n : ℕ) : ℤ) = I.grid I.moves.n := by unfold Input.n Input.grid; push_cast; ring
  rw [eN, file_grid I _ (by omega), file_read I f hf]
  obtain ⟨p, ⟨⟨h1, h2⟩, h3, h4⟩, ⟨h5, h6⟩, h7, h8⟩ := hm
  simp only at *
  rintro (h | h | h | h) <;> linarith

/-- The initial heights are kept for the grids of all files with displacements, and for each file with topography whose area has a point in common with that of
the last file with displacements; so for all files that have to move if there is one file with displacements. (For other files see C100.) -/
theorem C104_saved_partial (I : Input) (hI : I.Valid) (hn : 1 ≤ I.moves.n) (s : Started) (hs : I.start = some s) (f : ℤ)
    (hf : (∃ m : ℤ, 1 ≤ m ∧ m ≤ I.moves.n ∧ f = I.grid m) ∨ (I.files.IsFile f ∧ Meets (I.files.file f) (I.moves.move I.moves.n)))
    (i j : ℤ) (hi1 : 1 ≤ i) (hi2 : i ≤ (I.file f).mx) (hj1 : 1 ≤ j) (hj2 : j ≤ (I.file f).my) :
    s.initial I f i j = s.height I f i j := by
  obtain ⟨s', e, _, _, h⟩ := start_all I hI
  rw [e] at hs
  obtain rfl : s' = s := Option.some.inj hs
  have hb := elem_mtopo I f i j hi1 hi2 hj1 hj2
  have hsv : (1 ≤ f ∧ f ≤ I.n) ∧ I.save f = 1 := by
    rcases hf with ⟨m, h1, h2, rfl⟩ | ⟨h1, h2⟩
    · have := grid_range I m ⟨h1, h2⟩
      exact ⟨⟨this.1, this.2.1⟩, save_grid I m h1⟩
    · refine ⟨⟨h1.1, ?_⟩, save_meets I f h1.2 hn h2⟩
      have := h1.2
      unfold Input.n; push_cast; omega
  have := h (by omega) f _ hsv.1.1 hsv.1.2 hsv.2 hb.1 hb.2
  unfold Started.initial Started.height
  have e1 : I.i0topo0 f + (j - 1) * (I.file f).mx + (i - 1) = I.i0topo0 f + ((j - 1) * (I.file f).mx + i) - 1 := by ring
  have e2 : I.i0topo f + (j - 1) * (I.file f).mx + (i - 1) = I.i0topo f + ((j - 1) * (I.file f).mx + i) - 1 := by ring
  rw [e1, e2, this]

/-! ### A case -/

/-- A file for the square from 0 to 1, with the heights 1, 2 in the north and 3, 4 in the south, and displacements in the rectangle from 0 to `2 * d`, 0 to 1. -/
def sample (d : ℝ) : Input where
  files := ⟨1, fun _ => ⟨2, 2, 0, 1, 0, 1, 1, 1, fun c => (c.1 + 2 * (c.2 - 1) : ℤ)⟩⟩
  moves := ⟨1, fun _ => ⟨3, 2, 1, 0, 2 * d, 0, 1, 0, 0, d, 1, 0, fun _ => 1⟩⟩

theorem sample_valid (d : ℝ) (hd : 0 < d) : (sample d).Valid where
  some := le_refl _
  files := by
    intro a _
    constructor <;> simp [sample]
    all_goals norm_num
  moves := by
    intro m _ _
    constructor <;> simp [sample]
    · exact hd
    · ring_nf
    all_goals norm_num

/-- The hypotheses of the theorems hold, and at the node in the middle of the north the ground is interpolated. -/
example : (sample (1 / 2)).Valid ∧ ∃ s, (sample (1 / 2)).start = some s ∧ s.height (sample (1 / 2)) 1 1 2 = some 3 ∧
    s.initial (sample (1 / 2)) 2 2 1 = some (3 / 2) := by
  have hv := sample_valid (1 / 2) (by norm_num)
  obtain ⟨s, e, h⟩ := C104_read _ hv
  refine ⟨hv, s, e, ?_, ?_⟩
  · rw [h 1 1 2 ⟨le_refl _, by simp [sample]⟩ (by norm_num) (by simp [sample]) (by norm_num) (by simp [sample])]
    simp [sample]
    norm_num
  · have hp : point ((sample (1 / 2)).moves.move 1) 2 1 = (1 / 2, 1) := by
      unfold point Dtopo.Move.col Dtopo.Move.row sample; norm_num
    have hfin : (sample (1 / 2)).files.IsFinest (1 / 2, 1) 1 := by
      refine ⟨⟨le_refl _, by simp [sample]⟩, ?_, ?_⟩
      · unfold Topo.File.extent sample
        constructor <;> constructor <;> norm_num
      · rintro b ⟨h1, h2⟩ hb
        have : b ≤ 1 := by simpa [sample] using h2
        omega
    have e2 : (2 : ℤ) = (sample (1 / 2)).grid 1 := by unfold Input.grid sample; norm_num
    have hg := (C104_ground_partial _ hv s e 1 2 1 (le_refl _) (by simp [sample]) (by norm_num) (by simp [sample]) (le_refl _) (by simp [sample])).1
      (by rw [hp]; exact ⟨1, hfin.1, hfin.2.1⟩) _ (Topo.surf_ground _)
    have hsv := C104_saved_partial _ hv (le_refl _) s e ((sample (1 / 2)).grid 1) (Or.inl ⟨1, le_refl _, by simp [sample], rfl⟩) 2 1 (by norm_num)
      (by rw [file_grid _ _ (le_refl _)]; simp [sample]) (le_refl _) (by rw [file_grid _ _ (le_refl _)]; simp [sample])
    rw [← e2] at hg hsv
    rw [hsv, hg, hp, Topo.surf_ground _ _ 1 hfin]
    have hval := (hv.files 1 hfin.1)
    rw [Topo.File.height_eq _ hval 0 0 (le_refl _) (le_refl _) _ (by simp [sample]; norm_num) (by simp [sample])]
    unfold Topo.File.bilinear Topo.File.node sample
    norm_num

/-- If a file with displacements has nodes where there is no file with topography, the program starts without a complaint, because the grid of the file with
displacements itself counts as data when it finds out whether the domain is covered; the heights of these nodes, which lie in the domain and are used there, have no value. -/
theorem C104_uncovered_counterexample : ∃ (I : Input) (D : Topo.Domain) (s : Started), I.Valid ∧ I.start = some s ∧
    Topo.startCheck I.all D = some .go ∧
    ∃ i j : ℤ, (1 ≤ i ∧ i ≤ (I.moves.move 1).mx) ∧ (1 ≤ j ∧ j ≤ (I.moves.move 1).my) ∧
      point (I.moves.move 1) i j ∈ D.set ∧ I.all.IsFinest (point (I.moves.move 1) i j) (I.grid 1) ∧
      s.height I (I.grid 1) i j = none := by
  have hv := sample_valid 1 (by norm_num)
  obtain ⟨s, e, _⟩ := C104_read _ hv
  have hp : point ((sample 1).moves.move 1) 3 1 = (2, 1) := by
    unfold point Dtopo.Move.col Dtopo.Move.row sample; norm_num
  have hout : ∀ b : ℤ, ((2 : ℝ), (1 : ℝ)) ∉ ((sample 1).files.file b).extent := by
    rintro b ⟨⟨_, h⟩, _⟩
    simp [sample] at h
  have hg2 : (sample 1).grid 1 = 2 := by unfold Input.grid sample; norm_num
  have hn2 : (sample 1).n = 2 := by unfold Input.n sample; norm_num
  have hf2 := file_grid (sample 1) 1 (le_refl _)
  rw [hg2] at hf2
  refine ⟨sample 1, ⟨0, 2, 0, 1⟩, s, hv, e, ?_, 3, 1, ⟨by norm_num, by simp [sample]⟩, ⟨le_refl _, by simp [sample]⟩, ?_, ?_, ?_⟩
  · obtain ⟨r, er, _, hgo, _⟩ := Topo.C90_start (sample 1).all (by show 1 ≤ (sample 1).n; omega) ⟨0, 2, 0, 1⟩ (by norm_num) (by norm_num)
    rw [er, hgo]
    rintro p ⟨⟨h1, h2⟩, h3, h4⟩
    refine ⟨2, ⟨by norm_num, by show (2 : ℤ) ≤ ((sample 1).n : ℤ); rw [hn2]; norm_num⟩, ?_⟩
    show p ∈ ((sample 1).file 2).extent
    rw [hf2]
    unfold Topo.File.extent sample
    simp only at h1 h2 h3 h4
    constructor <;> constructor <;> norm_num <;> linarith
  · rw [hp]
    constructor <;> constructor <;> norm_num
  · rw [hp, hg2]
    refine ⟨⟨by norm_num, by show (2 : ℤ) ≤ ((sample 1).n : ℤ); rw [hn2]; norm_num⟩, ?_, ?_⟩
    · show _ ∈ ((sample 1).file 2).extent
      rw [hf2]
      unfold Topo.File.extent sample
      constructor <;> constructor <;> norm_num
    · rintro b ⟨h1, h2⟩ hb hin
      have h2' : b ≤ ((sample 1).n : ℤ) := h2
      rw [hn2] at h2'
      have hb1 : b = 1 := by omega
      subst hb1
      have hin' : ((2 : ℝ), (1 : ℝ)) ∈ ((sample 1).file 1).extent := hin
      rw [file_read _ _ (by simp [sample])] at hin'
      exact absurd hin' (hout 1)
  · apply (C104_ground_partial _ hv s e 1 3 1 (le_refl _) (by simp [sample]) (by norm_num) (by simp [sample]) (le_refl _) (by simp [sample])).2
    rw [hp]
    rintro ⟨a, _, ha⟩
    exact hout a ha

end

end Fclaw.TopoStart

import Verif.TopoRead.Lemmas
/-
C102: a file with heights of the ground that lists a grid gives exactly this grid.
-/
set_option autoImplicit false
namespace Fclaw.TopoRead

theorem readTopo_of (R : Raster) (tm : ℝ) (neg : Bool) (c : Contents) (topo t : ℤ → ℝ)
    (hh : c.header = some ⟨R.cols, R.rows, R.west, R.south, R.west + ((R.cols : ℝ) - 1) * R.dx, R.south + ((R.rows : ℝ) - 1) * R.dy, R.dx, R.dy⟩)
    (ht : c.heights tm R.cols R.rows topo = some t) :
    readTopo tm neg c topo = some ⟨R.cols, R.rows, R.west, R.west + ((R.cols : ℝ) - 1) * R.dx, R.south, R.south + ((R.rows : ℝ) - 1) * R.dy,
      R.dx, R.dy, fun p => (if neg then negate ((R.cols : ℤ) * R.rows) t else t) ((p.2 - 1) * R.cols + p.1)⟩ := by
  unfold readTopo
  rw [hh]
  simp only [Option.bind_some]
  rw [ht]
  simp only [Option.map_some, Int.toNat_natCast]

theorem signed_at (R : Raster) (neg : Bool) (t : ℤ → ℝ) (i j : ℕ) (hi : i < R.cols) (hj : j < R.rows) :
    (if neg then negate ((R.cols : ℤ) * R.rows) t else t) ((j : ℤ) * R.cols + (i + 1)) =
      signed neg (t ((j : ℤ) * R.cols + (i + 1))) := by
  unfold signed
  cases neg with
  | false => simp
  | true =>
    have := pos_range R i j hi hj
    simp only [if_true]
    unfold negate
    rw [if_pos ⟨this.1, by rw [mul_comm (R.cols : ℤ)]; exact this.2⟩]

/-- A file with a line `x, y, z` for each node: the ground has, at the position of each node, the height that is written there (or minus
that, for a file of depths), and the area of the file is that of the nodes. -/
theorem C102_xyz (R : Raster) (hR : R.Valid) (tm : ℝ) (neg : Bool) (topo : ℤ → ℝ) :
    ∃ T, readTopo tm neg (.xyz R.xyz) topo = some T ∧ R.Gives (fun j i => signed neg (R.z j i)) T := by
  obtain ⟨t, e, ht⟩ := read1_eq R hR topo
  refine ⟨_, readTopo_of R tm neg (.xyz R.xyz) topo t (header1_eq R hR) e, ?_⟩
  apply gives R hR
  intro i j hi hj
  rw [signed_at R neg t i j hi hj]
  have hp := pos_range R i j hi hj
  rw [ht _ hp.1 hp.2, val_pos R i j hi]

theorem lists_read (R : Raster) (hR : R.Valid) (h : Head) (c : Contents) (hh : R.HasHead h) (hc : Lists R h c) (tm : ℝ) (topo : ℤ → ℝ) :
    c.header = some ⟨R.cols, R.rows, R.west, R.south, R.west + ((R.cols : ℝ) - 1) * R.dx, R.south + ((R.rows : ℝ) - 1) * R.dy, R.dx, R.dy⟩ ∧
    ∃ s, Upto R h.noData tm (R.rows * R.cols) s ∧ c.heights tm R.cols R.rows topo = checkMissing tm s := by
  cases hc with
  | column more =>
    refine ⟨congrArg some (header23_eq R h hh), ?_⟩
    obtain ⟨s, e, hs⟩ := read2_eq R hR more h.noData tm topo
    exact ⟨s, hs, by show (read2 _ _ _ _ _).bind _ = _; rw [e]; rfl⟩
  | rows lines more hl =>
    refine ⟨congrArg some (header23_eq R h hh), ?_⟩
    obtain ⟨s, e, hs⟩ := read3_eq R hR lines more hl h.noData tm topo
    exact ⟨s, hs, by show (read3 _ _ _ _ _).bind _ = _; rw [e]; rfl⟩

/-- A file with a header and the heights one in each line or row by row, each row on one or several lines: the ground has at each node the
height that is written there, with the given value in place of those that are marked as missing, and the sign reversed for a file of
depths. The position in the header may be that of the first node or that of the corner of its cell. -/
theorem C102_grid (R : Raster) (hR : R.Valid) (h : Head) (hh : R.HasHead h) (c : Contents) (hc : Lists R h c) (tm : ℝ) (neg : Bool)
    (topo : ℤ → ℝ) (hm : tm = 99999 → ¬ R.Gap h.noData) :
    ∃ T, readTopo tm neg c topo = some T ∧ R.Gives (fun j i => signed neg (filled h.noData tm (R.z j i))) T := by
  obtain ⟨h1, s, hs, h2⟩ := lists_read R hR h c hh hc tm topo
  have h3 : checkMissing tm s = some s.topo := by
    unfold checkMissing
    rw [if_neg]
    rintro ⟨h4, h5⟩
    exact hm h5 ((gap_iff R hR h.noData).mp (hs.2.2.mp h4))
  rw [h3] at h2
  refine ⟨_, readTopo_of R tm neg c topo s.topo h1 h2, ?_⟩
  apply gives R hR
  intro i j hi hj
  rw [signed_at R neg s.topo i j hi hj]
  have hp := pos_range R i j hi hj
  rw [hs.1 _ hp.1 (by push_cast; exact hp.2), val_pos R i j hi]

/-- The run stops if there are missing heights and the value to be used in their place has not been chosen. -/
theorem C102_missing (R : Raster) (hR : R.Valid) (h : Head) (hh : R.HasHead h) (c : Contents) (hc : Lists R h c) (neg : Bool)
    (topo : ℤ → ℝ) (hm : R.Gap h.noData) : readTopo 99999 neg c topo = none := by
  obtain ⟨h1, s, hs, h2⟩ := lists_read R hR h c hh hc 99999 topo
  have h3 : checkMissing 99999 s = none := by
    unfold checkMissing
    rw [if_pos ⟨hs.2.2.mpr ((gap_iff R hR h.noData).mpr hm), rfl⟩]
  rw [h3] at h2
  unfold readTopo
  rw [h1]
  simp only [Option.bind_some]
  rw [h2]
  rfl

/-- A file with a header is refused if it has fewer numbers than the header says. -/
theorem C102_short_partial (h : Head) (lines : List (List ℝ)) (tm : ℝ) (neg : Bool) (topo : ℤ → ℝ) (hmx : 0 < h.mx) (hmy : 0 < h.my)
    (hn : (lines.flatten.length : ℤ) < h.mx * h.my) :
    readTopo tm neg (.column h lines) topo = none ∧ readTopo tm neg (.rows h lines) topo = none := by
  constructor
  · unfold readTopo Contents.header Contents.heights
    simp only [Option.bind_some, header23]
    rw [read2_short h.mx h.my h.noData tm ⟨lines, 0, topo⟩ hmx hmy hn]
    rfl
  · unfold readTopo Contents.header Contents.heights
    simp only [Option.bind_some, header23]
    rw [read3_short h.mx h.my h.noData tm ⟨lines, 0, topo⟩ hmx hmy hn]
    rfl

/-- Three by three nodes at distance one; the ground rises to the east. -/
noncomputable def slope : Raster := ⟨3, 3, 0, 0, 1, 1, fun _ i => i⟩

theorem slope_valid : slope.Valid := ⟨by decide, by decide, one_pos, one_pos⟩

/-- Not so a file with positions: if the last line is missing, the file is accepted, and all heights are those of other places. Here the height at
the node in the middle of the first row is that of its neighbour. -/
theorem C102_truncated_counterexample (tm : ℝ) (topo : ℤ → ℝ) :
    ∃ T, readTopo tm false (.xyz slope.xyz.dropLast) topo = some T ∧ T.Valid ∧ T.height (slope.x 1, slope.y 0) = slope.z 0 2 ∧
      slope.z 0 2 ≠ slope.z 0 1 := by
  have hl : slope.xyz.dropLast = [⟨0, 2, 0⟩, ⟨1, 2, 1⟩, ⟨2, 2, 2⟩, ⟨0, 1, 0⟩, ⟨1, 1, 1⟩, ⟨2, 1, 2⟩, ⟨0, 0, 0⟩, ⟨1, 0, 1⟩] := by
    unfold Raster.xyz Raster.x Raster.y slope
    simp [List.range_succ, List.dropLast]
    norm_num
  have hh : header1 slope.xyz.dropLast = some ⟨3, 2, 0, 0, 1, 2, 1 / 2, 2⟩ := by
    rw [hl]
    simp [header1, firstRow, otherRows]
    norm_num
  have hr : ∃ t, read1 3 2 slope.xyz.dropLast topo = some t ∧ t 3 = 2 := by
    rw [hl]
    refine ⟨_, by
      simp [read1, Fort.doLoop, Fort.range, List.range_succ, Fort.loop, read1Line, put]
      rfl, by simp⟩
  obtain ⟨t, e, ht⟩ := hr
  refine ⟨⟨3, 2, 0, 1, 0, 2, 1 / 2, 2, fun p => t ((p.2 - 1) * 3 + p.1)⟩, ?_, ?_, ?_, ?_⟩
  · unfold readTopo Contents.header Contents.heights
    simp only
    rw [hh]
    simp only [Option.bind_some]
    rw [e]
    simp
  · exact ⟨by norm_num, by norm_num, by norm_num, by norm_num, by norm_num, by norm_num⟩
  · have hx : slope.x 1 = 0 + ((2 : ℤ) : ℝ) * (1 / 2) := by unfold Raster.x slope; norm_num
    have hy : slope.y 0 = 0 + ((1 : ℤ) : ℝ) * 2 := by unfold Raster.y slope; norm_num
    rw [hx, hy]
    refine (height_node ⟨3, 2, 0, 1, 0, 2, 1 / 2, 2, fun p => t ((p.2 - 1) * 3 + p.1)⟩
      ⟨by norm_num, by norm_num, by norm_num, by norm_num, by norm_num, by norm_num⟩ 2 1 (by norm_num) (by norm_num)).trans ?_
    unfold Topo.File.node slope
    norm_num
    exact ht
  · unfold slope
    norm_num

/-- The hypotheses can be met: a grid, its header with the corner of the cell, and a file with the second row on two lines. -/
noncomputable def slopeHead : Head := ⟨3, 3, -1 / 2, -1 / 2, true, true, 1, none, -9999⟩

example : slope.Valid ∧ slope.HasHead slopeHead ∧ Lists slope slopeHead (.rows slopeHead [[0, 1, 2], [0], [1, 2], [0, 1, 2]]) ∧
    ¬ slope.Gap slopeHead.noData := by
  refine ⟨slope_valid, ⟨rfl, rfl, ?_, ?_, rfl, Or.inr ⟨rfl, rfl⟩⟩, ?_, ?_⟩
  · simp [slopeHead, slope]; norm_num
  · simp [slopeHead, slope]; norm_num
  · have := Lists.rows (h := slopeHead) (R := slope) [[0, 1, 2], [0], [1, 2], [0, 1, 2]] [] (by
      refine ⟨fun j => if j = 1 then [[0], [1, 2]] else [[0, 1, 2]], ?_, ?_⟩
      · intro j _
        by_cases h : j = 1
        · simp [h, Raster.row, slope, List.range_succ]
        · simp [h, Raster.row, slope, List.range_succ]
      · simp [slope, List.range_succ])
    simpa using this
  · rintro ⟨i, j, _, _, h⟩
    simp [slope, slopeHead] at h
    have : (0 : ℝ) ≤ (i : ℝ) := Nat.cast_nonneg i
    linarith

/-- … and one with a gap. -/
example : (⟨2, 2, 0, 0, 1, 1, fun _ _ => -9999⟩ : Raster).Valid ∧ (⟨2, 2, 0, 0, 1, 1, fun _ _ => -9999⟩ : Raster).Gap (-9999) :=
  ⟨⟨by decide, by decide, one_pos, one_pos⟩, 0, 0, by decide, by decide, rfl⟩

/-- … and a short one. -/
example : (([[0, 1, 2], [0]] : List (List ℝ)).flatten.length : ℤ) < slopeHead.mx * slopeHead.my := by
  simp [slopeHead]

end Fclaw.TopoRead

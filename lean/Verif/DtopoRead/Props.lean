import Verif.DtopoRead.Lemmas
/-
C103: a file with displacements gives the displacements that are written in it.
-/
set_option autoImplicit false
set_option linter.unnecessarySeqFocus false
namespace Fclaw.DtopoRead

open Dtopo

theorem readDtopo_of (M : Motion) (c : Contents) (w v : ℤ → ℝ) (dt : ℝ)
    (hh : c.header = some ⟨M.cols, M.rows, M.times, M.west, M.south, M.t0, M.west + M.dx * ((M.cols : ℝ) - 1),
      M.south + M.dy * ((M.rows : ℝ) - 1), M.t0 + dt * ((M.times : ℝ) - 1), M.dx, M.dy, dt⟩)
    (hv : c.values M.cols M.rows M.times w = some v) :
    readDtopo c w = some ⟨M.cols, M.rows, M.times, M.west, M.west + M.dx * ((M.cols : ℝ) - 1), M.south, M.south + M.dy * ((M.rows : ℝ) - 1),
      M.t0, M.t0 + dt * ((M.times : ℝ) - 1), M.dx, M.dy, dt, v⟩ := by
  unfold readDtopo
  rw [hh]
  simp only [Option.bind_some]
  rw [hv]
  simp only [Option.map_some, Int.toNat_natCast]

theorem size_eq (M : Motion) : (M.cols : ℤ) * M.rows * M.times = M.N := by unfold Motion.N Motion.S; push_cast; ring

/-- A file that lists displacements for the nodes of a grid and equidistant times, in one of the three formats: the program accepts it, knows its area and
the times of the motion, and comes at each node and time to the displacement that is written there. -/
theorem C103_read (M : Motion) (hM : M.Valid) (c : Contents) (hc : Lists M c) (w : ℤ → ℝ) :
    ∃ m, readDtopo c w = some m ∧ M.Gives m := by
  have hh : header23 M.head = ⟨M.cols, M.rows, M.times, M.west, M.south, M.t0, M.west + M.dx * ((M.cols : ℝ) - 1),
      M.south + M.dy * ((M.rows : ℝ) - 1), M.t0 + M.dt * ((M.times : ℝ) - 1), M.dx, M.dy, M.dt⟩ := by
    unfold header23 Motion.head
    push_cast
    rfl
  cases hc with
  | txyz =>
    obtain ⟨v, e, hv⟩ := read1_eq M hM w
    refine ⟨_, readDtopo_of M _ w v M.step (header1_eq M hM) (by show read1 _ _ _ = _; rw [size_eq]; exact e), ?_⟩
    apply gives M hM v M.step _ _ hv
    · unfold Motion.step
      split
      · exact le_refl _
      · exact le_of_lt hM.dt
    · intro h
      unfold Motion.step
      rw [if_neg h]
  | column more =>
    obtain ⟨v, e, hv⟩ := read2_eq M hM more w
    refine ⟨_, readDtopo_of M _ w v M.dt (congrArg some hh) (by show read2 _ _ _ = _; rw [size_eq]; exact e), ?_⟩
    exact gives M hM v M.dt (le_of_lt hM.dt) (fun _ => rfl) hv
  | rows lines more hl =>
    obtain ⟨v, e, hv⟩ := read3_eq M hM lines more hl w
    exact ⟨_, readDtopo_of M _ w v M.dt (congrArg some hh) e, gives M hM v M.dt (le_of_lt hM.dt) (fun _ => rfl) hv⟩

/-- A file with a header is refused if it has fewer numbers than the header says. -/
theorem C103_short_partial (h : Head) (lines : List (List ℝ)) (w : ℤ → ℝ) (hmx : 0 < h.mx) (hmy : 0 < h.my) (hmt : 0 < h.mt)
    (hn : (lines.flatten.length : ℤ) < h.mx * h.my * h.mt) :
    readDtopo (.column h lines) w = none ∧ readDtopo (.rows h lines) w = none := by
  constructor
  · unfold readDtopo Contents.header Contents.values
    simp only [Option.bind_some, header23]
    rw [read2_short _ lines w (mul_pos (mul_pos hmx hmy) hmt) hn]
    rfl
  · unfold readDtopo Contents.header Contents.values
    simp only [Option.bind_some, header23]
    rw [read3_short h.mx h.my h.mt lines w hmx hmy hmt hn]
    rfl

/-- The ground rises by one between two times. -/
noncomputable def rise : Motion := ⟨3, 2, 2, 0, 0, 10, 1, 1, 5, fun k _ _ => k⟩

/-- Not so a file with times and positions: if the last line is missing, the file is accepted, but all displacements of the last time are lost. Here the ground
does not rise at all. -/
theorem C103_truncated_counterexample (w : ℤ → ℝ) :
    ∃ m, readDtopo (.txyz rise.txyz.dropLast) w = some m ∧ m.dz (rise.x 0) (rise.y 0) (rise.t 1) = some 0 ∧ rise.d 1 0 0 = 1 := by
  have hl : rise.txyz.dropLast = [⟨10, 0, 1, 0⟩, ⟨10, 1, 1, 0⟩, ⟨10, 2, 1, 0⟩, ⟨10, 0, 0, 0⟩, ⟨10, 1, 0, 0⟩, ⟨10, 2, 0, 0⟩,
      ⟨15, 0, 1, 1⟩, ⟨15, 1, 1, 1⟩, ⟨15, 2, 1, 1⟩, ⟨15, 0, 0, 1⟩, ⟨15, 1, 0, 1⟩] := by
    unfold Motion.txyz Motion.x Motion.y Motion.t rise
    simp [List.range_succ, List.dropLast]
    norm_num
  have hh : header1 rise.txyz.dropLast = some ⟨3, 2, 1, 0, 0, 10, 1, 1, 15, 1 / 2, 1, 0⟩ := by
    rw [hl]
    simp [header1, firstTime, otherTimes]
  have hr : ∃ v, read1 (3 * 2 * 1) rise.txyz.dropLast w = some v ∧ v 1 = 0 ∧ v 2 = 0 ∧ v 4 = 0 ∧ v 5 = 0 := by
    rw [hl]
    refine ⟨_, by
      simp [read1, Fort.doLoop, Fort.range, List.range_succ, Fort.loop, read1Line, TopoRead.put]
      rfl, by simp⟩
  obtain ⟨v, e, h1, h2, h4, h5⟩ := hr
  refine ⟨⟨3, 2, 1, 0, 1, 0, 1, 10, 15, 1 / 2, 1, 0, v⟩, ?_, ?_, ?_⟩
  · unfold readDtopo Contents.header Contents.values
    simp only
    rw [hh]
    simp only [Option.bind_some]
    rw [e]
    simp
  · have hx : rise.x 0 = 0 := by unfold Motion.x rise; norm_num
    have hy : rise.y 0 = 1 := by unfold Motion.y rise; norm_num
    rw [hx, hy]
    unfold Move.dz Move.bilinear Move.bracket Move.index0 Move.cell Move.rd
    simp [h1, h2, h4, h5]
  · unfold rise
    norm_num

/-- The hypotheses can be met: a motion with two times; the second row of the first time is on two lines. -/
noncomputable def lift : Motion := ⟨2, 2, 2, 0, 0, 10, 1, 1, 5, fun k j i => (k * (2 * j + i) : ℕ)⟩

example : lift.Valid ∧ Lists lift (.rows lift.head ([[0, 0], [0], [0], [0, 1], [2, 3]] ++ [])) := by
  refine ⟨⟨by decide, by decide, by decide, one_pos, one_pos, by norm_num [lift]⟩, Lists.rows _ _ ?_⟩
  refine ⟨fun k j => if k = 0 then (if j = 0 then [[0, 0]] else [[0], [0]]) else if j = 0 then [[0, 1]] else [[2, 3]], ?_, ?_⟩
  · intro k hk j hj
    have hk' : k = 0 ∨ k = 1 := by have : k < 2 := hk; omega
    have hj' : j = 0 ∨ j = 1 := by have : j < 2 := hj; omega
    rcases hk' with rfl | rfl <;> rcases hj' with rfl | rfl <;> simp [Motion.row, lift, List.range_succ] <;> norm_num
  · simp [lift, List.range_succ]

example : (([[0, 0], [0]] : List (List ℝ)).flatten.length : ℤ) < lift.head.mx * lift.head.my * lift.head.mt := by
  simp [lift, Motion.head]

end Fclaw.DtopoRead

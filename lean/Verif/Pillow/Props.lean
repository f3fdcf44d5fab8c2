import Verif.Pillow.Lemmas
import Verif.CoarseFine.Props
import Verif.FaceNbr.Props
/-
C83: at the corners of the blocks of a pillow sphere.
-/
set_option autoImplicit false
set_option linter.unusedSimpArgs false
set_option linter.unusedVariables false
namespace Fclaw.Pillow

open Fort CopyGhost Transfer CoarseFine

/-- C83: the exchange between two patches of the same size touches no memory outside of the arrays, sets every ghost cell at the
corner in both patches to the value of the cell of the other patch that it is folded onto, and changes nothing else. -/
theorem C83_copy {α : Type} (d : Dims) (hd : Proper d) (k : Nat) (hk : k < 4) (qthis qneighbor : Grid α) :
    ∃ q1 q2, copyBlockCorner d k (qthis, qneighbor) = some (q1, q2) ∧
      (∀ i j mq, inCorner d k i j → comp d mq → ∃ m : ℤ × ℤ, interior d m.1 m.2 ∧ Folded d k (i, j) m ∧
        q1 (i, j, mq) = qneighbor (m.1, m.2, mq) ∧ q2 (i, j, mq) = qthis (m.1, m.2, mq)) ∧
      ∀ i j mq, ¬ (inCorner d k i j ∧ comp d mq) → q1 (i, j, mq) = qthis (i, j, mq) ∧ q2 (i, j, mq) = qneighbor (i, j, mq) := by
  obtain ⟨hx, hy, bx, by'⟩ := hd
  -- the cell that a ghost cell is folded onto
  let m : ℤ × ℤ → ℤ × ℤ := fun c => mirrorCell d k (1 - (away d k c).1) (1 - (away d k c).2)
  have notin : ∀ mq ibc jbc : ℤ, 1 ≤ ibc → ibc ≤ d.mbc → 1 ≤ jbc → jbc ≤ d.mbc → ∀ c : Cell,
      c = ((cornerCell d k ibc jbc).1, (cornerCell d k ibc jbc).2, mq) → ¬ interior d c.1 c.2.1 := by
    rintro mq ibc jbc i1 i2 j1 j2 c rfl hin
    dsimp only at hin
    have := (interior_away (k := k)).1 hin
    rw [away_corner d hk] at this
    dsimp only at this
    omega
  have hw : Writes2 (fun c => interior d c.1 c.2.1) (fun c => ∃ mq, 1 ≤ mq ∧ mq ≤ (d.meqn : ℤ) ∧ ∃ ibc, 1 ≤ ibc ∧ ibc ≤ (d.mbc : ℤ) ∧
      ∃ jbc, 1 ≤ jbc ∧ jbc ≤ (d.mbc : ℤ) ∧ c = ((cornerCell d k ibc jbc).1, (cornerCell d k ibc jbc).2, mq)) qthis qneighbor
      (fun c => qneighbor ((m (c.1, c.2.1)).1, (m (c.1, c.2.1)).2, c.2.2)) (fun c => qthis ((m (c.1, c.2.1)).1, (m (c.1, c.2.1)).2, c.2.2))
      (copyBlockCorner d k) := by
    refine Writes2.doLoop _ _ _ _ (fun mq m1 m2 c ⟨ibc, i1, i2, jbc, j1, j2, e⟩ => notin mq ibc jbc i1 i2 j1 j2 c e) fun mq m1 m2 =>
      Writes2.doLoop _ _ _ _ (fun ibc i1 i2 c ⟨jbc, j1, j2, e⟩ => notin mq ibc jbc i1 i2 j1 j2 c e) fun ibc i1 i2 =>
      Writes2.doLoop _ _ _ _ (fun jbc j1 j2 c e => notin mq ibc jbc i1 i2 j1 j2 c e) fun jbc j1 j2 => ?_
    intro Q hQ
    have hg : inBox d ((cornerCell d k ibc jbc).1, (cornerCell d k ibc jbc).2, mq) = true :=
      corner_box ((inCorner_iff hk).2 ⟨ibc, jbc, i1, i2, j1, j2, rfl⟩) ⟨m1, m2⟩
    have hin : interior d (mirrorCell d k ibc jbc).1 (mirrorCell d k ibc jbc).2 := by
      rw [interior_away (k := k), away_mirror d hk]
      dsimp only
      omega
    have hm : inBox d ((mirrorCell d k ibc jbc).1, (mirrorCell d k ibc jbc).2, mq) = true := interior_box hin ⟨m1, m2⟩
    have hne : ((mirrorCell d k ibc jbc).1, (mirrorCell d k ibc jbc).2, mq) ≠
        ((cornerCell d k ibc jbc).1, (cornerCell d k ibc jbc).2, mq) := fun e => notin mq ibc jbc i1 i2 j1 j2 _ e hin
    have hmm : m (cornerCell d k ibc jbc) = mirrorCell d k ibc jbc := by
      show mirrorCell d k _ _ = _
      rw [away_corner d hk]
      dsimp only
      rw [sub_sub_cancel, sub_sub_cancel]
    refine ⟨(fun c => if c = ((cornerCell d k ibc jbc).1, (cornerCell d k ibc jbc).2, mq) then
        Q.2 ((mirrorCell d k ibc jbc).1, (mirrorCell d k ibc jbc).2, mq) else Q.1 c,
      fun c => if c = ((cornerCell d k ibc jbc).1, (cornerCell d k ibc jbc).2, mq) then
        Q.1 ((mirrorCell d k ibc jbc).1, (mirrorCell d k ibc jbc).2, mq) else Q.2 c), ?_, ?_, ?_⟩
    · simp only [rd, wr, hm, hg, if_true, Option.bind_some, if_neg hne]
    · rintro c rfl
      dsimp only
      rw [if_pos rfl, if_pos rfl, hmm]
      exact ⟨(hQ _ hin).2, (hQ _ hin).1⟩
    · intro c hc
      exact ⟨if_neg hc, if_neg hc⟩
  obtain ⟨⟨q1, q2⟩, h1, h2, h3⟩ := hw (qthis, qneighbor) fun _ _ => ⟨rfl, rfl⟩
  have hS : ∀ i j mq : ℤ, inCorner d k i j ∧ comp d mq ↔ ∃ mq', 1 ≤ mq' ∧ mq' ≤ (d.meqn : ℤ) ∧ ∃ ibc, 1 ≤ ibc ∧ ibc ≤ (d.mbc : ℤ) ∧
      ∃ jbc, 1 ≤ jbc ∧ jbc ≤ (d.mbc : ℤ) ∧ (i, j, mq) = ((cornerCell d k ibc jbc).1, (cornerCell d k ibc jbc).2, mq') := by
    intro i j mq
    rw [inCorner_iff hk]
    constructor
    · rintro ⟨⟨ibc, jbc, i1, i2, j1, j2, e⟩, m1, m2⟩
      exact ⟨mq, m1, m2, ibc, i1, i2, jbc, j1, j2, by rw [← e]⟩
    · rintro ⟨mq', m1, m2, ibc, i1, i2, jbc, j1, j2, e⟩
      rw [Prod.mk.injEq, Prod.mk.injEq] at e
      obtain ⟨e1, e2, e3⟩ := e
      exact ⟨⟨ibc, jbc, i1, i2, j1, j2, by rw [e1, e2]⟩, by rw [e3]; exact ⟨m1, m2⟩⟩
  refine ⟨q1, q2, h1, fun i j mq hi hm => ?_, fun i j mq hn => h3 (i, j, mq) fun h => hn ((hS i j mq).2 h)⟩
  have hc := inCorner_away.1 hi
  have ham : away d k (m (i, j)) = (1 - (away d k (i, j)).1, 1 - (away d k (i, j)).2) := away_mirror d hk _ _
  refine ⟨m (i, j), ?_, ?_, h2 (i, j, mq) ((hS i j mq).1 ⟨hi, hm⟩)⟩
  · rw [interior_away (k := k), ham]
    dsimp only
    omega
  · unfold Folded
    rw [ham]
    exact ⟨rfl, rfl⟩

/-- The mass in a ghost cell: that of the four cells of the small patch it is folded onto. -/
def partMass (areafine : ℤ × ℤ → ℚ) (qfine : Grid ℚ) (mq : ℤ) (c : Nat → Nat → ℤ × ℤ) : ℚ :=
  areafine (c 0 0) * qfine ((c 0 0).1, (c 0 0).2, mq) + areafine (c 0 1) * qfine ((c 0 1).1, (c 0 1).2, mq) +
  areafine (c 1 0) * qfine ((c 1 0).1, (c 1 0).2, mq) + areafine (c 1 1) * qfine ((c 1 1).1, (c 1 1).2, mq)

theorem two_loop {σ : Type} (f : ℤ → σ → Option σ) (s : σ) : doLoop 1 2 f s = (f 1 s).bind (f 2) := by
  have : range 1 2 = [1, 2] := by decide
  unfold doLoop
  rw [this]
  simp [loop]

/-- What averaging writes, at any corner. -/
theorem average_writes {d : Dims} (hd : EvenDims d) {k : Nat} (hk : k < 4) (areacoarse areafine : ℤ × ℤ → ℚ) (qfine : Grid ℚ)
    (hp : ∀ ibc jbc : ℤ, 1 ≤ ibc → ibc ≤ d.mbc → 1 ≤ jbc → jbc ≤ d.mbc → areacoarse (coarseAreaCell d k ibc jbc) ≠ 0) :
    Writes (fun c => inCorner d k c.1 c.2.1 ∧ comp d c.2.2)
      (fun c => partMass areafine qfine c.2.2 (fun x y => mirrorCell d k (-2 * (away d k (c.1, c.2.1)).1 + 1 + x)
        (-2 * (away d k (c.1, c.2.1)).2 + 1 + y)) /
        areacoarse (coarseAreaCell d k (1 - (away d k (c.1, c.2.1)).1) (1 - (away d k (c.1, c.2.1)).2)))
      (averageBlockCorner d k areacoarse areafine qfine) := by
  refine corner_writes hk fun mq ibc jbc hm i1 i2 j1 j2 => ?_
  have hbx := hd.bx
  have hby := hd.by'
  have hin : ∀ a b : ℤ, 1 ≤ a → a ≤ 2 * d.mbc → 1 ≤ b → b ≤ 2 * d.mbc →
      rd d qfine ((mirrorCell d k a b).1, (mirrorCell d k a b).2, mq) = some (qfine ((mirrorCell d k a b).1, (mirrorCell d k a b).2, mq)) ∧
      rdArea d areafine (mirrorCell d k a b) = some (areafine (mirrorCell d k a b)) := by
    intro a b a1 a2 b1 b2
    have hin : interior d (mirrorCell d k a b).1 (mirrorCell d k a b).2 := by
      rw [interior_away (k := k), away_mirror d hk]
      dsimp only
      omega
    constructor
    · exact if_pos (interior_box hin hm)
    · obtain ⟨_, _, _, _⟩ := hin
      exact if_pos (by omega)
  have hsum : doLoop 1 2 (fun ii => doLoop 1 2 fun jj => fun sum =>
      let f := mirrorCell d k ((ibc - 1) * 2 + ii) ((jbc - 1) * 2 + jj)
      (rd d qfine (f.1, f.2, mq)).bind fun qf =>
      (rdArea d areafine f).bind fun kf =>
      some (sum + kf * qf)) (0 : ℚ) = some (partMass areafine qfine mq
        (fun x y => mirrorCell d k (-2 * (1 - ibc) + 1 + x) (-2 * (1 - jbc) + 1 + y))) := by
    have n : ∀ (a : ℤ) (x : Nat), -2 * (1 - a) + 1 + (x : ℤ) = (a - 1) * 2 + (x + 1) := by intro a x; ring
    simp only [n]
    simp only [two_loop]
    rw [(hin _ _ (by omega) (by omega) (by omega) (by omega)).1, (hin _ _ (by omega) (by omega) (by omega) (by omega)).2]
    simp only [Option.bind_some]
    rw [(hin _ _ (by omega) (by omega) (by omega) (by omega)).1, (hin _ _ (by omega) (by omega) (by omega) (by omega)).2]
    simp only [Option.bind_some]
    rw [(hin _ _ (by omega) (by omega) (by omega) (by omega)).1, (hin _ _ (by omega) (by omega) (by omega) (by omega)).2]
    simp only [Option.bind_some]
    rw [(hin _ _ (by omega) (by omega) (by omega) (by omega)).1, (hin _ _ (by omega) (by omega) (by omega) (by omega)).2]
    simp only [Option.bind_some]
    unfold partMass
    simp only [Nat.cast_zero, Nat.cast_one, zero_add, Int.reduceAdd]
  have hkc : rdArea d areacoarse (coarseAreaCell d k ibc jbc) = some (areacoarse (coarseAreaCell d k ibc jbc)) := by
    refine if_pos ?_
    interval_cases k <;> simp [coarseAreaCell, cornerCell] <;> omega
  refine Writes.congr (S := fun c' => c' = ((cornerCell d k ibc jbc).1, (cornerCell d k ibc jbc).2, mq)) ?_ fun _ => Iff.rfl
  dsimp only
  rw [hsum, hkc]
  simp only [Option.bind_some]
  refine Writes.assign d _ _ _ (corner_box ((inCorner_iff hk).2 ⟨ibc, jbc, i1, i2, j1, j2, rfl⟩) hm) ?_
  dsimp only
  rw [away_corner d hk]
  dsimp only
  rw [sub_sub_cancel, sub_sub_cancel]
  exact if_neg (hp ibc jbc i1 i2 j1 j2)

/-- C83, partial: averaging from a patch of half the size touches no memory outside of the arrays, and sets the ghost cells at the
corner so that they hold the mass of the four cells that they are folded onto. Missing: at the lower left corner the area of
another ghost cell is used, and the statement is for areas that are symmetric there. -/
theorem C83_average_partial (d : Dims) (hd : EvenDims d) (k : Nat) (hk : k < 4) (areacoarse areafine : ℤ × ℤ → ℚ)
    (hp : ∀ i j, inCorner d k i j → areacoarse (i, j) ≠ 0)
    (hsym : k = 0 → ∀ ibc jbc : ℤ, 1 ≤ ibc → ibc ≤ d.mbc → 1 ≤ jbc → jbc ≤ d.mbc →
      areacoarse (1 - ibc, 1 - ibc) = areacoarse (1 - ibc, 1 - jbc))
    (qfine qcoarse : Grid ℚ) :
    ∃ q', averageBlockCorner d k areacoarse areafine qfine qcoarse = some q' ∧
      (∀ i j mq, inCorner d k i j → comp d mq → ∃ c : Nat → Nat → ℤ × ℤ,
        (∀ x y, x < 2 → y < 2 → interior d (c x y).1 (c x y).2 ∧ FoldedPart d k (i, j) x y (c x y)) ∧
        areacoarse (i, j) * q' (i, j, mq) = partMass areafine qfine mq c) ∧
      ∀ i j mq, ¬ (inCorner d k i j ∧ comp d mq) → q' (i, j, mq) = qcoarse (i, j, mq) := by
  have harea : ∀ ibc jbc : ℤ, 1 ≤ ibc → ibc ≤ d.mbc → 1 ≤ jbc → jbc ≤ d.mbc →
      areacoarse (coarseAreaCell d k ibc jbc) = areacoarse (cornerCell d k ibc jbc) := by
    intro ibc jbc i1 i2 j1 j2
    unfold coarseAreaCell
    by_cases h0 : k = 0
    · rw [if_pos h0, hsym h0 ibc jbc i1 i2 j1 j2, h0]
      rfl
    · rw [if_neg h0]
  obtain ⟨q', h1, h2, h3⟩ := average_writes hd hk areacoarse areafine qfine (fun ibc jbc i1 i2 j1 j2 => by
    rw [harea ibc jbc i1 i2 j1 j2]
    exact hp _ _ ((inCorner_iff hk).2 ⟨ibc, jbc, i1, i2, j1, j2, rfl⟩)) qcoarse
  refine ⟨q', h1, fun i j mq hi hm => ?_, fun i j mq hn => h3 (i, j, mq) hn⟩
  have hbx := hd.bx
  have hby := hd.by'
  have hc := inCorner_away.1 hi
  refine ⟨fun x y => mirrorCell d k (-2 * (away d k (i, j)).1 + 1 + x) (-2 * (away d k (i, j)).2 + 1 + y), fun x y hx hy => ?_, ?_⟩
  · have ham := away_mirror d hk (-2 * (away d k (i, j)).1 + 1 + x) (-2 * (away d k (i, j)).2 + 1 + y)
    refine ⟨?_, ?_⟩
    · rw [interior_away (k := k), ham]
      dsimp only
      omega
    · unfold FoldedPart
      rw [ham]
      exact ⟨rfl, rfl⟩
  · rw [h2 (i, j, mq) ⟨hi, hm⟩]
    dsimp only
    rw [harea _ _ (by omega) (by omega) (by omega) (by omega)]
    have : cornerCell d k (1 - (away d k (i, j)).1) (1 - (away d k (i, j)).2) = (i, j) := by
      refine away_inj d (k := k) ?_
      rw [away_corner d hk]
      ext <;> simp
    rw [this, mul_div_cancel₀ _ (hp i j hi)]

/-- C83: interpolation to a patch of half the size, with at most two ghost layers, touches no memory outside of the arrays, and sets
the ghost cells at a corner to the reconstruction in the cell at that corner of the large patch, at one of its quarters: the one that
it is at the lower left corner. -/
theorem C83_interpolate (d : Dims) (hd : EvenDims d) (hb1 : 1 ≤ d.mbc) (hb : d.mbc ≤ 2) (k : Nat) (hk : k < 4)
    (qcoarse qfine : Grid ℚ) :
    ∃ (q' : Grid ℚ) (c : ℤ × ℤ), interpolateBlockCorner d k qcoarse qfine = some q' ∧ away d k c = (1, 1) ∧ interior d c.1 c.2 ∧
      (∀ i j mq, inCorner d k i j → comp d mq → q' (i, j, mq) =
        reconstruct qcoarse c.1 c.2 mq (foldedHalf true (away d k (i, j)).1) (foldedHalf true (away d k (i, j)).2)) ∧
      ∀ i j mq, ¬ (inCorner d k i j ∧ comp d mq) → q' (i, j, mq) = qfine (i, j, mq) := by
  have hin : interior d (mirrorCell d k 1 1).1 (mirrorCell d k 1 1).2 := by
    have := hd.mx1
    have := hd.my1
    rw [interior_away (k := k), away_mirror d hk]
    dsimp only
    omega
  have key : Writes (fun c => inCorner d k c.1 c.2.1 ∧ comp d c.2.2)
      (fun c => reconstruct qcoarse (mirrorCell d k 1 1).1 (mirrorCell d k 1 1).2 c.2.2 (foldedHalf true (away d k (c.1, c.2.1)).1)
        (foldedHalf true (away d k (c.1, c.2.1)).2)) (interpolateBlockCorner d k qcoarse) := by
    refine (Writes.doLoop (fun mq c => ∃ ibc, 1 ≤ ibc ∧ ibc ≤ (d.mbc : ℤ) ∧ ∃ jbc, 1 ≤ jbc ∧ jbc ≤ (d.mbc : ℤ) ∧
      c = ((cornerCell d k ibc jbc).1, (cornerCell d k ibc jbc).2, mq)) _ _ _ _ fun mq m1 m2 => ?_).congr ?_
    · obtain ⟨sl, e1, e2⟩ := slopes_spec hb1 qcoarse hin (mq := mq) ⟨m1, m2⟩
      rw [e1]
      simp only [Option.bind_some]
      refine Writes.doLoop _ _ _ _ _ fun ibc i1 i2 => Writes.doLoop _ _ _ _ _ fun jbc j1 j2 => ?_
      refine Writes.wr d _ _ _ ?_ ?_
      · exact corner_box ((inCorner_iff hk).2 ⟨ibc, jbc, i1, i2, j1, j2, rfl⟩) ⟨m1, m2⟩
      · dsimp only
        rw [← e2]
        have h : ∀ a : ℤ, 1 ≤ a → a ≤ 2 → Transfer.shift a = ((foldedHalf true (1 - a) : Nat) : ℚ) / 2 - 1 / 4 := by
          intro a a1 a2
          have : a = 1 ∨ a = 2 := by omega
          rcases this with rfl | rfl <;> norm_num [Transfer.shift, foldedHalf]
        rw [away_corner d hk, h ibc i1 (by omega), h jbc j1 (by omega)]
    · rintro ⟨I, J, mq⟩
      dsimp only
      rw [inCorner_iff hk]
      constructor
      · rintro ⟨m, m1, m2, ibc, i1, i2, jbc, j1, j2, e⟩
        rw [Prod.mk.injEq, Prod.mk.injEq] at e
        obtain ⟨e1, e2, e3⟩ := e
        exact ⟨⟨ibc, jbc, i1, i2, j1, j2, by rw [e1, e2]⟩, by rw [e3]; exact ⟨m1, m2⟩⟩
      · rintro ⟨⟨ibc, jbc, i1, i2, j1, j2, e⟩, m1, m2⟩
        exact ⟨mq, m1, m2, ibc, i1, i2, jbc, j1, j2, by rw [← e]⟩
  obtain ⟨q', h1, h2, h3⟩ := key qfine
  exact ⟨q', mirrorCell d k 1 1, h1, away_mirror d hk 1 1, hin, fun i j mq hi hm => h2 (i, j, mq) ⟨hi, hm⟩,
    fun i j mq hn => h3 (i, j, mq) hn⟩

/-- C83, partial: at the lower left corner this is the quarter that the ghost cell is folded onto. Missing: the other three
corners, and more than two layers. -/
theorem C83_interpolate_partial (d : Dims) (hd : EvenDims d) (hb1 : 1 ≤ d.mbc) (hb : d.mbc ≤ 2) (qcoarse qfine : Grid ℚ) :
    ∃ q', interpolateBlockCorner d 0 qcoarse qfine = some q' ∧
      (∀ i j mq, inCorner d 0 i j → comp d mq → q' (i, j, mq) = reconstruct qcoarse 1 1 mq (foldedHalf true i) (foldedHalf true j)) ∧
      ∀ i j mq, ¬ (inCorner d 0 i j ∧ comp d mq) → q' (i, j, mq) = qfine (i, j, mq) := by
  obtain ⟨q', c, h1, hc, _, h2, h3⟩ := C83_interpolate d hd hb1 hb 0 (by omega) qcoarse qfine
  have e : c = (1, 1) := hc
  subst e
  exact ⟨q', h1, h2, h3⟩

/-- C83: interpolated values are between the least and the greatest value in the cell at the corner and its neighbours. -/
theorem C83_interpolate_bounds (d : Dims) (hd : EvenDims d) (hb1 : 1 ≤ d.mbc) (hb : d.mbc ≤ 2) (k : Nat) (hk : k < 4)
    (qcoarse qfine : Grid ℚ) (lo hi : ℚ) (h : ∀ c, lo ≤ qcoarse c ∧ qcoarse c ≤ hi) :
    ∃ q', interpolateBlockCorner d k qcoarse qfine = some q' ∧
      ∀ i j mq, inCorner d k i j → comp d mq → lo ≤ q' (i, j, mq) ∧ q' (i, j, mq) ≤ hi := by
  obtain ⟨q', c, h1, hc, _, h2, _⟩ := C83_interpolate d hd hb1 hb k hk qcoarse qfine
  refine ⟨q', h1, fun i j mq hi' hm => ?_⟩
  rw [h2 i j mq hi' hm]
  have hlt : ∀ n : ℤ, foldedHalf true n < 2 := by intro n; unfold foldedHalf; simp; omega
  exact C68_bounds qcoarse c.1 c.2 mq _ _ (hlt _) (hlt _) lo hi (h _) (h _) (h _) (h _) (h _)

/-! ### The neighbour -/

/-- C83: at a corner of a block, the search finds the patch of the other block that lies at the same corner, whatever its size. -/
theorem C83_neighbor (M : FaceNbr.Mesh) (h : M.Ok) (b p : Nat) (hp : p < M.num b) (k : Nat) (hk : k < 4)
    (pos : FaceNbr.Where → Quad) (Q : Quad) (hQ : Q.atCorner k) (n : FaceNbr.Neighbor)
    (hn : FaceNbr.Encodes FaceNbr.dim2 M (M.before b + p) (k % 2) n) (hb : Behind pos (k % 2) Q n) :
    ∃ (r : Found) (w : FaceNbr.Where), pillowNeighbor M b p k = some r ∧ w.exists M ∧ r.rproc = w.proc M ∧ r.rblockno = w.block M ∧
      r.rpatchno = w.patchno ∧ r.rcorner = k ∧ (pos w).block = 1 - Q.block ∧ (pos w).atCorner k ∧
      FaceNbr.SizeRel Q.level (pos w).level r.rel := by
  have hf := FaceNbr.C12_face_neighbors FaceNbr.dim2 (by decide) M h b p (k % 2) hp
    (by have : FaceNbr.dim2.faces = 4 := rfl; omega) n hn
  unfold pillowNeighbor
  dsimp only
  rw [hf]
  have hpow : 1 ≤ 2 ^ Q.level := Nat.one_le_two_pow
  obtain ⟨hx, hy⟩ := hQ
  cases n with
  | boundary => exact hb.elim
  | same w face orient =>
    obtain ⟨_, _, hw, _⟩ := hn
    simp only [Behind] at hb
    refine ⟨_, w, rfl, hw, rfl, rfl, rfl, rfl, by rw [hb], ?_, ?_⟩
    · rw [hb]; exact ⟨hx, hy⟩
    · rw [hb]; exact FaceNbr.SizeRel.same
  | double w face orient sub =>
    obtain ⟨_, _, _, hw, _⟩ := hn
    obtain ⟨hl, hb⟩ := hb
    refine ⟨_, w, rfl, hw, rfl, rfl, rfl, rfl, by rw [hb], ?_, ?_⟩
    · rw [hb]
      obtain ⟨l, e⟩ : ∃ l, Q.level = l + 1 := ⟨Q.level - 1, by omega⟩
      have h2 : 2 ^ Q.level = 2 * 2 ^ l := by rw [e, pow_succ]; omega
      unfold Quad.atCorner
      dsimp only
      have e' : Q.level - 1 = l := by omega
      rw [e', hx, hy, h2]
      have : 1 ≤ 2 ^ l := Nat.one_le_two_pow
      constructor <;> split_ifs <;> omega
    · rw [hb]
      have : ((Q.level - 1 : Nat) : ℤ) = (Q.level : ℤ) - 1 := by omega
      rw [show (⟨1 - Q.block, Q.level - 1, Q.x / 2, Q.y / 2⟩ : Quad).level = Q.level - 1 from rfl, this]
      exact FaceNbr.SizeRel.double
  | half ws face orient =>
    obtain ⟨hlen, _, _, hw, hblk, _⟩ := hn
    have hlen : ws.length = 2 := hlen
    match ws, hlen with
    | [w0, w1], _ =>
      have hpow2 : 2 ^ (Q.level + 1) = 2 * 2 ^ Q.level := by rw [pow_succ]; omega
      have hk2 : k / 2 = 0 ∨ k / 2 = 1 := by omega
      rcases hk2 with hk2 | hk2
      · have hb0 := hb 0 w0 rfl
        refine ⟨⟨.halfSize, w0.proc M, w0.block M, w0.patchno, k⟩, w0, ?_, hw w0 (by simp), rfl, rfl, rfl, rfl, by rw [hb0], ?_, ?_⟩
        · simp [FaceNbr.answer, hk2]
        · rw [hb0]
          unfold Quad.atCorner
          dsimp only
          rw [hx, hy, hpow2]
          constructor <;> split_ifs <;> omega
        · rw [hb0]
          exact FaceNbr.SizeRel.half
      · have hb1 := hb 1 w1 rfl
        have e := hblk w0 (by simp) w1 (by simp)
        refine ⟨⟨.halfSize, w1.proc M, w1.block M, w1.patchno, k⟩, w1, ?_, hw w1 (by simp), rfl, rfl, rfl, rfl, by rw [hb1], ?_, ?_⟩
        · simp [FaceNbr.answer, hk2, e]
        · rw [hb1]
          unfold Quad.atCorner
          dsimp only
          rw [hx, hy, hpow2]
          constructor <;> split_ifs <;> omega
        · rw [hb1]
          exact FaceNbr.SizeRel.half

/-! ### Where ghost cells are on the sphere -/

/-- The coordinate of cell `i` of patch `x`, as in `centre`. -/
def coord (l m x : Nat) (i : ℤ) : ℚ := 2 * ((x * m + i - 1 / 2) / (2 ^ l * m)) - 1

theorem fold_inside {u : ℚ} (h1 : -1 ≤ u) (h2 : u ≤ 1) : fold u = u := by
  unfold fold
  rw [max_eq_right (by linarith), max_eq_right (by linarith)]
  norm_num

theorem coord_inside {l m x : Nat} (hm : 1 ≤ m) (hx : x < 2 ^ l) {i : ℤ} (h1 : 1 ≤ i) (h2 : i ≤ m) :
    -1 ≤ coord l m x i ∧ coord l m x i ≤ 1 := by
  have hm' : (1 : ℚ) ≤ m := by exact_mod_cast hm
  have hx' : ((x : ℚ) + 1) ≤ 2 ^ l := by exact_mod_cast hx
  have hx0 : (0 : ℚ) ≤ x := Nat.cast_nonneg x
  have i1 : (1 : ℚ) ≤ i := by exact_mod_cast h1
  have i2 : (i : ℚ) ≤ m := by exact_mod_cast h2
  have hN : (0 : ℚ) < 2 ^ l * m := by positivity
  unfold coord
  have a : 0 ≤ (x * m + i - 1 / 2 : ℚ) / (2 ^ l * m) := div_nonneg (by nlinarith) hN.le
  have b : (x * m + i - 1 / 2 : ℚ) / (2 ^ l * m) ≤ 1 := by
    rw [div_le_one hN]
    nlinarith
  constructor <;> linarith

/-- Below: a ghost cell is folded onto its mirror image. -/
theorem coord_low {l m : Nat} (hm : 1 ≤ m) {i : ℤ} (h : i ≤ 0) :
    fold (coord l m 0 i) = coord l m 0 (1 - i) ∧ 1 < |coord l m 0 i| := by
  have hm' : (1 : ℚ) ≤ m := by exact_mod_cast hm
  have hN : (0 : ℚ) < 2 ^ l * m := by positivity
  have i1 : (i : ℚ) ≤ 0 := by exact_mod_cast h
  obtain ⟨e, he⟩ : ∃ e : ℚ, e = (1 - 2 * i) / (2 ^ l * m) := ⟨_, rfl⟩
  have hpos : 0 < e := by rw [he]; exact div_pos (by linarith) hN
  have c1 : coord l m 0 i = -1 - e := by
    unfold coord; rw [he]; push_cast; field_simp; ring
  have c2 : coord l m 0 (1 - i) = e - 1 := by
    unfold coord; rw [he]; push_cast; field_simp; ring
  rw [c1, c2]
  constructor
  · unfold fold
    rw [max_eq_right (by linarith), max_eq_left (by linarith)]
    have : (1 : ℚ) + e ≠ 0 := by linarith
    rw [show (0 : ℚ) + (-1 - (-1 - e)) = e by ring]
    field_simp
    ring
  · rw [abs_of_neg (by linarith)]
    linarith

theorem coord_high {l m : Nat} (hm : 1 ≤ m) {i : ℤ} (h : (m : ℤ) + 1 ≤ i) :
    fold (coord l m (2 ^ l - 1) i) = coord l m (2 ^ l - 1) (2 * m + 1 - i) ∧ 1 < |coord l m (2 ^ l - 1) i| := by
  have hm' : (1 : ℚ) ≤ m := by exact_mod_cast hm
  have hN : (0 : ℚ) < 2 ^ l * m := by positivity
  have i1 : (m : ℚ) + 1 ≤ i := by exact_mod_cast h
  have hx : (((2 ^ l - 1 : Nat)) : ℚ) = 2 ^ l - 1 := by
    rw [Nat.cast_sub Nat.one_le_two_pow]; push_cast; ring
  obtain ⟨e, he⟩ : ∃ e : ℚ, e = (2 * (i - m) - 1) / (2 ^ l * m) := ⟨_, rfl⟩
  have hpos : 0 < e := by rw [he]; exact div_pos (by linarith) hN
  have c1 : coord l m (2 ^ l - 1) i = 1 + e := by
    unfold coord; rw [he, hx]; field_simp; ring
  have c2 : coord l m (2 ^ l - 1) (2 * m + 1 - i) = 1 - e := by
    unfold coord; rw [he, hx]; push_cast; field_simp; ring
  rw [c1, c2]
  constructor
  · unfold fold
    rw [max_eq_left (by linarith), max_eq_right (by linarith)]
    have : (1 : ℚ) + e ≠ 0 := by linarith
    rw [show (1 : ℚ) + e - 1 + 0 = e by ring]
    field_simp
  · rw [abs_of_pos (by linarith)]
    linarith

theorem not_outside {u : ℚ} (h : -1 ≤ u ∧ u ≤ 1) : ¬ 1 < |u| := by
  rw [not_lt, abs_le]; exact h

/-- C83: at the faces, ghost cells lie on the sphere where the cells of the other block are that they are folded onto (and from
which they get their values, C66 and C67). -/
theorem C83_place_face (d : Dims) (hd : Proper d) (b : Nat) (hb : b < 2) (Q : Quad) (hi : Q.inside) (f : Nat) (hf : f < 4)
    (hQ : Q.atFace f) (g : ℤ × ℤ) (hg : inStrip d f g.1 g.2) :
    interior d (folded d f g).1 (folded d f g).2 ∧ place b (centre d Q g) = place (1 - b) (centre d Q (folded d f g)) := by
  obtain ⟨hx, hy, bx, by'⟩ := hd
  obtain ⟨h1, h2⟩ := hi
  obtain ⟨i, j⟩ := g
  have hflip : ∀ u v u' v' : ℚ, ((1 < |u|) ↔ ¬ 1 < |v|) → ¬ 1 < |u'| → ¬ 1 < |v'| → upper b u v = upper (1 - b) u' v' := by
    intro u v u' v' h hu hv
    unfold upper
    have : b = 0 ∨ b = 1 := by omega
    by_cases hc : 1 < |v|
    · have : ¬ 1 < |u| := fun h' => h.1 h' hc
      rcases ‹b = 0 ∨ b = 1› with rfl | rfl <;> simp [*]
    · have : 1 < |u| := h.2 hc
      rcases ‹b = 0 ∨ b = 1› with rfl | rfl <;> simp [*]
  have key : ∀ c : ℤ × ℤ, centre d Q c = (coord Q.level d.mx Q.x c.1, coord Q.level d.my Q.y c.2) := fun c => rfl
  rw [key, key]
  unfold place
  dsimp only
  interval_cases f
  · obtain ⟨a1, a2, a3, a4⟩ := hg
    have hQ : Q.x = 0 := hQ
    have hin : interior d (1 - i) j := ⟨by omega, by omega, a3, a4⟩
    have e := coord_low (l := Q.level) hx a2
    have cy := coord_inside hy h2 a3 a4
    have cx := coord_inside (x := 0) (l := Q.level) hx (Nat.two_pow_pos _) hin.1 hin.2.1
    refine ⟨hin, ?_⟩
    simp only [folded]
    rw [hQ, e.1, hflip _ _ (coord Q.level d.mx 0 (1 - i)) (coord Q.level d.my Q.y j) (by simp [e.2, not_outside cy])
      (not_outside cx) (not_outside cy), fold_inside cx.1 cx.2]
  · obtain ⟨a1, a2, a3, a4⟩ := hg
    have hQ : Q.x = 2 ^ Q.level - 1 := hQ
    have hin : interior d (2 * d.mx + 1 - i) j := ⟨by omega, by omega, a3, a4⟩
    have e := coord_high (l := Q.level) hx a1
    have cy := coord_inside hy h2 a3 a4
    have cx := coord_inside (x := 2 ^ Q.level - 1) (l := Q.level) hx (by rw [← hQ]; exact h1) hin.1 hin.2.1
    refine ⟨hin, ?_⟩
    simp only [folded]
    rw [hQ, e.1, hflip _ _ (coord Q.level d.mx (2 ^ Q.level - 1) (2 * d.mx + 1 - i)) (coord Q.level d.my Q.y j)
      (by simp [e.2, not_outside cy]) (not_outside cx) (not_outside cy), fold_inside cx.1 cx.2]
  · obtain ⟨a1, a2, a3, a4⟩ := hg
    have hQ : Q.y = 0 := hQ
    have hin : interior d i (1 - j) := ⟨a1, a2, by omega, by omega⟩
    have e := coord_low (l := Q.level) hy a4
    have cx := coord_inside hx h1 a1 a2
    have cy := coord_inside (x := 0) (l := Q.level) hy (Nat.two_pow_pos _) hin.2.2.1 hin.2.2.2
    refine ⟨hin, ?_⟩
    simp only [folded]
    rw [hQ, e.1, hflip _ _ (coord Q.level d.mx Q.x i) (coord Q.level d.my 0 (1 - j)) (by simp [e.2, not_outside cx])
      (not_outside cx) (not_outside cy), fold_inside cy.1 cy.2]
  · obtain ⟨a1, a2, a3, a4⟩ := hg
    have hQ : Q.y = 2 ^ Q.level - 1 := hQ
    have hin : interior d i (2 * d.my + 1 - j) := ⟨a1, a2, by omega, by omega⟩
    have e := coord_high (l := Q.level) hy a3
    have cx := coord_inside hx h1 a1 a2
    have cy := coord_inside (x := 2 ^ Q.level - 1) (l := Q.level) hy (by rw [← hQ]; exact h2) hin.2.2.1 hin.2.2.2
    refine ⟨hin, ?_⟩
    simp only [folded]
    rw [hQ, e.1, hflip _ _ (coord Q.level d.mx Q.x i) (coord Q.level d.my (2 ^ Q.level - 1) (2 * d.my + 1 - j))
      (by simp [e.2, not_outside cx]) (not_outside cx) (not_outside cy), fold_inside cy.1 cy.2]

/-- The coordinate of a ghost cell at a corner and of what it is folded onto, for either side. -/
theorem coord_corner {l m bc x : Nat} (hm : 1 ≤ m) (hbc : bc ≤ m) (hx : x < 2 ^ l) (low : Bool)
    (hQ : x = if low then 0 else 2 ^ l - 1) {i i' : ℤ}
    (hi : if low then 1 - (bc : ℤ) ≤ i ∧ i ≤ 0 else (m : ℤ) + 1 ≤ i ∧ i ≤ m + bc) (hi' : i' = if low then 1 - i else 2 * m + 1 - i) :
    fold (coord l m x i) = fold (coord l m x i') ∧ 1 < |coord l m x i| ∧ ¬ 1 < |coord l m x i'| := by
  cases low
  · simp only [Bool.false_eq_true, if_false] at hQ hi hi'
    have e := coord_high (l := l) hm hi.1
    have c := coord_inside (i := i') hm hx (by omega) (by omega)
    rw [hQ] at c ⊢
    rw [hi'] at c ⊢
    exact ⟨by rw [e.1, fold_inside c.1 c.2], e.2, not_outside c⟩
  · simp only [if_true] at hQ hi hi'
    have e := coord_low (l := l) hm hi.2
    have c := coord_inside (i := i') hm hx (by omega) (by omega)
    rw [hQ] at c ⊢
    rw [hi'] at c ⊢
    exact ⟨by rw [e.1, fold_inside c.1 c.2], e.2, not_outside c⟩

/-- C83, code that violates it: for every ghost cell at a corner of a block, the mapping puts it on the place of the cell of the
same block that it is folded onto. The value it gets is that of the cell of the other block in this position, which is on the other
half of the sphere. -/
theorem C83_place_counterexample (d : Dims) (hd : Proper d) (b : Nat) (hb : b < 2) (Q : Quad) (hi : Q.inside) (k : Nat)
    (hQ : Q.atCorner k) (g m : ℤ × ℤ) (hg : inCorner d k g.1 g.2) (hm : Folded d k g m) :
    place b (centre d Q g) = place b (centre d Q m) ∧ place b (centre d Q g) ≠ place (1 - b) (centre d Q m) := by
  obtain ⟨hx, hy, bx, by'⟩ := hd
  obtain ⟨h1, h2⟩ := hi
  obtain ⟨i, j⟩ := g
  obtain ⟨i', j'⟩ := m
  obtain ⟨q1, q2⟩ := hQ
  obtain ⟨g1, g2⟩ := hg
  obtain ⟨m1, m2⟩ := hm
  unfold away at m1 m2
  dsimp only at m1 m2 g1 g2
  have key : ∀ c : ℤ × ℤ, centre d Q c = (coord Q.level d.mx Q.x c.1, coord Q.level d.my Q.y c.2) := fun c => rfl
  have ex := coord_corner (i := i) (i' := i') hx bx h1 (decide (k % 2 = 0)) (by simp only [decide_eq_true_eq]; exact q1)
    (by simp only [decide_eq_true_eq]; exact g1) (by simp only [decide_eq_true_eq]; split_ifs at m1 ⊢ <;> omega)
  have ey := coord_corner (i := j) (i' := j') hy by' h2 (decide (k / 2 = 0)) (by simp only [decide_eq_true_eq]; exact q2)
    (by simp only [decide_eq_true_eq]; exact g2) (by simp only [decide_eq_true_eq]; split_ifs at m2 ⊢ <;> omega)
  rw [key, key]
  unfold place upper
  dsimp only
  rw [ex.1, ey.1]
  have : b = 0 ∨ b = 1 := by omega
  constructor
  · simp [ex.2, ey.2]
  · rcases this with rfl | rfl <;> simp [ex.2, ey.2]

/-! ### Counterexamples -/

/-- C83, code that violates it: at the lower left corner the area of another ghost cell is used. The ghost cell `(0, -1)` has area 2 and
is folded onto four cells with mass 1 each; it gets the value 4 instead of 2. -/
theorem C83_area_counterexample :
    ∃ (d : Dims) (areacoarse areafine : ℤ × ℤ → ℚ) (qfine qcoarse : Grid ℚ), EvenDims d ∧ (∀ c, 0 < areacoarse c) ∧
      areacoarse (0, -1) = 2 ∧ (∀ c, areafine c = 1) ∧ (∀ c, qfine c = 1) ∧
      (averageBlockCorner d 0 areacoarse areafine qfine qcoarse).map (fun q => q (0, -1, 1)) = some 4 := by
  refine ⟨⟨4, 4, 2, 1⟩, fun c => if c.2 < 0 then 2 else 1, fun _ => 1, fun _ => 1, fun _ => 0,
    ⟨by decide, by decide, by decide, by decide, by decide, by decide⟩, ?_, by simp, fun _ => rfl, fun _ => rfl, ?_⟩
  · intro c
    dsimp only
    split_ifs <;> norm_num
  · decide +kernel

/-- C83, code that violates it: at the lower right corner interpolation takes the wrong half of the large cell. The solution is
linear; the ghost cell next to the face is folded onto the right half of the large cell, and gets the value at the left half. -/
theorem C83_half_counterexample :
    ∃ (d : Dims) (qcoarse qfine : Grid ℚ), EvenDims d ∧ inCorner d 1 5 0 ∧ Folded d 1 (5, 0) (4, 1) ∧ foldedHalf false 0 = 1 ∧
      (interpolateBlockCorner d 1 qcoarse qfine).map (fun q => q (5, 0, 1)) = some (15 / 4) ∧
      reconstruct qcoarse 4 1 1 (foldedHalf false 0) (foldedHalf true 0) = 17 / 4 := by
  refine ⟨⟨4, 4, 2, 1⟩, fun c => c.1, fun _ => 0, ⟨by decide, by decide, by decide, by decide, by decide, by decide⟩,
    by simp [inCorner], by simp [Folded, away], by decide, ?_, ?_⟩
  · decide +kernel
  · decide +kernel

/-- C83, code that violates it: beyond two layers, interpolated values leave the range of the solution. -/
theorem C83_layers_counterexample :
    ∃ (d : Dims) (qcoarse qfine : Grid ℚ), EvenDims d ∧ (∀ c, 0 ≤ qcoarse c ∧ qcoarse c ≤ 1) ∧ inCorner d 0 (-3) 0 ∧
      (interpolateBlockCorner d 0 qcoarse qfine).map (fun q => q (-3, 0, 1)) = some (9 / 8) := by
  refine ⟨⟨8, 8, 4, 1⟩, fun c => if c.1 ≤ 0 then 0 else if c.1 = 1 then 1 / 2 else 1, fun _ => 0,
    ⟨by decide, by decide, by decide, by decide, by decide, by decide⟩, ?_, by simp [inCorner], ?_⟩
  · intro c
    dsimp only
    split_ifs <;> norm_num
  · decide +kernel

/-! ### Cases that meet the hypotheses -/

example : Proper ⟨8, 8, 2, 3⟩ := by unfold Proper; decide
example : EvenDims ⟨8, 8, 2, 3⟩ := ⟨by decide, by decide, by decide, by decide, by decide, by decide⟩
example : (⟨0, 2, 3, 0⟩ : Quad).atCorner 1 ∧ (⟨0, 2, 3, 0⟩ : Quad).atFace 1 ∧ (⟨0, 2, 3, 0⟩ : Quad).inside := by
  simp [Quad.atCorner, Quad.atFace, Quad.inside]
example : inCorner ⟨8, 8, 2, 3⟩ 1 9 0 ∧ Folded ⟨8, 8, 2, 3⟩ 1 (9, 0) (8, 1) := by
  simp [inCorner, Folded, away]

/-- Two small patches behind the right face of a patch of the first block, which has one patch per block. -/
def mesh : FaceNbr.Mesh where
  rank := 0
  localNum := 5
  ghostNum := 0
  quadToQuad := fun _ _ => 0
  quadToFace := fun _ f => f - 8
  quadToHalf := fun _ k => 1 + 2 * k
  quadToTree := fun q => if q = 0 then 0 else 1
  ghostToProc := fun _ => 0
  ghostTree := fun _ => 0
  before := fun b => if b = 0 then 0 else 1
  num := fun b => if b = 0 then 1 else if b = 1 then 4 else 0
  quadToCorner := fun _ _ => -1
  cornerOffset := fun _ => 0
  cornerQuad := fun _ => 0
  cornerCorner := fun _ => 0
  level := fun q => if q = 0 then 0 else 1
  ghostLevel := fun _ => 0

def meshPos : FaceNbr.Where → Quad
  | .here 0 _ => ⟨0, 0, 0, 0⟩
  | .here _ p => ⟨1, 1, p % 2, p / 2⟩
  | .ghost _ => ⟨0, 0, 0, 0⟩

example : mesh.Ok := by
  refine ⟨fun b p h => ?_, fun b p h => ?_, fun g h => ?_⟩
  · simp only [mesh] at h ⊢
    split_ifs at h ⊢ <;> omega
  · simp only [mesh] at h ⊢
    split_ifs at h ⊢ <;> omega
  · simp [mesh] at h

/-- At corner 2 of the patch: the upper one of the two is at the same corner of the other block. -/
example : FaceNbr.Encodes FaceNbr.dim2 mesh (mesh.before 0 + 0) (2 % 2) (.half [.here 1 0, .here 1 2] 0 0) ∧
    Behind meshPos (2 % 2) ⟨0, 0, 0, 0⟩ (.half [.here 1 0, .here 1 2] 0 0) ∧ (⟨0, 0, 0, 0⟩ : Quad).atCorner 2 ∧
    pillowNeighbor mesh 0 0 2 = some ⟨.halfSize, 0, 1, 2, 2⟩ := by
  refine ⟨⟨rfl, by decide, by decide, by simp [FaceNbr.Where.exists, mesh], by simp [FaceNbr.Where.block], by simp [mesh, FaceNbr.dim2], ?_⟩, ?_, ?_, ?_⟩
  · intro k w h
    match k with
    | 0 => simp at h; subst h; rfl
    | 1 => simp at h; subst h; rfl
    | k + 2 => simp at h
  · intro k w h
    match k with
    | 0 => simp at h; subst h; rfl
    | 1 => simp at h; subst h; rfl
    | k + 2 => simp at h
  · simp [Quad.atCorner]
  · decide +kernel

end Fclaw.Pillow

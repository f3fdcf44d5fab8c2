import Verif.Wave5.Slice
/-
A step, and the update, with the routines of Clawpack 5.
-/
set_option autoImplicit false
set_option linter.unusedSimpArgs false
namespace Fclaw.Wave5

open Wave
open Fort (doLoop loop range mem_range)

variable {z : Shape} {o : Method}

/-- What the sweeps of Clawpack 5 see: in the ghost cells at a corner where three blocks meet, both find what is there
for the sweeps in x. -/
def field5 (z : Shape) (o : Method) (count : ℤ → ℤ) (M : Mem) : Field :=
  { fieldOf z o count M with Q := fun _ i j => (fieldOf z o count M).Q 1 i j }

theorem sweep5_spec {S : Scheme} {F : Field} {flux : Flux} (y : Bool) (hset : Setting z o) (hflux : FluxOk z S F flux)
    (rat : ℚ) (hrat : rat = S.ratio (ixyOf y)) (M : Mem) (hH : HoldsData z o F y M) (hnz : ∀ i j, z.inGrid i j → F.cap i j ≠ 0)
    (hc0 : 0 ≤ M .cflgrid) :
    ∃ M', doLoop (2 - (z.mbc : ℤ)) (len z (!y) + z.mbc - 1) (gslice5 z o flux y rat) M = some M' ∧ SweepOut z S F y M M' := by
  obtain ⟨M', e, h, _⟩ := sweep_gen (z := z) (S := S) (F := F) y hset.mbc (HoldsData z o F y) (by
    intro k s hk1 hk2 hs
    obtain ⟨s', e, hO⟩ := gslice5_spec (z := z) (o := o) (y := y) (b := k) hset hflux hk1 hk2 rat hrat s hs hnz
    exact ⟨s', e, hO, hs.keep hO.keepQ hO.keepA⟩) M hH hc0
  exact ⟨M', e, h⟩

theorem seq_append (ps qs : List Prog) (M : Mem) : seq (ps ++ qs) M = (seq ps M).bind (seq qs) := by
  induction ps generalizing M with
  | nil => rfl
  | cons p ps ih =>
    show (p M).bind (seq (ps ++ qs)) = ((p M).bind (seq ps)).bind (seq qs)
    cases p M with
    | none => rfl
    | some M1 => exact ih M1

theorem zeros_acts (a : ℤ → ℤ → ℤ → Loc) (ha : ∀ i j m, z.inGrid i j → z.eqn m → z.has (a i j m)) :
    Acts (fun l => ∃ j, (1 - (z.mbc : ℤ) ≤ j ∧ j ≤ z.my + z.mbc) ∧ ∃ i, (1 - (z.mbc : ℤ) ≤ i ∧ i ≤ z.mx + z.mbc) ∧
      ∃ m, (1 ≤ m ∧ m ≤ (z.meqn : ℤ)) ∧ l = a i j m) (fun _ _ => 0) (zeros z a) := by
  refine Acts.doConst (w := fun _ => 0) _ _ _ _ fun j h1 h2 => ?_
  refine Acts.doConst (w := fun _ => 0) _ _ _ _ fun i h3 h4 => ?_
  refine Acts.doConst (w := fun _ => 0) _ _ _ _ fun m h5 h6 => ?_
  exact Acts.asg (ha i j m ⟨⟨h3, h4⟩, h1, h2⟩ ⟨h5, h6⟩) fun M => rfl

theorem zeros_eq : seq [zeros z .fm, zeros z .fp, zeros z .gm, zeros z .gp] = zeroFill z := by
  have h := Acts.seq2Const (zeros_acts (z := z) .fm fun i j m h h' => ⟨h, h'⟩) (Acts.seq2Const (zeros_acts (z := z) .fp fun i j m h h' => ⟨h, h'⟩)
    (Acts.seq2Const (zeros_acts (z := z) .gm fun i j m h h' => ⟨h, h'⟩) (zeros_acts (z := z) .gp fun i j m h h' => ⟨h, h'⟩)))
  rw [seq_cons, seq_cons, seq_cons, seq_one]
  refine acts_unique (h.congr ?_) (zeroFill_acts (z := z))
  · intro l
    constructor
    · rintro (⟨j, hj, i, hi, m, hm, h⟩ | ⟨j, hj, i, hi, m, hm, h⟩ | ⟨j, hj, i, hi, m, hm, h⟩ | ⟨j, hj, i, hi, m, hm, h⟩) <;>
        exact ⟨m, hm, i, hi, j, hj, by simp [h]⟩
    · rintro ⟨m, hm, i, hi, j, hj, (h | h | h | h)⟩
      · exact Or.inl ⟨j, hj, i, hi, m, hm, h⟩
      · exact Or.inr (Or.inl ⟨j, hj, i, hi, m, hm, h⟩)
      · exact Or.inr (Or.inr (Or.inl ⟨j, hj, i, hi, m, hm, h⟩))
      · exact Or.inr (Or.inr (Or.inr ⟨j, hj, i, hi, m, hm, h⟩))

theorem step5_spec {S : Scheme} {flux : Flux} (hset : Setting z o) (h1 : z.mbc ≤ z.mx) (h2 : z.mbc ≤ z.my) (count : ℤ → ℤ)
    (dx dy dt : ℚ) (M : Mem) (hflux : FluxOk z S (field5 z o count M) flux) (r1 : S.ratio 1 = dt / dx) (r2 : S.ratio 2 = dt / dy)
    (hnz : ∀ i j, z.inGrid i j → (field5 z o count M).cap i j ≠ 0) :
    ∃ M', step5 z o flux count dx dy dt M = some M' ∧ StepOut z S (field5 z o count M) count M M' := by
  set F := field5 z o count M with hF
  have mb := hset.mbc
  -- cflgrid = 0
  have e1 := asg_eval (z := z) (l := .cflgrid) (M := M) (by trivial) (lit_eval 0 M)
  set M1 : Mem := fun l' => if l' = .cflgrid then 0 else M l' with hM1
  have c1 : M1 .cflgrid = 0 := by simp [hM1]
  have k1 : ∀ l, l ≠ .cflgrid → M1 l = M l := fun l h => by simp [hM1, h]
  -- zeros
  obtain ⟨M2, e2, a2, b2⟩ := zeroFill_acts (z := z) M1
  have k2 : ∀ l : Loc, (∀ i j m, l ≠ .fm i j m ∧ l ≠ .fp i j m ∧ l ≠ .gm i j m ∧ l ≠ .gp i j m) → M2 l = M1 l := fun l h => b2 l (by
    rintro ⟨m, _, i, _, j, _, h'⟩
    obtain ⟨x1, x2, x3, x4⟩ := h i j m
    rcases h' with h' | h' | h' | h'
    · exact x1 h'
    · exact x2 h'
    · exact x3 h'
    · exact x4 h')
  have q3 : ∀ i j m, M2 (.q i j m) = M (.q i j m) := fun i j m => by
    rw [k2 _ (by simp), k1 _ (by simp)]
  have x3 : ∀ i j m, M2 (.aux i j m) = M (.aux i j m) := fun i j m => by
    rw [k2 _ (by simp), k1 _ (by simp)]
  have c3 : M2 .cflgrid = 0 := by rw [k2 _ (by simp), c1]
  have z3 : ∀ i j m, z.inGrid i j → z.eqn m → M2 (.fm i j m) = 0 ∧ M2 (.fp i j m) = 0 ∧ M2 (.gm i j m) = 0 ∧ M2 (.gp i j m) = 0 := by
    intro i j m hg hm
    refine ⟨?_, ?_, ?_, ?_⟩
    · rw [a2 _ ⟨m, hm, i, hg.1, j, hg.2, by simp⟩]
    · rw [a2 _ ⟨m, hm, i, hg.1, j, hg.2, by simp⟩]
    · rw [a2 _ ⟨m, hm, i, hg.1, j, hg.2, by simp⟩]
    · rw [a2 _ ⟨m, hm, i, hg.1, j, hg.2, by simp⟩]
  -- corners, x
  obtain ⟨M4, e4, q4, q4', k4⟩ := fixCorners_spec h1 h2 false count M2 M (fun i j m _ => q3 i j m)
  have x4 : ∀ i j m, M4 (.aux i j m) = M (.aux i j m) := fun i j m => by rw [k4 _ (by simp), x3]
  have H4 : ∀ y, HoldsData z o F y M4 := by
    intro y
    refine ⟨fun i j hg => ?_, fun i j hg => ?_, fun i j hg => ?_⟩
    · funext m
      simp only [hF, field5, fieldOf, comps]
      by_cases hm : 1 ≤ m ∧ m ≤ (z.meqn : ℤ)
      · rw [if_pos hm, if_pos hm, q4 i j m hg hm]; rfl
      · rw [if_neg hm, if_neg hm]
    · simp only [hF, field5, fieldOf, x4]
    · simp only [hF, field5, fieldOf, x4]
  obtain ⟨M5, e5, O5⟩ := sweep5_spec (z := z) (o := o) false hset hflux (dt / dx) r1.symm M4 (H4 false) hnz
    (by rw [k4 _ (by simp), c3])
  obtain ⟨d5, hd5, he5⟩ := O5.cfl
  obtain ⟨M7, e7, O7⟩ := sweep5_spec (z := z) (o := o) true hset hflux (dt / dy) r2.symm M5 ((H4 true).keep O5.keepQ O5.keepA) hnz
    (by rw [he5]; exact le_trans hd5.1 (le_max_right _ _))
  obtain ⟨d7, hd7, he7⟩ := O7.cfl
  refine ⟨M7, ?_, ?_⟩
  · show seq ([asg z .cflgrid (.lit 0)] ++ ([zeros z .fm, zeros z .fp, zeros z .gm, zeros z .gp] ++ [fixCorners z 0 count,
      doLoop (2 - z.mbc) (z.my + z.mbc - 1) (gslice5 z o flux false (dt / dx)),
      doLoop (2 - z.mbc) (z.mx + z.mbc - 1) (gslice5 z o flux true (dt / dy))])) M = some M7
    rw [if_neg (by simp)] at e4
    simp only [len, Bool.not_false, Bool.not_true] at e5 e7
    rw [List.singleton_append, seq_step e1, seq_append, zeros_eq, e2]
    show seq _ M2 = _
    rw [seq_step e4, seq_step e5, seq_step e7, seq_done]
  · have g : ∀ {i j : ℤ}, 1 ≤ i → i ≤ (z.mx : ℤ) + 1 → 1 ≤ j → j ≤ (z.my : ℤ) + 1 → z.inGrid i j := fun h1 h2 h3 h4 => by
      simp only [Shape.inGrid]; omega
    constructor
    · intro i j m i1 i2 j1 j2 hm
      have := O7.gm j i m j1 j2 i1 i2 hm
      simp only [gmL, ixyOf] at this
      rw [this]
      have := O5.fm i j m i1 i2 j1 j2 hm
      simp only [fmL, ixyOf] at this
      rw [this, k4 _ (by simp), (z3 i j m (g i1 i2 j1 (by omega)) hm).1]
      simp only [fluxMinus, transverse, cross]
      show _ = _ + if 0 < S.trans then spill S F 2 j i false m + spill S F 2 j (i - 1) true m else 0
      split_ifs <;> ring
    · intro i j m i1 i2 j1 j2 hm
      have := O7.gp j i m j1 j2 i1 i2 hm
      simp only [gpL, ixyOf] at this
      rw [this]
      have := O5.fp i j m i1 i2 j1 j2 hm
      simp only [fpL, ixyOf] at this
      rw [this, k4 _ (by simp), (z3 i j m (g i1 i2 j1 (by omega)) hm).2.1]
      simp only [fluxPlus, transverse, cross]
      show _ = _ + if 0 < S.trans then spill S F 2 j i false m + spill S F 2 j (i - 1) true m else 0
      split_ifs <;> ring
    · intro i j m i1 i2 j1 j2 hm
      have := O7.fm j i m j1 j2 i1 i2 hm
      simp only [fmL, ixyOf] at this
      rw [this]
      have := O5.gm i j m i1 i2 j1 j2 hm
      simp only [gmL, ixyOf] at this
      rw [this, k4 _ (by simp), (z3 i j m (g i1 (by omega) j1 j2) hm).2.2.1]
      simp only [fluxMinus, transverse, cross]
      show _ = _ + if 0 < S.trans then spill S F 1 i j false m + spill S F 1 i (j - 1) true m else 0
      split_ifs <;> ring
    · intro i j m i1 i2 j1 j2 hm
      have := O7.fp j i m j1 j2 i1 i2 hm
      simp only [fpL, ixyOf] at this
      rw [this]
      have := O5.gp i j m i1 i2 j1 j2 hm
      simp only [gpL, ixyOf] at this
      rw [this, k4 _ (by simp), (z3 i j m (g i1 (by omega) j1 j2) hm).2.2.2]
      simp only [fluxPlus, transverse, cross]
      show _ = _ + if 0 < S.trans then spill S F 1 i j false m + spill S F 1 i (j - 1) true m else 0
      split_ifs <;> ring
    · intro i j m hc
      rw [O7.keepQ, O5.keepQ, q4' i j m hc]
    · intro i j m
      rw [O7.keepA, O5.keepA, x4]
    · rw [he7, he5, k4 _ (by simp), c3, max_eq_right hd5.1]
      exact hd5.max hd7

theorem update5_eq (z : Shape) (o : Method) (dx dy dt : ℚ) : update5 z o dx dy dt = updateBox z o dx dy dt 1 z.mx 1 z.my := rfl

theorem step5Wrap_spec {S : Scheme} {flux : Flux} (hset : Setting z o) (h1 : z.mbc ≤ z.mx) (h2 : z.mbc ≤ z.my) (count : ℤ → ℤ)
    (dx dy dt : ℚ) (hdx : dx ≠ 0) (hdy : dy ≠ 0) (M : Mem) (hflux : FluxOk z S (field5 z o count M) flux)
    (r1 : S.ratio 1 = dt / dx) (r2 : S.ratio 2 = dt / dy)
    (hnz : ∀ i j, z.inGrid i j → (field5 z o count M).cap i j ≠ 0) :
    ∃ M1 M', step5 z o flux count dx dy dt M = some M1 ∧ StepOut z S (field5 z o count M) count M M1 ∧
      step5Wrap z o flux count dx dy dt M = some M' ∧
      (∀ i j m, 1 ≤ i → i ≤ (z.mx : ℤ) → 1 ≤ j → j ≤ (z.my : ℤ) → z.eqn m → M' (.q i j m) = newValue S (field5 z o count M) i j m) ∧
      IsMax (patchCourant z S (field5 z o count M)) (M' .cflgrid) ∧ (∀ l, (∀ i j m, l ≠ .q i j m) → M' l = M1 l) ∧
      ∀ i j m, ¬ ((1 ≤ i ∧ i ≤ (z.mx : ℤ)) ∧ 1 ≤ j ∧ j ≤ (z.my : ℤ)) → M' (.q i j m) = M1 (.q i j m) := by
  have mb := hset.mbc
  obtain ⟨M1, e1, O⟩ := step5_spec hset h1 h2 count dx dy dt M hflux r1 r2 hnz
  obtain ⟨M', e2, _, a, b⟩ := updateBox_acts hset dx dy dt (i0 := 1) (i1 := z.mx) (j0 := 1) (j1 := z.my) (by omega) (by omega) (by omega) (by omega) M1 (by
    intro i j hg hc
    have := hnz i j hg
    simp only [field5, fieldOf] at this
    rw [if_neg hc] at this
    rwa [O.aux])
  have b' : ∀ l : Loc, (∀ i j m, l ≠ .q i j m) → M' l = M1 l := fun l hl => b l (by rintro ⟨_, _, _, _, _, _, rfl⟩; exact hl _ _ _ rfl)
  refine ⟨M1, M', e1, O, ?_, ?_, ?_, b', ?_⟩
  · have p := pieces_fit z
    have p' := pieces_nonneg z
    unfold step5Wrap
    rw [if_neg (not_or.2 ⟨hdx, hdy⟩), if_neg (not_lt.2 (by omega : (wrapPieces z).sum ≤ mwork z)), seq_step e1, update5_eq, seq_step e2, seq_done]
  · intro i j m i1 i2 j1 j2 hm
    rw [a _ ⟨m, hm, i, by omega, j, by omega, rfl⟩]
    have hnc : ¬ atCorner z i j := by unfold atCorner; omega
    have hnc' : ¬ (atCorner z i j ∧ count (cornerNo z i j) = 3) := fun h => hnc h.1
    simp only [updateG, newValue]
    rw [O.q i j m hnc', O.aux, O.fm (i + 1) j m (by omega) (by omega) j1 j2 hm, O.fp i j m i1 (by omega) j1 j2 hm,
      O.gm i (j + 1) m i1 i2 (by omega) (by omega) hm, O.gp i j m i1 i2 j1 (by omega) hm, r1, r2]
    have : (field5 z o count M).Q 1 i j m = M (.q i j m) := by
      simp only [field5, fieldOf, comps, sweepCell]
      rw [if_neg hnc', if_pos (show 1 ≤ m ∧ m ≤ (z.meqn : ℤ) from hm)]
    rw [this]
    rfl
  · rw [b' _ (by simp)]
    exact O.cfl
  · intro i j m h
    exact b _ (by rintro ⟨m', _, i', hi, j', hj, e⟩; injection e with e1 e2 _; subst e1; subst e2; exact h ⟨hi, hj⟩)

end Fclaw.Wave5

import Verif.Wave.Step
/-
The whole step, and the update.
-/
set_option autoImplicit false
set_option linter.unusedSimpArgs false
namespace Fclaw.Wave

open Fort

variable {z : Shape} {o : Method}

/-! ### The initial values -/

def initW (dx dy dt : ℚ) : Loc → ℚ
  | .dtdx1d _ => dt / dx
  | .dtdy1d _ => dt / dy
  | _ => 0

def zeroFill (z : Shape) : Prog :=
  doLoop 1 z.meqn fun m => doLoop (1 - z.mbc) (z.mx + z.mbc) fun i => doLoop (1 - z.mbc) (z.my + z.mbc) fun j =>
      seq [asg z (.fm i j m) (.lit 0), asg z (.fp i j m) (.lit 0), asg z (.gm i j m) (.lit 0), asg z (.gp i j m) (.lit 0)]

def dtFill (z : Shape) (dx dy dt : ℚ) : Prog :=
  doLoop (1 - z.mbc) (z.maxm + z.mbc) fun i =>
      seq [asg z (.dtdx1d i) (.lit (dt / dx)), asg z (.dtdy1d i) (.lit (dt / dy))]

theorem zeroFill_acts : Acts (fun l => ∃ m, (1 ≤ m ∧ m ≤ (z.meqn : ℤ)) ∧ ∃ i, (1 - (z.mbc : ℤ) ≤ i ∧ i ≤ z.mx + z.mbc) ∧
    ∃ j, (1 - (z.mbc : ℤ) ≤ j ∧ j ≤ z.my + z.mbc) ∧
      (l = .fm i j m ∨ l = .fp i j m ∨ l = .gm i j m ∨ l = .gp i j m)) (fun _ _ => 0) (zeroFill z) := by
  refine Acts.doConst (w := fun _ => 0) _ _ _ _ fun k h1 h2 => ?_
  refine Acts.doConst (w := fun _ => 0) _ _ _ _ fun m h3 h4 => ?_
  refine Acts.doConst (w := fun _ => 0) _ _ _ _ fun i h5 h6 => ?_
  rw [seq_cons, seq_cons, seq_cons, seq_one]
  refine Acts.seq2Const (Acts.asg (by bnd) fun M => rfl) ?_
  refine Acts.seq2Const (Acts.asg (by bnd) fun M => rfl) ?_
  exact Acts.seq2Const (Acts.asg (by bnd) fun M => rfl) (Acts.asg (by bnd) fun M => rfl)

theorem dtFill_acts (dx dy dt : ℚ) : Acts (fun l => ∃ i, (1 - (z.mbc : ℤ) ≤ i ∧ i ≤ z.maxm + z.mbc) ∧
      (l = .dtdx1d i ∨ l = .dtdy1d i)) (fun _ => initW dx dy dt) (dtFill z dx dy dt) := by
  refine Acts.doConst (w := initW dx dy dt) _ _ _ _ fun i h5 h6 => ?_
  rw [seq_cons, seq_one]
  exact Acts.seq2Const (w := initW dx dy dt) (Acts.asg (by bnd) fun M => rfl) (Acts.asg (by bnd) fun M => rfl)

/-! ### A step -/

structure StepOut (z : Shape) (S : Scheme) (F : Field) (count : ℤ → ℤ) (M M' : Mem) : Prop where
  fm : ∀ i j m, 1 ≤ i → i ≤ (z.mx : ℤ) + 1 → 1 ≤ j → j ≤ (z.my : ℤ) → z.eqn m → M' (.fm i j m) = fluxMinus S F 1 i j m
  fp : ∀ i j m, 1 ≤ i → i ≤ (z.mx : ℤ) + 1 → 1 ≤ j → j ≤ (z.my : ℤ) → z.eqn m → M' (.fp i j m) = fluxPlus S F 1 i j m
  gm : ∀ i j m, 1 ≤ i → i ≤ (z.mx : ℤ) → 1 ≤ j → j ≤ (z.my : ℤ) + 1 → z.eqn m → M' (.gm i j m) = fluxMinus S F 2 j i m
  gp : ∀ i j m, 1 ≤ i → i ≤ (z.mx : ℤ) → 1 ≤ j → j ≤ (z.my : ℤ) + 1 → z.eqn m → M' (.gp i j m) = fluxPlus S F 2 j i m
  q : ∀ i j m, ¬ (atCorner z i j ∧ count (cornerNo z i j) = 3) → M' (.q i j m) = M (.q i j m)
  aux : ∀ i j m, M' (.aux i j m) = M (.aux i j m)
  cfl : IsMax (patchCourant z S F) (M' .cflgrid)

theorem step2_spec {S : Scheme} {flux : Flux} (hset : Setting z o) (h1 : z.mbc ≤ z.mx) (h2 : z.mbc ≤ z.my) (count : ℤ → ℤ)
    (dx dy dt : ℚ) (M : Mem) (hflux : FluxOk z S (fieldOf z o count M) flux) (r1 : S.ratio 1 = dt / dx) (r2 : S.ratio 2 = dt / dy)
    (hnz : ∀ i j, z.inGrid i j → (fieldOf z o count M).cap i j ≠ 0) :
    ∃ M', step2 z o flux count dx dy dt M = some M' ∧ StepOut z S (fieldOf z o count M) count M M' := by
  set F := fieldOf z o count M with hF
  have mb := hset.mbc
  -- cflgrid = 0
  have e1 := asg_eval (z := z) (l := .cflgrid) (M := M) (by trivial) (lit_eval 0 M)
  set M1 : Mem := fun l' => if l' = .cflgrid then 0 else M l' with hM1
  have c1 : M1 .cflgrid = 0 := by simp [hM1]
  have k1 : ∀ l, l ≠ .cflgrid → M1 l = M l := fun l h => by simp [hM1, h]
  -- zeros
  obtain ⟨M2, e2, a2, b2⟩ := zeroFill_acts (z := z) M1
  have k2 : ∀ l : Loc, (∀ i j m, l ≠ .fm i j m ∧ l ≠ .fp i j m ∧ l ≠ .gm i j m ∧ l ≠ .gp i j m) → M2 l = M1 l := fun l h => b2 l (by
    rintro ⟨m, _, i, _, j, _, h'⟩
    obtain ⟨x1, x2, x3, x4⟩ := h i j m
    rcases h' with h' | h' | h' | h'
    · exact x1 h'
    · exact x2 h'
    · exact x3 h'
    · exact x4 h')
  -- dt
  obtain ⟨M3, e3, a3, k3⟩ : ∃ M3, when (decide (o.mcapa = 0)) (dtFill z dx dy dt) M2 = some M3 ∧
      (o.mcapa = 0 → ∀ i, z.inLine i → M3 (.dtdx1d i) = dt / dx ∧ M3 (.dtdy1d i) = dt / dy) ∧
      ∀ l : Loc, (∀ i, l ≠ .dtdx1d i ∧ l ≠ .dtdy1d i) → M3 l = M2 l := by
    by_cases hc : o.mcapa = 0
    · rw [when_true (by simpa using hc)]
      obtain ⟨M3, e, a, b⟩ := dtFill_acts (z := z) dx dy dt M2
      refine ⟨M3, e, fun _ i hi => ⟨a _ ⟨i, hi, Or.inl rfl⟩, a _ ⟨i, hi, Or.inr rfl⟩⟩, fun l hl => b l ?_⟩
      rintro ⟨i, _, h | h⟩
      · exact (hl i).1 h
      · exact (hl i).2 h
    · rw [when_false (by simpa using hc)]
      exact ⟨M2, rfl, fun h => absurd h hc, fun _ _ => rfl⟩
  have q3 : ∀ i j m, M3 (.q i j m) = M (.q i j m) := fun i j m => by
    rw [k3 _ (by simp), k2 _ (by simp), k1 _ (by simp)]
  have x3 : ∀ i j m, M3 (.aux i j m) = M (.aux i j m) := fun i j m => by
    rw [k3 _ (by simp), k2 _ (by simp), k1 _ (by simp)]
  have c3 : M3 .cflgrid = 0 := by rw [k3 _ (by simp), k2 _ (by simp), c1]
  have z3 : ∀ i j m, z.inGrid i j → z.eqn m → M3 (.fm i j m) = 0 ∧ M3 (.fp i j m) = 0 ∧ M3 (.gm i j m) = 0 ∧ M3 (.gp i j m) = 0 := by
    intro i j m hg hm
    refine ⟨?_, ?_, ?_, ?_⟩
    · rw [k3 _ (by simp), a2 _ ⟨m, hm, i, hg.1, j, hg.2, by simp⟩]
    · rw [k3 _ (by simp), a2 _ ⟨m, hm, i, hg.1, j, hg.2, by simp⟩]
    · rw [k3 _ (by simp), a2 _ ⟨m, hm, i, hg.1, j, hg.2, by simp⟩]
    · rw [k3 _ (by simp), a2 _ ⟨m, hm, i, hg.1, j, hg.2, by simp⟩]
  -- corners, x
  obtain ⟨M4, e4, q4, q4', k4⟩ := fixCorners_spec h1 h2 false count M3 M (fun i j m _ => q3 i j m)
  have x4 : ∀ i j m, M4 (.aux i j m) = M (.aux i j m) := fun i j m => by rw [k4 _ (by simp), x3]
  have H4 : Holds z o S F false M4 := by
    refine ⟨⟨fun i j hg => ?_, fun i j hg => ?_, fun i j hg => ?_⟩, fun hc i hi => ?_⟩
    · funext m
      simp only [hF, fieldOf, comps]
      by_cases hm : 1 ≤ m ∧ m ≤ (z.meqn : ℤ)
      · rw [if_pos hm, if_pos hm, q4 i j m hg hm]
      · rw [if_neg hm, if_neg hm]
    · simp only [hF, fieldOf, x4]
    · simp only [hF, fieldOf, x4]
    · show M4 (.dtdx1d i) = S.ratio 1
      rw [k4 _ (by simp), (a3 hc i hi).1, r1]
  obtain ⟨M5, e5, O5⟩ := sweep_spec (z := z) (o := o) false hset hflux (dt / dx) r1.symm M4 H4 hnz
    (by rw [k4 _ (by simp), c3])
  -- corners, y
  obtain ⟨M6, e6, q6, q6', k6⟩ := fixCorners_spec h1 h2 true count M5 M (fun i j m hc => by rw [O5.keepQ, q4' i j m hc])
  have x6 : ∀ i j m, M6 (.aux i j m) = M (.aux i j m) := fun i j m => by rw [k6 _ (by simp), O5.keepA, x4]
  have H6 : Holds z o S F true M6 := by
    refine ⟨⟨fun i j hg => ?_, fun i j hg => ?_, fun i j hg => ?_⟩, fun hc i hi => ?_⟩
    · funext m
      simp only [hF, fieldOf, comps]
      by_cases hm : 1 ≤ m ∧ m ≤ (z.meqn : ℤ)
      · rw [if_pos hm, if_pos hm, q6 i j m hg hm]
      · rw [if_neg hm, if_neg hm]
    · simp only [hF, fieldOf, x6]
    · simp only [hF, fieldOf, x6]
    · show M6 (.dtdy1d i) = S.ratio 2
      have := O5.keepD i
      simp only [Bool.not_false, dtL] at this
      rw [k6 _ (by simp), this, k4 _ (by simp), (a3 hc i hi).2, r2]
  obtain ⟨d5, hd5, he5⟩ := O5.cfl
  obtain ⟨M7, e7, O7⟩ := sweep_spec (z := z) (o := o) true hset hflux (dt / dy) r2.symm M6 H6 hnz
    (by rw [k6 _ (by simp), he5]; exact le_trans hd5.1 (le_max_right _ _))
  obtain ⟨d7, hd7, he7⟩ := O7.cfl
  refine ⟨M7, ?_, ?_⟩
  · show seq [asg z .cflgrid (.lit 0), zeroFill z, when (decide (o.mcapa = 0)) (dtFill z dx dy dt), fixCorners z 0 count,
      doLoop (2 - z.mbc) (z.my + z.mbc - 1) (gslice z o flux false (dt / dx)), fixCorners z 1 count,
      doLoop (2 - z.mbc) (z.mx + z.mbc - 1) (gslice z o flux true (dt / dy))] M = some M7
    rw [if_neg (by simp)] at e4
    rw [if_pos rfl] at e6
    simp only [len, Bool.not_false, Bool.not_true] at e5 e7
    rw [seq_step e1, seq_step e2, seq_step e3, seq_step e4, seq_step e5, seq_step e6, seq_step e7, seq_done]
  · have g : ∀ {i j : ℤ}, 1 ≤ i → i ≤ (z.mx : ℤ) + 1 → 1 ≤ j → j ≤ (z.my : ℤ) + 1 → z.inGrid i j := fun h1 h2 h3 h4 => by
      simp only [Shape.inGrid]; omega
    constructor
    · intro i j m i1 i2 j1 j2 hm
      have := O7.gm j i m j1 j2 i1 i2 hm
      simp only [gmL, ixyOf] at this
      rw [this, k6 _ (by simp)]
      have := O5.fm i j m i1 i2 j1 j2 hm
      simp only [fmL, ixyOf] at this
      rw [this, k4 _ (by simp), (z3 i j m (g i1 i2 j1 (by omega)) hm).1]
      simp only [fluxMinus, transverse, cross]
      show _ = _ + if 0 < S.trans then spill S F 2 j i false m + spill S F 2 j (i - 1) true m else 0
      split_ifs <;> ring
    · intro i j m i1 i2 j1 j2 hm
      have := O7.gp j i m j1 j2 i1 i2 hm
      simp only [gpL, ixyOf] at this
      rw [this, k6 _ (by simp)]
      have := O5.fp i j m i1 i2 j1 j2 hm
      simp only [fpL, ixyOf] at this
      rw [this, k4 _ (by simp), (z3 i j m (g i1 i2 j1 (by omega)) hm).2.1]
      simp only [fluxPlus, transverse, cross]
      show _ = _ + if 0 < S.trans then spill S F 2 j i false m + spill S F 2 j (i - 1) true m else 0
      split_ifs <;> ring
    · intro i j m i1 i2 j1 j2 hm
      have := O7.fm j i m j1 j2 i1 i2 hm
      simp only [fmL, ixyOf] at this
      rw [this, k6 _ (by simp)]
      have := O5.gm i j m i1 i2 j1 j2 hm
      simp only [gmL, ixyOf] at this
      rw [this, k4 _ (by simp), (z3 i j m (g i1 (by omega) j1 j2) hm).2.2.1]
      simp only [fluxMinus, transverse, cross]
      show _ = _ + if 0 < S.trans then spill S F 1 i j false m + spill S F 1 i (j - 1) true m else 0
      split_ifs <;> ring
    · intro i j m i1 i2 j1 j2 hm
      have := O7.fp j i m j1 j2 i1 i2 hm
      simp only [fpL, ixyOf] at this
      rw [this, k6 _ (by simp)]
      have := O5.gp i j m i1 i2 j1 j2 hm
      simp only [gpL, ixyOf] at this
      rw [this, k4 _ (by simp), (z3 i j m (g i1 (by omega) j1 j2) hm).2.2.2]
      simp only [fluxPlus, transverse, cross]
      show _ = _ + if 0 < S.trans then spill S F 1 i j false m + spill S F 1 i (j - 1) true m else 0
      split_ifs <;> ring
    · intro i j m hc
      rw [O7.keepQ, q6' i j m hc]
    · intro i j m
      rw [O7.keepA, x6]
    · rw [he7, k6 _ (by simp), he5, k4 _ (by simp), c3, max_eq_right hd5.1]
      exact hd5.max hd7

/-! ### The update -/

/-- As `Acts`, from states with `I`, which is kept. -/
def ActsIf (I : Mem → Prop) (S : Loc → Prop) (G : Mem → Loc → ℚ) (f : Prog) : Prop :=
  ∀ M, I M → ∃ M', f M = some M' ∧ I M' ∧ (∀ l, S l → M' l = G M l) ∧ ∀ l, ¬ S l → M' l = M l

theorem ActsIf.congr {I : Mem → Prop} {S T : Loc → Prop} {G : Mem → Loc → ℚ} {f : Prog} (h : ActsIf I S G f)
    (hst : ∀ l, S l ↔ T l) : ActsIf I T G f := by
  intro M hI
  obtain ⟨M', h1, h0, h2, h3⟩ := h M hI
  exact ⟨M', h1, h0, fun c hc => h2 c ((hst c).2 hc), fun c hc => h3 c fun h => hc ((hst c).1 h)⟩

theorem ActsIf.list {I : Mem → Prop} {ι : Type} (S : ι → Loc → Prop) (G : Mem → Loc → ℚ) (f : ι → Prog) (ks : List ι) :
    (∀ k ∈ ks, ActsIf I (S k) G (f k)) → ks.Pairwise (fun k k' => Apart (S k') (S k) G) →
    ActsIf I (fun l => ∃ k ∈ ks, S k l) G (loop ks f) := by
  induction ks with
  | nil =>
    intro _ _ M hI
    exact ⟨M, rfl, hI, fun c ⟨k, hk, _⟩ => by simp at hk, fun c _ => rfl⟩
  | cons k ks ih =>
    intro h hp
    rw [List.pairwise_cons] at hp
    have ih' := ih (fun k' hk' => h k' (List.mem_cons_of_mem _ hk')) hp.2
    intro M hI
    obtain ⟨M1, e1, i1, a1, b1⟩ := h k (List.mem_cons_self ..) M hI
    obtain ⟨M2, e2, i2, a2, b2⟩ := ih' M1 i1
    refine ⟨M2, by show (f k M).bind (loop ks f) = _; rw [e1]; exact e2, i2, ?_, ?_⟩
    · intro l hl
      by_cases ht : ∃ k' ∈ ks, S k' l
      · rw [a2 l ht]
        obtain ⟨k', hk', hs⟩ := ht
        exact (hp.1 k' hk').2 M1 M b1 l hs
      · rw [b2 l ht]
        obtain ⟨k', hk', hs⟩ := hl
        rcases List.mem_cons.1 hk' with rfl | hk'
        · exact a1 l hs
        · exact absurd ⟨k', hk', hs⟩ ht
    · intro l hl
      rw [b2 l fun ⟨k', hk', hs⟩ => hl ⟨k', List.mem_cons_of_mem _ hk', hs⟩, b1 l fun hs => hl ⟨k, List.mem_cons_self .., hs⟩]

theorem ActsIf.do1 {I : Mem → Prop} (S : ℤ → Loc → Prop) (G : Mem → Loc → ℚ) (f : ℤ → Prog) (lo hi : ℤ)
    (h : ∀ k, lo ≤ k → k ≤ hi → ActsIf I (S k) G (f k)) (hd : ∀ k k', k ≠ k' → Apart (S k') (S k) G) :
    ActsIf I (fun l => ∃ k, (lo ≤ k ∧ k ≤ hi) ∧ S k l) G (doLoop lo hi f) := by
  refine (ActsIf.list S G f (range lo hi) (fun k hk => ?_) ?_).congr fun l => ?_
  · rw [mem_range] at hk; exact h k hk.1 hk.2
  · exact (range_pairwise lo hi).imp fun {a b} hab => hd a b hab
  · simp only [mem_range]

/-- The new value, from the memory. -/
def updateG (o : Method) (dx dy dt : ℚ) (M : Mem) : Loc → ℚ
  | .q i j m => M (.q i j m) - (dt / dx * (M (.fm (i + 1) j m) - M (.fp i j m)) + dt / dy * (M (.gm i (j + 1) m) - M (.gp i j m))) /
      (if o.mcapa = 0 then 1 else M (.aux i j o.mcapa))
  | l => M l

theorem update_apart (dx dy dt : ℚ) {S T : Loc → Prop} (hS : ∀ l, S l → ∃ i j m, l = .q i j m)
    (hT : ∀ l, T l → ∃ i j m, l = .q i j m) (hd : ∀ l, S l → ¬ T l) : Apart S T (updateG o dx dy dt) := by
  refine ⟨hd, ?_⟩
  intro M1 M2 hM l hl
  obtain ⟨i, j, m, rfl⟩ := hS l hl
  have h : ∀ l' : Loc, (∀ i j m, l' ≠ .q i j m) → M1 l' = M2 l' := fun l' h => hM l' fun ht => by
    obtain ⟨i, j, m, e⟩ := hT _ ht
    exact h i j m e
  simp only [updateG]
  rw [hM _ (hd _ hl), h _ (by simp), h _ (by simp), h _ (by simp), h _ (by simp), h _ (by simp)]

/-- The update, of the cells in a box. -/
def updateBox (z : Shape) (o : Method) (dx dy dt : ℚ) (i0 i1 j0 j1 : ℤ) : Prog :=
  doLoop 1 z.meqn fun m => doLoop i0 i1 fun i => doLoop j0 j1 fun j =>
    if o.mcapa = 0 then
      asg z (.q i j m) (rd z (.q i j m) - .lit (dt / dx) * (rd z (.fm (i + 1) j m) - rd z (.fp i j m))
        - .lit (dt / dy) * (rd z (.gm i (j + 1) m) - rd z (.gp i j m)))
    else
      asg z (.q i j m) (rd z (.q i j m) - (.lit (dt / dx) * (rd z (.fm (i + 1) j m) - rd z (.fp i j m))
        + .lit (dt / dy) * (rd z (.gm i (j + 1) m) - rd z (.gp i j m))) / rd z (.aux i j o.mcapa))

theorem updateBox_acts (hset : Setting z o) (dx dy dt : ℚ) {i0 i1 j0 j1 : ℤ} (hi0 : 1 - (z.mbc : ℤ) ≤ i0) (hi1 : i1 ≤ z.mx + z.mbc - 1)
    (hj0 : 1 - (z.mbc : ℤ) ≤ j0) (hj1 : j1 ≤ z.my + z.mbc - 1) :
    ActsIf (fun M => ∀ i j, z.inGrid i j → o.mcapa ≠ 0 → M (.aux i j o.mcapa) ≠ 0)
      (fun l => ∃ m, (1 ≤ m ∧ m ≤ (z.meqn : ℤ)) ∧ ∃ i, (i0 ≤ i ∧ i ≤ i1) ∧ ∃ j, (j0 ≤ j ∧ j ≤ j1) ∧ l = .q i j m)
      (updateG o dx dy dt) (updateBox z o dx dy dt i0 i1 j0 j1) := by
  unfold updateBox
  refine ActsIf.do1 _ _ _ _ _ ?_ ?_
  · intro m m1 m2
    refine ActsIf.do1 _ _ _ _ _ ?_ ?_
    · intro i i1 i2
      refine ActsIf.do1 _ _ _ _ _ ?_ ?_
      · intro j j1 j2 M hI
        have hnz := hI i j (by simp only [Shape.inGrid]; omega)
        have hset' := hset.capa
        simp only [Shape.auxn] at hset'
        have : ∃ v, v = updateG o dx dy dt M (.q i j m) := ⟨_, rfl⟩
        obtain ⟨v, hv⟩ := this
        refine ⟨fun l' => if l' = .q i j m then v else M l', ?_, ?_, ?_, ?_⟩
        · by_cases hc : o.mcapa = 0
          · rw [if_pos hc]
            apply asg_eval (by bnd)
            have : v = M (.q i j m) - dt / dx * (M (.fm (i + 1) j m) - M (.fp i j m)) - dt / dy * (M (.gm i (j + 1) m) - M (.gp i j m)) := by
              rw [hv]; simp only [updateG]; rw [if_pos hc]; ring
            rw [this]
            ev <;> bnd
          · rw [if_neg hc]
            apply asg_eval (by bnd)
            rw [hv]; simp only [updateG]; rw [if_neg hc]
            apply sub_eval
            · ev; bnd
            · apply div_eval
              · ev <;> bnd
              · ev; bnd
              · exact hnz hc
        · intro i' j' hg hc
          show (if Loc.aux i' j' o.mcapa = .q i j m then v else M (.aux i' j' o.mcapa)) ≠ 0
          rw [if_neg (by simp)]
          exact hI i' j' hg hc
        · rintro l rfl; simp [hv]
        · intro l hl; exact if_neg hl
      · intro j j' hne
        refine update_apart dx dy dt ?_ ?_ ?_
        · rintro l rfl; exact ⟨_, _, _, rfl⟩
        · rintro l rfl; exact ⟨_, _, _, rfl⟩
        · rintro l rfl e; injection e with _ e _; exact hne e.symm
    · intro i i' hne
      refine update_apart dx dy dt ?_ ?_ ?_
      · rintro l ⟨_, _, rfl⟩; exact ⟨_, _, _, rfl⟩
      · rintro l ⟨_, _, rfl⟩; exact ⟨_, _, _, rfl⟩
      · rintro l ⟨_, _, rfl⟩ ⟨_, _, e⟩; injection e with e _ _; exact hne e.symm
  · intro m m' hne
    refine update_apart dx dy dt ?_ ?_ ?_
    · rintro l ⟨_, _, _, _, rfl⟩; exact ⟨_, _, _, rfl⟩
    · rintro l ⟨_, _, _, _, rfl⟩; exact ⟨_, _, _, rfl⟩
    · rintro l ⟨_, _, _, _, rfl⟩ ⟨_, _, _, _, e⟩; injection e with _ _ e; exact hne e.symm

theorem update_acts (hset : Setting z o) (dx dy dt : ℚ) :
    ActsIf (fun M => ∀ i j, z.inGrid i j → o.mcapa ≠ 0 → M (.aux i j o.mcapa) ≠ 0)
      (fun l => ∃ m, (1 ≤ m ∧ m ≤ (z.meqn : ℤ)) ∧ ∃ i, (1 - (z.mbc : ℤ) ≤ i ∧ i ≤ z.mx + z.mbc - 1) ∧
        ∃ j, (1 - (z.mbc : ℤ) ≤ j ∧ j ≤ z.my + z.mbc - 1) ∧ l = .q i j m)
      (updateG o dx dy dt) (update z o dx dy dt) :=
  updateBox_acts hset dx dy dt le_rfl le_rfl le_rfl le_rfl

theorem pieces_fit (z : Shape) : (wrapPieces z).sum + (stepPieces z).sum = mwork z := by
  simp only [wrapPieces, stepPieces, mwork, List.sum_cons, List.sum_nil]
  ring

theorem pieces_nonneg (z : Shape) : 0 ≤ (stepPieces z).sum := by
  have h : 0 ≤ z.slice := by unfold Shape.slice Shape.maxm; omega
  simp only [stepPieces, List.sum_cons, List.sum_nil]
  positivity

theorem step2Wrap_spec {S : Scheme} {flux : Flux} (hset : Setting z o) (h1 : z.mbc ≤ z.mx) (h2 : z.mbc ≤ z.my) (count : ℤ → ℤ)
    (dx dy dt : ℚ) (hdx : dx ≠ 0) (hdy : dy ≠ 0) (M : Mem) (hflux : FluxOk z S (fieldOf z o count M) flux)
    (r1 : S.ratio 1 = dt / dx) (r2 : S.ratio 2 = dt / dy)
    (hnz : ∀ i j, z.inGrid i j → (fieldOf z o count M).cap i j ≠ 0) :
    ∃ M1 M', step2 z o flux count dx dy dt M = some M1 ∧ StepOut z S (fieldOf z o count M) count M M1 ∧
      step2Wrap z o flux count dx dy dt M = some M' ∧
      (∀ i j m, 1 ≤ i → i ≤ (z.mx : ℤ) → 1 ≤ j → j ≤ (z.my : ℤ) → z.eqn m → M' (.q i j m) = newValue S (fieldOf z o count M) i j m) ∧
      IsMax (patchCourant z S (fieldOf z o count M)) (M' .cflgrid) ∧ ∀ l, (∀ i j m, l ≠ .q i j m) → M' l = M1 l := by
  have mb := hset.mbc
  obtain ⟨M1, e1, O⟩ := step2_spec hset h1 h2 count dx dy dt M hflux r1 r2 hnz
  obtain ⟨M', e2, _, a, b⟩ := update_acts hset dx dy dt M1 (by
    intro i j hg hc
    have := hnz i j hg
    simp only [fieldOf] at this
    rw [if_neg hc] at this
    rwa [O.aux])
  have b' : ∀ l : Loc, (∀ i j m, l ≠ .q i j m) → M' l = M1 l := fun l hl => b l (by rintro ⟨_, _, _, _, _, _, rfl⟩; exact hl _ _ _ rfl)
  refine ⟨M1, M', e1, O, ?_, ?_, ?_, b'⟩
  · have p := pieces_fit z
    have p' := pieces_nonneg z
    unfold step2Wrap
    dsimp only
    rw [if_neg (not_or.2 ⟨hdx, hdy⟩), if_neg (not_lt.2 (by omega : (wrapPieces z).sum ≤ mwork z)),
      if_neg (not_lt.2 (by omega : (stepPieces z).sum ≤ mwork z - (wrapPieces z).sum)), seq_step e1, seq_step e2, seq_done]
  · intro i j m i1 i2 j1 j2 hm
    rw [a _ ⟨m, hm, i, by omega, j, by omega, rfl⟩]
    have hnc : ¬ atCorner z i j := by unfold atCorner; omega
    have hnc' : ¬ (atCorner z i j ∧ count (cornerNo z i j) = 3) := fun h => hnc h.1
    simp only [updateG, newValue]
    rw [O.q i j m hnc', O.aux, O.fm (i + 1) j m (by omega) (by omega) j1 j2 hm, O.fp i j m i1 (by omega) j1 j2 hm,
      O.gm i (j + 1) m i1 i2 (by omega) (by omega) hm, O.gp i j m i1 i2 j1 (by omega) hm, r1, r2]
    have : (fieldOf z o count M).Q 1 i j m = M (.q i j m) := by
      simp only [fieldOf, comps, sweepCell]
      rw [if_neg hnc', if_pos (show 1 ≤ m ∧ m ≤ (z.meqn : ℤ) from hm)]
    rw [this]
    rfl
  · rw [b' _ (by simp)]
    exact O.cfl

end Fclaw.Wave

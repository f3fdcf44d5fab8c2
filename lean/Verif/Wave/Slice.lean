import Verif.Wave.Flux
/-
One slice, in either direction.
-/
set_option autoImplicit false
set_option linter.unusedSimpArgs false
namespace Fclaw.Wave

open Fort

/-! ### Both directions at once: `y = false` is the sweep in x -/

def ixyOf : Bool → Nat | false => 1 | true => 2
def len (z : Shape) : Bool → ℤ | false => z.mx | true => z.my
def qL : Bool → ℤ → ℤ → ℤ → Loc | false, a, b, m => .q a b m | true, a, b, m => .q b a m
def auxL : Bool → ℤ → ℤ → ℤ → Loc | false, a, b, m => .aux a b m | true, a, b, m => .aux b a m
def fmL : Bool → ℤ → ℤ → ℤ → Loc | false, a, b, m => .fm a b m | true, a, b, m => .gm b a m
def fpL : Bool → ℤ → ℤ → ℤ → Loc | false, a, b, m => .fp a b m | true, a, b, m => .gp b a m
def gmL : Bool → ℤ → ℤ → ℤ → Loc | false, a, b, m => .gm a b m | true, a, b, m => .fm b a m
def gpL : Bool → ℤ → ℤ → ℤ → Loc | false, a, b, m => .gp a b m | true, a, b, m => .fp b a m
def dtL : Bool → ℤ → Loc | false, i => .dtdx1d i | true, i => .dtdy1d i

/-- The last loop. -/
def scatter (z : Shape) (y : Bool) (b : ℤ) : Prog :=
  doLoop 1 z.meqn fun m => doLoop (2 - z.mbc) (len z y + z.mbc) fun i =>
    seq [asg z (fmL y i b m) (rd z (fmL y i b m) + rd z (.faddm i m)), asg z (fpL y i b m) (rd z (fpL y i b m) + rd z (.faddp i m)),
      asg z (gmL y i b m) (rd z (gmL y i b m) + rd z (.gaddm i m 1)), asg z (gpL y i b m) (rd z (gpL y i b m) + rd z (.gaddp i m 1)),
      asg z (gmL y i (b + 1) m) (rd z (gmL y i (b + 1) m) + rd z (.gaddm i m 2)),
      asg z (gpL y i (b + 1) m) (rd z (gpL y i (b + 1) m) + rd z (.gaddp i m 2))]

def fetchQ (z : Shape) (y : Bool) (b : ℤ) : Prog :=
  doLoop 1 z.meqn fun m => doLoop (1 - z.mbc) (len z y + z.mbc) fun i => asg z (.q1d i m) (rd z (qL y i b m))
def fetchCapa (z : Shape) (o : Method) (y : Bool) (rat : ℚ) (b : ℤ) : Prog :=
  doLoop (1 - z.mbc) (len z y + z.mbc) fun i => asg z (dtL y i) (.lit rat / rd z (auxL y i b o.mcapa))
def fetchAux (z : Shape) (y : Bool) (b : ℤ) : Prog :=
  doLoop 1 z.maux fun ma => doLoop (1 - z.mbc) (len z y + z.mbc) fun i =>
    seq [asg z (.aux1 i ma) (rd z (auxL y i (b - 1) ma)), asg z (.aux2 i ma) (rd z (auxL y i b ma)),
      asg z (.aux3 i ma) (rd z (auxL y i (b + 1) ma))]

def gslice (z : Shape) (o : Method) (flux : Flux) (y : Bool) (rat : ℚ) (b : ℤ) : Prog :=
  seq [fetchQ z y b, when (decide (0 < o.mcapa)) (fetchCapa z o y rat b), when (decide (0 < z.maux)) (fetchAux z y b),
    flux (ixyOf y) (len z y) (dtL y), asg z .cflgrid (max (rd z .cflgrid) (rd z .cfl1d)), scatter z y b]

theorem xSlice_eq (z : Shape) (o : Method) (flux : Flux) : xSlice z o flux = gslice z o flux false := rfl
theorem ySlice_eq (z : Shape) (o : Method) (flux : Flux) : ySlice z o flux = gslice z o flux true := rfl

section
variable {z : Shape} {o : Method} {y : Bool} {b : ℤ}

theorem len_le (y : Bool) : len z y ≤ z.maxm := by cases y <;> simp [len, Shape.maxm]
theorem len_nonneg (y : Bool) : 0 ≤ len z y := by cases y <;> simp [len]

theorem grid_iff (a b : ℤ) : (1 - (z.mbc : ℤ) ≤ a ∧ a ≤ len z y + z.mbc) ∧ (1 - (z.mbc : ℤ) ≤ b ∧ b ≤ len z (!y) + z.mbc) ↔
    match y with | false => z.inGrid a b | true => z.inGrid b a := by
  cases y
  · exact Iff.rfl
  · exact and_comm

theorem has_line {i : ℤ} (h1 : 1 - (z.mbc : ℤ) ≤ i) (h2 : i ≤ len z y + z.mbc) : z.inLine i := by
  have := len_le (z := z) y
  exact ⟨h1, by omega⟩

/-- Elements of the four arrays of fluxes and of `q` and `aux` exist. -/
theorem has_grid {a b : ℤ} (h1 : 1 - (z.mbc : ℤ) ≤ a ∧ a ≤ len z y + z.mbc) (h2 : 1 - (z.mbc : ℤ) ≤ b ∧ b ≤ len z (!y) + z.mbc) :
    (∀ m, z.eqn m → z.has (qL y a b m) ∧ z.has (fmL y a b m) ∧ z.has (fpL y a b m) ∧ z.has (gmL y a b m) ∧ z.has (gpL y a b m)) ∧
    ∀ m, z.auxn m → z.has (auxL y a b m) := by
  have h := (grid_iff (z := z) (y := y) a b).1 ⟨h1, h2⟩
  cases y
  · exact ⟨fun m hm => ⟨⟨h, hm⟩, ⟨h, hm⟩, ⟨h, hm⟩, ⟨h, hm⟩, ⟨h, hm⟩⟩, fun m hm => ⟨h, hm⟩⟩
  · exact ⟨fun m hm => ⟨⟨h, hm⟩, ⟨h, hm⟩, ⟨h, hm⟩, ⟨h, hm⟩, ⟨h, hm⟩⟩, fun m hm => ⟨h, hm⟩⟩

/-- Which of the arrays `scatter` changes. -/
def scatterG (y : Bool) (b : ℤ) (M : Mem) : Loc → ℚ := match y with
  | false => fun l => match l with
    | .fm i j m => M (.fm i j m) + M (.faddm i m)
    | .fp i j m => M (.fp i j m) + M (.faddp i m)
    | .gm i j m => M (.gm i j m) + M (.gaddm i m (if j = b then 1 else 2))
    | .gp i j m => M (.gp i j m) + M (.gaddp i m (if j = b then 1 else 2))
    | _ => 0
  | true => fun l => match l with
    | .gm j i m => M (.gm j i m) + M (.faddm i m)
    | .gp j i m => M (.gp j i m) + M (.faddp i m)
    | .fm j i m => M (.fm j i m) + M (.gaddm i m (if j = b then 1 else 2))
    | .fp j i m => M (.fp j i m) + M (.gaddp i m (if j = b then 1 else 2))
    | _ => 0

theorem scatterG_fm (M : Mem) (a b' m : ℤ) : scatterG y b M (fmL y a b' m) = M (fmL y a b' m) + M (.faddm a m) := by
  cases y <;> rfl
theorem scatterG_fp (M : Mem) (a b' m : ℤ) : scatterG y b M (fpL y a b' m) = M (fpL y a b' m) + M (.faddp a m) := by
  cases y <;> rfl
theorem scatterG_gm (M : Mem) (a b' m : ℤ) : scatterG y b M (gmL y a b' m) = M (gmL y a b' m) + M (.gaddm a m (if b' = b then 1 else 2)) := by
  cases y <;> rfl
theorem scatterG_gp (M : Mem) (a b' m : ℤ) : scatterG y b M (gpL y a b' m) = M (gpL y a b' m) + M (.gaddp a m (if b' = b then 1 else 2)) := by
  cases y <;> rfl

/-- The six elements. -/
def six (y : Bool) (b i m : ℤ) (l : Loc) : Prop :=
  l = fmL y i b m ∨ l = fpL y i b m ∨ l = gmL y i b m ∨ l = gpL y i b m ∨ l = gmL y i (b + 1) m ∨ l = gpL y i (b + 1) m

theorem six_not (y : Bool) (b i m : ℤ) (l : Loc) (h1 : ∀ i j m, l ≠ .fm i j m) (h2 : ∀ i j m, l ≠ .fp i j m)
    (h3 : ∀ i j m, l ≠ .gm i j m) (h4 : ∀ i j m, l ≠ .gp i j m) : ¬ six y b i m l := by
  unfold six
  cases y <;> simp [fmL, fpL, gmL, gpL, h1, h2, h3, h4]

/-- One of the statements. -/
theorem scatter_one (l l' : Loc) (h : z.has l) (h' : z.has l') (hG : ∀ M, scatterG y b M l = M l + M l') :
    Acts (fun l1 => l1 = l) (scatterG y b) (asg z l (rd z l + rd z l')) :=
  Acts.asg h fun M => by rw [hG]; exact add_eval (rd_eval h _) (rd_eval h' _)

theorem scatterG_congr (M1 M2 : Mem) (l : Loc) (h : M1 l = M2 l) (h1 : ∀ i m, M1 (.faddm i m) = M2 (.faddm i m))
    (h2 : ∀ i m, M1 (.faddp i m) = M2 (.faddp i m)) (h3 : ∀ i m k, M1 (.gaddm i m k) = M2 (.gaddm i m k))
    (h4 : ∀ i m k, M1 (.gaddp i m k) = M2 (.gaddp i m k)) : scatterG y b M1 l = scatterG y b M2 l := by
  cases y <;> cases l <;> simp only [scatterG] <;> (try rw [h]) <;> (try rw [h1]) <;> (try rw [h2]) <;> (try rw [h3]) <;> (try rw [h4])

theorem scatter_apart (T S : Loc → Prop) (hd : ∀ l, S l → ¬ T l)
    (h1 : ∀ i m, ¬ T (.faddm i m)) (h2 : ∀ i m, ¬ T (.faddp i m)) (h3 : ∀ i m k, ¬ T (.gaddm i m k)) (h4 : ∀ i m k, ¬ T (.gaddp i m k)) :
    Apart S T (scatterG y b) :=
  ⟨hd, fun M1 M2 hM l hl => scatterG_congr M1 M2 l (hM l (hd l hl)) (fun i m => hM _ (h1 i m)) (fun i m => hM _ (h2 i m))
    (fun i m k => hM _ (h3 i m k)) (fun i m k => hM _ (h4 i m k))⟩

theorem scatter_acts (hm2 : 2 ≤ z.mbc) (hb1 : 2 - (z.mbc : ℤ) ≤ b) (hb2 : b ≤ len z (!y) + z.mbc - 1) :
    Acts (fun l => ∃ m i, (1 ≤ m ∧ m ≤ (z.meqn : ℤ)) ∧ (2 - (z.mbc : ℤ) ≤ i ∧ i ≤ len z y + z.mbc) ∧ six y b i m l)
      (scatterG y b) (scatter z y b) := by
  refine Acts.do2 (fun m i => six y b i m) _ _ _ _ _ _ ?_ ?_
  · intro m i h1 h2 h3 h4
    have hl : z.inLine i := has_line (y := y) (by omega) h4
    have g0 := (has_grid (z := z) (y := y) (a := i) (b := b) ⟨by omega, h4⟩ ⟨by omega, by omega⟩).1 m ⟨h1, h2⟩
    have g1 := (has_grid (z := z) (y := y) (a := i) (b := b + 1) ⟨by omega, h4⟩ ⟨by omega, by omega⟩).1 m ⟨h1, h2⟩
    rw [seq_cons, seq_cons, seq_cons, seq_cons, seq_cons, seq_one]
    refine (Acts.seq2 (scatter_one _ (.faddm i m) g0.2.1 ⟨hl, h1, h2⟩ fun M => scatterG_fm M _ _ _)
      (Acts.seq2 (scatter_one _ (.faddp i m) g0.2.2.1 ⟨hl, h1, h2⟩ fun M => scatterG_fp M _ _ _)
      (Acts.seq2 (scatter_one _ (.gaddm i m 1) g0.2.2.2.1 ⟨hl, ⟨h1, h2⟩, by omega⟩ fun M => by rw [scatterG_gm, if_pos rfl])
      (Acts.seq2 (scatter_one _ (.gaddp i m 1) g0.2.2.2.2 ⟨hl, ⟨h1, h2⟩, by omega⟩ fun M => by rw [scatterG_gp, if_pos rfl])
      (Acts.seq2 (scatter_one _ (.gaddm i m 2) g1.2.2.2.1 ⟨hl, ⟨h1, h2⟩, by omega⟩ fun M => by rw [scatterG_gm, if_neg (by omega)])
      (scatter_one _ (.gaddp i m 2) g1.2.2.2.2 ⟨hl, ⟨h1, h2⟩, by omega⟩ fun M => by rw [scatterG_gp, if_neg (by omega)])
      ?_) ?_) ?_) ?_) ?_).congr fun l => Iff.rfl
    all_goals
      refine scatter_apart _ _ ?_ (fun _ _ => ?_) (fun _ _ => ?_) (fun _ _ _ => ?_) (fun _ _ _ => ?_)
      · intro l hl he
        cases y <;> simp only [fmL, fpL, gmL, gpL] at hl he <;> subst he <;> simp at hl <;> omega
      all_goals cases y <;> simp [fmL, fpL, gmL, gpL]
  · intro m i m' i' hne
    have hne' : ¬ (m = m' ∧ i = i') := by simpa using hne
    refine scatter_apart _ _ ?_ (fun _ _ => ?_) (fun _ _ => ?_) (fun _ _ _ => ?_) (fun _ _ _ => ?_)
    · intro l h h'
      unfold six at h h'
      cases y <;> simp only [fmL, fpL, gmL, gpL] at h h' <;> rcases h with rfl | rfl | rfl | rfl | rfl | rfl <;> simp at h' <;> omega
    all_goals exact six_not _ _ _ _ _ (by simp) (by simp) (by simp) (by simp)

/-! ### Fetching a row -/

theorem fetchQ_acts (hb1 : 1 - (z.mbc : ℤ) ≤ b) (hb2 : b ≤ len z (!y) + z.mbc) :
    Acts (fun l => ∃ m i, (1 ≤ m ∧ m ≤ (z.meqn : ℤ)) ∧ (1 - (z.mbc : ℤ) ≤ i ∧ i ≤ len z y + z.mbc) ∧ l = .q1d i m)
      (fun M l => match l with | .q1d i m => M (qL y i b m) | _ => 0) (fetchQ z y b) := by
  refine Acts.do2 (fun m i l => l = .q1d i m) _ _ _ _ _ _ ?_ ?_
  · intro m i h1 h2 h3 h4
    refine Acts.asg ⟨has_line (y := y) h3 h4, h1, h2⟩ fun M => rd_eval ?_ _
    exact ((has_grid (z := z) (y := y) ⟨h3, h4⟩ ⟨hb1, hb2⟩).1 m ⟨h1, h2⟩).1
  · intro m i m' i' hne
    have hne' : ¬ (m = m' ∧ i = i') := by simpa using hne
    constructor
    · rintro l rfl; simp; omega
    · rintro M1 M2 hM l rfl
      dsimp only
      exact hM _ (by cases y <;> simp [qL])

theorem fetchCapa_acts (rat : ℚ) (hb1 : 1 - (z.mbc : ℤ) ≤ b) (hb2 : b ≤ len z (!y) + z.mbc) (hc : z.auxn o.mcapa) (M : Mem)
    (hnz : ∀ i, 1 - (z.mbc : ℤ) ≤ i → i ≤ len z y + z.mbc → M (auxL y i b o.mcapa) ≠ 0) :
    ∃ M', fetchCapa z o y rat b M = some M' ∧
      (∀ i, 1 - (z.mbc : ℤ) ≤ i → i ≤ len z y + z.mbc → M' (dtL y i) = rat / M (auxL y i b o.mcapa)) ∧
      ∀ l, (∀ i, l ≠ dtL y i) → M' l = M l := by
  have hmb : 1 - (z.mbc : ℤ) ≤ len z y + z.mbc + 1 := by have := len_nonneg (z := z) y; omega
  obtain ⟨M', e, h1, h2⟩ := doLoop_inv (fun k (s : Mem) =>
      (∀ i, 1 - (z.mbc : ℤ) ≤ i → i < k → s (dtL y i) = rat / M (auxL y i b o.mcapa)) ∧ ∀ l, (∀ i, l ≠ dtL y i) → s l = M l)
    (1 - (z.mbc : ℤ)) (len z y + z.mbc) (fun i => asg z (dtL y i) (.lit rat / rd z (auxL y i b o.mcapa))) hmb (by
      intro i s x1 x2 ⟨ha, hb⟩
      have hax : s (auxL y i b o.mcapa) = M (auxL y i b o.mcapa) := hb _ (by intro i; cases y <;> simp [auxL, dtL])
      refine ⟨_, asg_eval (v := rat / M (auxL y i b o.mcapa)) ?_ ?_, ?_, ?_⟩
      · have := has_line (z := z) (y := y) x1 x2
        cases y <;> exact this
      · have := rd_eval ((has_grid (z := z) (y := y) ⟨x1, x2⟩ ⟨hb1, hb2⟩).2 _ hc) s
        rw [hax] at this
        exact div_eval (lit_eval _ _) this (hnz i x1 x2)
      · intro i' y1 y2
        by_cases he : i' = i
        · subst he; rw [if_pos rfl]
        · rw [if_neg (by intro h; apply he; cases y <;> simpa [dtL] using h)]
          exact ha i' y1 (by omega)
      · intro l hl
        rw [if_neg (hl i)]; exact hb l hl) M ⟨fun i a b => by omega, fun l _ => rfl⟩
  exact ⟨M', e, fun i a b => h1 i a (by omega), h2⟩

theorem fetchAux_acts (hb1 : 2 - (z.mbc : ℤ) ≤ b) (hb2 : b ≤ len z (!y) + z.mbc - 1) :
    Acts (fun l => ∃ m i, (1 ≤ m ∧ m ≤ (z.maux : ℤ)) ∧ (1 - (z.mbc : ℤ) ≤ i ∧ i ≤ len z y + z.mbc) ∧
      (l = .aux1 i m ∨ l = .aux2 i m ∨ l = .aux3 i m))
      (fun M l => match l with
        | .aux1 i m => M (auxL y i (b - 1) m) | .aux2 i m => M (auxL y i b m) | .aux3 i m => M (auxL y i (b + 1) m)
        | _ => 0) (fetchAux z y b) := by
  refine Acts.do2 (fun m i l => l = .aux1 i m ∨ l = .aux2 i m ∨ l = .aux3 i m) _ _ _ _ _ _ ?_ ?_
  · intro m i h1 h2 h3 h4
    have hl := has_line (z := z) (y := y) h3 h4
    rw [seq_cons, seq_cons, seq_one]
    refine Acts.seq2 (Acts.asg ⟨hl, h1, h2⟩ fun M => rd_eval ((has_grid (z := z) (y := y) ⟨h3, h4⟩ ⟨by omega, by omega⟩).2 m ⟨h1, h2⟩) _)
      (Acts.seq2 (Acts.asg ⟨hl, h1, h2⟩ fun M => rd_eval ((has_grid (z := z) (y := y) ⟨h3, h4⟩ ⟨by omega, by omega⟩).2 m ⟨h1, h2⟩) _)
      (Acts.asg ⟨hl, h1, h2⟩ fun M => rd_eval ((has_grid (z := z) (y := y) ⟨h3, h4⟩ ⟨by omega, by omega⟩).2 m ⟨h1, h2⟩) _) ?_) ?_
    · constructor
      · rintro l rfl; simp
      · rintro M1 M2 hM l rfl
        exact hM _ (by cases y <;> simp [auxL])
    · constructor
      · rintro l (rfl | rfl) <;> simp
      · rintro M1 M2 hM l (rfl | rfl)
        · exact hM _ (by cases y <;> simp [auxL])
        · exact hM _ (by cases y <;> simp [auxL])
  · intro m i m' i' hne
    have hne' : ¬ (m = m' ∧ i = i') := by simpa using hne
    constructor
    · rintro l (rfl | rfl | rfl) <;> simp <;> omega
    · rintro M1 M2 hM l (rfl | rfl | rfl)
      · exact hM _ (by cases y <;> simp [auxL])
      · exact hM _ (by cases y <;> simp [auxL])
      · exact hM _ (by cases y <;> simp [auxL])

/-- The memory holds the data, for the sweeps in one direction. -/
structure HoldsData (z : Shape) (o : Method) (F : Field) (y : Bool) (M : Mem) : Prop where
  q : ∀ i j, z.inGrid i j → comps z.meqn (fun m => M (.q i j m)) = F.Q (ixyOf y) i j
  aux : ∀ i j, z.inGrid i j → comps z.maux (fun m => M (.aux i j m)) = F.A i j
  cap : ∀ i j, z.inGrid i j → F.cap i j = if o.mcapa = 0 then 1 else M (.aux i j o.mcapa)

/-- Also the ratio of the steps, if it is the same everywhere. -/
structure Holds (z : Shape) (o : Method) (S : Scheme) (F : Field) (y : Bool) (M : Mem) : Prop extends HoldsData z o F y M where
  dt : o.mcapa = 0 → ∀ i, z.inLine i → M (dtL y i) = S.ratio (ixyOf y)

theorem HoldsData.val {F : Field} {M : Mem} (h : HoldsData z o F y M) {a b : ℤ}
    (h1 : 1 - (z.mbc : ℤ) ≤ a ∧ a ≤ len z y + z.mbc) (h2 : 1 - (z.mbc : ℤ) ≤ b ∧ b ≤ len z (!y) + z.mbc) :
    comps z.meqn (fun m => M (qL y a b m)) = F.val (ixyOf y) a b := by
  have hg := (grid_iff (z := z) (y := y) a b).1 ⟨h1, h2⟩
  cases y
  · exact h.q a b hg
  · exact h.q b a hg

theorem HoldsData.auxAt {F : Field} {M : Mem} (h : HoldsData z o F y M) {a b : ℤ}
    (h1 : 1 - (z.mbc : ℤ) ≤ a ∧ a ≤ len z y + z.mbc) (h2 : 1 - (z.mbc : ℤ) ≤ b ∧ b ≤ len z (!y) + z.mbc) :
    comps z.maux (fun m => M (auxL y a b m)) = F.auxAt (ixyOf y) a b := by
  have hg := (grid_iff (z := z) (y := y) a b).1 ⟨h1, h2⟩
  cases y
  · exact h.aux a b hg
  · exact h.aux b a hg

theorem HoldsData.capAt {F : Field} {M : Mem} (h : HoldsData z o F y M) {a b : ℤ}
    (h1 : 1 - (z.mbc : ℤ) ≤ a ∧ a ≤ len z y + z.mbc) (h2 : 1 - (z.mbc : ℤ) ≤ b ∧ b ≤ len z (!y) + z.mbc) :
    F.capAt (ixyOf y) a b = if o.mcapa = 0 then 1 else M (auxL y a b o.mcapa) := by
  have hg := (grid_iff (z := z) (y := y) a b).1 ⟨h1, h2⟩
  cases y
  · exact h.cap a b hg
  · exact h.cap b a hg

/-- What is added to the fluxes across. -/
def cross (S : Scheme) (F : Field) (dir : Nat) (a b : ℤ) (up : Bool) (m : ℤ) : ℚ :=
  if 0 < S.trans then spill S F dir a b up m else 0

theorem IsMax.max {P Q : ℚ → Prop} {c d : ℚ} (hc : IsMax P c) (hd : IsMax Q d) : IsMax (fun x => P x ∨ Q x) (max c d) := by
  refine ⟨le_trans hc.1 (le_max_left _ _), ?_, ?_⟩
  · rintro x (h | h)
    · exact le_trans (hc.2.1 x h) (le_max_left _ _)
    · exact le_trans (hd.2.1 x h) (le_max_right _ _)
  · rcases le_total c d with h | h
    · rw [max_eq_right h]
      rcases hd.2.2 with h' | h'
      · exact Or.inl h'
      · exact Or.inr (Or.inr h')
    · rw [max_eq_left h]
      rcases hc.2.2 with h' | h'
      · exact Or.inl h'
      · exact Or.inr (Or.inl h')

theorem IsMax.congr {P Q : ℚ → Prop} {c : ℚ} (h : IsMax P c) (e : ∀ x, P x ↔ Q x) : IsMax Q c :=
  ⟨h.1, fun x hx => h.2.1 x ((e x).2 hx), h.2.2.imp id fun h => (e c).1 h⟩

/-- The result of a slice. -/
structure SliceOut (z : Shape) (S : Scheme) (F : Field) (y : Bool) (b : ℤ) (M M' : Mem) : Prop where
  fm : ∀ a m, 1 ≤ a → a ≤ len z y + 1 → z.eqn m →
    M' (fmL y a b m) = M (fmL y a b m) + (left S F (ixyOf y) a b m + secondOrder S F (ixyOf y) a b m)
  fp : ∀ a m, 1 ≤ a → a ≤ len z y + 1 → z.eqn m →
    M' (fpL y a b m) = M (fpL y a b m) + (-right S F (ixyOf y) a b m + secondOrder S F (ixyOf y) a b m)
  gm1 : ∀ a m, 1 ≤ a → a ≤ len z y → z.eqn m → M' (gmL y a b m) = M (gmL y a b m) + cross S F (ixyOf y) a b false m
  gp1 : ∀ a m, 1 ≤ a → a ≤ len z y → z.eqn m → M' (gpL y a b m) = M (gpL y a b m) + cross S F (ixyOf y) a b false m
  gm2 : ∀ a m, 1 ≤ a → a ≤ len z y → z.eqn m → M' (gmL y a (b + 1) m) = M (gmL y a (b + 1) m) + cross S F (ixyOf y) a b true m
  gp2 : ∀ a m, 1 ≤ a → a ≤ len z y → z.eqn m → M' (gpL y a (b + 1) m) = M (gpL y a (b + 1) m) + cross S F (ixyOf y) a b true m
  fmO : ∀ a b' m, b' ≠ b → M' (fmL y a b' m) = M (fmL y a b' m) ∧ M' (fpL y a b' m) = M (fpL y a b' m)
  gmO : ∀ a b' m, b' ≠ b → b' ≠ b + 1 → M' (gmL y a b' m) = M (gmL y a b' m) ∧ M' (gpL y a b' m) = M (gpL y a b' m)
  keepQ : ∀ i j m, M' (.q i j m) = M (.q i j m)
  keepA : ∀ i j m, M' (.aux i j m) = M (.aux i j m)
  keepD : ∀ i, M' (dtL (!y) i) = M (dtL (!y) i)
  cfl : ∃ c, IsMax (rowCourant z S F (ixyOf y) (len z y) b) c ∧ M' .cflgrid = max (M .cflgrid) c

/-- The routine for the fluxes does what it should. -/
def FluxOk (z : Shape) (S : Scheme) (F : Field) (flux : Flux) : Prop :=
  ∀ (y : Bool) (b : ℤ), 2 - (z.mbc : ℤ) ≤ b → b ≤ len z (!y) + z.mbc - 1 → ∀ M,
    Line z S F (ixyOf y) b (len z y) (dtL y) M →
    ∃ M', flux (ixyOf y) (len z y) (dtL y) M = some M' ∧ FluxOut z S F (ixyOf y) b (len z y) M M'

theorem gslice_spec {S : Scheme} {F : Field} {flux : Flux} (hset : Setting z o) (hflux : FluxOk z S F flux)
    (hb1 : 2 - (z.mbc : ℤ) ≤ b) (hb2 : b ≤ len z (!y) + z.mbc - 1) (rat : ℚ) (hrat : rat = S.ratio (ixyOf y)) (M : Mem)
    (hH : Holds z o S F y M) (hnz : ∀ i j, z.inGrid i j → F.cap i j ≠ 0) :
    ∃ M', gslice z o flux y rat b M = some M' ∧ SliceOut z S F y b M M' ∧ (o.mcapa = 0 → ∀ i, M' (dtL y i) = M (dtL y i)) := by
  have n0 := len_nonneg (z := z) y
  have mb := hset.mbc
  -- q
  obtain ⟨M1, e1, a1, b1⟩ := fetchQ_acts (z := z) (y := y) (b := b) (by omega) (by omega) M
  have k1 : ∀ l, (∀ i m, l ≠ .q1d i m) → M1 l = M l := fun l h => b1 l (by rintro ⟨m, i, _, _, rfl⟩; exact h _ _ rfl)
  -- capacity
  obtain ⟨M2, e2, d2, k2, k2'⟩ : ∃ M2, when (decide (0 < o.mcapa)) (fetchCapa z o y rat b) M1 = some M2 ∧
      (∀ i, 1 - (z.mbc : ℤ) ≤ i → i ≤ len z y + z.mbc → M2 (dtL y i) = lam S F (ixyOf y) i b) ∧
      (∀ l, (∀ i, l ≠ dtL y i) → M2 l = M1 l) ∧ (o.mcapa = 0 → M2 = M1) := by
    by_cases hc : o.mcapa = 0
    · refine ⟨M1, by rw [when_false (by simp; omega)], ?_, fun l _ => rfl, fun _ => rfl⟩
      intro i x1 x2
      rw [k1 _ (by intro i m; cases y <;> simp [dtL]), hH.dt hc i (has_line (y := y) x1 x2)]
      unfold lam
      rw [hH.capAt ⟨x1, x2⟩ ⟨by omega, by omega⟩, if_pos hc, div_one]
    · have ha : z.auxn o.mcapa := hset.capa.resolve_left hc
      have hax : ∀ i, M1 (auxL y i b o.mcapa) = M (auxL y i b o.mcapa) := fun i => k1 _ (by intro i m; cases y <;> simp [auxL])
      have hcap : ∀ i, 1 - (z.mbc : ℤ) ≤ i → i ≤ len z y + z.mbc → M1 (auxL y i b o.mcapa) = F.capAt (ixyOf y) i b := by
        intro i x1 x2
        rw [hH.capAt ⟨x1, x2⟩ ⟨by omega, by omega⟩, if_neg hc, hax]
      obtain ⟨M2, e, h1, h2⟩ := fetchCapa_acts (z := z) (o := o) (y := y) (b := b) rat (by omega) (by omega) ha M1 (by
        intro i x1 x2
        rw [hcap i x1 x2]
        have hg := (grid_iff (z := z) (y := y) i b).1 ⟨⟨x1, x2⟩, by omega, by omega⟩
        cases y
        · exact hnz i b hg
        · exact hnz b i hg)
      refine ⟨M2, by rw [when_true (by simp; have := ha.1; omega)]; exact e, ?_, h2, fun h => absurd h hc⟩
      intro i x1 x2
      rw [h1 i x1 x2, hcap i x1 x2, hrat]; rfl
  -- auxiliary values
  obtain ⟨M3, e3, a3, k3⟩ : ∃ M3, when (decide (0 < z.maux)) (fetchAux z y b) M2 = some M3 ∧
      (∀ i, 1 - (z.mbc : ℤ) ≤ i → i ≤ len z y + z.mbc →
        comps z.maux (fun m => M3 (.aux1 i m)) = comps z.maux (fun m => M2 (auxL y i (b - 1) m)) ∧
        comps z.maux (fun m => M3 (.aux2 i m)) = comps z.maux (fun m => M2 (auxL y i b m)) ∧
        comps z.maux (fun m => M3 (.aux3 i m)) = comps z.maux (fun m => M2 (auxL y i (b + 1) m))) ∧
      ∀ l, (∀ i m, l ≠ .aux1 i m ∧ l ≠ .aux2 i m ∧ l ≠ .aux3 i m) → M3 l = M2 l := by
    by_cases hx : 0 < z.maux
    · obtain ⟨M3, e, h1, h2⟩ := fetchAux_acts (z := z) (y := y) hb1 hb2 M2
      refine ⟨M3, by rw [when_true (by simpa using hx)]; exact e, ?_, ?_⟩
      · intro i x1 x2
        have key : ∀ (f : ℤ → Loc) (g : ℤ → Loc), (∀ m, z.auxn m → M3 (f m) = M2 (g m)) →
            comps z.maux (fun m => M3 (f m)) = comps z.maux (fun m => M2 (g m)) := by
          intro f g h
          funext m
          unfold comps
          by_cases hm : 1 ≤ m ∧ m ≤ (z.maux : ℤ)
          · rw [if_pos hm, if_pos hm]; exact h m hm
          · rw [if_neg hm, if_neg hm]
        exact ⟨key _ _ fun m hm => h1 _ ⟨m, i, hm, ⟨x1, x2⟩, Or.inl rfl⟩,
          key _ _ fun m hm => h1 _ ⟨m, i, hm, ⟨x1, x2⟩, Or.inr (Or.inl rfl)⟩,
          key _ _ fun m hm => h1 _ ⟨m, i, hm, ⟨x1, x2⟩, Or.inr (Or.inr rfl)⟩⟩
      · intro l hl
        exact h2 l (by rintro ⟨m, i, _, _, (h | h | h)⟩; exacts [(hl i m).1 h, (hl i m).2.1 h, (hl i m).2.2 h])
    · have h0 : z.maux = 0 := by omega
      have hc : ∀ f g : Vec, comps z.maux f = comps z.maux g := by
        intro f g; funext m; unfold comps
        rw [if_neg (by rw [h0]; omega), if_neg (by rw [h0]; omega)]
      exact ⟨M2, by rw [when_false (by simpa using hx)], fun i _ _ => ⟨hc _ _, hc _ _, hc _ _⟩, fun l _ => rfl⟩
  have k3' : ∀ i j m, M3 (.q i j m) = M (.q i j m) ∧ M3 (.aux i j m) = M (.aux i j m) := by
    intro i j m
    constructor
    · rw [k3 _ (by simp), k2 _ (by intro i; cases y <;> simp [dtL]), k1 _ (by simp)]
    · rw [k3 _ (by simp), k2 _ (by intro i; cases y <;> simp [dtL]), k1 _ (by simp)]
  have hA2 : ∀ i b' m, M2 (auxL y i b' m) = M (auxL y i b' m) := by
    intro i b' m
    rw [k2 _ (by intro i; cases y <;> simp [dtL, auxL]), k1 _ (by intro i m; cases y <;> simp [auxL])]
  have hline : Line z S F (ixyOf y) b (len z y) (dtL y) M3 := by
    constructor
    · intro i x1 x2
      rw [← hH.val (a := i) (b := b) ⟨x1, x2⟩ ⟨by omega, by omega⟩]
      funext m
      unfold comps
      by_cases hm : 1 ≤ m ∧ m ≤ (z.meqn : ℤ)
      · rw [if_pos hm, if_pos hm]
        show M3 (.q1d i m) = M (qL y i b m)
        rw [k3 _ (by simp), k2 _ (by intro i; cases y <;> simp [dtL])]
        exact a1 _ ⟨m, i, hm, ⟨x1, x2⟩, rfl⟩
      · rw [if_neg hm, if_neg hm]
    · intro i x1 x2
      rw [← hH.auxAt (a := i) (b := b - 1) ⟨x1, x2⟩ ⟨by omega, by omega⟩, (a3 i x1 x2).1]
      simp only [hA2]
    · intro i x1 x2
      rw [← hH.auxAt (a := i) (b := b) ⟨x1, x2⟩ ⟨by omega, by omega⟩, (a3 i x1 x2).2.1]
      simp only [hA2]
    · intro i x1 x2
      rw [← hH.auxAt (a := i) (b := b + 1) ⟨x1, x2⟩ ⟨by omega, by omega⟩, (a3 i x1 x2).2.2]
      simp only [hA2]
    · intro i x1 x2
      rw [k3 _ (by intro i m; cases y <;> simp [dtL])]
      exact d2 i x1 x2
  obtain ⟨M4, e4, hO⟩ := hflux y b hb1 hb2 M3 hline
  have e5 := asg_eval (z := z) (l := .cflgrid) (M := M4) trivial
    (max_eval (rd_eval (show z.has .cflgrid from trivial) M4) (rd_eval (show z.has .cfl1d from trivial) M4))
  set M5 : Mem := fun l' => if l' = .cflgrid then max (M4 .cflgrid) (M4 .cfl1d) else M4 l' with hM5
  have k5 : ∀ l, l ≠ .cflgrid → M5 l = M4 l := fun l h => if_neg h
  obtain ⟨M6, e6, a6, b6⟩ := scatter_acts (z := z) (y := y) mb hb1 hb2 M5
  have k6 : ∀ l, (∀ i j m, l ≠ .fm i j m) → (∀ i j m, l ≠ .fp i j m) → (∀ i j m, l ≠ .gm i j m) → (∀ i j m, l ≠ .gp i j m) →
      M6 l = M5 l := fun l h1 h2 h3 h4 => b6 l (by rintro ⟨m, i, _, _, h⟩; exact six_not _ _ _ _ _ h1 h2 h3 h4 h)
  -- the fluxes are as before up to here
  have kf : ∀ l, (l = .cflgrid ∨ (∃ i j m, l = .fm i j m ∨ l = .fp i j m ∨ l = .gm i j m ∨ l = .gp i j m ∨ l = .q i j m ∨ l = .aux i j m)) →
      M4 l = M l := by
    intro l hl
    have hns : NotScratch l := by
      rcases hl with rfl | ⟨i, j, m, (rfl | rfl | rfl | rfl | rfl | rfl)⟩ <;> simp [NotScratch]
    rw [hO.keep l hns, k3, k2, k1]
    all_goals rcases hl with rfl | ⟨i, j, m, (rfl | rfl | rfl | rfl | rfl | rfl)⟩
    all_goals first | (simp; done) | (intro i; cases y <;> simp [dtL])
  have kL : ∀ a b' m, M5 (fmL y a b' m) = M (fmL y a b' m) ∧ M5 (fpL y a b' m) = M (fpL y a b' m) ∧
      M5 (gmL y a b' m) = M (gmL y a b' m) ∧ M5 (gpL y a b' m) = M (gpL y a b' m) := by
    intro a b' m
    refine ⟨?_, ?_, ?_, ?_⟩ <;> rw [k5 _ (by cases y <;> simp [fmL, fpL, gmL, gpL])] <;> apply kf <;> right <;> cases y <;>
      simp [fmL, fpL, gmL, gpL]
  refine ⟨M6, ?_, ?_, ?_⟩
  · unfold gslice
    rw [seq_step e1, seq_step e2, seq_step e3, seq_step e4, seq_step e5, seq_step e6, seq_done]
  · constructor
    · intro a m x1 x2 hm
      rw [a6 _ ⟨m, a, hm, ⟨by omega, by omega⟩, Or.inl rfl⟩, scatterG_fm, (kL _ _ _).1, k5 _ (by simp), hO.faddm a m x1 x2 hm]
    · intro a m x1 x2 hm
      rw [a6 _ ⟨m, a, hm, ⟨by omega, by omega⟩, Or.inr (Or.inl rfl)⟩, scatterG_fp, (kL _ _ _).2.1, k5 _ (by simp), hO.faddp a m x1 x2 hm]
    · intro a m x1 x2 hm
      rw [a6 _ ⟨m, a, hm, ⟨by omega, by omega⟩, Or.inr (Or.inr (Or.inl rfl))⟩, scatterG_gm, (kL _ _ _).2.2.1, k5 _ (by simp), if_pos rfl,
        hO.gaddm a m 1 x1 x2 hm (Or.inl rfl)]
      rfl
    · intro a m x1 x2 hm
      rw [a6 _ ⟨m, a, hm, ⟨by omega, by omega⟩, Or.inr (Or.inr (Or.inr (Or.inl rfl)))⟩, scatterG_gp, (kL _ _ _).2.2.2, k5 _ (by simp), if_pos rfl,
        hO.gaddp a m 1 x1 x2 hm (Or.inl rfl)]
      rfl
    · intro a m x1 x2 hm
      rw [a6 _ ⟨m, a, hm, ⟨by omega, by omega⟩, Or.inr (Or.inr (Or.inr (Or.inr (Or.inl rfl))))⟩, scatterG_gm, (kL _ _ _).2.2.1, k5 _ (by simp),
        if_neg (by omega), hO.gaddm a m 2 x1 x2 hm (Or.inr rfl)]
      rfl
    · intro a m x1 x2 hm
      rw [a6 _ ⟨m, a, hm, ⟨by omega, by omega⟩, Or.inr (Or.inr (Or.inr (Or.inr (Or.inr rfl))))⟩, scatterG_gp, (kL _ _ _).2.2.2, k5 _ (by simp),
        if_neg (by omega), hO.gaddp a m 2 x1 x2 hm (Or.inr rfl)]
      rfl
    · intro a b' m hne
      constructor
      · rw [b6 _ (by rintro ⟨m', i', _, _, h⟩; unfold six at h; cases y <;> simp [fmL, fpL, gmL, gpL] at h <;> omega)]
        exact (kL _ _ _).1
      · rw [b6 _ (by rintro ⟨m', i', _, _, h⟩; unfold six at h; cases y <;> simp [fmL, fpL, gmL, gpL] at h <;> omega)]
        exact (kL _ _ _).2.1
    · intro a b' m hne hne'
      constructor
      · rw [b6 _ (by rintro ⟨m', i', _, _, h⟩; unfold six at h; cases y <;> simp [fmL, fpL, gmL, gpL] at h <;> omega)]
        exact (kL _ _ _).2.2.1
      · rw [b6 _ (by rintro ⟨m', i', _, _, h⟩; unfold six at h; cases y <;> simp [fmL, fpL, gmL, gpL] at h <;> omega)]
        exact (kL _ _ _).2.2.2
    · intro i j m
      rw [k6 _ (by simp) (by simp) (by simp) (by simp), k5 _ (by simp)]
      exact kf _ (Or.inr ⟨i, j, m, by simp⟩)
    · intro i j m
      rw [k6 _ (by simp) (by simp) (by simp) (by simp), k5 _ (by simp)]
      exact kf _ (Or.inr ⟨i, j, m, by simp⟩)
    · intro i
      rw [k6 _ (by cases y <;> simp [dtL]) (by cases y <;> simp [dtL]) (by cases y <;> simp [dtL]) (by cases y <;> simp [dtL]),
        k5 _ (by cases y <;> simp [dtL]), hO.keep _ (by cases y <;> simp [dtL, NotScratch]), k3 _ (by cases y <;> simp [dtL]),
        k2 _ (by cases y <;> simp [dtL]), k1 _ (by cases y <;> simp [dtL])]
    · refine ⟨M4 .cfl1d, ?_, ?_⟩
      · obtain ⟨h1, h2, h3⟩ := hO.cfl
        refine ⟨h1, ?_, ?_⟩
        · rintro x ⟨i, w, hp, rfl⟩; exact h2 i w hp
        · rcases h3 with h3 | ⟨i, w, hp, he⟩
          · exact Or.inl h3
          · exact Or.inr ⟨i, w, hp, he⟩
      · rw [k6 _ (by simp) (by simp) (by simp) (by simp), hM5]
        dsimp only
        rw [if_pos rfl, kf _ (Or.inl rfl)]
  · intro hc i
    rw [k6 _ (by cases y <;> simp [dtL]) (by cases y <;> simp [dtL]) (by cases y <;> simp [dtL]) (by cases y <;> simp [dtL]),
      k5 _ (by cases y <;> simp [dtL]), hO.keep _ (by cases y <;> simp [dtL, NotScratch]), k3 _ (by cases y <;> simp [dtL]),
      k2' hc, k1 _ (by cases y <;> simp [dtL])]

end

end Fclaw.Wave

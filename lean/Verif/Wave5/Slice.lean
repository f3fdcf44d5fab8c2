import Verif.Wave5.Flux
/-
A slice with the routines of Clawpack 5, in either direction.
-/
set_option autoImplicit false
set_option linter.unusedSimpArgs false
set_option linter.unusedTactic false
set_option linter.unreachableTactic false
namespace Fclaw.Wave5

open Wave
open Fort (doLoop loop range mem_range)

def scatter5 (z : Shape) (y : Bool) (b : ℤ) : List Prog :=
  [addTo z 1 (len z y + 1) (fun i m => fmL y i b m) .faddm,
    addTo z 1 (len z y + 1) (fun i m => fpL y i b m) .faddp,
    addTo z 1 (len z y + 1) (fun i m => gmL y i b m) (fun i m => .gaddm i m 1),
    addTo z 1 (len z y + 1) (fun i m => gpL y i b m) (fun i m => .gaddp i m 1),
    addTo z 1 (len z y + 1) (fun i m => gmL y i (b + 1) m) (fun i m => .gaddm i m 2),
    addTo z 1 (len z y + 1) (fun i m => gpL y i (b + 1) m) (fun i m => .gaddp i m 2)]

def fetchQ5 (z : Shape) (y : Bool) (b : ℤ) : Prog :=
  assign z z.meqn (1 - z.mbc) (len z y + z.mbc) .q1d (fun i m => rd z (qL y i b m))

def fetchDt5 (z : Shape) (o : Method) (y : Bool) (rat : ℚ) (b : ℤ) : Prog :=
  if 0 < o.mcapa then doLoop (1 - z.mbc) (len z y + z.mbc) fun i => asg z (dtL y i) (.lit rat / rd z (auxL y i b o.mcapa))
  else doLoop (1 - z.mbc) (z.maxm + z.mbc) fun i => asg z (dtL y i) (.lit rat)

def fetchAux5 (z : Shape) (y : Bool) (b : ℤ) : Prog :=
  seq [assign z z.maux (1 - z.mbc) (len z y + z.mbc) .aux1 (fun i m => rd z (auxL y i (b - 1) m)),
    assign z z.maux (1 - z.mbc) (len z y + z.mbc) .aux2 (fun i m => rd z (auxL y i b m)),
    assign z z.maux (1 - z.mbc) (len z y + z.mbc) .aux3 (fun i m => rd z (auxL y i (b + 1) m))]

def gslice5 (z : Shape) (o : Method) (flux : Flux) (y : Bool) (rat : ℚ) (b : ℤ) : Prog :=
  seq ([fetchQ5 z y b, fetchDt5 z o y rat b, when (decide (0 < z.maux)) (fetchAux5 z y b),
    flux (ixyOf y) (len z y) (dtL y), asg z .cflgrid (max (rd z .cflgrid) (rd z .cfl1d))] ++ scatter5 z y b)

theorem xSlice5_eq (z : Shape) (o : Method) (flux : Flux) : xSlice5 z o flux = gslice5 z o flux false := rfl
theorem ySlice5_eq (z : Shape) (o : Method) (flux : Flux) : ySlice5 z o flux = gslice5 z o flux true := rfl

section
variable {z : Shape} {o : Method} {y : Bool} {b : ℤ}

theorem fetchQ5_eq (hb1 : 1 - (z.mbc : ℤ) ≤ b) (hb2 : b ≤ len z (!y) + z.mbc) : fetchQ5 z y b = fetchQ z y b := by
  refine acts_unique (Acts.congr (?_ : Acts (fun l => ∃ i m, (1 - (z.mbc : ℤ) ≤ i ∧ i ≤ len z y + z.mbc) ∧ (1 ≤ m ∧ m ≤ (z.meqn : ℤ)) ∧ l = .q1d i m)
      _ _) fun l => ⟨fun ⟨i, m, h1, h2, h3⟩ => ⟨m, i, h2, h1, h3⟩, fun ⟨m, i, h1, h2, h3⟩ => ⟨i, m, h2, h1, h3⟩⟩) (fetchQ_acts hb1 hb2)
  refine Acts.do2 (fun i m l => l = .q1d i m) _ _ _ _ _ _ ?_ ?_
  · intro i m h3 h4 h1 h2
    refine Acts.asg ⟨has_line (y := y) h3 h4, h1, h2⟩ fun M => rd_eval ?_ _
    exact ((has_grid (z := z) (y := y) ⟨h3, h4⟩ ⟨hb1, hb2⟩).1 m ⟨h1, h2⟩).1
  · intro i m i' m' hne
    have hne' : ¬ (i = i' ∧ m = m') := by simpa using hne
    constructor
    · rintro l rfl; simp; omega
    · rintro M1 M2 hM l rfl
      dsimp only
      exact hM _ (by cases y <;> simp [qL])

/-- What `fetchAux` puts where. -/
def auxG (y : Bool) (b : ℤ) (M : Mem) : Loc → ℚ
  | .aux1 i m => M (auxL y i (b - 1) m) | .aux2 i m => M (auxL y i b m) | .aux3 i m => M (auxL y i (b + 1) m)
  | _ => 0

def isAux (l : Loc) : Prop := (∃ i m, l = .aux1 i m) ∨ (∃ i m, l = .aux2 i m) ∨ ∃ i m, l = .aux3 i m

theorem aux_apart {S T : Loc → Prop} (hS : ∀ l, S l → isAux l) (hT : ∀ l, T l → isAux l) (hd : ∀ l, S l → ¬ T l) : Apart S T (auxG y b) := by
  refine ⟨hd, fun M1 M2 hM l hl => ?_⟩
  have k : ∀ a b' m, M1 (auxL y a b' m) = M2 (auxL y a b' m) := fun a b' m => hM _ fun h => by
    have := hT _ h
    unfold isAux at this
    cases y <;> simp [auxL] at this
  rcases hS l hl with ⟨i, m, rfl⟩ | ⟨i, m, rfl⟩ | ⟨i, m, rfl⟩ <;> exact k _ _ _

theorem assign_aux (hb : ℤ) (h1 : 1 - (z.mbc : ℤ) ≤ hb) (h2 : hb ≤ len z (!y) + z.mbc) (dst : ℤ → ℤ → Loc)
    (hd : ∀ i m, z.inLine i → z.auxn m → z.has (dst i m)) (hi : ∀ i m, isAux (dst i m)) (hinj : ∀ i m i' m', dst i m = dst i' m' → i = i' ∧ m = m')
    (hG : ∀ M i m, auxG y b M (dst i m) = M (auxL y i hb m)) :
    Acts (fun l => ∃ i m, (1 - (z.mbc : ℤ) ≤ i ∧ i ≤ len z y + z.mbc) ∧ (1 ≤ m ∧ m ≤ (z.maux : ℤ)) ∧ l = dst i m) (auxG y b)
      (assign z z.maux (1 - z.mbc) (len z y + z.mbc) dst (fun i m => rd z (auxL y i hb m))) := by
  refine Acts.do2 (fun i m l => l = dst i m) _ _ _ _ _ _ ?_ ?_
  · intro i m i1 i2 m1 m2
    refine Acts.asg (hd i m (has_line (y := y) i1 i2) ⟨m1, m2⟩) fun M => ?_
    rw [hG]
    exact rd_eval ((has_grid (z := z) (y := y) ⟨i1, i2⟩ ⟨h1, h2⟩).2 m ⟨m1, m2⟩) M
  · intro i m i' m' hne
    refine aux_apart ?_ ?_ ?_
    · rintro l rfl; exact hi _ _
    · rintro l rfl; exact hi _ _
    · rintro l rfl e
      obtain ⟨h3, h4⟩ := hinj _ _ _ _ e
      exact hne (by rw [h3, h4])

theorem fetchAux5_eq (hb1 : 2 - (z.mbc : ℤ) ≤ b) (hb2 : b ≤ len z (!y) + z.mbc - 1) : fetchAux5 z y b = fetchAux z y b := by
  have e : Acts _ (auxG y b) (fetchAux z y b) := (by
    have := fetchAux_acts (z := z) (y := y) hb1 hb2
    have hg : (fun (M : Mem) (l : Loc) => match l with
        | .aux1 i m => M (auxL y i (b - 1) m) | .aux2 i m => M (auxL y i b m) | .aux3 i m => M (auxL y i (b + 1) m)
        | _ => 0) = auxG y b := by
      funext M l; cases l <;> rfl
    rw [← hg]; exact this)
  refine acts_unique (Acts.congr (S := fun l => (∃ i m, (1 - (z.mbc : ℤ) ≤ i ∧ i ≤ len z y + z.mbc) ∧ (1 ≤ m ∧ m ≤ (z.maux : ℤ)) ∧ l = .aux1 i m) ∨
      (∃ i m, (1 - (z.mbc : ℤ) ≤ i ∧ i ≤ len z y + z.mbc) ∧ (1 ≤ m ∧ m ≤ (z.maux : ℤ)) ∧ l = .aux2 i m) ∨
      ∃ i m, (1 - (z.mbc : ℤ) ≤ i ∧ i ≤ len z y + z.mbc) ∧ (1 ≤ m ∧ m ≤ (z.maux : ℤ)) ∧ l = .aux3 i m) ?_ ?_) e
  · unfold fetchAux5
    rw [seq_cons, seq_cons, seq_one]
    refine Acts.seq2 (assign_aux (b - 1) (by omega) (by omega) .aux1 (fun i m h1 h2 => ⟨h1, h2⟩) (fun i m => Or.inl ⟨i, m, rfl⟩) (by intro i m i' m' e; injection e with e1 e2; exact ⟨e1, e2⟩) (fun M i m => rfl))
      (Acts.seq2 (assign_aux b (by omega) (by omega) .aux2 (fun i m h1 h2 => ⟨h1, h2⟩) (fun i m => Or.inr (Or.inl ⟨i, m, rfl⟩)) (by intro i m i' m' e; injection e with e1 e2; exact ⟨e1, e2⟩) (fun M i m => rfl))
      (assign_aux (b + 1) (by omega) (by omega) .aux3 (fun i m h1 h2 => ⟨h1, h2⟩) (fun i m => Or.inr (Or.inr ⟨i, m, rfl⟩)) (by intro i m i' m' e; injection e with e1 e2; exact ⟨e1, e2⟩) (fun M i m => rfl)) ?_) ?_
    · refine aux_apart ?_ ?_ ?_
      · rintro l ⟨i, m, _, _, rfl⟩; exact Or.inr (Or.inr ⟨i, m, rfl⟩)
      · rintro l ⟨i, m, _, _, rfl⟩; exact Or.inr (Or.inl ⟨i, m, rfl⟩)
      · rintro l ⟨i, m, _, _, rfl⟩ ⟨i', m', _, _, e⟩; simp at e
    · refine aux_apart ?_ ?_ ?_
      · rintro l (⟨i, m, _, _, rfl⟩ | ⟨i, m, _, _, rfl⟩)
        · exact Or.inr (Or.inl ⟨i, m, rfl⟩)
        · exact Or.inr (Or.inr ⟨i, m, rfl⟩)
      · rintro l ⟨i, m, _, _, rfl⟩; exact Or.inl ⟨i, m, rfl⟩
      · rintro l (⟨i, m, _, _, rfl⟩ | ⟨i, m, _, _, rfl⟩) ⟨i', m', _, _, e⟩ <;> simp at e
  · intro l
    constructor
    · rintro (⟨i, m, h1, h2, h⟩ | ⟨i, m, h1, h2, h⟩ | ⟨i, m, h1, h2, h⟩) <;> exact ⟨m, i, h2, h1, by simp [h]⟩
    · rintro ⟨m, i, h2, h1, (h | h | h)⟩
      · exact Or.inl ⟨i, m, h1, h2, h⟩
      · exact Or.inr (Or.inl ⟨i, m, h1, h2, h⟩)
      · exact Or.inr (Or.inr ⟨i, m, h1, h2, h⟩)

/-- The six elements, in the part of the arrays that is assigned. -/
def part (z : Shape) (y : Bool) (d : ℤ → ℤ → Loc) (l : Loc) : Prop :=
  ∃ i m, (1 ≤ i ∧ i ≤ len z y + 1) ∧ (1 ≤ m ∧ m ≤ (z.meqn : ℤ)) ∧ l = d i m

theorem addTo_acts (d e : ℤ → ℤ → Loc) (hd : ∀ i m, 1 ≤ i → i ≤ len z y + 1 → z.eqn m → z.has (d i m) ∧ z.has (e i m))
    (hG : ∀ M i m, scatterG y b M (d i m) = M (d i m) + M (e i m)) (hinj : ∀ i m i' m', d i m = d i' m' → i = i' ∧ m = m')
    (h1 : ∀ i m i' m', d i m ≠ .faddm i' m') (h2 : ∀ i m i' m', d i m ≠ .faddp i' m')
    (h3 : ∀ i m i' m' k, d i m ≠ .gaddm i' m' k) (h4 : ∀ i m i' m' k, d i m ≠ .gaddp i' m' k) :
    Acts (part z y d) (scatterG y b) (addTo z 1 (len z y + 1) d e) := by
  refine Acts.do2 (fun i m l => l = d i m) _ _ _ _ _ _ ?_ ?_
  · intro i m i1 i2 m1 m2
    exact scatter_one _ _ (hd i m i1 i2 ⟨m1, m2⟩).1 (hd i m i1 i2 ⟨m1, m2⟩).2 fun M => hG M i m
  · intro i m i' m' hne
    refine scatter_apart _ _ ?_ (fun a c h => h1 _ _ _ _ h.symm) (fun a c h => h2 _ _ _ _ h.symm) (fun a c k h => h3 _ _ _ _ _ h.symm)
      (fun a c k h => h4 _ _ _ _ _ h.symm)
    rintro l rfl e
    obtain ⟨x1, x2⟩ := hinj _ _ _ _ e
    exact hne (by rw [x1, x2])

theorem scatter5_acts (hm2 : 2 ≤ z.mbc) (hb1 : 2 - (z.mbc : ℤ) ≤ b) (hb2 : b ≤ len z (!y) + z.mbc - 1) :
    Acts (fun l => ∃ m i, (1 ≤ m ∧ m ≤ (z.meqn : ℤ)) ∧ (1 ≤ i ∧ i ≤ len z y + 1) ∧ six y b i m l)
      (scatterG y b) (seq (scatter5 z y b)) := by
  have n0 := len_nonneg (z := z) y
  have hl : ∀ i, 1 ≤ i → i ≤ len z y + 1 → z.inLine i := fun i h1 h2 => has_line (y := y) (by omega) (by omega)
  have g0 := fun i m (h1 : 1 ≤ i) (h2 : i ≤ len z y + 1) (hm : z.eqn m) => (has_grid (z := z) (y := y) (a := i) (b := b) ⟨by omega, by omega⟩ ⟨by omega, by omega⟩).1 m hm
  have g1 := fun i m (h1 : 1 ≤ i) (h2 : i ≤ len z y + 1) (hm : z.eqn m) => (has_grid (z := z) (y := y) (a := i) (b := b + 1) ⟨by omega, by omega⟩ ⟨by omega, by omega⟩).1 m hm
  unfold scatter5
  rw [seq_cons, seq_cons, seq_cons, seq_cons, seq_cons, seq_one]
  refine (Acts.seq2 (addTo_acts (b := b) (fun i m => fmL y i b m) .faddm (fun i m a c hm => ⟨(g0 i m a c hm).2.1, hl i a c, hm⟩) (fun M i m => scatterG_fm M _ _ _) ?_ ?_ ?_ ?_ ?_)
    (Acts.seq2 (addTo_acts (b := b) (fun i m => fpL y i b m) .faddp (fun i m a c hm => ⟨(g0 i m a c hm).2.2.1, hl i a c, hm⟩) (fun M i m => scatterG_fp M _ _ _) ?_ ?_ ?_ ?_ ?_)
    (Acts.seq2 (addTo_acts (b := b) (fun i m => gmL y i b m) (fun i m => .gaddm i m 1) (fun i m a c hm => ⟨(g0 i m a c hm).2.2.2.1, hl i a c, hm, by omega⟩) (fun M i m => by rw [scatterG_gm, if_pos rfl]) ?_ ?_ ?_ ?_ ?_)
    (Acts.seq2 (addTo_acts (b := b) (fun i m => gpL y i b m) (fun i m => .gaddp i m 1) (fun i m a c hm => ⟨(g0 i m a c hm).2.2.2.2, hl i a c, hm, by omega⟩) (fun M i m => by rw [scatterG_gp, if_pos rfl]) ?_ ?_ ?_ ?_ ?_)
    (Acts.seq2 (addTo_acts (b := b) (fun i m => gmL y i (b + 1) m) (fun i m => .gaddm i m 2) (fun i m a c hm => ⟨(g1 i m a c hm).2.2.2.1, hl i a c, hm, by omega⟩) (fun M i m => by rw [scatterG_gm, if_neg (by omega)]) ?_ ?_ ?_ ?_ ?_)
    (addTo_acts (b := b) (fun i m => gpL y i (b + 1) m) (fun i m => .gaddp i m 2) (fun i m a c hm => ⟨(g1 i m a c hm).2.2.2.2, hl i a c, hm, by omega⟩) (fun M i m => by rw [scatterG_gp, if_neg (by omega)]) ?_ ?_ ?_ ?_ ?_)
    ?_) ?_) ?_) ?_) ?_).congr ?_
  case refine_36 =>
    intro l
    simp only [part]
    constructor
    · rintro (⟨i, m, hi, hm, h⟩ | ⟨i, m, hi, hm, h⟩ | ⟨i, m, hi, hm, h⟩ | ⟨i, m, hi, hm, h⟩ | ⟨i, m, hi, hm, h⟩ | ⟨i, m, hi, hm, h⟩)
      · exact ⟨m, i, hm, hi, Or.inl h⟩
      · exact ⟨m, i, hm, hi, Or.inr (Or.inl h)⟩
      · exact ⟨m, i, hm, hi, Or.inr (Or.inr (Or.inl h))⟩
      · exact ⟨m, i, hm, hi, Or.inr (Or.inr (Or.inr (Or.inl h)))⟩
      · exact ⟨m, i, hm, hi, Or.inr (Or.inr (Or.inr (Or.inr (Or.inl h))))⟩
      · exact ⟨m, i, hm, hi, Or.inr (Or.inr (Or.inr (Or.inr (Or.inr h))))⟩
    · rintro ⟨m, i, hm, hi, (h | h | h | h | h | h)⟩
      · exact Or.inl ⟨i, m, hi, hm, h⟩
      · exact Or.inr (Or.inl ⟨i, m, hi, hm, h⟩)
      · exact Or.inr (Or.inr (Or.inl ⟨i, m, hi, hm, h⟩))
      · exact Or.inr (Or.inr (Or.inr (Or.inl ⟨i, m, hi, hm, h⟩)))
      · exact Or.inr (Or.inr (Or.inr (Or.inr (Or.inl ⟨i, m, hi, hm, h⟩))))
      · exact Or.inr (Or.inr (Or.inr (Or.inr (Or.inr ⟨i, m, hi, hm, h⟩))))
  all_goals first
    | (intro i m i' m' h; cases y <;> simp [fmL, fpL, gmL, gpL] at h ⊢ <;> omega)
    | (refine scatter_apart _ _ ?_ (fun _ _ => ?_) (fun _ _ => ?_) (fun _ _ _ => ?_) (fun _ _ _ => ?_)
       · intro l hl he
         unfold part at hl he
         obtain ⟨i, m, _, _, rfl⟩ := he
         cases y <;> simp only [fmL, fpL, gmL, gpL] at hl <;> simp at hl <;> omega
       all_goals cases y <;> simp [part, fmL, fpL, gmL, gpL])

theorem dtFill5_acts (rat : ℚ) : Acts (fun l => ∃ i, (1 - (z.mbc : ℤ) ≤ i ∧ i ≤ z.maxm + z.mbc) ∧ l = dtL y i) (fun _ _ => rat)
    (doLoop (1 - z.mbc) (z.maxm + z.mbc) fun i => asg z (dtL y i) (.lit rat)) := by
  refine Acts.doConst (w := fun _ => rat) _ _ _ _ fun i h1 h2 => ?_
  exact Acts.asg (by cases y <;> exact ⟨h1, h2⟩) fun M => rfl

theorem gslice5_spec {S : Scheme} {F : Field} {flux : Flux} (hset : Setting z o) (hflux : FluxOk z S F flux)
    (hb1 : 2 - (z.mbc : ℤ) ≤ b) (hb2 : b ≤ len z (!y) + z.mbc - 1) (rat : ℚ) (hrat : rat = S.ratio (ixyOf y)) (M : Mem)
    (hH : HoldsData z o F y M) (hnz : ∀ i j, z.inGrid i j → F.cap i j ≠ 0) :
    ∃ M', gslice5 z o flux y rat b M = some M' ∧ SliceOut z S F y b M M' := by
  have n0 := len_nonneg (z := z) y
  have mb := hset.mbc
  -- q
  obtain ⟨M1, e1, a1, b1⟩ := fetchQ_acts (z := z) (y := y) (b := b) (by omega) (by omega) M
  have k1 : ∀ l, (∀ i m, l ≠ .q1d i m) → M1 l = M l := fun l h => b1 l (by rintro ⟨m, i, _, _, rfl⟩; exact h _ _ rfl)
  -- capacity
  obtain ⟨M2, e2, d2, k2⟩ : ∃ M2, fetchDt5 z o y rat b M1 = some M2 ∧
      (∀ i, 1 - (z.mbc : ℤ) ≤ i → i ≤ len z y + z.mbc → M2 (dtL y i) = lam S F (ixyOf y) i b) ∧
      (∀ l, (∀ i, l ≠ dtL y i) → M2 l = M1 l) := by
    by_cases hc : o.mcapa = 0
    · obtain ⟨M2, e, h1, h2⟩ := dtFill5_acts (z := z) (y := y) rat M1
      refine ⟨M2, ?_, ?_, ?_⟩
      · unfold fetchDt5
        rw [if_neg (by omega)]; exact e
      · intro i x1 x2
        rw [h1 _ ⟨i, has_line (y := y) x1 x2, rfl⟩]
        unfold lam
        rw [hH.capAt ⟨x1, x2⟩ ⟨by omega, by omega⟩, if_pos hc, div_one, hrat]
      · intro l hl
        exact h2 l (by rintro ⟨i, _, h⟩; exact hl i h)
    · have ha : z.auxn o.mcapa := hset.capa.resolve_left hc
      have hax : ∀ i, M1 (auxL y i b o.mcapa) = M (auxL y i b o.mcapa) := fun i => k1 _ (by intro i m; cases y <;> simp [auxL])
      have hcap : ∀ i, 1 - (z.mbc : ℤ) ≤ i → i ≤ len z y + z.mbc → M1 (auxL y i b o.mcapa) = F.capAt (ixyOf y) i b := by
        intro i x1 x2
        rw [hH.capAt ⟨x1, x2⟩ ⟨by omega, by omega⟩, if_neg hc, hax]
      obtain ⟨M2, e, h1, h2⟩ := fetchCapa_acts (z := z) (o := o) (y := y) (b := b) rat (by omega) (by omega) ha M1 (by
        intro i x1 x2
        rw [hcap i x1 x2]
        have hg := (grid_iff (z := z) (y := y) i b).1 ⟨⟨x1, x2⟩, by omega, by omega⟩
        cases y
        · exact hnz i b hg
        · exact hnz b i hg)
      refine ⟨M2, by unfold fetchDt5; rw [if_pos (by have := ha.1; omega)]; exact e, ?_, h2⟩
      intro i x1 x2
      rw [h1 i x1 x2, hcap i x1 x2, hrat]; rfl
  -- auxiliary values
  obtain ⟨M3, e3, a3, k3⟩ : ∃ M3, when (decide (0 < z.maux)) (fetchAux5 z y b) M2 = some M3 ∧
      (∀ i, 1 - (z.mbc : ℤ) ≤ i → i ≤ len z y + z.mbc →
        comps z.maux (fun m => M3 (.aux1 i m)) = comps z.maux (fun m => M2 (auxL y i (b - 1) m)) ∧
        comps z.maux (fun m => M3 (.aux2 i m)) = comps z.maux (fun m => M2 (auxL y i b m)) ∧
        comps z.maux (fun m => M3 (.aux3 i m)) = comps z.maux (fun m => M2 (auxL y i (b + 1) m))) ∧
      ∀ l, (∀ i m, l ≠ .aux1 i m ∧ l ≠ .aux2 i m ∧ l ≠ .aux3 i m) → M3 l = M2 l := by
    by_cases hx : 0 < z.maux
    · obtain ⟨M3, e, h1, h2⟩ := fetchAux_acts (z := z) (y := y) hb1 hb2 M2
      refine ⟨M3, by rw [when_true (by simpa using hx), fetchAux5_eq hb1 hb2]; exact e, ?_, ?_⟩
      · intro i x1 x2
        have key : ∀ (f : ℤ → Loc) (g : ℤ → Loc), (∀ m, z.auxn m → M3 (f m) = M2 (g m)) →
            comps z.maux (fun m => M3 (f m)) = comps z.maux (fun m => M2 (g m)) := by
          intro f g h
          funext m
          unfold comps
          by_cases hm : 1 ≤ m ∧ m ≤ (z.maux : ℤ)
          · rw [if_pos hm, if_pos hm]; exact h m hm
          · rw [if_neg hm, if_neg hm]
        exact ⟨key _ _ fun m hm => h1 _ ⟨m, i, hm, ⟨x1, x2⟩, Or.inl rfl⟩,
          key _ _ fun m hm => h1 _ ⟨m, i, hm, ⟨x1, x2⟩, Or.inr (Or.inl rfl)⟩,
          key _ _ fun m hm => h1 _ ⟨m, i, hm, ⟨x1, x2⟩, Or.inr (Or.inr rfl)⟩⟩
      · intro l hl
        exact h2 l (by rintro ⟨m, i, _, _, (h | h | h)⟩; exacts [(hl i m).1 h, (hl i m).2.1 h, (hl i m).2.2 h])
    · have h0 : z.maux = 0 := by omega
      have hc : ∀ f g : Vec, comps z.maux f = comps z.maux g := by
        intro f g; funext m; unfold comps
        rw [if_neg (by rw [h0]; omega), if_neg (by rw [h0]; omega)]
      exact ⟨M2, by rw [when_false (by simpa using hx)], fun i _ _ => ⟨hc _ _, hc _ _, hc _ _⟩, fun l _ => rfl⟩
  have k3' : ∀ i j m, M3 (.q i j m) = M (.q i j m) ∧ M3 (.aux i j m) = M (.aux i j m) := by
    intro i j m
    constructor
    · rw [k3 _ (by simp), k2 _ (by intro i; cases y <;> simp [dtL]), k1 _ (by simp)]
    · rw [k3 _ (by simp), k2 _ (by intro i; cases y <;> simp [dtL]), k1 _ (by simp)]
  have hA2 : ∀ i b' m, M2 (auxL y i b' m) = M (auxL y i b' m) := by
    intro i b' m
    rw [k2 _ (by intro i; cases y <;> simp [dtL, auxL]), k1 _ (by intro i m; cases y <;> simp [auxL])]
  have hline : Line z S F (ixyOf y) b (len z y) (dtL y) M3 := by
    constructor
    · intro i x1 x2
      rw [← hH.val (a := i) (b := b) ⟨x1, x2⟩ ⟨by omega, by omega⟩]
      funext m
      unfold comps
      by_cases hm : 1 ≤ m ∧ m ≤ (z.meqn : ℤ)
      · rw [if_pos hm, if_pos hm]
        show M3 (.q1d i m) = M (qL y i b m)
        rw [k3 _ (by simp), k2 _ (by intro i; cases y <;> simp [dtL])]
        exact a1 _ ⟨m, i, hm, ⟨x1, x2⟩, rfl⟩
      · rw [if_neg hm, if_neg hm]
    · intro i x1 x2
      rw [← hH.auxAt (a := i) (b := b - 1) ⟨x1, x2⟩ ⟨by omega, by omega⟩, (a3 i x1 x2).1]
      simp only [hA2]
    · intro i x1 x2
      rw [← hH.auxAt (a := i) (b := b) ⟨x1, x2⟩ ⟨by omega, by omega⟩, (a3 i x1 x2).2.1]
      simp only [hA2]
    · intro i x1 x2
      rw [← hH.auxAt (a := i) (b := b + 1) ⟨x1, x2⟩ ⟨by omega, by omega⟩, (a3 i x1 x2).2.2]
      simp only [hA2]
    · intro i x1 x2
      rw [k3 _ (by intro i m; cases y <;> simp [dtL])]
      exact d2 i x1 x2
  obtain ⟨M4, e4, hO⟩ := hflux y b hb1 hb2 M3 hline
  have e5 := asg_eval (z := z) (l := .cflgrid) (M := M4) trivial
    (max_eval (rd_eval (show z.has .cflgrid from trivial) M4) (rd_eval (show z.has .cfl1d from trivial) M4))
  set M5 : Mem := fun l' => if l' = .cflgrid then max (M4 .cflgrid) (M4 .cfl1d) else M4 l' with hM5
  have k5 : ∀ l, l ≠ .cflgrid → M5 l = M4 l := fun l h => if_neg h
  obtain ⟨M6, e6, a6, b6⟩ := scatter5_acts (z := z) (y := y) mb hb1 hb2 M5
  have k6 : ∀ l, (∀ i j m, l ≠ .fm i j m) → (∀ i j m, l ≠ .fp i j m) → (∀ i j m, l ≠ .gm i j m) → (∀ i j m, l ≠ .gp i j m) →
      M6 l = M5 l := fun l h1 h2 h3 h4 => b6 l (by rintro ⟨m, i, _, _, h⟩; exact six_not _ _ _ _ _ h1 h2 h3 h4 h)
  -- the fluxes are as before up to here
  have kf : ∀ l, (l = .cflgrid ∨ (∃ i j m, l = .fm i j m ∨ l = .fp i j m ∨ l = .gm i j m ∨ l = .gp i j m ∨ l = .q i j m ∨ l = .aux i j m)) →
      M4 l = M l := by
    intro l hl
    have hns : NotScratch l := by
      rcases hl with rfl | ⟨i, j, m, (rfl | rfl | rfl | rfl | rfl | rfl)⟩ <;> simp [NotScratch]
    rw [hO.keep l hns, k3, k2, k1]
    all_goals rcases hl with rfl | ⟨i, j, m, (rfl | rfl | rfl | rfl | rfl | rfl)⟩
    all_goals first | (simp; done) | (intro i; cases y <;> simp [dtL])
  have kL : ∀ a b' m, M5 (fmL y a b' m) = M (fmL y a b' m) ∧ M5 (fpL y a b' m) = M (fpL y a b' m) ∧
      M5 (gmL y a b' m) = M (gmL y a b' m) ∧ M5 (gpL y a b' m) = M (gpL y a b' m) := by
    intro a b' m
    refine ⟨?_, ?_, ?_, ?_⟩ <;> rw [k5 _ (by cases y <;> simp [fmL, fpL, gmL, gpL])] <;> apply kf <;> right <;> cases y <;>
      simp [fmL, fpL, gmL, gpL]
  refine ⟨M6, ?_, ?_⟩
  · unfold gslice5
    rw [List.cons_append, List.cons_append, List.cons_append, List.cons_append, List.cons_append, List.nil_append,
      seq_step (by rw [fetchQ5_eq (by omega) (by omega)]; exact e1), seq_step e2, seq_step e3, seq_step e4, seq_step e5]
    exact e6
  · constructor
    · intro a m x1 x2 hm
      rw [a6 _ ⟨m, a, hm, ⟨by omega, by omega⟩, Or.inl rfl⟩, scatterG_fm, (kL _ _ _).1, k5 _ (by simp), hO.faddm a m x1 x2 hm]
    · intro a m x1 x2 hm
      rw [a6 _ ⟨m, a, hm, ⟨by omega, by omega⟩, Or.inr (Or.inl rfl)⟩, scatterG_fp, (kL _ _ _).2.1, k5 _ (by simp), hO.faddp a m x1 x2 hm]
    · intro a m x1 x2 hm
      rw [a6 _ ⟨m, a, hm, ⟨by omega, by omega⟩, Or.inr (Or.inr (Or.inl rfl))⟩, scatterG_gm, (kL _ _ _).2.2.1, k5 _ (by simp), if_pos rfl,
        hO.gaddm a m 1 x1 x2 hm (Or.inl rfl)]
      rfl
    · intro a m x1 x2 hm
      rw [a6 _ ⟨m, a, hm, ⟨by omega, by omega⟩, Or.inr (Or.inr (Or.inr (Or.inl rfl)))⟩, scatterG_gp, (kL _ _ _).2.2.2, k5 _ (by simp), if_pos rfl,
        hO.gaddp a m 1 x1 x2 hm (Or.inl rfl)]
      rfl
    · intro a m x1 x2 hm
      rw [a6 _ ⟨m, a, hm, ⟨by omega, by omega⟩, Or.inr (Or.inr (Or.inr (Or.inr (Or.inl rfl))))⟩, scatterG_gm, (kL _ _ _).2.2.1, k5 _ (by simp),
        if_neg (by omega), hO.gaddm a m 2 x1 x2 hm (Or.inr rfl)]
      rfl
    · intro a m x1 x2 hm
      rw [a6 _ ⟨m, a, hm, ⟨by omega, by omega⟩, Or.inr (Or.inr (Or.inr (Or.inr (Or.inr rfl))))⟩, scatterG_gp, (kL _ _ _).2.2.2, k5 _ (by simp),
        if_neg (by omega), hO.gaddp a m 2 x1 x2 hm (Or.inr rfl)]
      rfl
    · intro a b' m hne
      constructor
      · rw [b6 _ (by rintro ⟨m', i', _, _, h⟩; unfold six at h; cases y <;> simp [fmL, fpL, gmL, gpL] at h <;> omega)]
        exact (kL _ _ _).1
      · rw [b6 _ (by rintro ⟨m', i', _, _, h⟩; unfold six at h; cases y <;> simp [fmL, fpL, gmL, gpL] at h <;> omega)]
        exact (kL _ _ _).2.1
    · intro a b' m hne hne'
      constructor
      · rw [b6 _ (by rintro ⟨m', i', _, _, h⟩; unfold six at h; cases y <;> simp [fmL, fpL, gmL, gpL] at h <;> omega)]
        exact (kL _ _ _).2.2.1
      · rw [b6 _ (by rintro ⟨m', i', _, _, h⟩; unfold six at h; cases y <;> simp [fmL, fpL, gmL, gpL] at h <;> omega)]
        exact (kL _ _ _).2.2.2
    · intro i j m
      rw [k6 _ (by simp) (by simp) (by simp) (by simp), k5 _ (by simp)]
      exact kf _ (Or.inr ⟨i, j, m, by simp⟩)
    · intro i j m
      rw [k6 _ (by simp) (by simp) (by simp) (by simp), k5 _ (by simp)]
      exact kf _ (Or.inr ⟨i, j, m, by simp⟩)
    · intro i
      rw [k6 _ (by cases y <;> simp [dtL]) (by cases y <;> simp [dtL]) (by cases y <;> simp [dtL]) (by cases y <;> simp [dtL]),
        k5 _ (by cases y <;> simp [dtL]), hO.keep _ (by cases y <;> simp [dtL, NotScratch]), k3 _ (by cases y <;> simp [dtL]),
        k2 _ (by cases y <;> simp [dtL]), k1 _ (by cases y <;> simp [dtL])]
    · refine ⟨M4 .cfl1d, ?_, ?_⟩
      · obtain ⟨h1, h2, h3⟩ := hO.cfl
        refine ⟨h1, ?_, ?_⟩
        · rintro x ⟨i, w, hp, rfl⟩; exact h2 i w hp
        · rcases h3 with h3 | ⟨i, w, hp, he⟩
          · exact Or.inl h3
          · exact Or.inr ⟨i, w, hp, he⟩
      · rw [k6 _ (by simp) (by simp) (by simp) (by simp), hM5]
        dsimp only
        rw [if_pos rfl, kf _ (Or.inl rfl)]

end

end Fclaw.Wave5

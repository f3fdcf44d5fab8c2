import Verif.Wave.Pieces
/-
What the limiter and the second order corrections do.
-/
set_option autoImplicit false
set_option linter.unusedSimpArgs false
namespace Fclaw.Wave

open Fort

variable {z : Shape} {n : ℤ}

def memNorm (z : Shape) (M : Mem) (w i : ℤ) : ℚ := ∑ m ∈ Finset.Icc 1 (z.meqn : ℤ), M (.wave i m w) ^ 2
def memDot (z : Shape) (M : Mem) (w i : ℤ) : ℚ := ∑ m ∈ Finset.Icc 1 (z.meqn : ℤ), M (.wave i m w) * M (.wave (i + 1) m w)

theorem dots_eval (M : Mem) (w i : ℤ) (hi : z.inLine i) (hi1 : z.inLine (i + 1)) (hw : z.wav w) :
    dots z w i M = some (memNorm z M w i, memDot z M w i) := by
  obtain ⟨s, e, h1⟩ := doLoop_inv (fun k (s : ℚ × ℚ) =>
      s = (∑ m ∈ Finset.Icc 1 (k - 1), M (.wave i m w) ^ 2, ∑ m ∈ Finset.Icc 1 (k - 1), M (.wave i m w) * M (.wave (i + 1) m w)))
    1 z.meqn (fun m (acc : ℚ × ℚ) =>
    (rd z (.wave i m w) M).bind fun a => (rd z (.wave (i + 1) m w) M).bind fun b =>
      some (acc.1 + a ^ 2, acc.2 + a * b)) (by omega) (by
      intro k s h1 h2 hs
      refine ⟨_, ?_, rfl⟩
      rw [rd_eval (show z.has (.wave i k w) from ⟨hi, ⟨h1, h2⟩, hw⟩), rd_eval (show z.has (.wave (i + 1) k w) from ⟨hi1, ⟨h1, h2⟩, hw⟩)]
      subst hs
      dsimp only [Option.bind]
      rw [add_sub_cancel_right, sum_Icc_succ _ k h1, sum_Icc_succ _ k h1]) (0, 0) (by simp)
  unfold dots
  rw [e, h1, add_sub_cancel_right]; rfl

/-- The limited waves. -/
def limitG (z : Shape) (o : Method) (M : Mem) : Loc → ℚ
  | .wave i m w => if memNorm z M w i = 0 then M (.wave i m w)
      else wlimitr (o.lim w) ((if 0 < M (.s i w) then memDot z M w (i - 1) else memDot z M w i) / memNorm z M w i) *
        M (.wave i m w)
  | _ => 0

/-- One edge, when the waves from there on are as they were. -/
theorem limitEdge_spec (o : Method) (M : Mem) (w i : ℤ) (hi : z.inLine i) (hi1 : z.inLine (i + 1)) (hw : z.wav w) (st : ℚ × Mem)
    (hi0 : 0 ≤ i)
    (hs : st.2 (.s i w) = M (.s i w)) (hc : ∀ m, st.2 (.wave i m w) = M (.wave i m w))
    (hn : ∀ m, st.2 (.wave (i + 1) m w) = M (.wave (i + 1) m w)) (hd : 1 ≤ i → st.1 = memDot z M w (i - 1)) :
    ∃ st', limitEdge z o w i st = some st' ∧ st'.1 = memDot z M w i ∧
      (∀ l, (1 ≤ i ∧ ∃ m, (1 ≤ m ∧ m ≤ (z.meqn : ℤ)) ∧ l = .wave i m w) → st'.2 l = limitG z o M l) ∧
      ∀ l, ¬ (1 ≤ i ∧ ∃ m, (1 ≤ m ∧ m ≤ (z.meqn : ℤ)) ∧ l = .wave i m w) → st'.2 l = st.2 l := by
  have e1 : memNorm z st.2 w i = memNorm z M w i := by
    unfold memNorm; exact Finset.sum_congr rfl fun m _ => by rw [hc]
  have e2 : memDot z st.2 w i = memDot z M w i := by
    unfold memDot; exact Finset.sum_congr rfl fun m _ => by rw [hc, hn]
  unfold limitEdge
  rw [dots_eval st.2 w i hi hi1 hw, e1, e2]
  dsimp only [Option.bind]
  by_cases h0 : i = 0
  · rw [if_pos h0]
    exact ⟨_, rfl, rfl, fun l h => absurd h.1 (by omega), fun l _ => rfl⟩
  rw [if_neg h0]
  by_cases hz : memNorm z M w i = 0
  · rw [if_pos hz]
    refine ⟨_, rfl, rfl, ?_, fun l _ => rfl⟩
    rintro l ⟨_, m, _, rfl⟩
    simp only [limitG]; rw [if_pos hz]; exact hc m
  rw [if_neg hz, rd_eval (show z.has (.s i w) from ⟨hi, hw⟩)]
  dsimp only
  rw [hs, hd (by omega)]
  set r := (if 0 < M (.s i w) then memDot z M w (i - 1) / memNorm z M w i else memDot z M w i / memNorm z M w i) with hr
  have acts : Acts (fun l => ∃ m, (1 ≤ m ∧ m ≤ (z.meqn : ℤ)) ∧ l = .wave i m w)
      (fun M l => wlimitr (o.lim w) r * M l)
      (doLoop 1 z.meqn fun m => asg z (.wave i m w) (.lit (wlimitr (o.lim w) r) * rd z (.wave i m w))) := by
    refine Acts.do1 (fun m l => l = .wave i m w) _ _ _ _ ?_ ?_
    · intro m h1 h2
      refine Acts.asg ⟨hi, ⟨h1, h2⟩, hw⟩ fun M => ?_
      ev
      exact ⟨hi, ⟨h1, h2⟩, hw⟩
    · intro k k' hne
      constructor
      · rintro l rfl; simp; omega
      · rintro M1 M2 hM l rfl
        dsimp only
        rw [hM _ (by simp; omega)]
  obtain ⟨M', e, h1, h2⟩ := acts st.2
  rw [e]
  refine ⟨_, rfl, rfl, ?_, ?_⟩
  · rintro l ⟨hi1, m, hm, rfl⟩
    dsimp only
    rw [h1 _ ⟨m, hm, rfl⟩]
    dsimp only
    rw [hc]
    simp only [limitG]
    rw [if_neg hz, hr]
    split_ifs <;> rfl
  · intro l h
    dsimp only
    refine h2 l fun h' => h ⟨by omega, h'⟩

theorem inlinelimiter_acts (h : Fit z n) (o : Method) :
    Acts (fun l => ∃ w, (1 ≤ w ∧ w ≤ (z.mwaves : ℤ)) ∧ o.lim w ≠ 0 ∧ ∃ i, (1 ≤ i ∧ i ≤ n + 1) ∧
      ∃ m, (1 ≤ m ∧ m ≤ (z.meqn : ℤ)) ∧ l = .wave i m w) (limitG z o) (inlinelimiter z o n) := by
  have := h.n0; have := h.nm; have := h.mbc
  refine Acts.do1 (fun w l => o.lim w ≠ 0 ∧ ∃ i, (1 ≤ i ∧ i ≤ n + 1) ∧
      ∃ m, (1 ≤ m ∧ m ≤ (z.meqn : ℤ)) ∧ l = .wave i m w) _ _ _ _ ?_ ?_
  · intro w h1 h2 M
    dsimp only
    by_cases hl : o.lim w = 0
    · rw [if_pos hl]
      exact ⟨M, rfl, fun l h => absurd hl h.1, fun l _ => rfl⟩
    rw [if_neg hl]
    obtain ⟨st, e, ha, hb, hc⟩ := doLoop_inv (fun k (st : ℚ × Mem) =>
        (∀ l, (∃ i, (1 ≤ i ∧ i < k) ∧ ∃ m, (1 ≤ m ∧ m ≤ (z.meqn : ℤ)) ∧ l = .wave i m w) → st.2 l = limitG z o M l) ∧
        (∀ l, ¬ (∃ i, (1 ≤ i ∧ i < k) ∧ ∃ m, (1 ≤ m ∧ m ≤ (z.meqn : ℤ)) ∧ l = .wave i m w) → st.2 l = M l) ∧
        (1 ≤ k → st.1 = memDot z M w (k - 1)))
      0 (n + 1) (limitEdge z o w) (by omega) (by
        intro i st hi1 hi2 ⟨ha, hb, hc⟩
        obtain ⟨st', e, hd, ha', hb'⟩ := limitEdge_spec (z := z) o M w i (by simp only [Shape.inLine]; omega)
          (by simp only [Shape.inLine]; omega) ⟨h1, h2⟩ st hi1 (hb _ (by simp)) (fun m => hb _ (by simp <;> omega))
          (fun m => hb _ (by simp <;> omega)) hc
        refine ⟨st', e, ?_, ?_, fun _ => by rw [hd]; congr 1; omega⟩
        · rintro l ⟨i', hi', m, hm, rfl⟩
          by_cases he : i' = i
          · subst he; exact ha' _ ⟨hi'.1, m, hm, rfl⟩
          · rw [hb' _ (by simp; omega)]
            exact ha _ ⟨i', by omega, m, hm, rfl⟩
        · intro l hl
          rw [hb' _ fun ⟨x1, m, x2, x3⟩ => hl ⟨i, by omega, m, x2, x3⟩]
          exact hb _ fun ⟨i', hi', x⟩ => hl ⟨i', by omega, x⟩)
      (0, M) ⟨fun l ⟨i, hi, _⟩ => by omega, fun l _ => rfl, fun h => by omega⟩
    rw [e]
    refine ⟨st.2, rfl, ?_, ?_⟩
    · rintro l ⟨_, i, hi, x⟩; exact ha l ⟨i, by omega, x⟩
    · intro l hl'
      exact hb l fun ⟨i, hi, x⟩ => hl' ⟨hl, i, by omega, x⟩
  · intro w w' hne
    constructor
    · rintro l ⟨_, i, hi, m, hm, rfl⟩
      simp; intros; omega
    · rintro M1 M2 hM l ⟨_, i, hi, m, hm, rfl⟩
      have hw : ∀ i m, M1 (.wave i m w') = M2 (.wave i m w') := fun i m => hM _ (by simp; intros; omega)
      have hs : M1 (.s i w') = M2 (.s i w') := hM _ (by simp)
      have e1 : ∀ i, memNorm z M1 w' i = memNorm z M2 w' i := fun i => by unfold memNorm; simp only [hw]
      have e2 : ∀ i, memDot z M1 w' i = memDot z M2 w' i := fun i => by unfold memDot; simp only [hw]
      simp only [limitG]
      rw [e1, e2, e2, hs, hw]

/-! ### Second order corrections -/

def strength (fw : Bool) (s : ℚ) : ℚ := if fw then sign1 s else |s|

def corrM (z : Shape) (fw : Bool) (dt : ℤ → Loc) (M : Mem) (i m : ℤ) : ℚ := ∑ w ∈ Finset.Icc 1 (z.mwaves : ℤ),
  strength fw (M (.s i w)) * (1 - |M (.s i w)| * (1 / 2 * (M (dt (i - 1)) + M (dt i)))) * M (.wave i m w)

def secondG (z : Shape) (fw : Bool) (dt : ℤ → Loc) (M : Mem) : Loc → ℚ
  | .cqxx i m => corrM z fw dt M i m
  | .faddm i m => M (.faddm i m) + 1 / 2 * corrM z fw dt M i m
  | .faddp i m => M (.faddp i m) + 1 / 2 * corrM z fw dt M i m
  | _ => 0

theorem corrM_congr {fw : Bool} {dt : ℤ → Loc} {M1 M2 : Mem} {i m : ℤ} (hs : ∀ w, M1 (.s i w) = M2 (.s i w))
    (hw : ∀ w, M1 (.wave i m w) = M2 (.wave i m w)) (h1 : M1 (dt i) = M2 (dt i)) (h2 : M1 (dt (i - 1)) = M2 (dt (i - 1))) :
    corrM z fw dt M1 i m = corrM z fw dt M2 i m := by
  unfold corrM
  simp only [hs, hw, h1, h2]

/-- The body of the loop over edges and components: a correction, then the two fluxes. The correction is any sum
over the waves. -/
theorem secondBody (T : Mem → ℤ → ℚ) (E : ℤ → Ex) (i m : ℤ) (hi : z.inLine i) (hm : z.eqn m)
    (hE : ∀ w, 1 ≤ w → w ≤ (z.mwaves : ℤ) → ∀ M, E w M = some (T M w))
    (hT : ∀ M1 M2 : Mem, (∀ l, l ≠ .cqxx i m → M1 l = M2 l) → ∀ w, T M1 w = T M2 w) (M : Mem) :
    ∃ M', seq [asg z (.cqxx i m) (.lit 0),
      doLoop 1 z.mwaves fun mw => asg z (.cqxx i m) (rd z (.cqxx i m) + E mw),
      asg z (.faddm i m) (rd z (.faddm i m) + .lit (1 / 2) * rd z (.cqxx i m)),
      asg z (.faddp i m) (rd z (.faddp i m) + .lit (1 / 2) * rd z (.cqxx i m))] M = some M' ∧
      M' (.cqxx i m) = ∑ w ∈ Finset.Icc 1 (z.mwaves : ℤ), T M w ∧
      M' (.faddm i m) = M (.faddm i m) + 1 / 2 * ∑ w ∈ Finset.Icc 1 (z.mwaves : ℤ), T M w ∧
      M' (.faddp i m) = M (.faddp i m) + 1 / 2 * ∑ w ∈ Finset.Icc 1 (z.mwaves : ℤ), T M w ∧
      ∀ l, l ≠ .cqxx i m → l ≠ .faddm i m → l ≠ .faddp i m → M' l = M l := by
  have hh : z.has (.cqxx i m) := ⟨hi, hm⟩
  let M0 : Mem := fun l => if l = .cqxx i m then 0 else M l
  have e0 : asg z (.cqxx i m) (.lit 0) M = some M0 := asg_eval hh (lit_eval _ _)
  have h0 : ∀ l, l ≠ .cqxx i m → M0 l = M l := fun l hl => if_neg hl
  obtain ⟨M1, e1, hc1, hf1⟩ := doLoop_inv (fun k (s : Mem) => s (.cqxx i m) = ∑ w ∈ Finset.Icc 1 (k - 1), T M w ∧
      ∀ l, l ≠ .cqxx i m → s l = M l) 1 z.mwaves (fun mw => asg z (.cqxx i m) (rd z (.cqxx i m) + E mw)) (by omega) (by
      intro k s h1 h2 ⟨ha, hb⟩
      refine ⟨_, asg_eval hh (add_eval (rd_eval hh _) (hE k h1 h2 s)), ?_, ?_⟩
      · rw [if_pos rfl, ha, hT s M hb, add_sub_cancel_right, ← sum_Icc_succ _ k h1]
      · intro l hl; rw [if_neg hl]; exact hb l hl)
    M0 ⟨by simp [M0], h0⟩
  rw [add_sub_cancel_right] at hc1
  have e2 := asg_eval (show z.has (.faddm i m) from ⟨hi, hm⟩)
    (add_eval (rd_eval (show z.has (.faddm i m) from ⟨hi, hm⟩) M1) (mul_eval (lit_eval (1 / 2) M1) (rd_eval hh M1)))
  set M2 : Mem := fun l' => if l' = .faddm i m then M1 (.faddm i m) + 1 / 2 * M1 (.cqxx i m) else M1 l' with hM2
  have e3 := asg_eval (show z.has (.faddp i m) from ⟨hi, hm⟩)
    (add_eval (rd_eval (show z.has (.faddp i m) from ⟨hi, hm⟩) M2) (mul_eval (lit_eval (1 / 2) M2) (rd_eval hh M2)))
  refine ⟨fun l' => if l' = .faddp i m then M2 (.faddp i m) + 1 / 2 * M2 (.cqxx i m) else M2 l', ?_, ?_, ?_, ?_, ?_⟩
  · rw [seq_cons, seq_cons, seq_cons, seq_one]
    show (asg z (.cqxx i m) (.lit 0) M).bind _ = _
    rw [e0]
    show (doLoop 1 (z.mwaves : ℤ) (fun mw => asg z (.cqxx i m) (rd z (.cqxx i m) + E mw)) M0).bind _ = _
    rw [e1]
    show (asg z (.faddm i m) (rd z (.faddm i m) + .lit (1 / 2) * rd z (.cqxx i m)) M1).bind _ = _
    rw [e2]; exact e3
  all_goals simp only [M2]
  · simp [hc1]
  · simp [hc1, hf1]
  · simp [hc1, hf1]
  · intro l h1 h2 h3
    rw [if_neg h3, if_neg h2]; exact hf1 l h1

theorem second_acts (h : Fit z n) (fw : Bool) {dt : ℤ → Loc} (hd : DtArray z dt) {lo hi : ℤ} (hlo : 2 - (z.mbc : ℤ) ≤ lo)
    (hhi : hi ≤ n + z.mbc) :
    Acts (fun l => ∃ i m, (lo ≤ i ∧ i ≤ hi) ∧ (1 ≤ m ∧ m ≤ (z.meqn : ℤ)) ∧
      (l = .cqxx i m ∨ l = .faddm i m ∨ l = .faddp i m)) (secondG z fw dt) (second z fw lo hi dt) := by
  have := h.n0; have := h.nm; have := h.mbc
  refine Acts.do2 (fun i m l => l = .cqxx i m ∨ l = .faddm i m ∨ l = .faddp i m) _ _ _ _ _ _ ?_ ?_
  · intro i m h1 h2 h3 h4 M
    obtain ⟨M', e, a, b, c, d⟩ := secondBody (z := z)
      (fun M w => strength fw (M (.s i w)) * (1 - |M (.s i w)| * (1 / 2 * (M (dt (i - 1)) + M (dt i)))) * M (.wave i m w))
      (fun mw => (if fw then Ex.lift1 sign1 (rd z (.s i mw)) else (rd z (.s i mw)).abs) *
        (.lit 1 - (rd z (.s i mw)).abs * (.lit (1 / 2) * (rd z (dt (i - 1)) + rd z (dt i)))) * rd z (.wave i m mw))
      i m (by simp only [Shape.inLine]; omega) ⟨h3, h4⟩
      (by
        intro w hw1 hw2 M
        ev
        · unfold strength
          cases fw
          · exact abs_eval (rd_eval (by bnd) _)
          · exact lift1_eval (rd_eval (by bnd) _)
        · bnd
        · exact hd.has _ (by simp only [Shape.inLine]; omega)
        · exact hd.has _ (by simp only [Shape.inLine]; omega)
        · bnd)
      (by
        intro M1 M2 hM w
        rw [hM (.s i w) (by simp), hM (.wave i m w) (by simp), hM (dt i) ((hd.apart i).2.2.2.2.2.2.2.2.1 _ _),
          hM (dt (i - 1)) ((hd.apart (i - 1)).2.2.2.2.2.2.2.2.1 _ _)]) M
    refine ⟨M', e, ?_, fun l hl => d l (fun h => hl (Or.inl h)) (fun h => hl (Or.inr (Or.inl h))) fun h => hl (Or.inr (Or.inr h))⟩
    rintro l (rfl | rfl | rfl) <;> simp only [secondG, corrM]
    · exact a
    · exact b
    · exact c
  · intro a b a' b' hne
    have hne' : ¬ (a = a' ∧ b = b') := by simpa using hne
    constructor
    · rintro l (rfl | rfl | rfl) <;> simp <;> omega
    · intro M1 M2 hM l hl
      have hc : corrM z fw dt M1 a' b' = corrM z fw dt M2 a' b' := by
        refine corrM_congr (fun w => hM _ (by simp)) (fun w => hM _ (by simp)) (hM _ ?_) (hM _ ?_)
        · have := hd.apart a'; simp [this.1, this.2.1, this.2.2.2.2.2.2.2.2.1]
        · have := hd.apart (a' - 1); simp [this.1, this.2.1, this.2.2.2.2.2.2.2.2.1]
      rcases hl with rfl | rfl | rfl <;> simp only [secondG, hc]
      · rw [hM _ (by simp; omega)]
      · rw [hM _ (by simp; omega)]

end Fclaw.Wave

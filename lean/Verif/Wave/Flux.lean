import Verif.Wave.Limit
import Verif.Wave.Spec
import Mathlib.Tactic.Ring
/-
The fluxes of a slice are those of the specification.
-/
set_option autoImplicit false
set_option linter.unusedSimpArgs false
namespace Fclaw.Wave

open Fort

/-- As `scheme`, with any `lag`. -/
abbrev schemeLag (z : Shape) (o : Method) (R : Solver) (fw : Bool) (g : ℤ) (dx dy dt : ℚ) : Scheme :=
  { scheme z o R fw dx dy dt with lag := g }

/-- The memory holds row `b` of the data. -/
structure Line (z : Shape) (S : Scheme) (F : Field) (ixy : Nat) (b n : ℤ) (dt : ℤ → Loc) (M : Mem) : Prop where
  q : ∀ i, 1 - (z.mbc : ℤ) ≤ i → i ≤ n + z.mbc → comps z.meqn (fun m => M (.q1d i m)) = F.val ixy i b
  a1 : ∀ i, 1 - (z.mbc : ℤ) ≤ i → i ≤ n + z.mbc → comps z.maux (fun m => M (.aux1 i m)) = F.auxAt ixy i (b - 1)
  a2 : ∀ i, 1 - (z.mbc : ℤ) ≤ i → i ≤ n + z.mbc → comps z.maux (fun m => M (.aux2 i m)) = F.auxAt ixy i b
  a3 : ∀ i, 1 - (z.mbc : ℤ) ≤ i → i ≤ n + z.mbc → comps z.maux (fun m => M (.aux3 i m)) = F.auxAt ixy i (b + 1)
  dt : ∀ i, 1 - (z.mbc : ℤ) ≤ i → i ≤ n + z.mbc → M (dt i) = lam S F ixy i b

/-- The result. -/
structure FluxOut (z : Shape) (S : Scheme) (F : Field) (ixy : Nat) (b n : ℤ) (M M' : Mem) : Prop where
  faddm : ∀ i m, 1 ≤ i → i ≤ n + 1 → z.eqn m → M' (.faddm i m) = left S F ixy i b m + secondOrder S F ixy i b m
  faddp : ∀ i m, 1 ≤ i → i ≤ n + 1 → z.eqn m → M' (.faddp i m) = -right S F ixy i b m + secondOrder S F ixy i b m
  gaddm : ∀ i m k, 1 ≤ i → i ≤ n → z.eqn m → k = 1 ∨ k = 2 →
    M' (.gaddm i m k) = if 0 < S.trans then spill S F ixy i b (decide (k = 2)) m else 0
  gaddp : ∀ i m k, 1 ≤ i → i ≤ n → z.eqn m → k = 1 ∨ k = 2 →
    M' (.gaddp i m k) = if 0 < S.trans then spill S F ixy i b (decide (k = 2)) m else 0
  cfl : Largest (fun i w => max (lam S F ixy i b * speed S F ixy i b w) (-lam S F ixy (i - 1) b * speed S F ixy i b w))
    (fun i w => (1 ≤ i ∧ i ≤ n + 1) ∧ 1 ≤ w ∧ w ≤ (z.mwaves : ℤ)) (M' .cfl1d)
  keep : ∀ l, NotScratch l → M' l = M l

/-- Both routines. -/
def fluxGen (z : Shape) (o : Method) (R : Solver) (fw : Bool) (lo hi1 hi2 : ℤ) (c2 ct : Bool) (dtR : ℤ → Loc) (ixy : Nat)
    (n : ℤ) (dtdx1d : ℤ → Loc) : Prog :=
  seq [clear z n, rpn2 z R ixy n, godunov z lo hi1, courant z n dtdx1d,
    when c2 (seq [when (limits z o) (inlinelimiter z o n), second z fw lo hi2 dtdx1d]),
    when ct (seq [when (decide (1 < o.order ∧ o.trans = 2)) (addCorr z lo hi1),
      rpt2 z R ixy n 1 .amdq, spillLeft z lo hi2 dtdx1d, rpt2 z R ixy n 2 .apdq, spillRight z lo hi2 dtR])]

theorem Largest.congr {f g : ℤ → ℤ → ℚ} {P : ℤ → ℤ → Prop} {c : ℚ} (h : Largest f P c) (hfg : ∀ i w, P i w → f i w = g i w) :
    Largest g P c := by
  obtain ⟨h1, h2, h3⟩ := h
  refine ⟨h1, fun i w hp => hfg i w hp ▸ h2 i w hp, ?_⟩
  rcases h3 with h3 | ⟨i, w, hp, he⟩
  · exact Or.inl h3
  · exact Or.inr ⟨i, w, hp, he.trans (hfg i w hp)⟩

/-- After the Riemann problems are solved. -/
structure StageA (z : Shape) (S : Scheme) (F : Field) (ixy : Nat) (b n : ℤ) (M M' : Mem) : Prop where
  faddm : ∀ i m, 1 ≤ i → i ≤ n + 1 → z.eqn m → M' (.faddm i m) = left S F ixy i b m
  faddp : ∀ i m, 1 ≤ i → i ≤ n + 1 → z.eqn m → M' (.faddp i m) = -right S F ixy i b m
  gaddm : ∀ i m k, 1 ≤ i → i ≤ n → z.eqn m → k = 1 ∨ k = 2 → M' (.gaddm i m k) = 0
  gaddp : ∀ i m k, 1 ≤ i → i ≤ n → z.eqn m → k = 1 ∨ k = 2 → M' (.gaddp i m k) = 0
  wave : ∀ i m w, 0 ≤ i → i ≤ n + 2 → z.eqn m → z.wav w → M' (.wave i m w) = wave S F ixy i b w m
  s : ∀ i w, 0 ≤ i → i ≤ n + 2 → z.wav w → M' (.s i w) = speed S F ixy i b w
  amdq : ∀ i m, 1 ≤ i → i ≤ n + 1 → z.eqn m → M' (.amdq i m) = left S F ixy i b m
  apdq : ∀ i m, 1 ≤ i → i ≤ n + 1 → z.eqn m → M' (.apdq i m) = right S F ixy i b m
  cfl : Largest (fun i w => max (lam S F ixy i b * speed S F ixy i b w) (-lam S F ixy (i - 1) b * speed S F ixy i b w))
    (fun i w => (1 ≤ i ∧ i ≤ n + 1) ∧ 1 ≤ w ∧ w ≤ (z.mwaves : ℤ)) (M' .cfl1d)
  keep : ∀ l, NotScratch l → M' l = M l

section
variable {z : Shape} {o : Method} {R : Solver} {fw : Bool} {g : ℤ} {dx dy t : ℚ} {F : Field} {ixy : Nat} {b n : ℤ} {dt dtR : ℤ → Loc}
  {lo hi1 hi2 : ℤ}

theorem stageA (h : Fit z n) (hd : DtArray z dt) (M : Mem) (hl : Line z (schemeLag z o R fw g dx dy t) F ixy b n dt M)
    (hlo : 2 - (z.mbc : ℤ) ≤ lo) (hlo1 : lo ≤ 1) (hhi : hi1 ≤ n + z.mbc) (hhi1 : n + 1 ≤ hi1) :
    ∃ M', seq [clear z n, rpn2 z R ixy n, godunov z lo hi1, courant z n dt] M = some M' ∧
      StageA z (schemeLag z o R fw g dx dy t) F ixy b n M M' := by
  have n0 := h.n0; have nm := h.nm; have mb := h.mbc
  obtain ⟨M1, e1, a1, b1⟩ := clear_acts h M
  obtain ⟨M2, e2⟩ : ∃ M2, rpn2 z R ixy n M1 = some M2 := ⟨_, rfl⟩
  obtain ⟨M3, e3, a3, b3⟩ := godunov_acts h hlo hhi M2
  obtain ⟨M4, e4, b4, c4⟩ := courant_spec h hd M3
  have keep1 : ∀ l, NotScratch l → M1 l = M l := by
    rintro l ⟨n1, n2, n3, n4, _⟩
    exact b1 l (by rintro ⟨k, _, m, _, i, _, (h | h | h | h)⟩; exacts [n1 _ _ h, n2 _ _ h, n3 _ _ _ h, n4 _ _ _ h])
  have hq1 : ∀ i, 1 - (z.mbc : ℤ) ≤ i → i ≤ n + z.mbc → comps z.meqn (fun m => M1 (.q1d i m)) = F.val ixy i b := by
    intro i x y
    rw [← hl.q i x y]
    congr 1; funext m; exact keep1 _ (by simp [NotScratch])
  have ha1 : ∀ i, 1 - (z.mbc : ℤ) ≤ i → i ≤ n + z.mbc → comps z.maux (fun m => M1 (.aux2 i m)) = F.auxAt ixy i b := by
    intro i x y
    rw [← hl.a2 i x y]
    congr 1; funext m; exact keep1 _ (by simp [NotScratch])
  have e2' : M2 = _ := (Option.some.inj e2).symm
  have keep2 : ∀ l, NotScratch l → M2 l = M l := by
    intro l hn
    rw [← keep1 l hn, e2']
    obtain ⟨n1, n2, n3, n4, n5, n6, n7, n8, _⟩ := hn
    dsimp only
    split <;> first | rfl | (exfalso; first | exact n5 _ _ _ rfl | exact n6 _ _ rfl | exact n7 _ _ rfl | exact n8 _ _ rfl)
  have w2 : ∀ i m w, 2 - (z.mbc : ℤ) ≤ i → i ≤ n + z.mbc → z.eqn m → z.wav w →
      M2 (.wave i m w) = wave (schemeLag z o R fw g dx dy t) F ixy i b w m := by
    intro i m w x y hm hw
    rw [e2']; dsimp only
    rw [if_pos ⟨⟨x, y⟩, hm, hw⟩, hq1 _ (by omega) (by omega), hq1 _ (by omega) y, ha1 _ (by omega) (by omega), ha1 _ (by omega) y]
    rfl
  have s2 : ∀ i w, 2 - (z.mbc : ℤ) ≤ i → i ≤ n + z.mbc → z.wav w →
      M2 (.s i w) = speed (schemeLag z o R fw g dx dy t) F ixy i b w := by
    intro i w x y hw
    rw [e2']; dsimp only
    rw [if_pos ⟨⟨x, y⟩, hw⟩, hq1 _ (by omega) (by omega), hq1 _ (by omega) y, ha1 _ (by omega) (by omega), ha1 _ (by omega) y]
    rfl
  have am2 : ∀ i m, 2 - (z.mbc : ℤ) ≤ i → i ≤ n + z.mbc → z.eqn m →
      M2 (.amdq i m) = left (schemeLag z o R fw g dx dy t) F ixy i b m := by
    intro i m x y hm
    rw [e2']; dsimp only
    rw [if_pos ⟨⟨x, y⟩, hm⟩, hq1 _ (by omega) (by omega), hq1 _ (by omega) y, ha1 _ (by omega) (by omega), ha1 _ (by omega) y]
    rfl
  have ap2 : ∀ i m, 2 - (z.mbc : ℤ) ≤ i → i ≤ n + z.mbc → z.eqn m →
      M2 (.apdq i m) = right (schemeLag z o R fw g dx dy t) F ixy i b m := by
    intro i m x y hm
    rw [e2']; dsimp only
    rw [if_pos ⟨⟨x, y⟩, hm⟩, hq1 _ (by omega) (by omega), hq1 _ (by omega) y, ha1 _ (by omega) (by omega), ha1 _ (by omega) y]
    rfl
  have keep3 : ∀ l, NotScratch l → M3 l = M l := by
    intro l hn
    rw [← keep2 l hn]
    exact b3 l (by rintro ⟨i, m, _, _, (h | h)⟩; exacts [hn.2.1 _ _ h, hn.1 _ _ h])
  refine ⟨M4, ?_, ?_⟩
  · rw [seq_step e1, seq_step e2, seq_step e3, seq_step e4, seq_done]
  · constructor
    · intro i m x y hm
      rw [b4 _ (by simp), a3 _ ⟨i, m, ⟨by omega, by omega⟩, hm, Or.inr rfl⟩]
      simp only [godunovG]
      rw [am2 _ _ (by omega) (by omega) hm, e2']
      dsimp only
      rw [a1 _ ⟨1, by omega, m, hm, i, by omega, Or.inl rfl⟩, zero_add]
    · intro i m x y hm
      rw [b4 _ (by simp), a3 _ ⟨i, m, ⟨by omega, by omega⟩, hm, Or.inl rfl⟩]
      simp only [godunovG]
      rw [ap2 _ _ (by omega) (by omega) hm, e2']
      dsimp only
      rw [a1 _ ⟨1, by omega, m, hm, i, by omega, Or.inr (Or.inl rfl)⟩, zero_sub]
    · intro i m k x y hm hk
      rw [b4 _ (by simp), b3 _ (by simp), e2']
      dsimp only
      exact a1 _ ⟨k, by omega, m, hm, i, by omega, Or.inr (Or.inr (Or.inl rfl))⟩
    · intro i m k x y hm hk
      rw [b4 _ (by simp), b3 _ (by simp), e2']
      dsimp only
      exact a1 _ ⟨k, by omega, m, hm, i, by omega, Or.inr (Or.inr (Or.inr rfl))⟩
    · intro i m w x y hm hw
      rw [b4 _ (by simp), b3 _ (by simp)]
      exact w2 _ _ _ (by omega) (by omega) hm hw
    · intro i w x y hw
      rw [b4 _ (by simp), b3 _ (by simp)]
      exact s2 _ _ (by omega) (by omega) hw
    · intro i m x y hm
      rw [b4 _ (by simp), b3 _ (by simp)]
      exact am2 _ _ (by omega) (by omega) hm
    · intro i m x y hm
      rw [b4 _ (by simp), b3 _ (by simp)]
      exact ap2 _ _ (by omega) (by omega) hm
    · refine c4.congr fun i w hp => ?_
      unfold courants
      rw [keep3 _ (hd.apart _), keep3 _ (hd.apart _), hl.dt _ (by omega) (by omega), hl.dt _ (by omega) (by omega), b3 _ (by simp),
        s2 _ _ (by omega) (by omega) hp.2]
    · intro l hn
      rw [b4 _ hn.2.2.2.2.2.2.2.2.2.2.2]
      exact keep3 l hn

theorem wlimitr_phi (mth : ℤ) (h : 0 < mth) (h6 : mth ≤ 6) (r : ℚ) : wlimitr mth r = phi mth r := by
  unfold wlimitr phi minmod superbee vanLeer monotonizedCentered beamWarming generalizedMinmod
  split_ifs <;> first | omega | (simp only [max_assoc, min_assoc])

/-- The waves after the limiter. -/
theorem limited_waves (h : Fit z n) (hu : Usable z o) (M M1 : Mem) (hA : StageA z (schemeLag z o R fw g dx dy t) F ixy b n M M1) :
    ∃ M2, when (limits z o) (inlinelimiter z o n) M1 = some M2 ∧ (∀ l, (∀ i m w, l ≠ .wave i m w) → M2 l = M1 l) ∧
      ∀ i m w, 1 ≤ i → i ≤ n + 1 → z.eqn m → z.wav w →
        M2 (.wave i m w) = limitedWave (schemeLag z o R fw g dx dy t) F ixy i b w m := by
  by_cases hlim : limits z o = true
  · obtain ⟨M2, e, h1, h2⟩ := inlinelimiter_acts h o M1
    refine ⟨M2, by unfold when; rw [if_pos hlim]; exact e, ?_, ?_⟩
    · intro l hl
      exact h2 l (by rintro ⟨w, _, _, i, _, m, _, rfl⟩; exact hl _ _ _ rfl)
    · intro i m w x y hm hw
      have hwv : ∀ i m, 0 ≤ i → i ≤ n + 2 → z.eqn m → M1 (.wave i m w) = wave (schemeLag z o R fw g dx dy t) F ixy i b w m :=
        fun i m a b c => hA.wave i m w a b c hw
      have enorm : memNorm z M1 w i = dot z.meqn (wave (schemeLag z o R fw g dx dy t) F ixy i b w) (wave (schemeLag z o R fw g dx dy t) F ixy i b w) := by
        unfold memNorm dot
        refine Finset.sum_congr rfl fun m hm => ?_
        rw [hwv i m (by omega) (by omega) (Finset.mem_Icc.1 hm), sq]
      have edot : ∀ i, 0 ≤ i → i ≤ n + 1 → memDot z M1 w i = dot z.meqn (wave (schemeLag z o R fw g dx dy t) F ixy i b w) (wave (schemeLag z o R fw g dx dy t) F ixy (i + 1) b w) := by
        intro i x y
        unfold memDot dot
        refine Finset.sum_congr rfl fun m hm => ?_
        rw [hwv i m (by omega) (by omega) (Finset.mem_Icc.1 hm), hwv (i + 1) m (by omega) (by omega) (Finset.mem_Icc.1 hm)]
      unfold limitedWave
      by_cases hl0 : o.lim w = 0
      · rw [if_pos (Or.inl hl0), h2 _ (by
          rintro ⟨w', _, hn, i, _, m, _, he⟩
          simp only [Loc.wave.injEq] at he
          exact hn (he.2.2 ▸ hl0))]
        exact hwv i m (by omega) (by omega) hm
      · rw [h1 _ ⟨w, hw, hl0, i, ⟨x, y⟩, m, hm, rfl⟩]
        simp only [limitG]
        rw [enorm]
        by_cases hz : dot z.meqn (wave (schemeLag z o R fw g dx dy t) F ixy i b w) (wave (schemeLag z o R fw g dx dy t) F ixy i b w) = 0
        · rw [if_pos hz, if_pos (Or.inr hz)]
          exact hwv i m (by omega) (by omega) hm
        · rw [if_neg hz, if_neg (not_or.2 ⟨hl0, hz⟩)]
          have := hu.lim w hw.1 hw.2
          rw [wlimitr_phi _ (by omega) this.2, hwv i m (by omega) (by omega) hm]
          congr 2
          unfold jumpRatio upwind
          rw [hA.s i w (by omega) (by omega) hw]
          congr 1
          split_ifs
          · rw [edot (i - 1) (by omega) (by omega), sub_add_cancel]
          · rw [edot i (by omega) (by omega)]
            unfold dot
            exact Finset.sum_congr rfl fun m _ => mul_comm _ _
  · refine ⟨M1, by unfold when; rw [if_neg hlim], fun l _ => rfl, ?_⟩
    intro i m w x y hm hw
    rw [hA.wave i m w (by omega) (by omega) hm hw]
    unfold limitedWave
    rw [if_pos (Or.inl ?_)]
    have h0 := hu.lim w hw.1 hw.2
    by_contra hne
    apply hlim
    unfold limits
    rw [List.any_eq_true]
    refine ⟨w, (mem_range _ _ _).2 hw, ?_⟩
    rw [decide_eq_true_eq]
    have : o.lim w ≠ 0 := hne
    omega

/-- After the second order corrections. -/
structure StageB (z : Shape) (S : Scheme) (F : Field) (ixy : Nat) (b n : ℤ) (M M' : Mem) : Prop where
  faddm : ∀ i m, 1 ≤ i → i ≤ n + 1 → z.eqn m → M' (.faddm i m) = left S F ixy i b m + secondOrder S F ixy i b m
  faddp : ∀ i m, 1 ≤ i → i ≤ n + 1 → z.eqn m → M' (.faddp i m) = -right S F ixy i b m + secondOrder S F ixy i b m
  cqxx : S.order = 2 → ∀ i m, 1 ≤ i → i ≤ n + 1 → z.eqn m → M' (.cqxx i m) = corr S F ixy i b m
  keep : ∀ l, (∀ i m w, l ≠ .wave i m w) → (∀ i m, l ≠ .faddm i m) → (∀ i m, l ≠ .faddp i m) → (∀ i m, l ≠ .cqxx i m) → M' l = M l

theorem stageB (h : Fit z n) (hd : DtArray z dt) (hu : Usable z o) (M M1 : Mem)
    (hl : Line z (schemeLag z o R fw g dx dy t) F ixy b n dt M) (hA : StageA z (schemeLag z o R fw g dx dy t) F ixy b n M M1)
    (hlo : 2 - (z.mbc : ℤ) ≤ lo) (hlo1 : lo ≤ 1) (hhi : hi2 ≤ n + z.mbc) (hhi1 : n + 1 ≤ hi2) (c2 : Bool)
    (hc : c2 = decide (o.order = 2)) :
    ∃ M', when c2 (seq [when (limits z o) (inlinelimiter z o n), second z fw lo hi2 dt]) M1 = some M' ∧
      StageB z (schemeLag z o R fw g dx dy t) F ixy b n M1 M' := by
  have n0 := h.n0; have nm := h.nm; have mb := h.mbc
  by_cases ho : o.order = 2
  · obtain ⟨M2, e2, k2, w2⟩ := limited_waves h hu M M1 hA
    obtain ⟨M3, e3, a3, b3⟩ := second_acts h fw hd hlo hhi M2
    have hcorr : ∀ i m, 1 ≤ i → i ≤ n + 1 → z.eqn m → corrM z fw dt M2 i m = corr (schemeLag z o R fw g dx dy t) F ixy i b m := by
      intro i m x y hm
      unfold corrM corr
      refine Finset.sum_congr rfl fun w hw => ?_
      have hw' := Finset.mem_Icc.1 hw
      rw [w2 i m w x y hm hw', k2 _ (by simp), hA.s i w (by omega) (by omega) hw', k2 _ (hd.apart _).2.2.2.2.1, k2 _ (hd.apart _).2.2.2.2.1,
        hA.keep _ (hd.apart _), hA.keep _ (hd.apart _), hl.dt _ (by omega) (by omega), hl.dt _ (by omega) (by omega)]
      unfold strength sign1
      congr 2
      ring
    refine ⟨M3, ?_, ?_⟩
    · subst hc
      rw [when_true (by simpa using ho), seq_step e2, seq_step e3, seq_done]
    · constructor
      · intro i m x y hm
        rw [a3 _ ⟨i, m, ⟨by omega, by omega⟩, hm, Or.inr (Or.inl rfl)⟩]
        simp only [secondG]
        rw [hcorr i m x y hm, k2 _ (by simp), hA.faddm i m x y hm]
        unfold secondOrder
        rw [if_pos ho]
      · intro i m x y hm
        rw [a3 _ ⟨i, m, ⟨by omega, by omega⟩, hm, Or.inr (Or.inr rfl)⟩]
        simp only [secondG]
        rw [hcorr i m x y hm, k2 _ (by simp), hA.faddp i m x y hm]
        unfold secondOrder
        rw [if_pos ho]
      · intro _ i m x y hm
        rw [a3 _ ⟨i, m, ⟨by omega, by omega⟩, hm, Or.inl rfl⟩]
        exact hcorr i m x y hm
      · intro l x1 x2 x3 x4
        rw [b3 l (by rintro ⟨i, m, _, _, (h | h | h)⟩; exacts [x4 _ _ h, x2 _ _ h, x3 _ _ h]), k2 l x1]
  · refine ⟨M1, by subst hc; unfold when; rw [if_neg (by simpa using ho)], ?_, ?_, ?_, fun l _ _ _ _ => rfl⟩
    · intro i m x y hm
      rw [hA.faddm i m x y hm]; unfold secondOrder; rw [if_neg ho, add_zero]
    · intro i m x y hm
      rw [hA.faddp i m x y hm]; unfold secondOrder; rw [if_neg ho, add_zero]
    · intro h; exact absurd h ho

/-- After `rpt2`. -/
theorem rpt2_spec (M M1 : Mem) (ilr : Nat) (asdq : ℤ → ℤ → Loc) (dq : ℤ → Vec) (mb : 2 ≤ z.mbc)
    (hl : Line z (schemeLag z o R fw g dx dy t) F ixy b n dt M) (hk : ∀ l, NotScratch l → M1 l = M l)
    (hdq : ∀ i m, 1 ≤ i → i ≤ n + 1 → z.eqn m → M1 (asdq i m) = dq i m) :
    ∃ M', rpt2 z R ixy n ilr asdq M1 = some M' ∧
      (∀ l, (∀ i m, l ≠ .bmasdq i m) → (∀ i m, l ≠ .bpasdq i m) → M' l = M1 l) ∧
      (∀ i m, 1 ≤ i → i ≤ n + 1 → z.eqn m →
        M' (.bmasdq i m) = split (schemeLag z o R fw g dx dy t) F ixy i b false ilr (dq i) m) ∧
      ∀ i m, 1 ≤ i → i ≤ n + 1 → z.eqn m →
        M' (.bpasdq i m) = split (schemeLag z o R fw g dx dy t) F ixy i b true ilr (dq i) m := by
  have hq1 : ∀ i, 1 - (z.mbc : ℤ) ≤ i → i ≤ n + z.mbc → comps z.meqn (fun m => M1 (.q1d i m)) = F.val ixy i b := by
    intro i x y
    rw [← hl.q i x y]
    congr 1; funext m; exact hk _ (by simp [NotScratch])
  have hc : ∀ i, 1 ≤ i → i ≤ n + 1 → comps z.meqn (fun m => M1 (asdq i m)) = comps z.meqn (dq i) := by
    intro i x y
    funext m
    unfold comps
    by_cases hm : 1 ≤ m ∧ m ≤ (z.meqn : ℤ)
    · rw [if_pos hm, if_pos hm]; exact hdq i m x y hm
    · rw [if_neg hm, if_neg hm]
  have ha : ∀ i, 1 - (z.mbc : ℤ) ≤ i → i ≤ n + z.mbc → (fun k : Nat => comps z.maux fun m =>
      M1 (if k = 1 then .aux1 i m else if k = 2 then .aux2 i m else .aux3 i m)) = auxes F ixy i b := by
    intro i x y
    funext k
    unfold auxes
    have e1 : (fun m => M1 (.aux1 i m)) = fun m => M (.aux1 i m) := by funext m; exact hk _ (by simp [NotScratch])
    have e2 : (fun m => M1 (.aux2 i m)) = fun m => M (.aux2 i m) := by funext m; exact hk _ (by simp [NotScratch])
    have e3 : (fun m => M1 (.aux3 i m)) = fun m => M (.aux3 i m) := by funext m; exact hk _ (by simp [NotScratch])
    by_cases k1 : k = 1
    · simp only [k1, if_true]; rw [e1]; exact hl.a1 i x y
    · by_cases k2 : k = 2
      · simp only [k2, show ((2 : Nat) = 1) = False by simp, if_true, if_false]; rw [e2]; exact hl.a2 i x y
      · simp only [k1, k2, if_false]; rw [e3]; exact hl.a3 i x y
  refine ⟨_, rfl, ?_, ?_, ?_⟩
  · intro l h1 h2
    cases l <;> first | rfl | exact absurd rfl (h1 _ _) | exact absurd rfl (h2 _ _)
  · intro i m x y hm
    dsimp only
    rw [if_pos ⟨⟨by omega, by omega⟩, hm⟩, hq1 _ (by omega) (by omega), hq1 _ (by omega) (by omega), hc i x y, ha _ (by omega) (by omega),
      ha _ (by omega) (by omega)]
    rfl
  · intro i m x y hm
    dsimp only
    rw [if_pos ⟨⟨by omega, by omega⟩, hm⟩, hq1 _ (by omega) (by omega), hq1 _ (by omega) (by omega), hc i x y, ha _ (by omega) (by omega),
      ha _ (by omega) (by omega)]
    rfl

/-- The fluctuations that are split. -/
theorem addCorr_spec (h : Fit z n) (M M1 M2 : Mem) (hA : StageA z (schemeLag z o R fw g dx dy t) F ixy b n M M1)
    (hB : StageB z (schemeLag z o R fw g dx dy t) F ixy b n M1 M2)  (hu : Usable z o)
    (hlo : 2 - (z.mbc : ℤ) ≤ lo) (hlo1 : lo ≤ 1) (hhi : hi1 ≤ n + z.mbc) (hhi1 : n + 1 ≤ hi1) :
    ∃ M3, when (decide (1 < o.order ∧ o.trans = 2)) (addCorr z lo hi1) M2 = some M3 ∧
      (∀ l, (∀ i m, l ≠ .amdq i m) → (∀ i m, l ≠ .apdq i m) → M3 l = M2 l) ∧
      (∀ i m, 1 ≤ i → i ≤ n + 1 → z.eqn m → M3 (.amdq i m) = leftSplit (schemeLag z o R fw g dx dy t) F ixy i b m) ∧
      ∀ i m, 1 ≤ i → i ≤ n + 1 → z.eqn m → M3 (.apdq i m) = rightSplit (schemeLag z o R fw g dx dy t) F ixy i b m := by
  have hord := hu.order
  by_cases hc : o.order = 2 ∧ o.trans = 2
  · obtain ⟨M3, e, h1, h2⟩ := addCorr_acts h hlo hhi M2
    refine ⟨M3, by rw [when_true (by simp [hc])]; exact e, ?_, ?_, ?_⟩
    · intro l x y
      exact h2 l (by rintro ⟨i, m, _, _, (h | h)⟩; exacts [x _ _ h, y _ _ h])
    · intro i m x y hm
      rw [h1 _ ⟨i, m, ⟨by omega, by omega⟩, hm, Or.inl rfl⟩]
      simp only [addCorrG]
      rw [hB.cqxx hc.1 i m x y hm, hB.keep _ (by simp) (by simp) (by simp) (by simp), hA.amdq i m x y hm]
      unfold leftSplit
      rw [if_pos hc]
    · intro i m x y hm
      rw [h1 _ ⟨i, m, ⟨by omega, by omega⟩, hm, Or.inr rfl⟩]
      simp only [addCorrG]
      rw [hB.cqxx hc.1 i m x y hm, hB.keep _ (by simp) (by simp) (by simp) (by simp), hA.apdq i m x y hm]
      unfold rightSplit
      rw [if_pos hc]
  · refine ⟨M2, by rw [when_false (by simp; omega)], fun l _ _ => rfl, ?_, ?_⟩
    · intro i m x y hm
      rw [hB.keep _ (by simp) (by simp) (by simp) (by simp), hA.amdq i m x y hm]
      unfold leftSplit
      rw [if_neg hc, add_zero]
    · intro i m x y hm
      rw [hB.keep _ (by simp) (by simp) (by simp) (by simp), hA.apdq i m x y hm]
      unfold rightSplit
      rw [if_neg hc, sub_zero]

/-- A slice. -/
theorem fluxGen_spec (h : Fit z n) (hd : DtArray z dt) (hu : Usable z o) (M : Mem)
    (hl : Line z (schemeLag z o R fw g dx dy t) F ixy b n dt M)
    (hlo : 2 - (z.mbc : ℤ) ≤ lo) (hlo1 : lo ≤ 1) (hhi : hi1 ≤ n + z.mbc) (hhi1 : n + 1 ≤ hi1)
    (hhi' : hi2 ≤ n + z.mbc) (hhi1' : n + 1 ≤ hi2) (c2 ct : Bool)
    (hc : c2 = decide (o.order = 2)) (hct : ct = decide (0 < o.trans))
    (hR : ∀ i, NotScratch (dtR i)) (hRh : ∀ i, lo ≤ i → i ≤ hi2 → z.has (dtR i))
    (hRv : 0 < o.trans → ∀ i, 1 ≤ i → i ≤ n → M (dtR i) = lam (schemeLag z o R fw g dx dy t) F ixy (i - g) b) :
    ∃ M', fluxGen z o R fw lo hi1 hi2 c2 ct dtR ixy n dt M = some M' ∧
      FluxOut z (schemeLag z o R fw g dx dy t) F ixy b n M M' := by
  have n0 := h.n0; have nm := h.nm; have mb := h.mbc
  obtain ⟨MA, eA, hA⟩ := stageA h hd M hl hlo hlo1 hhi hhi1
  obtain ⟨MB, eB, hB⟩ := stageB h hd hu M MA hl hA hlo hlo1 hhi' hhi1' c2 hc
  have keepB : ∀ l, NotScratch l → MB l = M l := fun l hn => by
    rw [hB.keep l hn.2.2.2.2.1 hn.1 hn.2.1 hn.2.2.2.2.2.2.2.2.1]; exact hA.keep l hn
  -- the first four pieces
  have first : ∀ p : Prog, seq [clear z n, rpn2 z R ixy n, godunov z lo hi1, courant z n dt,
      when c2 (seq [when (limits z o) (inlinelimiter z o n), second z fw lo hi2 dt]), p] M = p MB := by
    intro p
    have : seq [clear z n, rpn2 z R ixy n, godunov z lo hi1, courant z n dt,
        when c2 (seq [when (limits z o) (inlinelimiter z o n), second z fw lo hi2 dt]), p] M =
        (seq [clear z n, rpn2 z R ixy n, godunov z lo hi1, courant z n dt] M).bind (seq [
        when c2 (seq [when (limits z o) (inlinelimiter z o n), second z fw lo hi2 dt]), p]) := by
      simp only [seq_cons, seq_nil, Option.bind_assoc, Option.bind_some]
    rw [this, eA]
    show seq _ MA = _
    rw [seq_step eB, seq_one]
  unfold fluxGen
  rw [first]
  by_cases ht : 0 < o.trans
  · obtain ⟨M3, e3, k3, am3, ap3⟩ := addCorr_spec h M MA MB hA hB hu hlo hlo1 hhi hhi1
    have keep3 : ∀ l, NotScratch l → M3 l = M l := fun l hn => by
      rw [k3 l hn.2.2.2.2.2.2.1 hn.2.2.2.2.2.2.2.1]; exact keepB l hn
    obtain ⟨M4, e4, k4, bm4, bp4⟩ := rpt2_spec M M3 1 .amdq _ mb hl keep3 am3
    have keep4 : ∀ l, NotScratch l → M4 l = M l := fun l hn => by
      rw [k4 l hn.2.2.2.2.2.2.2.2.2.1 hn.2.2.2.2.2.2.2.2.2.2.1]; exact keep3 l hn
    obtain ⟨M5, e5, a5, b5⟩ := spillLeft_acts h hd hlo hhi' M4
    have k5 : ∀ l, (∀ i m k, l ≠ .gaddm i m k) → (∀ i m k, l ≠ .gaddp i m k) → M5 l = M4 l := fun l x y =>
      b5 l (by rintro ⟨m, i, _, _, ((h | h) | (h | h))⟩; exacts [x _ _ _ h, y _ _ _ h, x _ _ _ h, y _ _ _ h])
    have keep5 : ∀ l, NotScratch l → M5 l = M l := fun l hn => by
      rw [k5 l hn.2.2.1 hn.2.2.2.1]; exact keep4 l hn
    have ap5 : ∀ i m, 1 ≤ i → i ≤ n + 1 → z.eqn m → M5 (.apdq i m) = rightSplit (schemeLag z o R fw g dx dy t) F ixy i b m := by
      intro i m x y hm
      rw [k5 _ (by simp) (by simp), k4 _ (by simp) (by simp)]; exact ap3 i m x y hm
    obtain ⟨M6, e6, k6, bm6, bp6⟩ := rpt2_spec M M5 2 .apdq _ mb hl keep5 ap5
    obtain ⟨M7, e7, a7, b7⟩ := spillRight_acts h hlo hhi' hR hRh M6
    have k7 : ∀ l, (∀ i m k, l ≠ .gaddm i m k) → (∀ i m k, l ≠ .gaddp i m k) → M7 l = M6 l := fun l x y =>
      b7 l (by rintro ⟨m, i, _, _, ((h | h) | (h | h))⟩; exacts [x _ _ _ h, y _ _ _ h, x _ _ _ h, y _ _ _ h])
    have keep6 : ∀ l, NotScratch l → M6 l = M l := fun l hn => by
      rw [k6 l hn.2.2.2.2.2.2.2.2.2.1 hn.2.2.2.2.2.2.2.2.2.2.1]; exact keep5 l hn
    refine ⟨M7, ?_, ?_⟩
    · subst hct
      rw [when_true (by simpa using ht), seq_step e3, seq_step e4, seq_step e5, seq_step e6, seq_step e7, seq_done]
    · have hg : ∀ i m k, 1 ≤ i → i ≤ n → z.eqn m → k = 1 ∨ k = 2 →
          M7 (.gaddm i m k) = spill (schemeLag z o R fw g dx dy t) F ixy i b (decide (k = 2)) m ∧
          M7 (.gaddp i m k) = spill (schemeLag z o R fw g dx dy t) F ixy i b (decide (k = 2)) m := by
        intro i m k x y hm hk
        have ml : ∀ l : Loc, l = .gaddm i m k ∨ l = .gaddp i m k → ∃ m' i', (1 ≤ m' ∧ m' ≤ (z.meqn : ℤ)) ∧ (lo ≤ i' ∧ i' ≤ hi2) ∧
            ((l = .gaddm (i' - 1) m' 1 ∨ l = .gaddp (i' - 1) m' 1) ∨ (l = .gaddm (i' - 1) m' 2 ∨ l = .gaddp (i' - 1) m' 2)) := by
          intro l hl
          refine ⟨m, i + 1, hm, ⟨by omega, by omega⟩, ?_⟩
          rw [add_sub_cancel_right]
          rcases hk with rfl | rfl
          · exact Or.inl hl
          · exact Or.inr hl
        have mr : ∀ l : Loc, l = .gaddm i m k ∨ l = .gaddp i m k → ∃ m' i', (1 ≤ m' ∧ m' ≤ (z.meqn : ℤ)) ∧ (lo ≤ i' ∧ i' ≤ hi2) ∧
            ((l = .gaddm i' m' 1 ∨ l = .gaddp i' m' 1) ∨ (l = .gaddm i' m' 2 ∨ l = .gaddp i' m' 2)) := by
          intro l hl
          refine ⟨m, i, hm, ⟨by omega, by omega⟩, ?_⟩
          rcases hk with rfl | rfl
          · exact Or.inl hl
          · exact Or.inr hl
        have hb4 : M4 (if k = 1 then .bmasdq (i + 1) m else .bpasdq (i + 1) m) =
            split (schemeLag z o R fw g dx dy t) F ixy (i + 1) b (decide (k = 2)) 1 (leftSplit (schemeLag z o R fw g dx dy t) F ixy (i + 1) b) m := by
          rcases hk with rfl | rfl
          · rw [if_pos rfl]; exact bm4 _ _ (by omega) (by omega) hm
          · rw [if_neg (by decide)]; exact bp4 _ _ (by omega) (by omega) hm
        have hb6 : M6 (if k = 1 then .bmasdq (i + 0) m else .bpasdq (i + 0) m) =
            split (schemeLag z o R fw g dx dy t) F ixy i b (decide (k = 2)) 2 (rightSplit (schemeLag z o R fw g dx dy t) F ixy i b) m := by
          rw [add_zero]
          rcases hk with rfl | rfl
          · rw [if_pos rfl]; exact bm6 _ _ (by omega) (by omega) hm
          · rw [if_neg (by decide)]; exact bp6 _ _ (by omega) (by omega) hm
        have hd4 : M4 (dt i) = lam (schemeLag z o R fw g dx dy t) F ixy i b := by
          rw [keep4 _ (hd.apart _)]; exact hl.dt _ (by omega) (by omega)
        have hd6 : M6 (dtR i) = lam (schemeLag z o R fw g dx dy t) F ixy (i - g) b := by
          rw [keep6 _ (hR _)]; exact hRv ht i x y
        have z4 : M4 (.gaddm i m k) = 0 ∧ M4 (.gaddp i m k) = 0 := by
          constructor
          · rw [k4 _ (by simp) (by simp), k3 _ (by simp) (by simp), hB.keep _ (by simp) (by simp) (by simp) (by simp)]
            exact hA.gaddm i m k x y hm hk
          · rw [k4 _ (by simp) (by simp), k3 _ (by simp) (by simp), hB.keep _ (by simp) (by simp) (by simp) (by simp)]
            exact hA.gaddp i m k x y hm hk
        constructor
        · rw [a7 _ (mr _ (Or.inl rfl))]
          simp only [spillG]
          rw [hb6, hd6, k6 _ (by simp) (by simp), a5 _ (ml _ (Or.inl rfl))]
          simp only [spillG]
          rw [hb4, hd4, z4.1]
          unfold spill
          ring
        · rw [a7 _ (mr _ (Or.inr rfl))]
          simp only [spillG]
          rw [hb6, hd6, k6 _ (by simp) (by simp), a5 _ (ml _ (Or.inr rfl))]
          simp only [spillG]
          rw [hb4, hd4, z4.2]
          unfold spill
          ring
      have h7B : ∀ l, (∀ i m k, l ≠ .gaddm i m k) → (∀ i m k, l ≠ .gaddp i m k) → (∀ i m, l ≠ .bmasdq i m) →
          (∀ i m, l ≠ .bpasdq i m) → (∀ i m, l ≠ .amdq i m) → (∀ i m, l ≠ .apdq i m) → M7 l = MB l := by
        intro l x1 x2 x3 x4 x5 x6
        rw [k7 l x1 x2, k6 l x3 x4, k5 l x1 x2, k4 l x3 x4, k3 l x5 x6]
      constructor
      · intro i m x y hm
        rw [h7B _ (by simp) (by simp) (by simp) (by simp) (by simp) (by simp)]; exact hB.faddm i m x y hm
      · intro i m x y hm
        rw [h7B _ (by simp) (by simp) (by simp) (by simp) (by simp) (by simp)]; exact hB.faddp i m x y hm
      · intro i m k x y hm hk
        rw [if_pos ht]; exact (hg i m k x y hm hk).1
      · intro i m k x y hm hk
        rw [if_pos ht]; exact (hg i m k x y hm hk).2
      · rw [h7B _ (by simp) (by simp) (by simp) (by simp) (by simp) (by simp), hB.keep _ (by simp) (by simp) (by simp) (by simp)]
        exact hA.cfl
      · intro l hn
        rw [h7B _ hn.2.2.1 hn.2.2.2.1 hn.2.2.2.2.2.2.2.2.2.1 hn.2.2.2.2.2.2.2.2.2.2.1 hn.2.2.2.2.2.2.1 hn.2.2.2.2.2.2.2.1]
        exact keepB l hn
  · refine ⟨MB, by subst hct; rw [when_false (by simpa using ht)], ?_⟩
    constructor
    · exact hB.faddm
    · exact hB.faddp
    · intro i m k x y hm hk
      rw [if_neg ht, hB.keep _ (by simp) (by simp) (by simp) (by simp)]; exact hA.gaddm i m k x y hm hk
    · intro i m k x y hm hk
      rw [if_neg ht, hB.keep _ (by simp) (by simp) (by simp) (by simp)]; exact hA.gaddp i m k x y hm hk
    · rw [hB.keep _ (by simp) (by simp) (by simp) (by simp)]; exact hA.cfl
    · exact keepB

/-- `clawpack46_flux2`. -/
theorem flux2_spec (h : Fit z n) (hd : DtArray z dt) (hu : Usable z o) (M : Mem)
    (hl : Line z (scheme z o R false dx dy t) F ixy b n dt M) :
    ∃ M', flux2 z o R ixy n dt M = some M' ∧ FluxOut z (scheme z o R false dx dy t) F ixy b n M M' := by
  have n0 := h.n0; have nm := h.nm; have mb := h.mbc
  have : flux2 z o R ixy n dt = fluxGen z o R false (2 - z.mbc) (n + z.mbc - 1) (n + z.mbc) (decide (o.order = 2))
    (decide (0 < o.trans)) dt ixy n dt := rfl
  rw [this]
  exact fluxGen_spec (g := 0) h hd hu M hl le_rfl (by omega) (by omega) (by omega) le_rfl (by omega) _ _ rfl rfl hd.apart
    (fun i x y => hd.has _ (by simp only [Shape.inLine]; omega)) (fun _ i x y => by rw [sub_zero]; exact hl.dt i (by omega) (by omega))

/-- `clawpack46_flux2fw`. -/
theorem flux2fw_spec (h : Fit z n) (hd : DtArray z dt) (hu : Usable z o) (M : Mem)
    (hl : Line z (scheme z o R true dx dy t) F ixy b n dt M) :
    ∃ M', flux2fw z o R ixy n dt M = some M' ∧ FluxOut z (scheme z o R true dx dy t) F ixy b n M M' := by
  have n0 := h.n0; have nm := h.nm; have mb := h.mbc
  have : flux2fw z o R ixy n dt = fluxGen z o R true 1 (n + 1) (n + 1) (decide (o.order ≠ 1))
    (decide (o.trans ≠ 0)) (fun i => dt (i - 1)) ixy n dt := rfl
  rw [this]
  have := hu.order; have := hu.trans
  refine fluxGen_spec (g := 1) h hd hu M hl (by omega) le_rfl (by omega) le_rfl (by omega) le_rfl _ _
    (decide_eq_decide.2 (by omega)) (decide_eq_decide.2 (by omega)) (fun i => hd.apart _)
    (fun i x y => hd.has _ (by simp only [Shape.inLine]; omega)) (fun ht i x y => ?_)
  exact hl.dt (i - 1) (by omega) (by omega)

end

end Fclaw.Wave

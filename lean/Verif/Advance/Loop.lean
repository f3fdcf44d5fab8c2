/-
The loop over fine steps and the whole of `fclaw2d_advance_all_levels`.
-/
import Verif.Advance.Lemmas

set_option autoImplicit false
set_option linter.unusedSimpArgs false
set_option linter.unusedVariables false
namespace Fclaw.Advance

/-- The step increment of a level. -/
def incOf (ts : Counters) (l : Nat) : Option Nat := (ts l).map Counter.stepInc

theorem incOf_stepLevel (cfl : List Ev → ℚ) (l : Nat) (mc mc' : ℚ) (s s' : St)
    (h : stepLevel cfl l mc s = some (s', mc')) : incOf s'.ts = incOf s.ts := by
  unfold stepLevel at h
  cases h5 : s.ts l with
  | none => rw [h5] at h; simp at h
  | some c =>
    rw [h5] at h
    simp only [Option.some.injEq, Prod.mk.injEq] at h
    rw [← h.1]
    funext l'
    simp only [incOf, setLevel]
    split
    · rename_i he
      rw [he, h5]; rfl
    · rfl

theorem incOf_advanceLevel (S : Setup) (cfl : List Ev → ℚ) : ∀ (l k : Nat) (mc mc' : ℚ) (s s' : St),
    advanceLevel S cfl l k mc s = some (s', mc') → incOf s'.ts = incOf s.ts
  | 0, k, mc, mc', s, s', h => incOf_stepLevel cfl 0 mc mc' s s' h
  | l + 1, k, mc, mc', s, s', h => by
    unfold advanceLevel at h
    cases h6 : stepLevel cfl (l + 1) mc s with
    | none => rw [h6] at h; simp at h
    | some r =>
      obtain ⟨s3, m3⟩ := r
      have e3 := incOf_stepLevel cfl (l + 1) mc m3 s s3 h6
      rw [h6] at h
      dsimp only at h
      split at h
      · cases h7 : s3.ts l with
        | none => rw [h7] at h; simp at h
        | some cc =>
          rw [h7] at h
          dsimp only at h
          split at h
          · cases h8 : advanceLevel S cfl l cc.lastStep m3 s3 with
            | none => rw [h8] at h; simp at h
            | some r4 =>
              obtain ⟨s4, m4⟩ := r4
              have e4 := incOf_advanceLevel S cfl l _ _ _ _ _ h8
              rw [h8] at h
              dsimp only at h
              split at h
              · cases h9 : computeAlpha s4.ts (l + 1) with
                | none => rw [h9] at h; simp at h
                | some al =>
                  rw [h9] at h
                  simp only [Option.some.injEq, Prod.mk.injEq] at h
                  rw [← h.1, ← e3, ← e4]
              · simp only [Option.some.injEq, Prod.mk.injEq] at h
                rw [← h.1, ← e3, ← e4]
          · simp only [Option.some.injEq, Prod.mk.injEq] at h
            rw [← h.1, e3]
      · simp only [Option.some.injEq, Prod.mk.injEq] at h
        rw [← h.1, e3]

theorem timeinterpLevel_congr (ts ts' : Counters) (h : incOf ts = incOf ts') (k : Nat) : ∀ (ti : Nat),
    timeinterpLevel ts k ti = timeinterpLevel ts' k ti
  | 0 => by
    have h0 := congrFun h 0
    unfold incOf at h0
    unfold timeinterpLevel
    cases h1 : ts 0 <;> cases h2 : ts' 0 <;> simp [h1, h2] at h0 ⊢
    rw [h0]
  | ti + 1 => by
    have h0 := congrFun h (ti + 1)
    have ih := timeinterpLevel_congr ts ts' h k ti
    unfold incOf at h0
    unfold timeinterpLevel
    cases h1 : ts (ti + 1) <;> cases h2 : ts' (ti + 1) <;> simp [h1, h2] at h0 ⊢
    rw [h0, ih]

/-- The search ends at the finest level whose increment does not divide the step. -/
theorem timeinterpLevel_ok (ts : Counters) (m M k : Nat)
    (hinc : ∀ l, m ≤ l → l < M → incOf ts l = some (2 ^ (M - l)))
    (hk : ¬ 2 ^ (M - m) ∣ k) : ∀ (ti : Nat), m ≤ ti → ti < M → 2 ^ (M - (ti + 1)) ∣ k →
    ∃ r, timeinterpLevel ts k ti = some r ∧ m ≤ r ∧ r ≤ ti ∧ 2 ^ (M - (r + 1)) ∣ k ∧
      ¬ 2 ^ (M - r) ∣ k
  | 0, h1, h2, h3 => by
    have h4 := hinc 0 h1 h2
    unfold incOf at h4
    unfold timeinterpLevel
    cases h5 : ts 0 with
    | none => rw [h5] at h4; simp at h4
    | some c =>
      rw [h5] at h4
      simp only [Option.map_some, Option.some.injEq] at h4
      have hm : m = 0 := by omega
      subst hm
      have hpos : 0 < 2 ^ (M - 0) := Nat.pow_pos (by omega)
      dsimp only
      rw [h4, if_neg (by omega)]
      rw [if_neg (fun h => hk (Nat.dvd_of_mod_eq_zero h))]
      exact ⟨0, rfl, by omega, by omega, h3, hk⟩
  | ti + 1, h1, h2, h3 => by
    have h4 := hinc (ti + 1) h1 h2
    unfold incOf at h4
    unfold timeinterpLevel
    cases h5 : ts (ti + 1) with
    | none => rw [h5] at h4; simp at h4
    | some c =>
      rw [h5] at h4
      simp only [Option.map_some, Option.some.injEq] at h4
      have hpos : 0 < 2 ^ (M - (ti + 1)) := Nat.pow_pos (by omega)
      dsimp only
      rw [h4, if_neg (by omega)]
      by_cases hd : k % 2 ^ (M - (ti + 1)) = 0
      · rw [if_pos hd]
        have hd' := Nat.dvd_of_mod_eq_zero hd
        have hm : m ≤ ti := by
          rcases Nat.lt_or_ge ti m with h | h
          · have : m = ti + 1 := by omega
            rw [this] at hk
            exact absurd hd' hk
          · exact h
        obtain ⟨r, e1, e2, e3, e4, e5⟩ := timeinterpLevel_ok ts m M k hinc hk ti hm (by omega) hd'
        exact ⟨r, e1, e2, by omega, e4, e5⟩
      · rw [if_neg hd]
        exact ⟨ti + 1, rfl, h1, by omega, h3, fun h => hd (Nat.mod_eq_zero_of_dvd h)⟩

/-- The collective operations after fine step number `k` (not the last one). -/
def exchangeAt (S : Setup) (init : Counters) (t : ℚ) (k : Nat) : List Ev :=
  if S.subcycle then
    match timeinterpLevel init k (S.globalMaxlevel - 1) with
    | none => []
    | some ti => .ghost (ti + 1) S.globalMaxlevel t true ::
      (if S.timeSync then [.sync (ti + 1) S.globalMaxlevel] else [])
  else .ghost S.globalMinlevel S.globalMaxlevel t false ::
    (if S.timeSync then [.sync S.globalMinlevel S.globalMaxlevel] else [])

/-- All of them up to fine step `k`. -/
def exchanges (S : Setup) (init : Counters) (t0 δ : ℚ) (k : Nat) : List Ev :=
  (List.range k).flatMap fun j => exchangeAt S init (t0 + ((j + 1 : Nat) : ℚ) * δ) (j + 1)

theorem exchanges_succ (S : Setup) (init : Counters) (t0 δ : ℚ) (k : Nat) :
    exchanges S init t0 δ (k + 1) =
      exchanges S init t0 δ k ++ exchangeAt S init (t0 + ((k + 1 : Nat) : ℚ) * δ) (k + 1) := by
  simp [exchanges, List.range_succ]

/-- Everything that holds after `k` fine steps. -/
structure Inv (X : Ctx) (init : Counters) (k : Nat) (s : St) : Prop where
  base : ∀ l, X.Act l → BaseE X k l s
  int : ∀ l, X.Act l → l < X.S.globalMaxlevel → Int' X l s
  inc : incOf s.ts = incOf init
  ok : Always (EvOk X) s.log

theorem Inv.of_same {X : Ctx} {init : Counters} {k : Nat} {s : St} (h : Inv X init k s)
    (log : List Ev) (hl : ∀ l, dataOf X.t0 l log = dataOf X.t0 l s.log) (hok : Always (EvOk X) log) :
    Inv X init k ⟨s.ts, log⟩ :=
  ⟨fun l ha => (h.base l ha).congr ⟨rfl, hl l⟩, fun l ha hlt => (h.int l ha hlt).congr ⟨rfl, hl l⟩,
   h.inc, hok⟩

theorem dataOf_ghost (t : ℚ) (l : Nat) (log : List Ev) (lo hi : Nat) (t' : ℚ) (b : Bool) :
    dataOf t l (log ++ [.ghost lo hi t' b]) = dataOf t l log := by
  rw [dataOf_snoc]; rfl

theorem dataOf_sync (t : ℚ) (l : Nat) (log : List Ev) (lo hi : Nat) :
    dataOf t l (log ++ [.sync lo hi]) = dataOf t l log := by
  rw [dataOf_snoc]; rfl

/-- The finest level is exactly at the step. -/
theorem finest_at {X : Ctx} (hX : X.Ok) (k : Nat) (s : St) (h : BaseE X k X.S.globalMaxlevel s) :
    ∃ c, Base X k X.S.globalMaxlevel s c ∧ c.lastStep = k ∧ c.currentTime = X.t0 + k * X.δ := by
  obtain ⟨c, hc⟩ := h
  have h1 := hc.lo
  have h2 := hc.hi
  rw [hX.one] at h2
  have : c.lastStep = k := by omega
  exact ⟨c, hc, this, by rw [hc.time, this]⟩

/-- A level whose increment divides the step is exactly at the step. -/
theorem due_at {X : Ctx} (k l : Nat) (s : St) (h : BaseE X k l s) (hd : X.inc l ∣ k) :
    (dataOf X.t0 l s.log).cur = X.t0 + k * X.δ ∧ ∃ c, Base X k l s c ∧ c.lastStep = k := by
  obtain ⟨c, hc⟩ := h
  have := mult_eq _ _ _ hc.dvd hd hc.lo hc.hi
  exact ⟨by rw [hc.cur, hc.time, this], c, hc, this⟩

theorem act_max (X : Ctx) : X.Act X.S.globalMaxlevel := ⟨Nat.le_refl _, Or.inr rfl⟩

/-- Adding an exchange with its conservative correction. -/
theorem add_exchange {X : Ctx} {init : Counters} {k : Nat} {s : St} (h : Inv X init k s)
    (lo hi : Nat) (t : ℚ) (b : Bool) (hev : EvOk X s.log (.ghost lo hi t b)) :
    Inv X init k ⟨s.ts, s.log ++ [.ghost lo hi t b] ++
      (if X.S.timeSync then [.sync lo hi] else [])⟩ ∧
    maxCfl (s.log ++ [.ghost lo hi t b] ++ (if X.S.timeSync then [.sync lo hi] else []))
      = maxCfl s.log := by
  have h1 := always_snoc _ _ _ h.ok hev
  cases hS : X.S.timeSync with
  | false =>
    simp only [Bool.false_eq_true, if_false, List.append_nil]
    refine ⟨h.of_same _ (fun l => dataOf_ghost _ _ _ _ _ _ _) h1, ?_⟩
    exact maxCfl_snoc_other _ _ (by rfl)
  | true =>
    simp only [if_true]
    refine ⟨h.of_same _ (fun l => by rw [dataOf_sync, dataOf_ghost]) ?_, ?_⟩
    · exact always_snoc _ _ _ h1 ⟨s.log, t, b, rfl⟩
    · rw [maxCfl_snoc_other _ _ (by rfl), maxCfl_snoc_other _ _ (by rfl)]

structure Ctx.Full (X : Ctx) (init : Counters) : Prop extends X.Ok where
  sub : X.S.subcycle = true → (∀ l, X.S.minlevel ≤ l → l ≤ X.S.globalMaxlevel →
      X.inc l = 2 ^ (X.S.globalMaxlevel - l) ∧ incOf init l = some (2 ^ (X.S.globalMaxlevel - l))) ∧
    X.tot X.S.globalMaxlevel = 2 ^ (X.S.globalMaxlevel - X.S.minlevel)
  glo : X.S.subcycle = false → ∀ l, X.S.minlevel ≤ l → l ≤ X.S.globalMaxlevel → X.inc l = 1
  lev : X.S.Ok
  init0 : ∀ l, X.Act l → init l = some ⟨0, X.inc l, X.tot l, X.t0, X.inc l * X.δ⟩
  prod : ∀ l, X.Act l → X.inc l * X.tot l = X.tot X.S.globalMaxlevel

/-- The exchange in between. -/
theorem intermediate_ok {X : Ctx} {init : Counters} (hX : X.Full init) (k : Nat) (s : St)
    (h : Inv X init k s) (hk0 : 0 < k) (hkt : k < X.tot X.S.globalMaxlevel) (c : Counter)
    (hc : Base X k X.S.globalMaxlevel s c) :
    ∃ s', intermediate X.S s c = some s' ∧ Inv X init k s' ∧ maxCfl s'.log = maxCfl s.log ∧
      s'.log.filter Ev.collective = s.log.filter Ev.collective ++
        exchangeAt X.S init (X.t0 + (k : ℚ) * X.δ) k := by
  obtain ⟨c', hc', hlast, htime⟩ := finest_at hX.toOk k s (h.base _ (act_max X))
  have hcc : c' = c := by
    have := hc'.get; rw [hc.get] at this; exact (Option.some.inj this).symm
  subst hcc
  have hlev := hX.lev
  unfold Setup.Ok at hlev
  cases hsub : X.S.subcycle with
  | true =>
    obtain ⟨hinc, htot⟩ := hX.sub hsub
    have hMm : X.S.minlevel < X.S.globalMaxlevel := by
      rcases Nat.lt_or_ge X.S.minlevel X.S.globalMaxlevel with h' | h'
      · exact h'
      · rw [htot, Nat.sub_eq_zero_of_le h'] at hkt
        simp at hkt; omega
    have hnd : ¬ 2 ^ (X.S.globalMaxlevel - X.S.minlevel) ∣ k := by
      intro hd
      have := Nat.le_of_dvd hk0 hd
      omega
    obtain ⟨r, e1, e2, e3, e4, e5⟩ := timeinterpLevel_ok init X.S.minlevel X.S.globalMaxlevel k
      (fun l a b => (hinc l a (by omega)).2) hnd (X.S.globalMaxlevel - 1) (by omega) (by omega)
      (by rw [show X.S.globalMaxlevel - (X.S.globalMaxlevel - 1 + 1) = 0 by omega]; simp)
    have e1' : timeinterpLevel s.ts k (X.S.globalMaxlevel - 1) = some r := by
      rw [timeinterpLevel_congr s.ts init h.inc]; exact e1
    have hev : EvOk X s.log (.ghost (r + 1) X.S.globalMaxlevel c'.currentTime true) := by
      refine ⟨rfl, ?_, ?_, by simp⟩
      · intro l h1 h2 h3
        rw [htime]
        refine (due_at k l s (h.base l ⟨h3, Or.inl h1⟩) ?_).1
        rw [(hinc l (by omega) h3).1]
        exact Nat.dvd_trans (Nat.pow_dvd_pow 2 (by omega)) e4
      · intro _
        refine ⟨by omega, by omega, ?_⟩
        rw [Nat.add_sub_cancel]
        intro hr
        have hact : X.Act r := ⟨by omega, Or.inl hr⟩
        obtain ⟨cr, hcr⟩ := h.base r hact
        have hi1 := (hinc r e2 (by omega)).1
        have hi2 := (hinc (r + 1) (by omega) (by omega)).1
        have hdouble : X.inc r = 2 * X.inc (r + 1) := by
          have := hX.step r hr (by omega)
          rw [hsub] at this; simpa using this
        rw [← hi2] at e4
        rw [← hi1] at e5
        have hlastr : cr.lastStep = k + X.inc (r + 1) := by
          obtain ⟨a, ha⟩ := e4
          obtain ⟨b, hb⟩ := hcr.dvd
          have h1 := hcr.lo
          have h2 := hcr.hi
          have hpos := X.inc_pos hX.toOk r hact
          have hodd : a % 2 = 1 := by
            rcases Nat.mod_two_eq_zero_or_one a with h0 | h0
            · exfalso
              apply e5
              rw [hdouble, ha]
              obtain ⟨w, hw⟩ := Nat.dvd_of_mod_eq_zero h0
              rw [hw]
              exact ⟨w, by ring⟩
            · exact h0
          obtain ⟨q, hq⟩ : ∃ q, a = 2 * q + 1 := ⟨a / 2, by omega⟩
          rw [hq] at ha
          rw [hdouble] at hb h2
          generalize X.inc (r + 1) = i at *
          have hb' : cr.lastStep = i * (2 * b) := by rw [hb]; ring
          have ha' : k = i * (2 * q) + i := by rw [ha]; ring
          have hlt : i * (2 * b) < i * (2 * q + 3) := by
            have : i * (2 * q + 3) = i * (2 * q) + i + 2 * i := by ring
            omega
          have hge : i * (2 * q + 1) ≤ i * (2 * b) := by
            have : i * (2 * q + 1) = i * (2 * q) + i := by ring
            omega
          have hi0 : 0 < i := by omega
          have h3 : 2 * b < 2 * q + 3 := Nat.lt_of_mul_lt_mul_left hlt
          have h4 : 2 * q + 1 ≤ 2 * b := Nat.le_of_mul_le_mul_left hge hi0
          have h5 : b = q + 1 := by omega
          rw [hb', h5, ha']
          ring
        have hposl : 0 < X.inc (r + 1) := by rw [hi2]; exact Nat.pow_pos (by omega)
        have hint := h.int r hact (by omega) hsub cr hcr.get (by omega)
        have hprev := hcr.prev (by omega)
        have hδ : (0 : ℚ) < X.inc (r + 1) * X.δ := by
          have : (0 : ℚ) < X.inc (r + 1) := by exact_mod_cast hposl
          exact mul_pos this hX.pos
        rw [hint, hprev, hcr.cur, hcr.time, htime, hlastr, hdouble]
        push_cast
        refine ⟨?_, ?_, ?_⟩
        · congr 1; ring
        · linarith
        · linarith
    obtain ⟨g1, g2⟩ := add_exchange h _ _ _ _ hev
    unfold intermediate
    simp only [hsub, if_true]
    cases hM : X.S.globalMaxlevel with
    | zero => omega
    | succ M' =>
      rw [hM] at e1' g1 g2
      simp only [Nat.add_sub_cancel] at e1'
      dsimp only
      rw [hlast, e1']
      refine ⟨_, rfl, g1, g2, ?_⟩
      unfold exchangeAt
      simp only [hsub, if_true]
      rw [e1]
      rw [htime]
      dsimp only
      rw [List.filter_append, List.filter_append, hM]
      cases X.S.timeSync <;> simp [Ev.collective, List.filter_cons]
  | false =>
    have hone : ∀ l, X.Act l → X.inc l = 1 := fun l ha => hX.glo hsub l
      (by rcases ha.2 with h' | h' <;> omega) ha.1
    have hev : EvOk X s.log (.ghost X.S.globalMinlevel X.S.globalMaxlevel c'.currentTime false) := by
      refine ⟨rfl, ?_, by simp, fun _ => rfl⟩
      intro l h1 h2 h3
      rw [htime]
      refine (due_at k l s (h.base l ⟨h3, Or.inl h1⟩) ?_).1
      rw [hone l ⟨h3, Or.inl h1⟩]; exact Nat.one_dvd k
    obtain ⟨g1, g2⟩ := add_exchange h _ _ _ _ hev
    unfold intermediate
    simp only [hsub, Bool.false_eq_true, if_false]
    refine ⟨_, rfl, g1, g2, ?_⟩
    unfold exchangeAt
    simp only [hsub, Bool.false_eq_true, if_false]
    rw [htime]
    rw [List.filter_append, List.filter_append]
    cases X.S.timeSync <;> simp [Ev.collective, List.filter_cons]

theorem fineLoop_ok {X : Ctx} {init : Counters} (hX : X.Full init) (cfl : List Ev → ℚ) :
    ∀ (n k : Nat) (mc : ℚ) (s : St), k + n = X.tot X.S.globalMaxlevel → Inv X init k s →
    mc = maxCfl s.log →
    s.log.filter Ev.collective =
      exchanges X.S init X.t0 X.δ (min k (X.tot X.S.globalMaxlevel - 1)) →
    ∃ s' mc', fineLoop X.S cfl n k mc s = some (s', mc') ∧
      Inv X init (X.tot X.S.globalMaxlevel) s' ∧ mc' = maxCfl s'.log ∧
      s'.log.filter Ev.collective =
        exchanges X.S init X.t0 X.δ (X.tot X.S.globalMaxlevel - 1)
  | 0, k, mc, s, hn, h, hmc, hco => by
    refine ⟨s, mc, rfl, ?_, hmc, ?_⟩
    · rw [← hn]; exact h
    · rw [hco]; congr 1; omega
  | n + 1, k, mc, s, hn, h, hmc, hco => by
    obtain ⟨s1, mc1, a1, a2, a3, a4, a5, a6, a7, a8⟩ := advanceLevel_ok hX.toOk cfl k
      X.S.globalMaxlevel (act_max X) (by rw [hX.one]; exact Nat.one_dvd k) mc s
      (fun l ha _ => h.base l ha) (fun l ha hlt => h.int l ha hlt) h.ok hmc
    have hinv1 : Inv X init (k + 1) s1 :=
      ⟨fun l ha => a2 l ha ha.1, fun l ha hlt => a4 l ha hlt,
       (incOf_advanceLevel X.S cfl _ _ _ _ _ _ a1).trans h.inc, a6⟩
    have hmono : mc ≤ mc1 := by
      -- the maximum does not decrease
      have hg : ∀ (l : Nat) (m : ℚ) (k : Nat) (s s' : St) (m' : ℚ),
          advanceLevel X.S cfl l k m s = some (s', m') → m ≤ m' := by
        intro l m k s s' m' h
        have hst : ∀ (l : Nat) (m m' : ℚ) (s s' : St), stepLevel cfl l m s = some (s', m') → m ≤ m' := by
          intro l m m' s s' h6
          unfold stepLevel at h6
          cases h5 : s.ts l with
          | none => rw [h5] at h6; simp at h6
          | some c =>
            rw [h5] at h6
            simp only [Option.some.injEq, Prod.mk.injEq] at h6
            rw [← h6.2]; exact le_max_left _ _
        cases l with
        | zero => exact hst 0 m m' s s' h
        | succ l =>
          unfold advanceLevel at h
          cases h6 : stepLevel cfl (l + 1) m s with
          | none => rw [h6] at h; simp at h
          | some r =>
            obtain ⟨s3, m3⟩ := r
            have hm3 := hst (l + 1) m m3 s s3 h6
            rw [h6] at h
            dsimp only at h
            split at h
            · cases h7 : s3.ts l with
              | none => rw [h7] at h; simp at h
              | some cc =>
                rw [h7] at h
                dsimp only at h
                split at h
                · cases h8 : advanceLevel X.S cfl l cc.lastStep m3 s3 with
                  | none => rw [h8] at h; simp at h
                  | some r4 =>
                    obtain ⟨s4, m4⟩ := r4
                    rw [h8] at h
                    dsimp only at h
                    split at h
                    · cases h9 : computeAlpha s4.ts (l + 1) with
                      | none => rw [h9] at h; simp at h
                      | some al =>
                        rw [h9] at h
                        simp only [Option.some.injEq, Prod.mk.injEq] at h
                        rw [← h.2]; exact le_trans hm3 (le_max_left _ _)
                    · simp only [Option.some.injEq, Prod.mk.injEq] at h
                      rw [← h.2]; exact le_trans hm3 (le_max_left _ _)
                · simp only [Option.some.injEq, Prod.mk.injEq] at h
                  rw [← h.2]; exact hm3
            · simp only [Option.some.injEq, Prod.mk.injEq] at h
              rw [← h.2]; exact hm3
      exact hg _ _ _ _ _ _ a1
    unfold fineLoop
    rw [a1]
    dsimp only
    rw [max_eq_left hmono]
    obtain ⟨c, hc, hlast, htime⟩ := finest_at hX.toOk (k + 1) s1 (hinv1.base _ (act_max X))
    rw [hc.get]
    dsimp only
    rw [hlast, hc.tot]
    by_cases hlt : k + 1 < X.tot X.S.globalMaxlevel
    · rw [if_pos hlt]
      obtain ⟨s2, b1, b2, b3, b4⟩ := intermediate_ok hX (k + 1) s1 hinv1 (by omega) hlt c hc
      rw [b1]
      dsimp only
      refine fineLoop_ok hX cfl n (k + 1) mc1 s2 (by omega) b2 (by rw [b3, a7]) ?_
      rw [b4, a8, hco, Nat.min_eq_left (by omega : k ≤ X.tot X.S.globalMaxlevel - 1),
        Nat.min_eq_left (by omega : k + 1 ≤ X.tot X.S.globalMaxlevel - 1), exchanges_succ]
    · rw [if_neg hlt]
      refine fineLoop_ok hX cfl n (k + 1) mc1 s1 (by omega) hinv1 a7 ?_
      rw [a8, hco]
      congr 1
      omega

theorem checkFinal_ok (ts : Counters) : ∀ (n level : Nat),
    (∀ l, level ≤ l → l < level + n → ∃ c, ts l = some c ∧ c.lastStep = c.stepInc * c.totalSteps) →
    checkFinal ts n level = true
  | 0, _, _ => rfl
  | n + 1, level, h => by
    unfold checkFinal
    obtain ⟨c, h1, h2⟩ := h level (Nat.le_refl _) (by omega)
    rw [h1]
    simp only [h2, decide_true, Bool.true_and]
    exact checkFinal_ok ts n (level + 1) (fun l a b => h l (by omega) (by omega))

/-- The whole function. -/
theorem advance_ok {X : Ctx} {dt : ℚ} (hX : X.Full (initCounters X.S X.t0 dt)) (cfl : List Ev → ℚ) :
    ∃ log mc, advanceAllLevels X.S cfl X.t0 dt = some (log, mc) ∧ Always (EvOk X) log ∧
      mc = maxCfl log ∧
      (∀ l, X.Act l → (dataOf X.t0 l log).cur = X.t0 + X.tot X.S.globalMaxlevel * X.δ ∧
        (dataOf X.t0 l log).steps = X.tot l) ∧
      log.filter Ev.collective =
        exchanges X.S (initCounters X.S X.t0 dt) X.t0 X.δ (X.tot X.S.globalMaxlevel - 1) ++
        (.ghost X.S.globalMinlevel X.S.globalMaxlevel
          (X.t0 + X.tot X.S.globalMaxlevel * X.δ) false ::
          (if X.S.timeSync then [.sync X.S.globalMinlevel X.S.globalMaxlevel] else [])) := by
  have hinv0 : Inv X (initCounters X.S X.t0 dt) 0 ⟨initCounters X.S X.t0 dt, []⟩ := by
    refine ⟨?_, ?_, rfl, always_nil _⟩
    · intro l ha
      have hp := X.inc_pos hX.toOk l ha
      refine ⟨_, ⟨hX.init0 l ha, rfl, rfl, rfl, by simp, by simp, by simpa using hp, by simp,
        by simp [dataOf], by simp [dataOf], by simp⟩⟩
    · intro l ha hlt hs c hc hpos
      dsimp only at hc
      rw [hX.init0 l ha] at hc
      obtain rfl := Option.some.inj hc
      simp at hpos
  obtain ⟨s1, mc1, a1, a2, a3, a4⟩ := fineLoop_ok hX cfl (X.tot X.S.globalMaxlevel) 0 0
    ⟨initCounters X.S X.t0 dt, []⟩ (by omega) hinv0 (by rfl) (by simp [exchanges])
  have hdvd : ∀ l, X.Act l → X.inc l ∣ X.tot X.S.globalMaxlevel := fun l ha =>
    ⟨X.tot l, (hX.prod l ha).symm⟩
  unfold advanceAllLevels
  dsimp only
  rw [hX.init0 _ (act_max X)]
  dsimp only
  rw [hX.one]
  simp only [ne_eq, not_true_eq_false, if_false]
  rw [a1]
  dsimp only
  have hcheck : checkFinal s1.ts (X.S.globalMaxlevel + 1 - X.S.localMinlevel) X.S.localMinlevel = true := by
    refine checkFinal_ok _ _ _ ?_
    intro l h1 h2
    have ha : X.Act l := ⟨by omega, Or.inl h1⟩
    obtain ⟨_, c, hc, hl⟩ := due_at _ l s1 (a2.base l ha) (hdvd l ha)
    exact ⟨c, hc.get, by rw [hl, hc.inc, hc.tot, hX.prod l ha]⟩
  rw [hcheck]
  simp only [if_true]
  obtain ⟨c, hc, hlast, htime⟩ := finest_at hX.toOk _ s1 (a2.base _ (act_max X))
  rw [hc.get]
  dsimp only
  have hev : EvOk X s1.log (.ghost X.S.globalMinlevel X.S.globalMaxlevel c.currentTime false) := by
    refine ⟨rfl, ?_, by simp, fun _ => rfl⟩
    intro l h1 h2 h3
    rw [htime]
    exact (due_at _ l s1 (a2.base l ⟨h3, Or.inl h1⟩) (hdvd l ⟨h3, Or.inl h1⟩)).1
  obtain ⟨g1, g2⟩ := add_exchange a2 _ _ _ _ hev
  refine ⟨_, _, rfl, g1.ok, by rw [g2]; exact a3, ?_, ?_⟩
  · intro l ha
    have hbase := g1.base l ha
    obtain ⟨e1, c', hc', e2⟩ := due_at _ l _ hbase (hdvd l ha)
    refine ⟨e1, ?_⟩
    have := hc'.steps
    rw [e2, ← hX.prod l ha, Nat.mul_comm] at this
    exact Nat.eq_of_mul_eq_mul_left (X.inc_pos hX.toOk l ha) this
  · rw [List.filter_append, List.filter_append, a4, htime]
    cases X.S.timeSync <;> simp [Ev.collective, List.filter_cons]

end Fclaw.Advance

/-
Invariants of the scheduler, for C24-C27, C59 and C60.
-/
import Verif.Advance.Spec
import Mathlib.Tactic.Ring
import Mathlib.Tactic.Linarith
import Mathlib.Tactic.FieldSimp
import Mathlib.Tactic.NormNum
import Mathlib.Tactic.Positivity

set_option autoImplicit false
set_option linter.unusedSimpArgs false
set_option linter.unusedVariables false
namespace Fclaw.Advance

/-! ### Events -/

theorem dataOf_snoc (t : ℚ) (l : Nat) (log : List Ev) (e : Ev) :
    dataOf t l (log ++ [e]) = (dataOf t l log).step l e := by
  simp [dataOf]

theorem always_nil (P : List Ev → Ev → Prop) : Always P [] := by
  intro pre ev post h; simp at h

theorem always_snoc (P : List Ev → Ev → Prop) (log : List Ev) (e : Ev) (h : Always P log)
    (he : P log e) : Always P (log ++ [e]) := by
  intro pre ev post hpe
  rcases List.eq_nil_or_concat post with rfl | ⟨post', x, rfl⟩
  · have := List.append_inj' hpe (by simp)
    obtain ⟨h1, h2⟩ := this
    simp at h2
    subst h1; subst h2
    exact he
  · have h3 : log ++ [e] = (pre ++ ev :: post') ++ [x] := by rw [hpe]; simp
    have := List.append_inj' h3 (by simp)
    exact h pre ev post' this.1

theorem maxCfl_snoc (log : List Ev) (e : Ev) :
    maxCfl (log ++ [e]) = max (maxCfl log) (maxCfl [e]) := by
  induction log with
  | nil => cases e <;> simp [maxCfl]
  | cons x xs ih =>
    cases x <;> simp only [List.cons_append, maxCfl, ih]
    rw [max_assoc]

theorem maxCfl_nonneg (log : List Ev) : 0 ≤ maxCfl log := by
  induction log with
  | nil => simp [maxCfl]
  | cons x xs ih =>
    cases x with
    | update l t dt c => simp only [maxCfl]; exact le_trans ih (le_max_right _ _)
    | interp => simpa [maxCfl] using ih
    | ghost => simpa [maxCfl] using ih
    | sync => simpa [maxCfl] using ih

theorem maxCfl_snoc_other (log : List Ev) (e : Ev) (he : maxCfl [e] = 0) :
    maxCfl (log ++ [e]) = maxCfl log := by
  rw [maxCfl_snoc, he]
  exact max_eq_left (maxCfl_nonneg log)

/-- Is the event a collective operation? -/
def Ev.collective : Ev → Bool
  | .ghost _ _ _ _ => true
  | .sync _ _ => true
  | _ => false

/-! ### The invariant -/

structure Ctx where
  S : Setup
  t0 : ℚ
  δ : ℚ
  inc : Nat → Nat
  tot : Nat → Nat

/-- Levels the counters of which are advanced. -/
def Ctx.Act (X : Ctx) (l : Nat) : Prop :=
  l ≤ X.S.globalMaxlevel ∧ (X.S.localMinlevel ≤ l ∨ l = X.S.globalMaxlevel)

structure Ctx.Ok (X : Ctx) : Prop where
  one : X.inc X.S.globalMaxlevel = 1
  step : ∀ l, X.S.localMinlevel ≤ l → l < X.S.globalMaxlevel →
    X.inc l = (if X.S.subcycle then 2 else 1) * X.inc (l + 1)
  pos : 0 < X.δ

theorem Ctx.inc_dvd (X : Ctx) (hX : X.Ok) (l l' : Nat) (h0 : X.S.localMinlevel ≤ l) (h1 : l ≤ l')
    (h2 : l' ≤ X.S.globalMaxlevel) : X.inc l' ∣ X.inc l := by
  obtain ⟨n, rfl⟩ : ∃ n, l' = l + n := ⟨l' - l, by omega⟩
  induction n with
  | zero => exact Nat.dvd_refl _
  | succ n ih =>
    refine Nat.dvd_trans ?_ (ih (by omega) (by omega))
    rw [hX.step (l + n) (by omega) (by omega)]
    exact Nat.dvd_mul_left _ _

theorem Ctx.inc_pos (X : Ctx) (hX : X.Ok) (l : Nat) (h : X.Act l) : 0 < X.inc l := by
  rcases h with ⟨h1, h2 | h2⟩
  · obtain ⟨n, hn⟩ : ∃ n, l + n = X.S.globalMaxlevel := ⟨_, Nat.add_sub_cancel' h1⟩
    induction n generalizing l with
    | zero =>
      have : l = X.S.globalMaxlevel := by omega
      rw [this, hX.one]; omega
    | succ n ih =>
      have := ih (l + 1) (by omega) (by omega) (by omega)
      rw [hX.step l h2 (by omega)]
      split <;> omega
  · rw [h2, hX.one]; omega

/-- Level `l` is where it should be after `k` fine steps. -/
structure Base (X : Ctx) (k l : Nat) (s : St) (c : Counter) : Prop where
  get : s.ts l = some c
  inc : c.stepInc = X.inc l
  tot : c.totalSteps = X.tot l
  dt : c.dtStep = X.inc l * X.δ
  dvd : X.inc l ∣ c.lastStep
  lo : k ≤ c.lastStep
  hi : c.lastStep < k + X.inc l
  time : c.currentTime = X.t0 + c.lastStep * X.δ
  cur : (dataOf X.t0 l s.log).cur = c.currentTime
  steps : (dataOf X.t0 l s.log).steps * X.inc l = c.lastStep
  prev : 0 < c.lastStep → (dataOf X.t0 l s.log).prev = c.currentTime - X.inc l * X.δ

def BaseE (X : Ctx) (k l : Nat) (s : St) : Prop := ∃ c, Base X k l s c

/-- The time interpolated data of level `l` belongs to the middle of its last step. -/
def Int' (X : Ctx) (l : Nat) (s : St) : Prop :=
  X.S.subcycle = true → ∀ c, s.ts l = some c → 0 < c.lastStep →
    (dataOf X.t0 l s.log).interp = some (c.currentTime - X.inc (l + 1) * X.δ)

/-- What holds for each event. -/
def EvOk (X : Ctx) (pre : List Ev) : Ev → Prop
  | .update l t h _ => X.Act l ∧ (dataOf X.t0 l pre).cur = t ∧ h = X.inc l * X.δ ∧
      ∀ l', X.S.localMinlevel ≤ l' → l' < l →
        (dataOf X.t0 l' pre).cur = t ∨ t + h ≤ (dataOf X.t0 l' pre).cur
  | .interp l α => X.S.subcycle = true ∧ α = 1 / 2 ∧ X.S.localMinlevel ≤ l ∧ l < X.S.globalMaxlevel
  | .ghost lo hi t ti => hi = X.S.globalMaxlevel ∧
      (∀ l, X.S.localMinlevel ≤ l → lo ≤ l → l ≤ hi → (dataOf X.t0 l pre).cur = t) ∧
      (ti = true → 0 < lo ∧ lo ≤ hi ∧ (X.S.localMinlevel ≤ lo - 1 →
        (dataOf X.t0 (lo - 1) pre).interp = some t ∧
        (dataOf X.t0 (lo - 1) pre).prev < t ∧ t < (dataOf X.t0 (lo - 1) pre).cur)) ∧
      (ti = false → lo = X.S.globalMinlevel)
  | .sync lo hi => ∃ pre' t ti, pre = pre' ++ [.ghost lo hi t ti]

/-- The counters and data of a level are unchanged. -/
def SameAt (X : Ctx) (l : Nat) (s s' : St) : Prop :=
  s'.ts l = s.ts l ∧ dataOf X.t0 l s'.log = dataOf X.t0 l s.log

theorem BaseE.congr {X : Ctx} {k l : Nat} {s s' : St} (h : BaseE X k l s) (e : SameAt X l s s') :
    BaseE X k l s' := by
  obtain ⟨c, hc⟩ := h
  obtain ⟨e1, e2⟩ := e
  exact ⟨c, ⟨by rw [e1]; exact hc.get, hc.inc, hc.tot, hc.dt, hc.dvd, hc.lo, hc.hi, hc.time,
    by rw [e2]; exact hc.cur, by rw [e2]; exact hc.steps, by rw [e2]; exact hc.prev⟩⟩

theorem Int'.congr {X : Ctx} {l : Nat} {s s' : St} (h : Int' X l s) (e : SameAt X l s s') :
    Int' X l s' := by
  obtain ⟨e1, e2⟩ := e
  intro hs c hc hpos
  rw [e1] at hc
  rw [e2]
  exact h hs c hc hpos

theorem SameAt.trans {X : Ctx} {l : Nat} {s s' s'' : St} (h : SameAt X l s s')
    (h' : SameAt X l s' s'') : SameAt X l s s'' :=
  ⟨h'.1.trans h.1, h'.2.trans h.2⟩

/-- A level that is not due is already right for the next fine step. -/
theorem BaseE.next {X : Ctx} {k l : Nat} {s : St} (hX : X.Ok) (hl : X.Act l) (h : BaseE X k l s)
    (hnd : ¬ X.inc l ∣ k) : BaseE X (k + 1) l s := by
  obtain ⟨c, hc⟩ := h
  have hne : c.lastStep ≠ k := by
    intro he; exact hnd (he ▸ hc.dvd)
  have := hc.lo
  have := hc.hi
  exact ⟨c, { hc with lo := by omega, hi := by omega }⟩

/-- A multiple of `n` less than `n` away from another multiple. -/
theorem mult_eq (n a k : Nat) (h1 : n ∣ a) (h2 : n ∣ k) (hlo : k ≤ a) (hhi : a < k + n) : a = k := by
  obtain ⟨x, rfl⟩ := h1
  obtain ⟨y, rfl⟩ := h2
  have h3 : n * x < n * (y + 1) := by rw [Nat.mul_succ]; exact hhi
  have h4 : x < y + 1 := Nat.lt_of_mul_lt_mul_left h3
  have h5 : y ≤ x := by
    rcases Nat.lt_or_ge x y with h | h
    · have h6 : n * (x + 1) ≤ n * y := Nat.mul_le_mul_left n h
      rw [Nat.mul_succ] at h6
      have : n = 0 ∨ 0 < n := Nat.eq_zero_or_pos n
      omega
    · exact h
  have : x = y := by omega
  rw [this]

theorem mult_ge (n a k : Nat) (h1 : n ∣ a) (h2 : n ∣ k) (hlt : k < a) : k + n ≤ a := by
  obtain ⟨x, rfl⟩ := h1
  obtain ⟨y, rfl⟩ := h2
  have h4 : y < x := by
    rcases Nat.lt_or_ge y x with h | h
    · exact h
    · have := Nat.mul_le_mul_left n h; omega
  have := Nat.mul_le_mul_left n (show y + 1 ≤ x by omega)
  rw [Nat.mul_succ] at this
  exact this

/-- The update of a level that is due. -/
theorem stepLevel_ok {X : Ctx} (hX : X.Ok) (cfl : List Ev → ℚ) (k l : Nat) (hl : X.Act l)
    (hk : X.inc l ∣ k) (mc : ℚ) (s : St) (hb : BaseE X k l s)
    (hcoarse : ∀ l', X.Act l' → l' < l → BaseE X k l' s) (hlog : Always (EvOk X) s.log)
    (hmc : mc = maxCfl s.log) :
    ∃ s' mc', stepLevel cfl l mc s = some (s', mc') ∧ BaseE X (k + 1) l s' ∧
      (∃ c, s'.ts l = some c ∧ c.lastStep = k + X.inc l) ∧
      (∀ l', l' ≠ l → SameAt X l' s s') ∧ Always (EvOk X) s'.log ∧ mc' = maxCfl s'.log ∧
      s'.log.filter Ev.collective = s.log.filter Ev.collective := by
  obtain ⟨c, hc⟩ := hb
  have hlast : c.lastStep = k := mult_eq _ _ _ hc.dvd hk hc.lo hc.hi
  have hpos := X.inc_pos hX l hl
  have hdata : ∀ l' , dataOf X.t0 l' (s.log ++ [.update l c.currentTime c.dtStep (cfl s.log)]) =
      if l = l' then ⟨(dataOf X.t0 l' s.log).cur, (dataOf X.t0 l' s.log).cur + c.dtStep, none,
        (dataOf X.t0 l' s.log).steps + 1⟩ else dataOf X.t0 l' s.log := by
    intro l'
    rw [dataOf_snoc]
    rfl
  unfold stepLevel
  rw [hc.get]
  refine ⟨_, _, rfl, ?_, ?_, ?_, ?_, ?_, ?_⟩
  · refine ⟨{ c with lastStep := c.lastStep + c.stepInc, currentTime := c.currentTime + c.dtStep },
      ⟨by simp only [setLevel, if_true], hc.inc, hc.tot, hc.dt, ?_, ?_, ?_, ?_, ?_, ?_, ?_⟩⟩
    · dsimp only; rw [hc.inc]; exact Nat.dvd_add hc.dvd (Nat.dvd_refl _)
    · dsimp only; rw [hc.inc]; omega
    · dsimp only; rw [hc.inc]; omega
    · dsimp only; rw [hc.time, hc.dt, hc.inc]; push_cast; ring
    · simp only [hdata, if_true]; rw [hc.cur]
    · simp only [hdata, if_true]
      rw [hc.inc, Nat.add_mul, hc.steps]; omega
    · intro _
      simp only [hdata, if_true]
      rw [hc.cur, hc.dt]; ring
  · exact ⟨{ c with lastStep := c.lastStep + c.stepInc, currentTime := c.currentTime + c.dtStep },
      by simp only [setLevel, if_true], by simp only [hlast, hc.inc]⟩
  · intro l' hne
    refine ⟨by simp only [setLevel, if_neg hne], ?_⟩
    simp only [hdata, if_neg (Ne.symm hne)]
  · refine always_snoc _ _ _ hlog ⟨hl, hc.cur, hc.dt, ?_⟩
    intro l' h1 h2
    have ha : X.Act l' := ⟨by have := hl.1; omega, Or.inl h1⟩
    obtain ⟨c', hc'⟩ := hcoarse l' ha h2
    rw [hc'.cur, hc'.time, hc.time, hc.dt, hlast]
    rcases Nat.lt_or_ge k c'.lastStep with hlt | hge
    · right
      have hd : X.inc l ∣ c'.lastStep :=
        Nat.dvd_trans (X.inc_dvd hX l' l h1 (by omega) hl.1) hc'.dvd
      have := mult_ge _ _ _ hd hk hlt
      have h3 : ((k : ℚ) + X.inc l) ≤ c'.lastStep := by exact_mod_cast this
      have := mul_le_mul_of_nonneg_right h3 (le_of_lt hX.pos)
      linarith
    · left
      have := hc'.lo
      have : c'.lastStep = k := by omega
      rw [this]
  · rw [maxCfl_snoc, ← hmc]
    have : maxCfl [Ev.update l c.currentTime c.dtStep (cfl s.log)] = max (cfl s.log) 0 := rfl
    rw [this, ← max_assoc]
    have h0 : 0 ≤ mc := by rw [hmc]; exact maxCfl_nonneg _
    rw [max_eq_left (le_trans h0 (le_max_left _ _))]
  · simp [List.filter_append, Ev.collective]

/-- `advance_level` for a level that is due brings it and all coarser levels to the next step. -/
theorem advanceLevel_ok {X : Ctx} (hX : X.Ok) (cfl : List Ev → ℚ) (k : Nat) : ∀ (l : Nat),
    X.Act l → X.inc l ∣ k → ∀ (mc : ℚ) (s : St),
    (∀ l', X.Act l' → l' ≤ l → BaseE X k l' s) → (∀ l', X.Act l' → l' < l → Int' X l' s) →
    Always (EvOk X) s.log → mc = maxCfl s.log →
    ∃ s' mc', advanceLevel X.S cfl l k mc s = some (s', mc') ∧
      (∀ l', X.Act l' → l' ≤ l → BaseE X (k + 1) l' s') ∧
      (∃ c, s'.ts l = some c ∧ c.lastStep = k + X.inc l) ∧
      (∀ l', X.Act l' → l' < l → Int' X l' s') ∧
      (∀ l', l < l' → SameAt X l' s s') ∧ Always (EvOk X) s'.log ∧ mc' = maxCfl s'.log ∧
      s'.log.filter Ev.collective = s.log.filter Ev.collective := by
  intro l
  induction l with
  | zero =>
    intro hl hk mc s hb hi hlog hmc
    obtain ⟨s', mc', h1, h2, h3, h4, h5, h6, h7⟩ := stepLevel_ok hX cfl k 0 hl hk mc s
      (hb 0 hl (Nat.le_refl 0)) (fun l' _ h => absurd h (by omega)) hlog hmc
    refine ⟨s', mc', h1, ?_, h3, fun l' _ h => absurd h (by omega), fun l' h => h4 l' (by omega),
      h5, h6, h7⟩
    intro l' _ hle
    obtain rfl : l' = 0 := by omega
    exact h2
  | succ l ih =>
    intro hl hk mc s hb hi hlog hmc
    obtain ⟨s1, mc1, a1, a2, a3, a4, a5, a6, a7⟩ := stepLevel_ok hX cfl k (l + 1) hl hk mc s
      (hb _ hl (Nat.le_refl _)) (fun l' ha h => hb l' ha (by omega)) hlog hmc
    unfold advanceLevel
    rw [a1]
    dsimp only
    by_cases hmin : l + 1 > X.S.localMinlevel
    · rw [if_pos hmin]
      have hal : X.Act l := ⟨by have := hl.1; omega, Or.inl (by omega)⟩
      have hb1 : ∀ l', X.Act l' → l' ≤ l → BaseE X k l' s1 := fun l' ha h =>
        (hb l' ha (by omega)).congr (a4 l' (by omega))
      have hi1 : ∀ l', X.Act l' → l' ≤ l → Int' X l' s1 := fun l' ha h =>
        (hi l' ha (by omega)).congr (a4 l' (by omega))
      obtain ⟨cc, hcc⟩ := hb1 l hal (Nat.le_refl _)
      rw [hcc.get]
      dsimp only
      have hstep := hX.step l (by omega) (by have := hl.1; omega)
      have hpos := X.inc_pos hX l hal
      have hposl := X.inc_pos hX (l + 1) hl
      by_cases heq : cc.lastStep = k
      · rw [if_pos heq]
        have hkd : X.inc l ∣ k := heq ▸ hcc.dvd
        rw [heq]
        obtain ⟨s2, mc2, b1, b2, b3, b4, b5, b6, b7, b8⟩ := ih hal hkd mc1 s1 hb1
          (fun l' ha h => hi1 l' ha (by omega)) a5 a6
        rw [b1]
        dsimp only
        have hmcm : max mc1 mc2 = maxCfl s2.log := by
          rw [b7]
          refine max_eq_right ?_
          -- the log has only grown
          rw [a6]
          have hgrow : ∀ (l : Nat) (m : ℚ) (k : Nat) (s s' : St) (m' : ℚ),
              advanceLevel X.S cfl l k m s = some (s', m') → m = maxCfl s.log →
              m' = maxCfl s'.log → m ≤ m' := by
            intro l
            induction l with
            | zero =>
              intro m k s s' m' h _ _
              unfold advanceLevel stepLevel at h
              cases h5 : s.ts 0 with
              | none => rw [h5] at h; simp at h
              | some c =>
                rw [h5] at h
                simp only [Option.some.injEq, Prod.mk.injEq] at h
                rw [← h.2]; exact le_max_left _ _
            | succ l ihl =>
              intro m k s s' m' h _ _
              unfold advanceLevel at h
              cases h6 : stepLevel cfl (l + 1) m s with
              | none => rw [h6] at h; simp at h
              | some r =>
                obtain ⟨s3, m3⟩ := r
                have hm3 : m ≤ m3 := by
                  unfold stepLevel at h6
                  cases h5 : s.ts (l + 1) with
                  | none => rw [h5] at h6; simp at h6
                  | some c =>
                    rw [h5] at h6
                    simp only [Option.some.injEq, Prod.mk.injEq] at h6
                    rw [← h6.2]; exact le_max_left _ _
                rw [h6] at h
                dsimp only at h
                split at h
                · cases h7 : s3.ts l with
                  | none => rw [h7] at h; simp at h
                  | some cc =>
                    rw [h7] at h
                    dsimp only at h
                    split at h
                    · cases h8 : advanceLevel X.S cfl l cc.lastStep m3 s3 with
                      | none => rw [h8] at h; simp at h
                      | some r4 =>
                        obtain ⟨s4, m4⟩ := r4
                        rw [h8] at h
                        dsimp only at h
                        split at h
                        · cases h9 : computeAlpha s4.ts (l + 1) with
                          | none => rw [h9] at h; simp at h
                          | some al =>
                            rw [h9] at h
                            simp only [Option.some.injEq, Prod.mk.injEq] at h
                            rw [← h.2]; exact le_trans hm3 (le_max_left _ _)
                        · simp only [Option.some.injEq, Prod.mk.injEq] at h
                          rw [← h.2]; exact le_trans hm3 (le_max_left _ _)
                    · simp only [Option.some.injEq, Prod.mk.injEq] at h
                      rw [← h.2]; exact hm3
                · simp only [Option.some.injEq, Prod.mk.injEq] at h
                  rw [← h.2]; exact hm3
          have := hgrow l mc1 k s1 s2 mc2 b1 a6 b7
          rw [a6, b7] at this
          exact this
        have hsame : SameAt X (l + 1) s1 s2 := b5 (l + 1) (by omega)
        have hbl1 : BaseE X (k + 1) (l + 1) s2 := a2.congr hsame
        obtain ⟨c1, g1, g2⟩ := a3
        have g1' : s2.ts (l + 1) = some c1 := by rw [hsame.1]; exact g1
        cases hsub : X.S.subcycle with
        | false =>
          simp only [Bool.false_eq_true, if_false]
          refine ⟨s2, _, rfl, ?_, ⟨c1, g1', g2⟩, ?_, ?_, b6, hmcm, by rw [b8, a7]⟩
          · intro l' ha hle
            rcases Nat.lt_or_ge l l' with h | h
            · obtain rfl : l' = l + 1 := by omega
              exact hbl1
            · exact b2 l' ha h
          · intro l' ha hlt hs
            rw [hsub] at hs; simp at hs
          · intro l' h
            exact (a4 l' (by omega)).trans (b5 l' (by omega))
        | true =>
          simp only [if_true]
          rw [hsub] at hstep
          simp only [if_true] at hstep
          obtain ⟨c2, hc2, hc2l⟩ := b3
          obtain ⟨c2', hbase2⟩ := b2 l hal (Nat.le_refl _)
          have hcc2 : c2' = c2 := by
            have := hbase2.get; rw [hc2] at this; exact (Option.some.inj this).symm
          rw [hcc2] at hbase2
          have halpha : computeAlpha s2.ts (l + 1) = some (1 / 2) := by
            unfold computeAlpha
            rw [Nat.add_sub_cancel, hc2, g1']
            dsimp only
            rw [hbase2.inc, if_neg (by omega), g2]
            obtain ⟨y, hy⟩ := hkd
            have hmod : (k + X.inc (l + 1)) % X.inc l = X.inc (l + 1) := by
              rw [hy, Nat.mul_add_mod, Nat.mod_eq_of_lt (by omega)]
            rw [hmod, hstep]
            push_cast
            have : (X.inc (l + 1) : ℚ) ≠ 0 := by
              have : (0 : ℚ) < X.inc (l + 1) := by exact_mod_cast hposl
              exact ne_of_gt this
            congr 1
            field_simp
          rw [halpha]
          have hd : ∀ l', dataOf X.t0 l' (s2.log ++ [Ev.interp l (1 / 2)]) =
              if l = l' then ⟨(dataOf X.t0 l' s2.log).prev, (dataOf X.t0 l' s2.log).cur,
                some ((1 - 1 / 2) * (dataOf X.t0 l' s2.log).prev + 1 / 2 * (dataOf X.t0 l' s2.log).cur),
                (dataOf X.t0 l' s2.log).steps⟩
              else dataOf X.t0 l' s2.log := by
            intro l'; rw [dataOf_snoc]; rfl
          refine ⟨_, _, rfl, ?_, ⟨c1, g1', g2⟩, ?_, ?_, ?_, ?_, ?_⟩
          · intro l' ha hle
            rcases Nat.lt_or_ge l l' with h | h
            · obtain rfl : l' = l + 1 := by omega
              exact hbl1.congr ⟨rfl, by rw [hd, if_neg (by omega)]⟩
            · rcases Nat.lt_or_ge l' l with h' | h'
              · exact (b2 l' ha h).congr ⟨rfl, by rw [hd, if_neg (by omega)]⟩
              · obtain rfl : l' = l := by omega
                refine ⟨c2, ⟨hc2, hbase2.inc, hbase2.tot, hbase2.dt, hbase2.dvd, hbase2.lo, hbase2.hi,
                  hbase2.time, ?_, ?_, ?_⟩⟩
                · rw [hd, if_pos rfl]; exact hbase2.cur
                · rw [hd, if_pos rfl]; exact hbase2.steps
                · rw [hd, if_pos rfl]; exact hbase2.prev
          · intro l' ha hlt
            rcases Nat.lt_or_ge l' l with h' | h'
            · exact (b4 l' ha h').congr ⟨rfl, by rw [hd, if_neg (by omega)]⟩
            · obtain rfl : l' = l := by omega
              intro _ c hc hpos'
              dsimp only at hc
              rw [hc2] at hc
              obtain rfl := Option.some.inj hc
              rw [hd, if_pos rfl]
              dsimp only
              rw [hbase2.prev hpos', hbase2.cur, hstep]
              congr 1
              push_cast
              ring
          · intro l' h
            refine ((a4 l' (by omega)).trans (b5 l' (by omega))).trans ⟨rfl, ?_⟩
            rw [hd, if_neg (by omega)]
          · exact always_snoc _ _ _ b6 ⟨hsub, rfl, by omega, by have := hl.1; omega⟩
          · rw [maxCfl_snoc_other _ _ (by rfl)]; exact hmcm
          · rw [List.filter_append, b8, a7]; simp [Ev.collective]
      · rw [if_neg heq]
        have hnd : ¬ X.inc l ∣ k := by
          intro h
          exact heq (mult_eq _ _ _ hcc.dvd h hcc.lo hcc.hi)
        refine ⟨s1, mc1, rfl, ?_, a3, ?_, ?_, a5, a6, a7⟩
        · intro l' ha hle
          rcases Nat.lt_or_ge l l' with h | h
          · obtain rfl : l' = l + 1 := by omega
            exact a2
          · refine BaseE.next hX ha (hb1 l' ha h) ?_
            intro hd
            have hlm : X.S.localMinlevel ≤ l' := by
              rcases ha.2 with h' | h'
              · exact h'
              · have := hl.1; omega
            exact hnd (Nat.dvd_trans (X.inc_dvd hX l' l hlm h hal.1) hd)
        · intro l' ha hlt; exact hi1 l' ha (by omega)
        · intro l' h; exact a4 l' (by omega)
    · rw [if_neg hmin]
      refine ⟨s1, mc1, rfl, ?_, a3, ?_, ?_, a5, a6, a7⟩
      · intro l' ha hle
        rcases Nat.lt_or_ge l l' with h | h
        · obtain rfl : l' = l + 1 := by omega
          exact a2
        · exfalso
          rcases ha.2 with h' | h'
          · omega
          · have := hl.1; omega
      · intro l' ha hlt
        exfalso
        rcases ha.2 with h' | h'
        · omega
        · have := hl.1; omega
      · intro l' h; exact a4 l' (by omega)

end Fclaw.Advance

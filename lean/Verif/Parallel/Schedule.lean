import Verif.Advance.Props
/-
The schedules of different processes (C72): a process leaves out the levels below its coarsest one, and does
everything else in the same order. And: a level is not advanced twice without an update of its ghost cells in
between.
-/
set_option autoImplicit false
set_option linter.unusedSimpArgs false
set_option linter.unusedVariables false
namespace Fclaw.Parallel

open Advance

/-- Without the CFL number. -/
def bare : Ev → Ev
  | .update l t dt _ => .update l t dt 0
  | e => e

/-- Is the event one for a process with coarsest level `lm`? (The finest level `m` is always advanced.) -/
def keep (lm m : Nat) : Ev → Bool
  | .update l _ _ _ => decide (lm ≤ l ∨ l = m)
  | .interp l _ => decide (lm ≤ l ∨ l = m)
  | _ => true

structure Rel (lm m : Nat) (s s0 : St) : Prop where
  ts : ∀ l, lm ≤ l ∨ l = m → s.ts l = s0.ts l
  inc : incOf s.ts = incOf s0.ts
  log : s.log.map bare = (s0.log.map bare).filter (keep lm m)

theorem stepLevel_some {cfl : List Ev → ℚ} {l : Nat} {mc mc' : ℚ} {s s' : St} (h : stepLevel cfl l mc s = some (s', mc')) :
    ∃ c, s.ts l = some c ∧ s'.ts = setLevel s.ts l { c with lastStep := c.lastStep + c.stepInc, currentTime := c.currentTime + c.dtStep } ∧
      s'.log = s.log ++ [.update l c.currentTime c.dtStep (cfl s.log)] := by
  unfold stepLevel at h
  cases h5 : s.ts l with
  | none => rw [h5] at h; simp at h
  | some c =>
    rw [h5] at h
    simp only [Option.some.injEq, Prod.mk.injEq] at h
    rw [← h.1]
    exact ⟨c, rfl, rfl, rfl⟩

theorem stepLevel_rel {lm m : Nat} {cfl cfl0 : List Ev → ℚ} {l : Nat} (hl : lm ≤ l ∨ l = m) {mc mc' mc0 mc0' : ℚ} {s s' s0 s0' : St}
    (hR : Rel lm m s s0) (h : stepLevel cfl l mc s = some (s', mc')) (h0 : stepLevel cfl0 l mc0 s0 = some (s0', mc0')) :
    Rel lm m s' s0' := by
  have i1 := incOf_stepLevel _ _ _ _ _ _ h
  have i2 := incOf_stepLevel _ _ _ _ _ _ h0
  obtain ⟨c, a1, a2, a3⟩ := stepLevel_some h
  obtain ⟨c0, b1, b2, b3⟩ := stepLevel_some h0
  have : c = c0 := by
    rw [hR.ts l hl, b1] at a1
    exact (Option.some.inj a1).symm
  subst this
  refine ⟨fun l' hl' => ?_, by rw [i1, i2, hR.inc], ?_⟩
  · rw [a2, b2]
    unfold setLevel
    split
    · rfl
    · exact hR.ts l' hl'
  · rw [a3, b3, List.map_append, List.map_append, List.filter_append, hR.log]
    congr 1
    simp [bare, keep, hl]

/-- What `advance_level` has done, step by step. -/
theorem advanceLevel_some {S : Setup} {cfl : List Ev → ℚ} {l k : Nat} {mc mc' : ℚ} {s s' : St}
    (h : advanceLevel S cfl (l + 1) k mc s = some (s', mc')) :
    ∃ s1 m1, stepLevel cfl (l + 1) mc s = some (s1, m1) ∧
      ((¬ l + 1 > S.localMinlevel ∧ s' = s1) ∨
       (l + 1 > S.localMinlevel ∧ ∃ cc, s1.ts l = some cc ∧
        ((cc.lastStep ≠ k ∧ s' = s1) ∨
         (cc.lastStep = k ∧ ∃ s2 m2, advanceLevel S cfl l k m1 s1 = some (s2, m2) ∧
          ((S.subcycle = false ∧ s' = s2) ∨
           (S.subcycle = true ∧ ∃ al, computeAlpha s2.ts (l + 1) = some al ∧ s' = ⟨s2.ts, s2.log ++ [.interp l al]⟩)))))) := by
  unfold advanceLevel at h
  cases h6 : stepLevel cfl (l + 1) mc s with
  | none => rw [h6] at h; simp at h
  | some r =>
    obtain ⟨s3, m3⟩ := r
    rw [h6] at h
    refine ⟨s3, m3, rfl, ?_⟩
    dsimp only at h
    split at h
    · rename_i hlm
      refine Or.inr ⟨hlm, ?_⟩
      cases h7 : s3.ts l with
      | none => rw [h7] at h; simp at h
      | some cc =>
        refine ⟨cc, rfl, ?_⟩
        rw [h7] at h
        dsimp only at h
        split at h
        · rename_i hk
          refine Or.inr ⟨hk, ?_⟩
          rw [hk] at h
          cases h8 : advanceLevel S cfl l k m3 s3 with
          | none => rw [h8] at h; simp at h
          | some r4 =>
            obtain ⟨s4, m4⟩ := r4
            refine ⟨s4, m4, rfl, ?_⟩
            rw [h8] at h
            dsimp only at h
            split at h
            · rename_i hsub
              cases h9 : computeAlpha s4.ts (l + 1) with
              | none => rw [h9] at h; simp at h
              | some al =>
                rw [h9] at h
                simp only [Option.some.injEq, Prod.mk.injEq] at h
                exact Or.inr ⟨hsub, al, rfl, h.1.symm⟩
            · rename_i hsub
              simp only [Option.some.injEq, Prod.mk.injEq] at h
              exact Or.inl ⟨by simpa using hsub, h.1.symm⟩
        · rename_i hk
          simp only [Option.some.injEq, Prod.mk.injEq] at h
          exact Or.inl ⟨hk, h.1.symm⟩
    · rename_i hlm
      simp only [Option.some.injEq, Prod.mk.injEq] at h
      exact Or.inl ⟨hlm, h.1.symm⟩

/-- What happens on levels that the process does not have. -/
theorem advanceLevel_below {lm m : Nat} {S : Setup} {cfl : List Ev → ℚ} : ∀ {l k : Nat} {mc mc' : ℚ} {s s' : St},
    l < lm → l < m → advanceLevel S cfl l k mc s = some (s', mc') →
      (∀ l', lm ≤ l' ∨ l' = m → s'.ts l' = s.ts l') ∧
      (s'.log.map bare).filter (keep lm m) = (s.log.map bare).filter (keep lm m) := by
  intro l
  have step : ∀ {l : Nat} {mc mc' : ℚ} {s s' : St}, l < lm → l < m → stepLevel cfl l mc s = some (s', mc') →
      (∀ l', lm ≤ l' ∨ l' = m → s'.ts l' = s.ts l') ∧
      (s'.log.map bare).filter (keep lm m) = (s.log.map bare).filter (keep lm m) := by
    intro l mc mc' s s' h1 h2 h
    obtain ⟨c, a1, a2, a3⟩ := stepLevel_some h
    constructor
    · intro l' hl'
      rw [a2]
      unfold setLevel
      rw [if_neg (by omega)]
    · rw [a3, List.map_append, List.filter_append]
      have : keep lm m (bare (.update l c.currentTime c.dtStep (cfl s.log))) = false := by
        simp [bare, keep]; omega
      simp [this]
  induction l with
  | zero => intro k mc mc' s s' h1 h2 h; exact step h1 h2 h
  | succ l ih =>
    intro k mc mc' s s' h1 h2 h
    obtain ⟨s1, m1, e1, h⟩ := advanceLevel_some h
    obtain ⟨a1, a2⟩ := step h1 h2 e1
    rcases h with ⟨_, rfl⟩ | ⟨_, cc, _, ⟨_, rfl⟩ | ⟨_, s2, m2, e2, h⟩⟩
    · exact ⟨a1, a2⟩
    · exact ⟨a1, a2⟩
    · obtain ⟨b1, b2⟩ := ih (by omega) (by omega) e2
      rcases h with ⟨_, rfl⟩ | ⟨_, al, _, rfl⟩
      · exact ⟨fun l' hl' => (b1 l' hl').trans (a1 l' hl'), b2.trans a2⟩
      · refine ⟨fun l' hl' => (b1 l' hl').trans (a1 l' hl'), ?_⟩
        dsimp only
        rw [List.map_append, List.filter_append, b2, a2]
        have : keep lm m (bare (.interp l al)) = false := by simp [bare, keep]; omega
        simp [this]

section
variable {lm : Nat} {S S0 : Setup} (hsub : S.subcycle = S0.subcycle) (hmax : S.globalMaxlevel = S0.globalMaxlevel)
  (hlm : S.localMinlevel = lm) (hle : S0.localMinlevel ≤ lm) (hmin : S.globalMinlevel = S0.globalMinlevel)
  (hsync : S.timeSync = S0.timeSync) {cfl cfl0 : List Ev → ℚ}

include hsub hlm hle in
theorem advanceLevel_rel {m : Nat} : ∀ {l k : Nat} {mc mc' mc0 mc0' : ℚ} {s s' s0 s0' : St},
    lm ≤ l ∨ l = m → l ≤ m → Rel lm m s s0 → advanceLevel S cfl l k mc s = some (s', mc') →
      advanceLevel S0 cfl0 l k mc0 s0 = some (s0', mc0') → Rel lm m s' s0' := by
  intro l
  induction l with
  | zero => intro k mc mc' mc0 mc0' s s' s0 s0' hl _ hR h h0; exact stepLevel_rel hl hR h h0
  | succ l ih =>
    intro k mc mc' mc0 mc0' s s' s0 s0' hl hlem hR h h0
    obtain ⟨s1, m1, e1, h⟩ := advanceLevel_some h
    obtain ⟨t1, n1, f1, h0⟩ := advanceLevel_some h0
    have R1 := stepLevel_rel hl hR e1 f1
    have below : l < lm → Rel lm m s1 s0' := by
      intro hlt
      rcases h0 with ⟨_, rfl⟩ | ⟨_, cc, _, ⟨_, rfl⟩ | ⟨_, s2, m2, e2, h⟩⟩
      · exact R1
      · exact R1
      · obtain ⟨b1, b2⟩ := advanceLevel_below hlt (by omega : l < m) e2
        have i := incOf_advanceLevel _ _ _ _ _ _ _ _ e2
        rcases h with ⟨_, rfl⟩ | ⟨_, al, _, rfl⟩
        · exact ⟨fun l' hl' => by rw [b1 l' hl']; exact R1.ts l' hl', by rw [i]; exact R1.inc, by rw [b2]; exact R1.log⟩
        · refine ⟨fun l' hl' => by rw [b1 l' hl']; exact R1.ts l' hl', by rw [i]; exact R1.inc, ?_⟩
          dsimp only
          rw [List.map_append, List.filter_append, b2]
          have : keep lm m (bare (.interp l al)) = false := by simp [bare, keep]; omega
          simp [this, R1.log]
    rcases h with ⟨hn, rfl⟩ | ⟨hg, cc, hcc, h⟩
    · exact below (by omega)
    · rcases h0 with ⟨hn0, _⟩ | ⟨hg0, cc0, hcc0, h0⟩
      · omega
      · have : cc = cc0 := by
          rw [R1.ts l (Or.inl (by omega)), hcc0] at hcc
          exact (Option.some.inj hcc).symm
        subst this
        rcases h with ⟨hk, rfl⟩ | ⟨hk, s2, m2, e2, h⟩
        · rcases h0 with ⟨_, rfl⟩ | ⟨hk0, _⟩
          · exact R1
          · exact absurd hk0 hk
        · rcases h0 with ⟨hk0, _⟩ | ⟨_, t2, n2, f2, h0⟩
          · exact absurd hk hk0
          · have R2 := ih (Or.inl (by omega)) (by omega) R1 e2 f2
            rcases h with ⟨hs, rfl⟩ | ⟨hs, al, ha, rfl⟩
            · rcases h0 with ⟨_, rfl⟩ | ⟨hs0, _⟩
              · exact R2
              · rw [hsub, hs0] at hs; cases hs
            · rcases h0 with ⟨hs0, _⟩ | ⟨_, al0, ha0, rfl⟩
              · rw [hsub, hs0] at hs; cases hs
              · have : al = al0 := by
                  unfold computeAlpha at ha ha0
                  rw [R2.ts _ (Or.inl (by omega)), R2.ts _ hl] at ha
                  rw [ha] at ha0
                  exact Option.some.inj ha0
                subst this
                refine ⟨R2.ts, R2.inc, ?_⟩
                dsimp only
                rw [List.map_append, List.map_append, List.filter_append, R2.log]
                have : keep lm m (bare (.interp l al)) = true := by simp [bare, keep]; omega
                simp [this]

include hsub hmax hmin hsync in
theorem intermediate_rel {s s' s0 s0' : St} {c : Counter} (hR : Rel lm S.globalMaxlevel s s0)
    (h : intermediate S s c = some s') (h0 : intermediate S0 s0 c = some s0') : Rel lm S.globalMaxlevel s' s0' := by
  have tail : ∀ (lo hi : Nat) (t : ℚ) (b : Bool), s' = ⟨s.ts, s.log ++ [.ghost lo hi t b] ++ (if S.timeSync then [.sync lo hi] else [])⟩ →
      s0' = ⟨s0.ts, s0.log ++ [.ghost lo hi t b] ++ (if S0.timeSync then [.sync lo hi] else [])⟩ →
      Rel lm S.globalMaxlevel s' s0' := by
    rintro lo hi t b rfl rfl
    refine ⟨hR.ts, hR.inc, ?_⟩
    dsimp only
    rw [hsync]
    cases S0.timeSync <;> simp [hR.log, bare, keep, List.filter_cons]
  unfold intermediate at h h0
  rw [hsub, hmax, hmin] at h
  by_cases hs : S0.subcycle = true
  · rw [if_pos hs] at h h0
    cases hM : S0.globalMaxlevel with
    | zero => rw [hM] at h; simp at h
    | succ M' =>
      rw [hM] at h h0
      dsimp only at h h0
      rw [timeinterpLevel_congr _ _ hR.inc] at h
      cases ht : timeinterpLevel s0.ts c.lastStep M' with
      | none => rw [ht] at h; simp at h
      | some ti =>
        rw [ht] at h h0
        simp only [Option.some.injEq] at h h0
        exact tail _ _ _ _ h.symm h0.symm
  · rw [if_neg hs] at h h0
    simp only [Option.some.injEq] at h h0
    exact tail _ _ _ _ h.symm h0.symm

/-- What a pass of the loop has done. -/
theorem fineLoop_some {S : Setup} {cfl : List Ev → ℚ} {n k : Nat} {mc mc' : ℚ} {s s' : St}
    (h : fineLoop S cfl (n + 1) k mc s = some (s', mc')) :
    ∃ s1 m1 c s2 m2, advanceLevel S cfl S.globalMaxlevel k mc s = some (s1, m1) ∧ s1.ts S.globalMaxlevel = some c ∧
      ((c.lastStep < c.totalSteps ∧ intermediate S s1 c = some s2) ∨ (¬ c.lastStep < c.totalSteps ∧ s2 = s1)) ∧
      fineLoop S cfl n (k + 1) m2 s2 = some (s', mc') := by
  unfold fineLoop at h
  cases h1 : advanceLevel S cfl S.globalMaxlevel k mc s with
  | none => rw [h1] at h; simp at h
  | some r =>
    obtain ⟨s1, m1⟩ := r
    rw [h1] at h
    dsimp only at h
    cases h2 : s1.ts S.globalMaxlevel with
    | none => rw [h2] at h; simp at h
    | some c =>
      rw [h2] at h
      dsimp only at h
      split at h
      · rename_i hlt
        cases h3 : intermediate S s1 c with
        | none => rw [h3] at h; simp at h
        | some s2 =>
          rw [h3] at h
          exact ⟨s1, m1, c, s2, _, rfl, h2, Or.inl ⟨hlt, h3⟩, h⟩
      · rename_i hlt
        exact ⟨s1, m1, c, s1, _, rfl, h2, Or.inr ⟨hlt, rfl⟩, h⟩

include hsub hmax hlm hle hmin hsync in
theorem fineLoop_rel : ∀ {n k : Nat} {mc mc' mc0 mc0' : ℚ} {s s' s0 s0' : St}, Rel lm S.globalMaxlevel s s0 →
    fineLoop S cfl n k mc s = some (s', mc') → fineLoop S0 cfl0 n k mc0 s0 = some (s0', mc0') →
      Rel lm S.globalMaxlevel s' s0' := by
  intro n
  induction n with
  | zero =>
    intro k mc mc' mc0 mc0' s s' s0 s0' hR h h0
    simp only [fineLoop, Option.some.injEq, Prod.mk.injEq] at h h0
    rw [← h.1, ← h0.1]
    exact hR
  | succ n ih =>
    intro k mc mc' mc0 mc0' s s' s0 s0' hR h h0
    obtain ⟨s1, m1, c, s2, m2, e1, e2, e3, e4⟩ := fineLoop_some h
    obtain ⟨t1, n1, c0, t2, n2, f1, f2, f3, f4⟩ := fineLoop_some h0
    rw [← hmax] at f1 f2
    have R1 := advanceLevel_rel (m := S.globalMaxlevel) hsub hlm hle (Or.inr rfl) (Nat.le_refl _) hR e1 f1
    have : c = c0 := by
      rw [R1.ts _ (Or.inr rfl), f2] at e2
      exact (Option.some.inj e2).symm
    subst this
    refine ih ?_ e4 f4
    rcases e3 with ⟨a, e3⟩ | ⟨a, rfl⟩
    · rcases f3 with ⟨_, f3⟩ | ⟨b, _⟩
      · exact intermediate_rel hsub hmax hmin hsync R1 e3 f3
      · exact absurd a b
    · rcases f3 with ⟨b, _⟩ | ⟨_, rfl⟩
      · exact absurd b a
      · exact R1

/-- What `fclaw2d_advance_all_levels` has done. -/
theorem advanceAll_some {S : Setup} {cfl : List Ev → ℚ} {t dt : ℚ} {log : List Ev} {mc : ℚ}
    (h : advanceAllLevels S cfl t dt = some (log, mc)) :
    ∃ c0 s m c, initCounters S t dt S.globalMaxlevel = some c0 ∧
      fineLoop S cfl c0.totalSteps 0 0 ⟨initCounters S t dt, []⟩ = some (s, m) ∧ s.ts S.globalMaxlevel = some c ∧
      log = s.log ++ [.ghost S.globalMinlevel S.globalMaxlevel c.currentTime false] ++
        (if S.timeSync then [.sync S.globalMinlevel S.globalMaxlevel] else []) := by
  unfold advanceAllLevels at h
  dsimp only at h
  cases h1 : initCounters S t dt S.globalMaxlevel with
  | none => rw [h1] at h; simp at h
  | some c0 =>
    rw [h1] at h
    dsimp only at h
    split at h
    · simp at h
    · cases h2 : fineLoop S cfl c0.totalSteps 0 0 ⟨initCounters S t dt, []⟩ with
      | none => rw [h2] at h; simp at h
      | some r =>
        obtain ⟨s, m⟩ := r
        rw [h2] at h
        dsimp only at h
        split at h
        · cases h3 : s.ts S.globalMaxlevel with
          | none => rw [h3] at h; simp at h
          | some c =>
            rw [h3] at h
            simp only [Option.some.injEq, Prod.mk.injEq] at h
            exact ⟨c0, s, m, c, rfl, h2, h3, h.1.symm⟩
        · simp at h

end

/-- The schedule of a process with coarsest level `lm` is that of a process which has all levels, without the events
that concern other levels. -/
theorem schedule (S : Setup) (lm : Nat) (hle : S.localMinlevel ≤ lm) (t dt : ℚ) (cfl cfl' : List Ev → ℚ) (log log' : List Ev)
    (mc mc' : ℚ) (h : advanceAllLevels S cfl t dt = some (log, mc))
    (h' : advanceAllLevels { S with localMinlevel := lm } cfl' t dt = some (log', mc')) :
    log'.map bare = (log.map bare).filter (keep lm S.globalMaxlevel) := by
  obtain ⟨c0, s, m, c, e1, e2, e3, rfl⟩ := advanceAll_some h
  obtain ⟨c0', s', m', c', f1, f2, f3, rfl⟩ := advanceAll_some h'
  have hinit : initCounters { S with localMinlevel := lm } t dt = initCounters S t dt := rfl
  rw [hinit] at f1 f2
  have f1' : initCounters S t dt S.globalMaxlevel = some c0' := f1
  have : c0' = c0 := by
    rw [e1] at f1'
    exact (Option.some.inj f1').symm
  subst this
  have R := fineLoop_rel (lm := lm) (S := { S with localMinlevel := lm }) (S0 := S) rfl rfl rfl hle rfl rfl
    (s := ⟨initCounters S t dt, []⟩) (s0 := ⟨initCounters S t dt, []⟩) ⟨fun _ _ => rfl, rfl, rfl⟩ f2 e2
  have : c' = c := by
    rw [R.ts _ (Or.inr rfl)] at f3
    have f3' : s.ts S.globalMaxlevel = some c' := f3
    rw [e3] at f3'
    exact (Option.some.inj f3').symm
  subst this
  have hl : s'.log.map bare = (s.log.map bare).filter (keep lm S.globalMaxlevel) := R.log
  dsimp only
  cases S.timeSync <;> simp [hl, bare, keep, List.filter_cons]

end Fclaw.Parallel

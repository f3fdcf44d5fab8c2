import Verif.GeoRun.Lemmas
/-
The data of a run of GeoClaw follow from the steps that were kept.
-/
set_option autoImplicit false
set_option linter.unusedVariables false
namespace Fclaw.GeoRun

open Run (Opts counts3)

variable {D : Type}

theorem plays_append (w : World D) (l1 l2 : List Call) : ∀ (d d1 d2 : D), Plays w d l1 d1 → Plays w d1 l2 d2 →
    Plays w d (l1 ++ l2) d2 := by
  induction l1 with
  | nil => intro d d1 d2 h1 h2; simp only [Plays] at h1; rw [h1] at h2; exact h2
  | cons c l ih => intro d d1 d2 h1 h2; exact ⟨h1.1, ih _ _ _ h1.2 h2⟩

theorem replay_append (w : World D) (l1 l2 : List Ev) : ∀ (d d1 d2 : D), Replay w d l1 d1 → Replay w d1 l2 d2 →
    Replay w d (l1 ++ l2) d2 := by
  induction l1 with
  | nil => intro d d1 d2 h1 h2; simp only [Replay] at h1; rw [h1] at h2; exact h2
  | cons e l ih =>
    intro d d1 d2 h1 h2
    cases e with
    | accept calls => obtain ⟨x, p, q⟩ := h1; exact ⟨x, p, ih _ _ _ q h2⟩
    | regrid n => exact ih _ _ _ h1 h2
    | frame i t => exact ih _ _ _ h1 h2
    | diagnostics b => exact ih _ _ _ h1 h2
    | reject calls => exact ih _ _ _ h1 h2

theorem subSteps_plays (w : World D) (dt1 : ℚ) (m : Nat) : ∀ (d : D) (ct c : ℚ),
    Plays w d (subSteps w dt1 m d ct c).2.2.2 (subSteps w dt1 m d ct c).1 := by
  induction m with
  | zero => intro d ct c; rfl
  | succ m ih => intro d ct c; exact ⟨rfl, ih _ _ _⟩

theorem stepTo_plays (w : World D) (g : Motion) (d : D) (ct t : ℚ) :
    Plays w d (stepTo w g d ct t).2.2.2.1 (stepTo w g d ct t).1 := by
  unfold stepTo
  split
  · exact ⟨rfl, rfl⟩
  · exact rfl

theorem stepDtopo_plays (w : World D) (g : Motion) (d : D) (ct t tend : ℚ) (r : D × ℚ × ℚ × List Call)
    (h : stepDtopo w g d ct t tend = some r) : Plays w d r.2.2.2 r.1 := by
  unfold stepDtopo at h
  split at h
  · cases h
  · dsimp only at h
    generalize (if tendLocal g t tend - (stepTo w g d ct t).2.2.2.2 < g.dtMax then
      tendLocal g t tend - (stepTo w g d ct t).2.2.2.2 else g.dtMax) = dtm at h
    split at h
    · cases h
    · split at h
      · simp only [Option.some.injEq] at h
        subst h
        refine plays_append w _ _ _ _ _ (plays_append w _ _ _ _ _ (stepTo_plays w g d ct t)
          (subSteps_plays w _ _ _ _ _)) ⟨rfl, rfl⟩
      · simp only [Option.some.injEq] at h
        subst h
        exact plays_append w _ _ _ _ _ (stepTo_plays w g d ct t) (subSteps_plays w _ _ _ _ _)

theorem takeStep_plays (w : World D) (g : Motion) (d : D) (ct t dt : ℚ) (d' : D) (ct' c : ℚ) (calls : List Call)
    (tc : ℚ) (took : Bool) (h : takeStep w g d ct t dt = some (d', ct', c, calls, tc, took)) :
    Plays w d calls d' := by
  unfold takeStep at h
  dsimp only at h
  split at h
  · rw [Option.map_eq_some_iff] at h
    obtain ⟨r, hr, e⟩ := h
    have := stepDtopo_plays w g d ct t _ r hr
    simp only [Prod.mk.injEq] at e
    obtain ⟨rfl, _, _, rfl, _⟩ := e
    exact this
  · simp only [Option.some.injEq, Prod.mk.injEq] at h
    obtain ⟨rfl, _, _, rfl, _⟩ := h
    exact ⟨rfl, rfl⟩

theorem diag_replay (w : World D) (b c : Bool) (d : D) :
    Replay w d (if b then [Ev.diagnostics c] else []) d := by
  cases b <;> exact rfl

theorem regridStep_replay (o : Opts) (w : World D) (d0 : D) (n : Nat) (s : St D) (h : Replay w d0 s.log s.data) :
    Replay w d0 (regridStep o w n s).log (regridStep o w n s).data := by
  unfold regridStep
  split
  · split
    · exact replay_append w _ _ _ _ _ h rfl
    · exact h
  · exact h

theorem next1_replay (o : Opts) (w : World D) (hr : ∀ a b, w.restore a b = a) (g : Motion) (d0 : D) (s s' : St D)
    (hs : next1 o w g s = some s') (h : Replay w d0 s.log s.data) : Replay w d0 s'.log s'.data := by
  unfold next1 at hs
  split at hs
  · unfold inner1 at hs
    dsimp only at hs
    split at hs
    · cases hs
    · rename_i d ct c calls tc took e
      have hp := takeStep_plays w g _ _ _ _ _ _ _ _ _ _ e
      split at hs
      · simp only [Option.some.injEq] at hs
        subst hs
        dsimp only
        rw [hr]
        exact replay_append w _ _ _ _ _ h rfl
      · simp only [Option.some.injEq] at hs
        subst hs
        apply regridStep_replay
        dsimp only
        refine replay_append w _ _ _ _ _ (replay_append w _ _ _ _ _ h ⟨d, hp, rfl⟩) ?_
        split
        · exact rfl
        · exact rfl
  · simp only [Option.some.injEq] at hs
    subst hs
    exact replay_append w _ _ _ _ _ h rfl

theorem outputStep_replay (w : World D) (b : Bool) (n : Nat) (d0 : D) (s s' : St D)
    (hs : outputStep b n s = some s') (h : Replay w d0 s.log s.data) : Replay w d0 s'.log s'.data := by
  unfold outputStep at hs
  split at hs
  · cases hs
  · split at hs
    · simp only [Option.some.injEq] at hs
      subst hs
      refine replay_append w _ _ _ _ _ (replay_append w _ _ _ _ _ h ?_) (by exact rfl)
      split
      · exact rfl
      · exact rfl
    · simp only [Option.some.injEq] at hs
      subst hs
      exact h

theorem body3_replay (o : Opts) (w : World D) (hr : ∀ a b, w.restore a b = a) (g : Motion) (d0 : D) (s s' : St D)
    (hs : body3 o w g s = some s') (h : Replay w d0 s.log s.data) : Replay w d0 s'.log s'.data := by
  unfold body3 at hs
  dsimp only at hs
  split at hs
  · cases hs
  · rename_i d ct c calls tc took e
    have hp := takeStep_plays w g _ _ _ _ _ _ _ _ _ _ e
    split at hs
    · simp only [Option.some.injEq] at hs
      subst hs
      dsimp only
      rw [hr]
      exact replay_append w _ _ _ _ _ h rfl
    · refine outputStep_replay w _ _ d0 _ _ hs ?_
      dsimp only
      refine replay_append w _ _ _ _ _ (regridStep_replay o w d0 _ _
        (replay_append w _ _ _ _ _ h ⟨d, hp, rfl⟩)) (diag_replay w _ _ _)

theorem body4_replay (o : Opts) (w : World D) (d0 : D) (s s' : St D)
    (hs : body4 o w s = some s') (h : Replay w d0 s.log s.data) : Replay w d0 s'.log s'.data := by
  unfold body4 at hs
  exact outputStep_replay w _ _ d0 _ _ hs
    (regridStep_replay o w d0 _ _ (replay_append w _ _ _ _ _ h ⟨_, ⟨rfl, rfl⟩, rfl⟩))

/-! ### The number of frames in styles 3 and 4 -/

/-- The numbers of the frames written. -/
def frameNos (log : List Ev) : List Nat := (frames log).map Prod.fst

theorem frameNos_append (l1 l2 : List Ev) : frameNos (l1 ++ l2) = frameNos l1 ++ frameNos l2 := by
  unfold frameNos; rw [frames_append, List.map_append]

theorem regridStep_fields (o : Opts) (w : World D) (n : Nat) (s : St D) :
    (regridStep o w n s).n = s.n ∧ (regridStep o w n s).iframe = s.iframe ∧
      frameNos (regridStep o w n s).log = frameNos s.log := by
  unfold regridStep
  split
  · split
    · exact ⟨rfl, rfl, by dsimp only; rw [frameNos_append]; simp [frameNos, frames]⟩
    · exact ⟨rfl, rfl, rfl⟩
  · exact ⟨rfl, rfl, rfl⟩

theorem outputStep_counted (b : Bool) (m : Nat) (s s' : St D) (k : Nat) (hs : outputStep b m s = some s')
    (hn : s.n = k + 1) (h1 : s.iframe = k / m) (h2 : frameNos s.log = List.range (s.iframe + 1)) :
    s'.n = s.n ∧ s'.iframe = s'.n / m ∧ frameNos s'.log = List.range (s'.iframe + 1) := by
  unfold outputStep at hs
  split at hs
  · cases hs
  · rename_i hm
    split at hs
    · rename_i hmod
      simp only [Option.some.injEq] at hs
      subst hs
      dsimp only
      refine ⟨rfl, ?_, ?_⟩
      · rw [hn, Nat.succ_div_of_dvd (by rw [← hn]; exact Nat.dvd_of_mod_eq_zero hmod), h1]
      · rw [frameNos_append, frameNos_append, h2, List.range_succ (n := s.iframe + 1)]
        cases b <;> simp [frameNos, frames]
    · rename_i hmod
      simp only [Option.some.injEq] at hs
      subst hs
      refine ⟨rfl, ?_, h2⟩
      rw [hn, Nat.succ_div_of_not_dvd (fun hd => hmod (by rw [hn]; exact Nat.mod_eq_zero_of_dvd hd)), h1]

theorem body3_counted (o : Opts) (w : World D) (g : Motion) (s s' : St D) (hs : body3 o w g s = some s')
    (h1 : s.iframe = s.n / (counts3 o).2) (h2 : frameNos s.log = List.range (s.iframe + 1)) :
    s'.iframe = s'.n / (counts3 o).2 ∧ frameNos s'.log = List.range (s'.iframe + 1) := by
  unfold body3 at hs
  dsimp only at hs
  split at hs
  · cases hs
  · split at hs
    · simp only [Option.some.injEq] at hs
      subst hs
      refine ⟨h1, ?_⟩
      dsimp only
      rw [frameNos_append, h2]
      simp [frameNos, frames]
    · refine (outputStep_counted _ _ _ _ s.n hs ?_ ?_ ?_).2
      · dsimp only; rw [(regridStep_fields _ _ _ _).1]
      · dsimp only; rw [(regridStep_fields _ _ _ _).2.1]; exact h1
      · dsimp only
        rw [frameNos_append, (regridStep_fields _ _ _ _).2.2, (regridStep_fields _ _ _ _).2.1]
        dsimp only
        rw [frameNos_append, h2]
        cases o.advanceOneStep <;> simp [frameNos, frames]

theorem body4_counted (o : Opts) (w : World D) (s s' : St D) (hs : body4 o w s = some s')
    (h1 : s.iframe = s.n / o.nstep) (h2 : frameNos s.log = List.range (s.iframe + 1)) :
    s'.n = s.n + 1 ∧ s'.iframe = s'.n / o.nstep ∧ frameNos s'.log = List.range (s'.iframe + 1) := by
  unfold body4 at hs
  obtain ⟨a, b, c⟩ := outputStep_counted _ _ _ _ s.n hs
    (by rw [(regridStep_fields _ _ _ _).1]) (by rw [(regridStep_fields _ _ _ _).2.1]; exact h1) (by
      rw [(regridStep_fields _ _ _ _).2.2, (regridStep_fields _ _ _ _).2.1]
      dsimp only
      rw [frameNos_append, h2]
      simp [frameNos, frames])
  refine ⟨?_, b, c⟩
  rw [a, (regridStep_fields _ _ _ _).1]

theorem accepts_append (l1 l2 : List Ev) : accepts (l1 ++ l2) = accepts l1 + accepts l2 := by
  unfold accepts; rw [List.countP_append]

theorem regridStep_accepts (o : Opts) (w : World D) (n : Nat) (s : St D) :
    accepts (regridStep o w n s).log = accepts s.log := by
  unfold regridStep
  split
  · split
    · dsimp only; rw [accepts_append]; simp [accepts]
    · rfl
  · rfl

theorem outputStep_accepts (b : Bool) (m : Nat) (s s' : St D) (hs : outputStep b m s = some s') :
    accepts s'.log = accepts s.log ∧ s'.n = s.n := by
  unfold outputStep at hs
  split at hs
  · cases hs
  · split at hs
    · simp only [Option.some.injEq] at hs
      subst hs
      refine ⟨?_, rfl⟩
      dsimp only
      rw [accepts_append, accepts_append]
      cases b <;> simp [accepts]
    · simp only [Option.some.injEq] at hs
      subst hs
      exact ⟨rfl, rfl⟩

theorem body3_accepts (o : Opts) (w : World D) (g : Motion) (s s' : St D) (hs : body3 o w g s = some s')
    (h : accepts s.log = s.n) : accepts s'.log = s'.n := by
  unfold body3 at hs
  dsimp only at hs
  split at hs
  · cases hs
  · split at hs
    · simp only [Option.some.injEq] at hs
      subst hs
      dsimp only
      rw [accepts_append, h]
      simp [accepts]
    · obtain ⟨a, b⟩ := outputStep_accepts _ _ _ _ hs
      rw [a, b]
      dsimp only
      rw [accepts_append, regridStep_accepts, (regridStep_fields _ _ _ _).1]
      dsimp only
      rw [accepts_append, h]
      cases o.advanceOneStep <;> simp [accepts]

theorem body4_accepts (o : Opts) (w : World D) (s s' : St D) (hs : body4 o w s = some s')
    (h : accepts s.log = s.n) : accepts s'.log = s'.n := by
  unfold body4 at hs
  obtain ⟨a, b⟩ := outputStep_accepts _ _ _ _ hs
  rw [a, b, regridStep_accepts, (regridStep_fields _ _ _ _).1]
  dsimp only
  rw [accepts_append, h]
  simp [accepts]

end Fclaw.GeoRun

import Verif.GeoRun.Lemmas
import Verif.GeoRun.Replay
/-
C99: a run of GeoClaw covers the time step by step, writes its frames at the requested times, and
resolves the motion of the ground.
-/
set_option autoImplicit false
set_option linter.unusedVariables false
namespace Fclaw.GeoRun

open Run (Opts counts3)

variable {D : Type}

/-- The options make sense: a positive first step, and step control that can work with the CFL
numbers which the solver reports. -/
structure Good (o : Opts) (w : World D) : Prop where
  dt : 0 < o.initialDt
  factor : 0 < o.levelFactor
  control : o.fixedDt = false → 0 < o.desiredCfl ∧ ∀ d t dt, 0 < (w.advance d t dt).2

/-- C99, a step over the motion of the ground. It begins and ends where the step was meant to, in at
least two steps without gap or overlap; none crosses the time when the motion begins, those within
the motion are not longer than `dt_max_dtopo`; the number returned is at least each of their CFL
numbers. -/
theorem C99_dtopo_step (w : World D) (g : Motion) (hg : g.lo < g.hi) (hm : 0 < g.dtMax) (d : D)
    (tstart tend : ℚ) (hlt : tstart < tend) (h1 : tstart < g.hi) (h2 : g.lo < tend) :
    ∃ d' c calls, stepDtopo w g d tstart tstart tend = some (d', tend, c, calls) ∧
      2 ≤ calls.length ∧ Tiles tstart tend calls ∧ ∀ x ∈ calls, Resolves g x ∧ x.cfl ≤ c := by
  obtain ⟨d', c, calls, e, t1, t2, _, t4⟩ := stepDtopo_spec w g hg hm d tstart tend hlt h1 h2
  exact ⟨d', c, calls, e, t4, t1, t2⟩

/-- The time of output style 1 with variable steps. -/
structure Times (o : Opts) (s : St D) : Prop where
  lower : (s.n : ℚ) * (o.tfinal / o.nout) ≤ s.t
  upper : s.t ≤ s.tend
  tend : s.tend = ((s.n : ℚ) + 1) * (o.tfinal / o.nout)
  le : s.n ≤ o.nout
  iframe : s.iframe = s.n
  fin : s.n = o.nout → s.t = (s.n : ℚ) * (o.tfinal / o.nout)
  frames : frames s.log = (List.range (s.n + 1)).map (fun (i : Nat) => (i, (i : ℚ) * (o.tfinal / o.nout)))

theorem chooseStep_spec (o : Opts) (s : St D) (hpos : 0 < s.dtMin) (hf : 0 < o.levelFactor)
    (hlt : s.t < s.tend) :
    0 < (chooseStep o s).1 ∧ (o.fixedDt = false → s.t + (chooseStep o s).1 ≤ s.tend) := by
  have hbase : 0 < (if o.advanceOneStep then s.dtMin / (o.levelFactor : ℚ) else s.dtMin) := by
    split
    · exact div_pos hpos (by exact_mod_cast hf)
    · exact hpos
  unfold chooseStep
  dsimp only
  by_cases hfix : o.fixedDt = true
  · rw [if_pos hfix]
    exact ⟨hbase, fun h => absurd (h.symm.trans hfix) (by decide)⟩
  · rw [if_neg hfix]
    by_cases h : s.tend - (s.t + if o.advanceOneStep then s.dtMin / (o.levelFactor : ℚ) else s.dtMin) <
        1 / 100 * (if o.advanceOneStep then s.dtMin / (o.levelFactor : ℚ) else s.dtMin)
    · rw [if_pos h]
      dsimp only
      exact ⟨by linarith, fun _ => by linarith⟩
    · rw [if_neg h]
      dsimp only
      refine ⟨hbase, fun _ => ?_⟩
      have := not_lt.1 h
      linarith

theorem regridStep_times (o : Opts) (w : World D) (n : Nat) (s : St D) (h : Times o s) :
    Times o (regridStep o w n s) := by
  unfold regridStep
  split
  · split
    · exact ⟨h.lower, h.upper, h.tend, h.le, h.iframe, h.fin, by
        dsimp only; rw [frames_append, h.frames]; simp [frames]⟩
    · exact h
  · exact h

theorem next1_inv (o : Opts) (w : World D) (hgood : Good o w) (g : Motion) (hg : g.Proper) (s : St D)
    (h : Inv g s) (hn : s.n < o.nout) :
    ∃ s', next1 o w g s = some s' ∧ Inv g s' ∧ (o.fixedDt = false → 0 < o.tfinal → Times o s → Times o s') := by
  unfold next1
  by_cases hlt : s.t < s.tend
  · rw [if_pos hlt]
    obtain ⟨hdt, hup⟩ := chooseStep_spec o s h.pos hgood.factor hlt
    obtain ⟨d', ct, c, calls, took, e, h1, h2, h3, h4⟩ :=
      takeStep_spec w g hg s.data s.t (chooseStep o s).1 h.nonneg hdt
    unfold inner1
    dsimp only
    rw [h.time, e]
    dsimp only
    have hnew : o.fixedDt = false → 0 < s.dtMin * o.desiredCfl / c := by
      intro hf
      obtain ⟨c1, c2⟩ := hgood.control hf
      exact div_pos (mul_pos h.pos c1) (h3 c2)
    by_cases hrej : (!took && (decide (c > o.maxCfl) && o.reduceCfl && !o.fixedDt)) = true
    · rw [if_pos hrej]
      simp only [Bool.and_eq_true, Bool.not_eq_true'] at hrej
      obtain ⟨ht, _, hf⟩ := hrej
      refine ⟨_, rfl, ?_, ?_⟩
      · rw [(h4 ht).1]
        exact reject_inv g s h _ _ _ (hnew hf)
      · intro _ _ hT
        exact ⟨hT.lower, hT.upper, hT.tend, hT.le, hT.iframe, hT.fin, by
          dsimp only; rw [frames_append, hT.frames]; simp [frames]⟩
    · rw [if_neg hrej]
      refine ⟨_, rfl, regridStep_inv o w g _ _ ?_, ?_⟩
      · have := accept_inv g s h d' s.n (s.nInner + 1) (chooseStep o s).1
          (if !o.fixedDt && !(chooseStep o s).2 then s.dtMin * o.desiredCfl / c else s.dtMin) calls h1
          (fun x hx => (h2 x hx).1) (by
            split
            · rename_i hh
              simp only [Bool.and_eq_true, Bool.not_eq_true'] at hh
              exact hnew hh.1
            · exact h.pos)
        exact diag_inv g o.advanceOneStep false _ this
      · intro hf htf hT
        apply regridStep_times
        refine ⟨?_, hup hf, hT.tend, hT.le, hT.iframe, ?_, ?_⟩
        · exact le_trans hT.lower (by dsimp only; linarith)
        · intro hh; dsimp only at hh; omega
        · dsimp only
          rw [frames_append, frames_append, hT.frames]
          cases o.advanceOneStep <;> simp [frames]
  · rw [if_neg hlt]
    refine ⟨_, rfl, ?_, ?_⟩
    · have h5 := diag_inv g true false s h
      simp only [if_true] at h5
      have h6 := frame_inv g (s.iframe + 1) _ h5
      simp only [List.append_assoc, List.cons_append, List.nil_append, h.time] at h6
      exact ⟨rfl, h6.nonneg, h6.tiles, h6.resolved, h6.punctual, h6.pos⟩
    · intro hf htf hT
      have ht : s.t = s.tend := le_antisymm hT.upper (not_lt.1 hlt)
      have hD : 0 < o.tfinal / (o.nout : ℚ) := div_pos htf (by
        have : 0 < o.nout := by omega
        exact_mod_cast this)
      have ht' : s.t = ((s.n + 1 : ℕ) : ℚ) * (o.tfinal / o.nout) := by rw [ht, hT.tend]; push_cast; ring
      refine ⟨?_, ?_, ?_, by dsimp only; omega, by dsimp only; rw [hT.iframe], fun _ => ht', ?_⟩
      · dsimp only; rw [ht']
      · dsimp only; rw [sub_zero]; linarith
      · dsimp only; rw [ht', sub_zero]; ring
      · dsimp only
        rw [frames_append, hT.frames, hT.iframe, ht', List.range_succ (n := s.n + 1), List.map_append]
        simp [frames]

theorem run1_inv (o : Opts) (w : World D) (hgood : Good o w) (g : Motion) (hg : g.Proper) (k : Nat) :
    ∀ s : St D, Inv g s → ∃ s', run1 o w g k s = some s' ∧ Inv g s' ∧
      (o.fixedDt = false → 0 < o.tfinal → Times o s → Times o s') := by
  induction k with
  | zero => intro s h; exact ⟨s, rfl, h, fun _ _ h => h⟩
  | succ k ih =>
    intro s h
    simp only [run1]
    by_cases hn : s.n < o.nout
    · rw [if_pos hn]
      obtain ⟨s1, e1, i1, t1⟩ := next1_inv o w hgood g hg s h hn
      rw [e1]
      obtain ⟨s2, e2, i2, t2⟩ := ih s1 i1
      exact ⟨s2, e2, i2, fun a b c => t2 a b (t1 a b c)⟩
    · rw [if_neg hn]
      exact ⟨s, rfl, h, fun _ _ h => h⟩

theorem start1_inv (o : Opts) (w : World D) (hgood : Good o w) (g : Motion) (data : D) :
    Inv g (start1 o data) := by
  refine ⟨rfl, le_refl _, rfl, ?_, ?_, hgood.dt⟩
  · intro c hc; simp [start1, kept] at hc
  · intro pre i t post h
    simp only [start1] at h
    match pre, h with
    | [], h => simp at h; obtain ⟨⟨_, rfl⟩, _⟩ := h; rfl
    | [a], h => simp at h
    | a :: b :: l, h => simp at h

/-- C99, output style 1. As long as the run goes on it has not failed; its steps that were kept cover
the time from zero to the current time without gap or overlap; each resolves the motion of the
ground; every frame is written at the time that its steps have reached. -/
theorem C99_style1_steps (o : Opts) (w : World D) (hgood : Good o w) (g : Motion) (hg : g.Proper) (data : D)
    (k : Nat) :
    ∃ s, run1 o w g k (start1 o data) = some s ∧ Tiles 0 s.t (kept s.log) ∧ s.currTime = s.t ∧
      (∀ c ∈ kept s.log, Resolves g c) ∧ Punctual s.log := by
  obtain ⟨s, e, h, _⟩ := run1_inv o w hgood g hg k _ (start1_inv o w hgood g data)
  exact ⟨s, e, h.tiles, h.time, h.resolved, h.punctual⟩

/-- C99, output style 1 with variable steps: the frames written are numbers `0, …, n`, frame `i`
exactly at time `i * tfinal / nout`, also if the ground moves; when the run has ended there are
exactly `nout` frames after the initial one and the time is `tfinal`. -/
theorem C99_style1_times (o : Opts) (w : World D) (hgood : Good o w) (g : Motion) (hg : g.Proper) (data : D)
    (hvar : o.fixedDt = false) (htf : 0 < o.tfinal) (hno : 0 < o.nout) (k : Nat) :
    ∃ s, run1 o w g k (start1 o data) = some s ∧ s.n ≤ o.nout ∧
      frames s.log = (List.range (s.n + 1)).map (fun (i : Nat) => (i, (i : ℚ) * (o.tfinal / o.nout))) ∧
      (s.n = o.nout → Tiles 0 o.tfinal (kept s.log)) := by
  obtain ⟨s, e, h, hT⟩ := run1_inv o w hgood g hg k _ (start1_inv o w hgood g data)
  have hD : 0 < o.tfinal / (o.nout : ℚ) := div_pos htf (by exact_mod_cast hno)
  have hT := hT hvar htf ⟨by simp [start1], by simp only [start1, sub_zero, zero_add]; exact le_of_lt hD,
    by simp [start1], Nat.zero_le _, rfl, by intro h; simp [start1] at h; omega, by
      simp [start1, frames]⟩
  refine ⟨s, e, hT.le, hT.frames, ?_⟩
  intro hn
  have hnq : (o.nout : ℚ) ≠ 0 := by
    have : (0 : ℚ) < o.nout := by exact_mod_cast hno
    exact ne_of_gt this
  have : s.t = o.tfinal := by rw [hT.fin hn, hn]; field_simp
  rw [← this]
  exact h.tiles

theorem outputStep_inv (g : Motion) (b : Bool) (n : Nat) (hn : n ≠ 0) (s : St D) (h : Inv g s) :
    ∃ s', outputStep b n s = some s' ∧ Inv g s' := by
  unfold outputStep
  rw [if_neg hn]
  by_cases hm : s.n % n = 0
  · rw [if_pos hm]
    refine ⟨_, rfl, ?_⟩
    exact frame_inv g (s.iframe + 1) _ (diag_inv g b false s h)
  · rw [if_neg hm]
    exact ⟨s, rfl, h⟩

theorem body3_inv (o : Opts) (w : World D) (hgood : Good o w) (hstep : 0 < o.nstep) (g : Motion)
    (hg : g.Proper) (s : St D) (h : Inv g s) : ∃ s', body3 o w g s = some s' ∧ Inv g s' := by
  have hdt : 0 < (if !o.subcycle && o.advanceOneStep then s.dtMin / (o.levelFactor : ℚ) else s.dtMin) := by
    split
    · exact div_pos h.pos (by exact_mod_cast hgood.factor)
    · exact h.pos
  unfold body3
  dsimp only
  generalize (if !o.subcycle && o.advanceOneStep then s.dtMin / (o.levelFactor : ℚ) else s.dtMin) = dt at hdt ⊢
  obtain ⟨d', ct, c, calls, took, e, h1, h2, h3, h4⟩ := takeStep_spec w g hg s.data s.t dt h.nonneg hdt
  rw [h.time, e]
  dsimp only
  have hnew : o.fixedDt = false → 0 < s.dtMin * o.desiredCfl / c := by
    intro hf
    obtain ⟨c1, c2⟩ := hgood.control hf
    exact div_pos (mul_pos h.pos c1) (h3 c2)
  by_cases hrej : (!took && (o.reduceCfl && decide (c > o.maxCfl) && !o.fixedDt)) = true
  · rw [if_pos hrej]
    simp only [Bool.and_eq_true, Bool.not_eq_true'] at hrej
    obtain ⟨ht, _, hf⟩ := hrej
    refine ⟨_, rfl, ?_⟩
    rw [(h4 ht).1]
    exact reject_inv g s h _ _ _ (hnew hf)
  · rw [if_neg hrej]
    have ha := accept_inv g s h d' (s.n + 1) s.nInner dt
      (if !o.fixedDt then s.dtMin * o.desiredCfl / c else s.dtMin) calls h1 (fun x hx => (h2 x hx).1) (by
        split
        · rename_i hh
          simp only [Bool.not_eq_true'] at hh
          exact hnew hh
        · exact h.pos)
    have hr := diag_inv g o.advanceOneStep false _ (regridStep_inv o w g (s.n + 1) _ ha)
    have hcount : (counts3 o).2 ≠ 0 := by
      unfold Run.counts3
      split
      · exact Nat.mul_ne_zero (by omega) (by have := hgood.factor; omega)
      · dsimp only; omega
    exact outputStep_inv g _ _ hcount _ hr

/-- C99, output style 3: the same of its steps. -/
theorem C99_style3_steps (o : Opts) (w : World D) (hgood : Good o w) (hstep : 0 < o.nstep) (g : Motion)
    (hg : g.Proper) (data : D) (k : Nat) :
    ∃ s, run3 o w g k (start3 o data) = some s ∧ Tiles 0 s.t (kept s.log) ∧ s.currTime = s.t ∧
      (∀ c ∈ kept s.log, Resolves g c) ∧ Punctual s.log := by
  have key : ∀ k (s : St D), Inv g s → ∃ s', run3 o w g k s = some s' ∧ Inv g s' := by
    intro k
    induction k with
    | zero => intro s h; exact ⟨s, rfl, h⟩
    | succ k ih =>
      intro s h
      simp only [run3]
      split
      · obtain ⟨s1, e1, i1⟩ := body3_inv o w hgood hstep g hg s h
        rw [e1]
        exact ih s1 i1
      · exact ⟨s, rfl, h⟩
  obtain ⟨s, e, h⟩ := key k (start3 o data) (by
    refine ⟨rfl, le_refl _, rfl, ?_, ?_, hgood.dt⟩
    · intro c hc; simp [start3, kept] at hc
    · intro pre i t post h
      simp only [start3] at h
      match pre, h with
      | [], h => simp at h
      | [a], h => simp at h; obtain ⟨rfl, ⟨_, rfl⟩, _⟩ := h; rfl
      | a :: b :: l, h => simp at h)
  exact ⟨s, e, h.tiles, h.time, h.resolved, h.punctual⟩

/-- C99, output style 4: its steps cover the time, and every frame is written at the time that they
have reached. -/
theorem C99_style4_steps (o : Opts) (w : World D) (hdt : 0 < o.initialDt) (hstep : 0 < o.nstep) (data : D)
    (k : Nat) :
    ∃ s, run4 o w k (start3 o data) = some s ∧ Tiles 0 s.t (kept s.log) ∧ s.currTime = s.t ∧ Punctual s.log := by
  have key : ∀ k (s : St D), Inv ⟨0, 0, 0⟩ s → ∃ s', run4 o w k s = some s' ∧ Inv ⟨0, 0, 0⟩ s' := by
    intro k
    induction k with
    | zero => intro s h; exact ⟨s, rfl, h⟩
    | succ k ih =>
      intro s h
      simp only [run4]
      split
      · have ha := accept_inv ⟨0, 0, 0⟩ s h (w.advance s.data s.t s.dtMin).1 (s.n + 1) s.nInner s.dtMin s.dtMin
          [⟨s.t, s.dtMin, (w.advance s.data s.t s.dtMin).2⟩] ⟨rfl, h.pos, rfl⟩ (by
            intro x hx
            rw [List.mem_singleton] at hx
            subst hx
            intro h1
            exact absurd h.nonneg (not_le.2 h1)) h.pos
        obtain ⟨s1, e1, i1⟩ := outputStep_inv _ true o.nstep (by omega) _
          (regridStep_inv o w ⟨0, 0, 0⟩ (s.n + 1) _ ha)
        have e2 : body4 o w s = some s1 := e1
        rw [e2]
        exact ih s1 i1
      · exact ⟨s, rfl, h⟩
  obtain ⟨s, e, h⟩ := key k (start3 o data) (by
    refine ⟨rfl, le_refl _, rfl, ?_, ?_, hdt⟩
    · intro c hc; simp [start3, kept] at hc
    · intro pre i t post h
      simp only [start3] at h
      match pre, h with
      | [], h => simp at h
      | [a], h => simp at h; obtain ⟨rfl, ⟨_, rfl⟩, _⟩ := h; rfl
      | a :: b :: l, h => simp at h)
  exact ⟨s, e, h.tiles, h.time, h.punctual⟩

/-- C99, output styles 3 and 4: frames are numbered in order, one for each `nstep` steps
that were kept (steps of the coarsest or finest level, `counts3`). -/
theorem C99_frame_numbers (o : Opts) (w : World D) (g : Motion) (data : D) (k : Nat) (s : St D) :
    (run3 o w g k (start3 o data) = some s →
      (frames s.log).map Prod.fst = List.range (accepts s.log / (counts3 o).2 + 1)) ∧
    (run4 o w k (start3 o data) = some s →
      (frames s.log).map Prod.fst = List.range (accepts s.log / o.nstep + 1)) := by
  constructor
  · have key : ∀ k (s s' : St D), accepts s.log = s.n → s.iframe = s.n / (counts3 o).2 → frameNos s.log = List.range (s.iframe + 1) →
        run3 o w g k s = some s' → frameNos s'.log = List.range (accepts s'.log / (counts3 o).2 + 1) := by
      intro k
      induction k with
      | zero => intro s s' h0 h1 h2 e; simp only [run3, Option.some.injEq] at e; rw [← e, h0, ← h1]; exact h2
      | succ k ih =>
        intro s s' h0 h1 h2 e
        simp only [run3] at e
        split at e
        · split at e
          · cases e
          · rename_i s1 e1
            obtain ⟨a, b⟩ := body3_counted o w g s s1 e1 h1 h2
            exact ih s1 s' (body3_accepts o w g s s1 e1 h0) a b e
        · simp only [Option.some.injEq] at e; rw [← e, h0, ← h1]; exact h2
    exact key k _ s (by simp [start3, accepts]) (by simp [start3]) (by simp [start3, frameNos, frames])
  · have key : ∀ k (s s' : St D), accepts s.log = s.n → s.iframe = s.n / o.nstep → frameNos s.log = List.range (s.iframe + 1) →
        run4 o w k s = some s' → frameNos s'.log = List.range (accepts s'.log / o.nstep + 1) := by
      intro k
      induction k with
      | zero => intro s s' h0 h1 h2 e; simp only [run4, Option.some.injEq] at e; rw [← e, h0, ← h1]; exact h2
      | succ k ih =>
        intro s s' h0 h1 h2 e
        simp only [run4] at e
        split at e
        · split at e
          · cases e
          · rename_i s1 e1
            obtain ⟨_, a, b⟩ := body4_counted o w s s1 e1 h1 h2
            exact ih s1 s' (body4_accepts o w s s1 e1 h0) a b e
        · simp only [Option.some.injEq] at e; rw [← e, h0, ← h1]; exact h2
    exact key k _ s (by simp [start3, accepts]) (by simp [start3]) (by simp [start3, frameNos, frames])

/-- C99, the data: if the saved data are what is restored then the data are at any time those which
result from the steps that were kept and the changes of the mesh, made in order on the initial data. What was
undone has left no trace. -/
theorem C99_replay (o : Opts) (w : World D) (hr : ∀ a b, w.restore a b = a) (g : Motion) (data : D) (k : Nat)
    (s : St D) (hs : run1 o w g k (start1 o data) = some s ∨ run3 o w g k (start3 o data) = some s ∨
      run4 o w k (start3 o data) = some s) : Replay w data s.log s.data := by
  rcases hs with hs | hs | hs
  · have key : ∀ k (s s' : St D), Replay w data s.log s.data → run1 o w g k s = some s' →
        Replay w data s'.log s'.data := by
      intro k
      induction k with
      | zero => intro s s' h e; simp only [run1, Option.some.injEq] at e; rw [← e]; exact h
      | succ k ih =>
        intro s s' h e
        simp only [run1] at e
        split at e
        · split at e
          · cases e
          · rename_i s1 e1
            exact ih s1 s' (next1_replay o w hr g data s s1 e1 h) e
        · simp only [Option.some.injEq] at e; rw [← e]; exact h
    exact key k (start1 o data) s rfl hs
  · have key : ∀ k (s s' : St D), Replay w data s.log s.data → run3 o w g k s = some s' →
        Replay w data s'.log s'.data := by
      intro k
      induction k with
      | zero => intro s s' h e; simp only [run3, Option.some.injEq] at e; rw [← e]; exact h
      | succ k ih =>
        intro s s' h e
        simp only [run3] at e
        split at e
        · split at e
          · cases e
          · rename_i s1 e1
            exact ih s1 s' (body3_replay o w hr g data s s1 e1 h) e
        · simp only [Option.some.injEq] at e; rw [← e]; exact h
    exact key k (start3 o data) s rfl hs
  · have key : ∀ k (s s' : St D), Replay w data s.log s.data → run4 o w k s = some s' →
        Replay w data s'.log s'.data := by
      intro k
      induction k with
      | zero => intro s s' h e; simp only [run4, Option.some.injEq] at e; rw [← e]; exact h
      | succ k ih =>
        intro s s' h e
        simp only [run4] at e
        split at e
        · split at e
          · cases e
          · rename_i s1 e1
            exact ih s1 s' (body4_replay o w data s s1 e1 h) e
        · simp only [Option.some.injEq] at e; rw [← e]; exact h
    exact key k (start3 o data) s rfl hs

/-- Each pass outside of the motion of the ground respects the maximal CFL number. -/
def CflKept (o : Opts) (g : Motion) (log : List Ev) : Prop :=
  ∀ calls, Ev.accept calls ∈ log → ∃ a b, Tiles a b calls ∧
    (g.hi ≤ a ∨ b ≤ g.lo → ∀ c ∈ calls, c.cfl ≤ o.maxCfl)

/-- C99, step control in output style 1: steps outside of the motion of the ground that are kept have
a CFL number of at most `max_cfl`. Missing, because it is false (`C99_cfl_counterexample`): the same
for a step part of which lies in the motion. -/
theorem C99_cfl_partial (o : Opts) (w : World D) (hgood : Good o w) (g : Motion) (hg : g.Proper) (data : D)
    (hvar : o.fixedDt = false) (hred : o.reduceCfl = true) (k : Nat) (s : St D)
    (hs : run1 o w g k (start1 o data) = some s) : CflKept o g s.log := by
  have key : ∀ k (s s' : St D), Inv g s → CflKept o g s.log → run1 o w g k s = some s' → CflKept o g s'.log := by
    intro k
    induction k with
    | zero => intro s s' _ h e; simp only [run1, Option.some.injEq] at e; rw [← e]; exact h
    | succ k ih =>
      intro s s' hi h e
      simp only [run1] at e
      split at e
      · rename_i hn
        obtain ⟨s1, e1, i1, _⟩ := next1_inv o w hgood g hg s hi hn
        rw [e1] at e
        refine ih s1 s' i1 ?_ e
        clear e ih
        unfold next1 at e1
        by_cases hlt : s.t < s.tend
        · rw [if_pos hlt] at e1
          obtain ⟨hdt, hup⟩ := chooseStep_spec o s hi.pos hgood.factor hlt
          obtain ⟨d', ct, c, calls, took, e2, h1, h2, h3, h4⟩ :=
            takeStep_spec w g hg s.data s.t (chooseStep o s).1 hi.nonneg hdt
          unfold inner1 at e1
          dsimp only at e1
          rw [hi.time, e2] at e1
          dsimp only at e1
          have hreg : ∀ (n : Nat) (u : St D) (x : List Call), Ev.accept x ∈ (regridStep o w n u).log →
              Ev.accept x ∈ u.log := by
            intro n u x hx
            unfold regridStep at hx
            split at hx
            · split at hx
              · simpa using hx
              · exact hx
            · exact hx
          split at e1
          · simp only [Option.some.injEq] at e1
            subst e1
            intro x hx
            have : Ev.accept x ∈ s.log := by simpa using hx
            exact h x this
          · rename_i hrej
            simp only [Option.some.injEq] at e1
            subst e1
            intro x hx
            have hx := hreg _ _ _ hx
            have : Ev.accept x ∈ s.log ∨ x = calls := by
              dsimp only at hx
              cases hA : o.advanceOneStep <;> rw [hA] at hx <;> simpa using hx
            rcases this with hx | rfl
            · exact h x hx
            · refine ⟨_, _, h1, ?_⟩
              intro hout
              have htook : took = false := by
                cases took with
                | false => rfl
                | true =>
                  exfalso
                  unfold takeStep at e2
                  dsimp only at e2
                  rw [if_neg (not_not.2 hout)] at e2
                  simp at e2
              rw [htook, hvar, hred] at hrej
              simp only [Bool.not_false, Bool.true_and, Bool.and_true, decide_eq_true_eq, not_lt] at hrej
              intro y hy
              exact le_trans (h2 y hy).2 hrej
        · rw [if_neg hlt] at e1
          simp only [Option.some.injEq] at e1
          subst e1
          intro x hx
          have : Ev.accept x ∈ s.log := by simpa using hx
          exact h x this
      · simp only [Option.some.injEq] at e
        rw [← e]
        exact h
  refine key k _ s (start1_inv o w hgood g data) ?_ hs
  intro x hx
  simp [start1] at hx

theorem interval_fold (files : List (ℚ × ℚ)) : ∀ r : ℚ × ℚ,
    let R := files.foldl (fun r f => (if f.1 < r.1 then f.1 else r.1, if f.2 ≥ r.2 then f.2 else r.2)) r
    R.1 ≤ r.1 ∧ r.2 ≤ R.2 ∧ (∀ f ∈ files, R.1 ≤ f.1 ∧ f.2 ≤ R.2) ∧
    (R.1 = r.1 ∨ ∃ f ∈ files, f.1 = R.1) ∧ (R.2 = r.2 ∨ ∃ f ∈ files, f.2 = R.2) := by
  induction files with
  | nil => intro r; simp
  | cons x l ih =>
    intro r
    dsimp only [List.foldl_cons]
    obtain ⟨i1, i2, i3, i4, i5⟩ := ih (if x.1 < r.1 then x.1 else r.1, if x.2 ≥ r.2 then x.2 else r.2)
    generalize List.foldl _ _ l = R at i1 i2 i3 i4 i5 ⊢
    dsimp only at i1 i2 i4 i5
    have e1 : (if x.1 < r.1 then x.1 else r.1) ≤ r.1 ∧ (if x.1 < r.1 then x.1 else r.1) ≤ x.1 ∧
        ((if x.1 < r.1 then x.1 else r.1) = r.1 ∨ (if x.1 < r.1 then x.1 else r.1) = x.1) := by
      split
      · exact ⟨by linarith, le_refl _, Or.inr rfl⟩
      · exact ⟨le_refl _, by linarith, Or.inl rfl⟩
    have e2 : r.2 ≤ (if x.2 ≥ r.2 then x.2 else r.2) ∧ x.2 ≤ (if x.2 ≥ r.2 then x.2 else r.2) ∧
        ((if x.2 ≥ r.2 then x.2 else r.2) = r.2 ∨ (if x.2 ≥ r.2 then x.2 else r.2) = x.2) := by
      split
      · exact ⟨by linarith, le_refl _, Or.inr rfl⟩
      · exact ⟨le_refl _, by linarith, Or.inl rfl⟩
    refine ⟨le_trans i1 e1.1, le_trans e2.1 i2, ?_, ?_, ?_⟩
    · intro f hf
      rcases List.mem_cons.1 hf with rfl | hf
      · exact ⟨le_trans i1 e1.2.1, le_trans e2.2.1 i2⟩
      · exact i3 f hf
    · rcases i4 with h | ⟨f, hf, h⟩
      · rcases e1.2.2 with h' | h'
        · left; rw [h, h']
        · right; exact ⟨x, List.mem_cons_self, by rw [h, h']⟩
      · right; exact ⟨f, List.mem_cons_of_mem _ hf, h⟩
    · rcases i5 with h | ⟨f, hf, h⟩
      · rcases e2.2.2 with h' | h'
        · left; rw [h, h']
        · right; exact ⟨x, List.mem_cons_self, by rw [h, h']⟩
      · right; exact ⟨f, List.mem_cons_of_mem _ hf, h⟩

/-- C99, the time of the motion: from the first beginning to the last end of all files; without files
there is none. -/
theorem C99_interval (big : ℚ) (files : List (ℚ × ℚ)) (hbig : ∀ f ∈ files, f.1 < big)
    (hpos : ∀ f ∈ files, 0 ≤ f.2) :
    (files = [] → dtopoInterval big files = (big, 0)) ∧
    (files ≠ [] → (∀ f ∈ files, (dtopoInterval big files).1 ≤ f.1 ∧ f.2 ≤ (dtopoInterval big files).2) ∧
      (∃ f ∈ files, f.1 = (dtopoInterval big files).1) ∧ ∃ f ∈ files, f.2 = (dtopoInterval big files).2) := by
  refine ⟨fun h => by rw [h]; rfl, ?_⟩
  intro hne
  obtain ⟨i1, i2, i3, i4, i5⟩ := interval_fold files (big, 0)
  have hex : ∃ f, f ∈ files := by
    cases files with
    | nil => exact absurd rfl hne
    | cons a l => exact ⟨a, List.mem_cons_self⟩
  obtain ⟨f, hf⟩ := hex
  refine ⟨i3, ?_, ?_⟩
  · rcases i4 with h | h
    · exfalso
      have := (i3 f hf).1
      have h' := hbig f hf
      rw [h] at this
      dsimp only at this
      linarith
    · exact h
  · rcases i5 with h | h
    · refine ⟨f, hf, ?_⟩
      have h1 := (i3 f hf).2
      have h2 := hpos f hf
      show f.2 = (List.foldl _ (big, 0) files).2
      rw [h] at h1 ⊢
      exact le_antisymm h1 h2
    · exact h

/-! ### Counterexamples and examples -/

/-- Variable steps with control, one output interval of 100. -/
def exOpts : Opts where
  fixedDt := false
  advanceOneStep := false
  reduceCfl := true
  subcycle := true
  outstyleUsesMaxlevel := false
  saveAux := false
  levelFactor := 1
  nout := 1
  nstep := 1
  regridInterval := 0
  tfinal := 100
  initialDt := 1
  maxCfl := 1
  desiredCfl := 9 / 10

/-- The CFL number is proportional to the step; a step of 1 is what is desired. -/
def exWorld : World Unit := ⟨fun _ _ dt => ((), if 0 < dt then 9 / 10 * dt else 1), fun _ _ => (), fun _ => ()⟩

/-- A motion from 0 to 2 with steps of at most 1/10. -/
def exMotion : Motion := ⟨0, 2, 1 / 10⟩

theorem ex_good : Good exOpts exWorld where
  dt := by norm_num [exOpts]
  factor := by norm_num [exOpts]
  control := by
    intro _
    refine ⟨by norm_num [exOpts], ?_⟩
    intro d t dt
    simp only [exWorld]
    split
    · positivity
    · norm_num

example : Good exOpts exWorld ∧ exMotion.Proper ∧ 0 < exOpts.tfinal ∧ 0 < exOpts.nout ∧
    ((run1 exOpts exWorld exMotion 2 (start1 exOpts ())).map fun s => (s.t, (kept s.log).length)) = some (12, 23) := by
  refine ⟨ex_good, Or.inl ⟨by norm_num [exMotion], by norm_num [exMotion]⟩, by norm_num [exOpts],
    by norm_num [exOpts], by decide +kernel⟩

/-- C99 is violated: the step after the end of the motion is taken without control, and its size
follows from CFL numbers of the small steps before. With steps of 1/11 within the motion the next
step is 11 times as long as it should be, and it is kept with a CFL number 9 times the maximum. -/
theorem C99_cfl_counterexample :
    ∃ (o : Opts) (w : World Unit) (g : Motion), Good o w ∧ g.Proper ∧ o.fixedDt = false ∧ o.reduceCfl = true ∧
      (∀ d t dt, 0 < dt → dt ≤ 1 → (w.advance d t dt).2 ≤ o.maxCfl) ∧ o.initialDt = 1 ∧
      ∃ s, run1 o w g 2 (start1 o ()) = some s ∧ ∃ c ∈ kept s.log, 9 * o.maxCfl ≤ c.cfl := by
  refine ⟨exOpts, exWorld, exMotion, ex_good, Or.inl ⟨by norm_num [exMotion], by norm_num [exMotion]⟩, rfl, rfl,
    ?_, rfl, ?_⟩
  · intro d t dt h1 h2
    simp only [exWorld, exOpts, if_pos h1]
    linarith
  · have : (match run1 exOpts exWorld exMotion 2 (start1 exOpts ()) with
        | none => false
        | some s => (kept s.log).any fun c => decide (9 * exOpts.maxCfl ≤ c.cfl)) = true := by decide +kernel
    generalize run1 exOpts exWorld exMotion 2 (start1 exOpts ()) = r at this
    cases r with
    | none => cases this
    | some s =>
      simp only [List.any_eq_true, decide_eq_true_eq] at this
      exact ⟨s, rfl, this⟩

/-- C99 is violated for a motion that takes no time (which `fc2d_geoclaw_check_dtopotime` provides
for): a step over it divides zero by zero and converts the result to an integer. -/
theorem C99_instant_counterexample :
    ∃ (o : Opts) (w : World Unit) (g : Motion), Good o w ∧ g.lo = g.hi ∧ 0 < g.dtMax ∧
      run1 o w g 1 (start1 o ()) = none :=
  ⟨exOpts, exWorld, ⟨1 / 2, 1 / 2, 1⟩, ex_good, rfl, by norm_num, by
    have : (run1 exOpts exWorld ⟨1 / 2, 1 / 2, 1⟩ 1 (start1 exOpts ())).isNone = true := by decide +kernel
    exact Option.isNone_iff_eq_none.1 this⟩

/-- C99 is violated by output style 4, which does not look at the motion. -/
theorem C99_style4_counterexample :
    ∃ (o : Opts) (w : World Unit) (g : Motion), Good o w ∧ g.Proper ∧ 0 < o.nstep ∧
      ∃ s, run4 o w 1 (start3 o ()) = some s ∧ ∃ c ∈ kept s.log, ¬ Resolves g c := by
  refine ⟨exOpts, exWorld, exMotion, ex_good, Or.inl ⟨by norm_num [exMotion], by norm_num [exMotion]⟩,
    by norm_num [exOpts], ?_⟩
  have : (match run4 exOpts exWorld 1 (start3 exOpts ()) with
      | none => false
      | some s => (kept s.log).any fun c => decide (c.t = 0 ∧ c.dt = 1)) = true := by decide +kernel
  generalize run4 exOpts exWorld 1 (start3 exOpts ()) = r at this
  cases r with
  | none => cases this
  | some s =>
    simp only [List.any_eq_true, decide_eq_true_eq] at this
    obtain ⟨c, hc, h1, h2⟩ := this
    refine ⟨s, rfl, c, hc, ?_⟩
    intro h
    have := (h (by rw [h1]; norm_num [exMotion]) (by rw [h1, h2]; norm_num [exMotion])).2
    rw [h2] at this
    norm_num [exMotion] at this

example : ∀ a b : Unit, exWorld.restore a b = a := fun _ _ => rfl

example : dtopoInterval 1000 [(3, 5), (1, 4)] = (1, 5) := by decide +kernel

end Fclaw.GeoRun

/-
C28: frames of output style 1 are written at the requested times.
C29: rejected time steps leave no trace.
C30: output styles 3 and 4 write a frame every nstep steps; regridding at multiples of the interval.
C61: the step size control comes to an end.
-/
import Verif.Run.Lemmas

set_option autoImplicit false
set_option linter.unusedVariables false
namespace Fclaw.Run

variable {Q A : Type}

/-- C28. Output style 1 with variable steps: at any time of the run the frames written are numbers
`0, …, n`, frame `i` exactly at time `i * tfinal / nout`; every accepted step starts at the current
time, moves forward and does not pass the next output time; when the run has ended there are
exactly `nout` frames after the initial one and the time is `tfinal`. -/
theorem C28_output_times (o : Opts) (htf : 0 < o.tfinal) (hno : 0 < o.nout) (hdt : 0 < o.initialDt)
    (hfac : 0 < o.levelFactor) (hvar : o.fixedDt = false) (hdes : 0 < o.desiredCfl)
    (sv : Solver Q A) (hcfl : ∀ log data t dt, 0 < sv.cfl log data t dt)
    (data : List (Patch Q A)) (k : Nat) :
    let s := run1 o sv k (start1 o data)
    frames s.log = (List.range (s.n + 1)).map (fun (i : Nat) => (i, (i : ℚ) * (o.tfinal / o.nout))) ∧
    Always (Timely o) s.log ∧
    s.n ≤ o.nout ∧
    (s.n = o.nout → timeOf s.log = o.tfinal) := by
  intro s
  have h := inv1_run o ⟨htf, hno, hdt, hfac⟩ hvar hdes sv hcfl k _
    (inv1_start o ⟨htf, hno, hdt, hfac⟩ data)
  refine ⟨h.frames, h.timely, h.le, ?_⟩
  intro hn
  have hnq : (o.nout : ℚ) ≠ 0 := by
    have : (0 : ℚ) < o.nout := by exact_mod_cast hno
    exact ne_of_gt this
  rw [h.time, h.fin hn, hn]
  field_simp

/-- C28, fixed steps. The same holds when a whole number of steps makes up the output interval
(which `fclaw_options_check` demands). -/
theorem C28_fixed_dt (o : Opts) (htf : 0 < o.tfinal) (hno : 0 < o.nout) (hdt : 0 < o.initialDt)
    (hfac : 0 < o.levelFactor) (hfix : o.fixedDt = true) (m : Nat)
    (hm : (m : ℚ) * (if o.advanceOneStep then o.initialDt / (o.levelFactor : ℚ) else o.initialDt) =
      o.tfinal / o.nout)
    (sv : Solver Q A) (data : List (Patch Q A)) (k : Nat) :
    let s := run1 o sv k (start1 o data)
    frames s.log = (List.range (s.n + 1)).map (fun (i : Nat) => (i, (i : ℚ) * (o.tfinal / o.nout))) ∧
    Always (Timely o) s.log ∧
    s.n ≤ o.nout ∧
    (s.n = o.nout → timeOf s.log = o.tfinal) := by
  intro s
  have ho : Good o := ⟨htf, hno, hdt, hfac⟩
  have h := (invF_run o ho hfix m _ rfl hm sv k _
    ⟨inv1_start o ho data, rfl, 0, by omega, by simp [start1]⟩).inv
  refine ⟨h.frames, h.timely, h.le, ?_⟩
  intro hn
  have hnq : (o.nout : ℚ) ≠ 0 := by
    have : (0 : ℚ) < o.nout := by exact_mod_cast hno
    exact ne_of_gt this
  rw [h.time, h.fin hn, hn]
  field_simp

/-- C29, output style 1. If no step is accepted during `k` passes through the loop body, whatever
the solver did to the patches, solution (and aux data, if it is saved), times and counters are
what they were. -/
theorem C29_rejected (o : Opts) (sv : Solver Q A) (s : St Q A) (k : Nat)
    (h : accepted ((inner1 o sv)^[k] s).log = accepted s.log) :
    let s' := (inner1 o sv)^[k] s
    grids s'.data = grids s.data ∧ (o.saveAux = true → auxs s'.data = auxs s.data) ∧
    s'.t = s.t ∧ s'.tend = s.tend ∧ s'.currTime = s.currTime ∧ s'.n = s.n ∧
    s'.nInner = s.nInner ∧ s'.iframe = s.iframe := by
  obtain ⟨a1, a2, a3, a4, a5, a6, a7, a8⟩ := rejections o.saveAux _ (inner1_rej o sv) k s h
  exact ⟨a1, a2, a6, a7, a8, a3, a4, a5⟩

/-- C29, output style 3. A pass in which no step is accepted. (By repeating this, any number of
passes.) -/
theorem C29_rejected_style3 (o : Opts) (sv : Solver Q A) (s s' : St Q A)
    (h : body3 o sv s = some s') (hr : accepted s'.log = accepted s.log) :
    grids s'.data = grids s.data ∧ (o.saveAux = true → auxs s'.data = auxs s.data) ∧
    s'.t = s.t ∧ s'.currTime = s.currTime ∧ s'.n = s.n ∧ s'.iframe = s.iframe ∧
    frames s'.log = frames s.log := by
  unfold body3 at h
  dsimp only at h
  by_cases hrej : (o.reduceCfl && decide (sv.cfl s.log
      (if o.fixedDt then s.data else s.data.map (savePatch o.saveAux)) s.t
      (if !o.subcycle && o.advanceOneStep then s.dtMin / (o.levelFactor : ℚ) else s.dtMin)
        > o.maxCfl) && !o.fixedDt) = true
  · rw [if_pos hrej] at h
    simp only [Bool.and_eq_true, decide_eq_true_eq, Bool.not_eq_true'] at hrej
    have hf := hrej.2
    simp only [hf, Bool.false_eq_true, if_false, Option.some.injEq] at h
    subst h
    refine ⟨?_, ?_, rfl, rfl, rfl, rfl, ?_⟩
    · exact (restore_advance sv o.saveAux s.log s.data s.t _).1
    · exact (restore_advance sv o.saveAux s.log s.data s.t _).2
    · dsimp only; rw [frames_append]; simp [frames]
  · rw [if_neg hrej] at h
    exfalso
    have key : ∀ (e : Nat) (n : Nat) (s1 s2 : St Q A), outputStep e (regridStep o sv n s1) = some s2 →
        accepted s2.log = accepted s1.log := by
      intro e n s1 s2 h12
      have h8 := (regridStep_fields o sv n s1).2.2.2.2.2.2.2
      have h9 : accepted (regridStep o sv n s1).log = accepted s1.log := by
        rw [h8, accepted_append]
        rcases regridEv_cases o n with h5 | h5 <;> rw [h5] <;> simp [accepted]
      unfold outputStep at h12
      split at h12
      · cases h12
      · split at h12
        · simp only [Option.some.injEq] at h12
          subst h12
          dsimp only
          rw [accepted_append, h9]; simp [accepted]
        · simp only [Option.some.injEq] at h12
          subst h12
          exact h9
    have := key _ _ _ _ h
    dsimp only at this
    rw [accepted_append] at this
    simp [accepted] at this
    simp [accepted] at hr
    omega

/-- C30, output style 3. At any time of the run, frames and regriddings are in place; there are
never more than `nout` accepted steps, and exactly as many when the loop is left (all in units of
`unit3`). -/
theorem C30_style3 (o : Opts) (hstep : 0 < o.nstep) (hfac : 0 < o.levelFactor) (sv : Solver Q A)
    (data : List (Patch Q A)) (k : Nat) :
    ∃ s, run3 o sv k (start3 o data) = some s ∧
      Always (Regular (o.nstep * unit3 o)) s.log ∧
      (frames s.log).map Prod.fst = List.range (accepted s.log / (o.nstep * unit3 o) + 1) ∧
      (∀ n, n ∈ regrids s.log ↔
        0 < n ∧ n ≤ accepted s.log ∧ 0 < o.regridInterval ∧ o.regridInterval ∣ n) ∧
      (regrids s.log).Pairwise (· < ·) ∧
      accepted s.log ≤ o.nout * unit3 o ∧
      (run3 o sv (k + 1) (start3 o data) = some s → accepted s.log = o.nout * unit3 o) := by
  have hc := counts3_eq o
  have hu : 0 < unit3 o := by unfold unit3; split <;> omega
  have he : 0 < (counts3 o).2 := by rw [hc]; exact Nat.mul_pos hstep hu
  obtain ⟨s, h1, h2⟩ := inv3_run o he sv k _ (inv3_start o _ (counts3 o).1 he data)
  have hlast : run3 o sv (k + 1) (start3 o data) = some s → ¬ s.n < (counts3 o).1 := by
    intro h3 hn
    rw [run3_succ o sv k _ s h1] at h3
    rw [if_pos hn] at h3
    exact body3_ne o sv s h3
  rw [hc] at h2 hlast
  refine ⟨s, h1, h2.regular, by rw [h2.acc]; exact h2.nums, ?_, ?_, by rw [h2.acc]; exact h2.le, ?_⟩
  · intro n
    rw [h2.regrid, h2.acc]
    simp only [regridAt, List.mem_filter, List.mem_range, decide_eq_true_eq]
    constructor
    · rintro ⟨a, b, c, d⟩; exact ⟨b, by omega, c, d⟩
    · rintro ⟨a, b, c, d⟩; exact ⟨by omega, a, c, d⟩
  · rw [h2.regrid]
    exact List.Pairwise.filter _ List.pairwise_lt_range
  · intro hn; rw [h2.acc]; have := h2.le; have := hlast hn; dsimp only at *; omega

/-- C30, output style 4: exactly `nout` steps are done, each pass through the loop being one. -/
theorem C30_style4 (o : Opts) (hstep : 0 < o.nstep) (sv : Solver Q A)
    (data : List (Patch Q A)) (k : Nat) :
    ∃ s, run4 o sv k (start4 o data) = some s ∧
      Always (Regular o.nstep) s.log ∧
      (frames s.log).map Prod.fst = List.range (accepted s.log / o.nstep + 1) ∧
      (∀ n, n ∈ regrids s.log ↔
        0 < n ∧ n ≤ accepted s.log ∧ 0 < o.regridInterval ∧ o.regridInterval ∣ n) ∧
      (regrids s.log).Pairwise (· < ·) ∧
      accepted s.log = min k o.nout := by
  obtain ⟨s, h1, h2, h3⟩ := inv4_run o hstep sv k _ (inv4_start o _ o.nout hstep data)
  refine ⟨s, h1, h2.regular, by rw [h2.acc]; exact h2.nums, ?_, ?_, ?_⟩
  · intro n
    rw [h2.regrid, h2.acc]
    simp only [regridAt, List.mem_filter, List.mem_range, decide_eq_true_eq]
    constructor
    · rintro ⟨a, b, c, d⟩; exact ⟨b, by omega, c, d⟩
    · rintro ⟨a, b, c, d⟩; exact ⟨by omega, a, c, d⟩
  · rw [h2.regrid]
    exact List.Pairwise.filter _ List.pairwise_lt_range
  · rw [h2.acc, h3]; simp [start4]

/-- C30, regridding in output style 1: exactly after those accepted steps whose number is a
multiple of the interval. -/
theorem C30_style1_regrid (o : Opts) (sv : Solver Q A) (data : List (Patch Q A)) (k : Nat) :
    let s := run1 o sv k (start1 o data)
    (∀ n, n ∈ regrids s.log ↔
      0 < n ∧ n ≤ accepted s.log ∧ 0 < o.regridInterval ∧ o.regridInterval ∣ n) ∧
    (regrids s.log).Pairwise (· < ·) ∧
    Always (fun pre ev => ∀ n, ev = .regrid n → accepted pre = n) s.log := by
  intro s
  have h := invR_run o sv k _ (invR_start o data)
  refine ⟨?_, ?_, h.at_⟩
  · intro n
    rw [h.regrid, h.acc]
    simp only [regridAt, List.mem_filter, List.mem_range, decide_eq_true_eq]
    constructor
    · rintro ⟨a, b, c, d⟩; exact ⟨b, by omega, c, d⟩
    · rintro ⟨a, b, c, d⟩; exact ⟨by omega, a, c, d⟩
  · rw [h.regrid]
    exact List.Pairwise.filter _ List.pairwise_lt_range

/-- The case left out in C30: `nstep = 0` passes the check of the options, and the first step
divides by zero. -/
theorem C30_nstep_zero (o : Opts) (h0 : o.nstep = 0) (hno : 0 < o.nout) (sv : Solver Q A)
    (data : List (Patch Q A)) (k : Nat) : run4 o sv (k + 1) (start4 o data) = none := by
  unfold run4
  rw [if_pos (by simpa [start4] using hno)]
  simp [body4, outputStep, h0]

/-- C61. If the CFL number of a step is positive and at most a constant times its length, and the
desired CFL number is less than the largest one allowed, the loop of output style 1 comes to an
end, however often steps are rejected. -/
theorem C61_style1 (o : Opts) (htf : 0 < o.tfinal) (hno : 0 < o.nout) (hdt : 0 < o.initialDt)
    (hfac : 0 < o.levelFactor) (hvar : o.fixedDt = false) (hdes : 0 < o.desiredCfl)
    (hlt : o.desiredCfl < o.maxCfl) (sv : Solver Q A) (lam : ℚ)
    (hpos : ∀ log data t dt, 0 < sv.cfl log data t dt)
    (hcfl : ∀ log data t dt, 0 < dt → sv.cfl log data t dt ≤ lam * dt)
    (data : List (Patch Q A)) :
    ∃ k, (run1 o sv k (start1 o data)).n = o.nout := by
  have ho : Good o := ⟨htf, hno, hdt, hfac⟩
  have hlam : 0 < lam := by
    have h1 := hpos [] [] 0 1
    have h2 := hcfl [] [] 0 1 (by norm_num)
    linarith
  have hc : Control o sv lam := ⟨hvar, hdes, hlt, hlam, hpos, hcfl⟩
  have hw := want_pos o ho (start1 o data) hdt
  have hL : 0 < min (want o (start1 o data)) (o.desiredCfl / (101 / 100 * lam)) :=
    lt_min hw (by positivity)
  obtain ⟨w, hw2⟩ := exists_nat_ge ((o.tfinal - (start1 o data).t +
    (o.nout - (start1 o data).n) * min (want o (start1 o data)) (o.desiredCfl / (101 / 100 * lam))) /
      min (want o (start1 o data)) (o.desiredCfl / (101 / 100 * lam)))
  refine finish1 o ho sv lam hc _ hL ?_ w _ (inv1_start o ho data) (min_le_left _ _) ?_
  · have := min_le_right (want o (start1 o data)) (o.desiredCfl / (101 / 100 * lam))
    rwa [le_div_iff₀ (by positivity)] at this
  · rwa [div_le_iff₀ hL] at hw2

/-- C61 for output style 3. -/
theorem C61_style3 (o : Opts) (hstep : 0 < o.nstep) (hdt : 0 < o.initialDt)
    (hfac : 0 < o.levelFactor) (hvar : o.fixedDt = false) (hdes : 0 < o.desiredCfl)
    (hlt : o.desiredCfl < o.maxCfl) (sv : Solver Q A) (lam : ℚ)
    (hpos : ∀ log data t dt, 0 < sv.cfl log data t dt)
    (hcfl : ∀ log data t dt, 0 < dt → sv.cfl log data t dt ≤ lam * dt)
    (data : List (Patch Q A)) :
    ∃ k s, run3 o sv k (start3 o data) = some s ∧ accepted s.log = o.nout * unit3 o := by
  have hlam : 0 < lam := by
    have h1 := hpos [] [] 0 1
    have h2 := hcfl [] [] 0 1 (by norm_num)
    linarith
  have hc : Control o sv lam := ⟨hvar, hdes, hlt, hlam, hpos, hcfl⟩
  have he : 0 < (counts3 o).2 := by
    unfold counts3; split
    · exact Nat.mul_pos hstep hfac
    · exact hstep
  have hfq : (0 : ℚ) < o.levelFactor := by exact_mod_cast hfac
  have hw : 0 < want3 o (start3 o data) := by
    unfold want3; simp only [start3]; split
    · positivity
    · exact hdt
  have hL : 0 < min (want3 o (start3 o data)) (o.desiredCfl / lam) := lt_min hw (by positivity)
  obtain ⟨k, s, h1, h2⟩ := finish3 o hfac sv lam hc he _ hL (by
      have := min_le_right (want3 o (start3 o data)) (o.desiredCfl / lam)
      rwa [le_div_iff₀ (by positivity)] at this) _ _
    (inv3_start o _ (counts3 o).1 he data) (min_le_left _ _) (le_refl _)
  obtain ⟨s', h3, h4⟩ := inv3_run o he sv k _ (inv3_start o _ (counts3 o).1 he data)
  rw [h1] at h3
  cases h3
  exact ⟨k, s, h1, by rw [h4.acc, h2, counts3_eq]⟩

/-! ### Concrete cases -/

/-- Two patches whose solution is a number; a step adds its length to the solution and destroys the
aux data; the CFL number is twice the length of the step. -/
def toy : Solver ℚ Nat where
  advance := fun _ data _ dt i => ((data.map (·.grid)).getD i 0 + dt, 0)
  cfl := fun _ _ _ dt => if 0 < dt then 2 * dt else 1
  regrid := fun _ data => data

def toyData : List (Patch ℚ Nat) := [⟨10, 0, 5, 0⟩, ⟨20, 0, 6, 0⟩]

/-- Initial steps of length one are too long (CFL number two); later ones will be of length 9/20. -/
def toyOpts : Opts where
  fixedDt := false
  advanceOneStep := false
  reduceCfl := true
  subcycle := true
  outstyleUsesMaxlevel := false
  saveAux := true
  levelFactor := 1
  nout := 2
  nstep := 2
  regridInterval := 2
  tfinal := 2
  initialDt := 1
  maxCfl := 1
  desiredCfl := 9 / 10

theorem toy_pos (log : List Ev) (data : List (Patch ℚ Nat)) (t dt : ℚ) : 0 < toy.cfl log data t dt := by
  unfold toy; dsimp only; split
  · linarith
  · norm_num

theorem toy_le (log : List Ev) (data : List (Patch ℚ Nat)) (t dt : ℚ) (h : 0 < dt) :
    toy.cfl log data t dt ≤ 2 * dt := by
  unfold toy; dsimp only; rw [if_pos h]

/-- The hypotheses of C28 hold, and the run has a rejected step, cut steps and all frames. -/
example : (run1 toyOpts toy 20 (start1 toyOpts toyData)).n = 2 ∧
    frames (run1 toyOpts toy 20 (start1 toyOpts toyData)).log = [(0, 0), (1, 1), (2, 2)] ∧
    (run1 toyOpts toy 20 (start1 toyOpts toyData)).log.take 4 =
      [.diagnostics true, .frame 0 0, .reject 0 1 2, .accept 0 (9 / 20) (9 / 10)] := by
  decide +kernel

example := C28_output_times toyOpts (by norm_num [toyOpts]) (by decide) (by norm_num [toyOpts])
  (by decide) rfl (by norm_num [toyOpts]) toy toy_pos toyData 20

example := C28_fixed_dt { toyOpts with fixedDt := true, initialDt := 1 / 4 } (by norm_num [toyOpts])
  (by decide) (by norm_num) (by decide) rfl 4 (by norm_num [toyOpts]) toy toyData 20

/-- The hypothesis of C29 holds for the first pass, in which the solver does change the patches. -/
example : accepted ((inner1 toyOpts toy)^[1] (start1 toyOpts toyData)).log =
      accepted (start1 toyOpts toyData).log ∧
    grids (advanceData toy [] toyData 0 1) ≠ grids toyData := by
  decide +kernel

example : (body3 toyOpts toy (start3 toyOpts toyData)).map (fun s => accepted s.log) =
    some (accepted (start3 toyOpts toyData).log) := by
  decide +kernel

/-- Five steps of style 4, a frame after every second one. -/
example : (run4 { toyOpts with nout := 5 } toy 9 (start4 { toyOpts with nout := 5 } toyData)).map
    (fun s => (frames s.log, regrids s.log)) =
    some ([(0, 0), (1, 2), (2, 4)], [2, 4]) := by
  decide +kernel

example := C30_style3 { toyOpts with subcycle := false, advanceOneStep := true, levelFactor := 4 }
  (by decide) (by decide) toy toyData 20

example := C61_style1 toyOpts (by norm_num [toyOpts]) (by decide) (by norm_num [toyOpts])
  (by decide) rfl (by norm_num [toyOpts]) (by norm_num [toyOpts]) toy 2 toy_pos toy_le toyData

example := C61_style3 toyOpts (by decide) (by norm_num [toyOpts])
  (by decide) rfl (by norm_num [toyOpts]) (by norm_num [toyOpts]) toy 2 toy_pos toy_le toyData

/-- The condition on the CFL numbers in C61 is needed, but not checked by the program: with a
desired CFL number above the largest one allowed the first step is rejected for ever. -/
theorem C61_counterexample (k : Nat) :
    (run1 { toyOpts with desiredCfl := 2 } toy k
      (start1 { toyOpts with desiredCfl := 2 } toyData)).n = 0 ∧
    accepted (run1 { toyOpts with desiredCfl := 2 } toy k
      (start1 { toyOpts with desiredCfl := 2 } toyData)).log = 0 := by
  have key : ∀ (k : Nat) (s : St ℚ Nat), s.n = 0 → s.t = 0 → s.tend = 1 → s.dtMin = 1 →
      accepted s.log = 0 →
      (run1 { toyOpts with desiredCfl := 2 } toy k s).n = 0 ∧
      accepted (run1 { toyOpts with desiredCfl := 2 } toy k s).log = 0 := by
    intro k
    induction k with
    | zero => intro s h1 h2 h3 h4 h5; exact ⟨h1, h5⟩
    | succ k ih =>
      intro s h1 h2 h3 h4 h5
      unfold run1
      rw [if_pos (by rw [h1]; decide)]
      have hlt : s.t < s.tend := by rw [h2, h3]; norm_num
      have hch : chooseStep { toyOpts with desiredCfl := 2 } s = (1, false) := by
        unfold chooseStep; simp only [h2, h3, h4, toyOpts]; norm_num
      have hc : ∀ log data t, toy.cfl log data t 1 = 2 := by
        intro log data t; unfold toy; norm_num
      obtain ⟨c, data0, hcc, hcase⟩ := inner1_cases { toyOpts with desiredCfl := 2 } toy s
      have hnext : next1 { toyOpts with desiredCfl := 2 } toy s =
          inner1 { toyOpts with desiredCfl := 2 } toy s := by unfold next1; rw [if_pos hlt]
      rw [hnext]
      have hrej : accepted (inner1 { toyOpts with desiredCfl := 2 } toy s).log = 0 ∧
          (inner1 { toyOpts with desiredCfl := 2 } toy s).n = s.n ∧
          (inner1 { toyOpts with desiredCfl := 2 } toy s).t = s.t ∧
          (inner1 { toyOpts with desiredCfl := 2 } toy s).tend = s.tend ∧
          (inner1 { toyOpts with desiredCfl := 2 } toy s).dtMin = 1 := by
        unfold inner1
        simp only [hch, hc]
        simp only [toyOpts]
        norm_num
        rw [accepted_append, h5, h4]
        simp [accepted]
      obtain ⟨r1, r2, r3, r4, r5⟩ := hrej
      exact ih _ (by rw [r2, h1]) (by rw [r3, h2]) (by rw [r4, h3]) r5 r1
  exact key k _ rfl rfl (by simp [start1, toyOpts]) rfl (by simp [start1, accepted])

end Fclaw.Run

/-
C44: timers accumulate exactly the time between matching start and stop.
C64: the library uses its timers consistently.
-/
import Verif.Timer.Lemmas
import Mathlib.Algebra.Order.Floor.Ring

set_option autoImplicit false
set_option linter.unusedSimpArgs false
set_option linter.unusedVariables false
namespace Fclaw.Timer

/-- **C44**. For any sequence of calls to start and stop timers, with any readings of the clock: the program aborts
exactly if for some timer starts and stops do not alternate; otherwise the cumulative value of each timer is
the sum of the lengths of its completed intervals. -/
theorem C44 (es : List (Ev × Rat)) (hp : ∀ e ∈ es, plain e.1 = true) :
    match run (fun _ => zero) es with
    | some s => ∀ n, ∃ l, spans (calls n es) = some l ∧ (s n).cumulative = lengths l
    | none => ∃ n, spans (calls n es) = none := by
  cases h : run (fun _ => zero) es with
  | some s =>
    intro n
    have h1 := run_one n es _ s hp h
    have h2 := runOne_spans (calls n es) zero rfl
    rw [h1] at h2
    cases h3 : spans (calls n es) with
    | none => rw [h3] at h2; exact h2.elim
    | some l =>
      rw [h3] at h2
      exact ⟨l, rfl, by rw [h2]; simp [zero]⟩
  | none =>
    by_contra hall
    rw [not_exists] at hall
    have := run_all_some es (fun _ => zero) hp (by
      intro n
      have h2 := runOne_spans (calls n es) zero rfl
      cases h3 : runOne zero (calls n es) with
      | some t => rfl
      | none =>
        rw [h3] at h2
        cases h4 : spans (calls n es) with
        | none => exact absurd h4 (hall n)
        | some l => rw [h4] at h2; exact h2.elim)
    rw [h] at this
    simp at this

/-- Two timers, one inside the other and then still running. -/
def exCalls : List (Ev × Rat) :=
  [(.start .advance, 1), (.start .timesync, 2), (.stop .timesync, 5), (.stop .advance, 7), (.start .timesync, 8), (.stop .timesync, 10),
   (.start .advance, 11)]

example : ∀ e ∈ exCalls, plain e.1 = true := by decide
example : (run (fun _ => zero) exCalls).map (fun s => ((s .advance).cumulative, (s .timesync).cumulative)) = some (6, 5) := by decide +kernel
example : (run (fun _ => zero) (exCalls ++ [(.start .advance, 12)])).isNone = true := by decide +kernel

/-- **C64**. Whatever a program does with the library, in any output style, with any number of levels, patches,
time steps and regriddings, with or without OpenMP: no timer is started while it is running or stopped while
it is not, none is left running when timings are reported, and the times reported as exclusive of each other
add up to no more than the total time. -/
theorem C64 (omp : Bool) (n : Nat) (tr : List Ev) (ht : Trace (library omp n) tr) (ws : List Rat) (hl : ws.length = tr.length)
    (hw : ws.Pairwise (· ≤ ·)) (s : State) :
    ∃ s', run s (tr.zip ws) = some s' ∧ (∀ n, (s' n).running = false) ∧ (∀ n, 0 ≤ (s' n).cumulative) ∧
      s'.sum exclusive ≤ (s' .walltime).cumulative := by
  unfold library at ht
  cases ht with
  | @seq _ _ a b ha hb =>
    cases ha
    match ws, hl with
    | w :: ws, hl =>
      rw [List.pairwise_cons] at hw
      have e1 : post [] (initRest ;; .loop (.alt (runProg omp n) (.alt (timeStep omp n) (.alt regrid (.alt ellipticSolve (.alt (ghostUpdate none) (.alt outputFrame diagnosticsGather)))))) ;; finalizeBefore ;; report) = some [] := by
        rw [post, post_init, Option.bind_some, post, post_body, Option.bind_some, post_end]
      obtain ⟨s', w', g1, g2, g3, g4⟩ := trace_inv hb [] [] (fun _ => zero) w ws e1 (inv_init w) (fun x hx => hw.1 x hx) hw.2
        (by simpa using hl)
      refine ⟨s', ?_, ?_, fun n => (g2.nonneg n).1, ?_⟩
      · simp only [List.singleton_append, List.zip_cons_cons, run_cons, step, Option.bind_some]
        exact g1
      · intro n; rw [g2.running n]; simp
      · have hr : ∀ n, (s' n).running = false := by intro n; rw [g2.running n]; simp
        have h := g2.sum
        simp only [elapsed, hr, Bool.false_eq_true, if_false, add_zero] at h
        exact h

theorem trunc_bounds (x : Rat) (hx : 0 ≤ x) : (trunc x : Rat) ≤ x ∧ x < trunc x + 1 := by
  unfold trunc
  rw [if_pos hx]
  exact ⟨Int.floor_le x, Int.lt_floor_add_one x⟩

theorem sum_nonneg' (s : State) (h : ∀ n, 0 ≤ (s n).cumulative) (l : List Name) : 0 ≤ s.sum l := by
  unfold State.sum
  induction l with
  | nil => simp
  | cons a l ih => simp only [List.map_cons, List.sum_cons]; exact add_nonneg (h a) ih

/-- The reported unaccounted time is not negative, and too large by less than two seconds: the sums that are
subtracted are converted to `int`. -/
theorem C64_unaccounted (omp : Bool) (n : Nat) (tr : List Ev) (ht : Trace (library omp n) tr) (ws : List Rat) (hl : ws.length = tr.length)
    (hw : ws.Pairwise (· ≤ ·)) (s s' : State) (hs : run s (tr.zip ws) = some s') :
    0 ≤ unaccounted s' true ∧ 0 ≤ unaccounted s' false ∧
      (s' .walltime).cumulative - s'.sum exclusive ≤ unaccounted s' false ∧
      unaccounted s' false < (s' .walltime).cumulative - s'.sum exclusive + 2 := by
  obtain ⟨s1, g1, g2, g3, g4⟩ := C64 omp n tr ht ws hl hw s
  rw [hs] at g1
  obtain rfl := Option.some.inj g1
  have a1 := trunc_bounds (s'.sum ex1) (sum_nonneg' s' g3 ex1)
  have a2 := trunc_bounds (s'.sum ex2) (sum_nonneg' s' g3 ex2)
  have a3 := sum_nonneg' s' g3 ex2
  have e : s'.sum exclusive = s'.sum ex1 + s'.sum ex2 := by simp [State.sum, exclusive]
  rw [e] at g4
  unfold unaccounted
  simp only [if_true, Bool.false_eq_true, if_false]
  rw [e]
  refine ⟨by linarith, by linarith, by linarith, by linarith⟩

/-! ### Examples -/

/-- A sequence of choices that leads through a program. -/
theorem trace_timed (n : Name) {p : Prog} {a : List Ev} (h : Trace p a) : Trace (timed n p) (.start n :: (a ++ [.stop n])) :=
  .seq (.ev _) (.seq h (.ev _))

theorem trace_opt (p : Prog) : Trace p.opt [] := .right p .skip

/-- Initialisation on one level without ghost cells, and the report. -/
def exTrace : List Ev :=
  [.reset, .start .walltime, .start .init, .start .regridBuild, .stop .regridBuild, .start .ghostpatchBuild, .stop .ghostpatchBuild,
   .stop .init, .start .ghostpatchComm, .stop .ghostpatchComm, .start .init, .start .ghostpatchBuild, .stop .ghostpatchBuild,
   .stop .init, .start .ghostpatchComm, .stop .ghostpatchComm, .start .init, .start .neighborSearch, .stop .neighborSearch, .stop .init,
   .start .ellipticSolve, .stop .ellipticSolve,
   .start .diagnostics, .stop .diagnostics, .stop .walltime, .check Name.all]

theorem exTrace_ok : Trace (library false 0) exTrace := by
  have t0 : ∀ n, Trace (timed n .skip) [.start n, .stop n] := fun n => trace_timed n .skip
  have pz : Trace (paused (some .init) (timed .ghostpatchComm .skip)) _ := .seq (.ev _) (.seq (t0 _) (.ev _))
  have ex : Trace (exchangeSetup (some .init)) _ := .seq (t0 _) (.seq pz (.seq (t0 _) pz))
  have ini : Trace initRest _ := .seq (.ev _) (trace_timed .init (.seq (t0 _) (.seq ex (.seq (t0 .neighborSearch) (.seq (trace_opt _) (.seq (.done _) (trace_opt _)))))))
  have body : Trace (.loop (.alt (runProg false 0) (.alt (timeStep false 0) (.alt regrid (.alt ellipticSolve (.alt (ghostUpdate none) (.alt outputFrame diagnosticsGather))))))) _ :=
    .more (.right _ (.right _ (.right _ (.left _ (t0 .ellipticSolve))))) (.done _)
  exact .seq (.ev _) (.seq ini (.seq body (.seq (t0 .diagnostics) (.seq (.ev _) (.ev _)))))

/-- With the clock at 0, 1/2, 1, … the exclusive timers leave 4 of 11.5 seconds, but 4.5 are reported. -/
theorem C64_unaccounted_counterexample :
    ∃ (tr : List Ev) (ws : List Rat) (s' : State), Trace (library false 0) tr ∧ ws.length = tr.length ∧
      run (fun _ => zero) (tr.zip ws) = some s' ∧ unaccounted s' false ≠ (s' .walltime).cumulative - s'.sum exclusive := by
  have h : ((run (fun _ => zero) (exTrace.zip ((List.range 26).map fun i => (i : Rat) / 2))).map fun s' =>
      decide (unaccounted s' false = (s' .walltime).cumulative - s'.sum exclusive)) = some false := by decide +kernel
  cases hr : run (fun _ => zero) (exTrace.zip ((List.range 26).map fun i => (i : Rat) / 2)) with
  | none => rw [hr] at h; simp at h
  | some s' =>
    rw [hr] at h
    simp only [Option.map_some, Option.some.injEq, decide_eq_false_iff_not] at h
    exact ⟨exTrace, _, s', exTrace_ok, by decide, hr, h⟩

end Fclaw.Timer

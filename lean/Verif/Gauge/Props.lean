/-
C45: every gauge sample is written exactly once and in order. C46: sampling times.
-/
import Verif.Gauge.Lemmas
import Mathlib.Tactic.Linarith
import Mathlib.Tactic.NormNum
import Mathlib.Tactic.IntervalCases

set_option autoImplicit false
set_option linter.unusedSimpArgs false
set_option linter.unusedVariables false
namespace Fclaw.Gauge

variable {V : Type}

theorem steps_of_proper (c : Cfg) (hb : 0 < c.bufferLen) (P : Nat) (ops : List (Op V × List Nat)) (hp : Proper P ops)
    (w : World (ℚ × V)) (hw : ∀ r, r < P → ∃ junk, w.procs r = initGauge c junk) (own : Nat → Bool) :
    ∃ w' pend, steps c ops w = .ok w' ∧
      Inv c P (ownAfter own (ops.map Prod.fst)) (lastAfter c c.t1 (ops.map Prod.fst)) w' pend ∧
      w'.file ++ (List.range P).flatMap pend = w.file ++ taken c P c.t1 own (ops.map Prod.fst) := by
  obtain ⟨patchno, order, rest, rfl⟩ := hp.first
  obtain ⟨w1, h1, i1, f1⟩ := first_locate c hb P w hw patchno (hp.unique _ List.mem_cons_self patchno rfl) order
    (hp.order _ List.mem_cons_self)
  obtain ⟨w2, p2, h2, i2, f2⟩ := steps_inv c hb P rest (fun o ho => hp.order o (List.mem_cons_of_mem _ ho))
    (fun o ho => hp.unique o (List.mem_cons_of_mem _ ho)) _ _ w1 (fun _ => []) i1
  refine ⟨w2, p2, ?_, i2, ?_⟩
  · simp only [steps, h1, h2]
  · rw [f2, f1, flatMap_none _ _ (fun _ _ => rfl), List.append_nil]
    rfl

/-- **C45.** Whatever the history of updates and relocations on any number of processes, and in whatever order
processes get to each operation, nothing goes wrong (no buffer overflows, no entry is printed that
was not set, no assertion fails), and after finalisation the file of the gauge holds exactly the samples
taken, each once, in the order in which they were taken. -/
theorem C45 (c : Cfg) (hb : 0 < c.bufferLen) (P : Nat) (ops : List (Op V × List Nat)) (hp : Proper P ops)
    (lastOrder : List Nat) (hl : lastOrder.Perm (List.range P)) (w : World (ℚ × V))
    (hw : ∀ r, r < P → ∃ junk, w.procs r = initGauge c junk) (hf : w.file = []) :
    ∃ w', run c ops lastOrder w = .ok w' ∧ w'.file = taken c P c.t1 (fun _ => false) (ops.map Prod.fst) := by
  obtain ⟨w1, pend, h1, i1, f1⟩ := steps_of_proper c hb P ops hp w hw (fun _ => false)
  obtain ⟨w2, h2, f2⟩ := finish c P _ _ w1 pend i1 lastOrder hl
  exact ⟨w2, by rw [run_steps c ops lastOrder w w1 h1, h2], by rw [f2, f1, hf, List.nil_append]⟩

theorem taken_due (c : Cfg) (P : Nat) (ops : List (Op V)) (v : ℚ → V) (last : ℚ) (own : Nat → Bool)
    (hown : ∃ r, r < P ∧ own r = true ∧ ∀ s, s < P → own s = true → s = r)
    (hloc : ∀ patchno, Op.locate patchno ∈ ops → ∃ r, r < P ∧ 0 ≤ patchno r ∧ ∀ s, s < P → 0 ≤ patchno s → s = r)
    (hval : ∀ t f, Op.update t f ∈ ops → ∀ r, r < P → f r = v t) :
    taken c P last own ops = due c last (updates ops v) := by
  induction ops generalizing last own with
  | nil => rfl
  | cons o ops ih =>
    have hloc' := fun p hp => hloc p (List.mem_cons_of_mem _ hp)
    have hval' := fun t f hp => hval t f (List.mem_cons_of_mem _ hp)
    cases o with
    | locate patchno =>
      simp only [taken]
      rw [ih last _ ?_ hloc' hval']
      · rfl
      · obtain ⟨r, hr, h0, hu⟩ := hloc patchno List.mem_cons_self
        exact ⟨r, hr, by simpa using h0, fun s hs h => hu s hs (by simpa using h)⟩
    | update t f =>
      have hcons : updates (Op.update t f :: ops) v = (t, v t) :: updates ops v := rfl
      rw [hcons]
      simp only [taken, due]
      by_cases hd : Due c last t
      · rw [if_pos hd, if_pos hd, ih t own hown hloc' hval']
        obtain ⟨r, hr, hor, hu⟩ := hown
        rw [own_filter P own (fun a b ha hb h1 h2 => by rw [hu a ha h1, hu b hb h2]) (fun r => (t, f r)),
          flatMap_one _ _ List.nodup_range r (List.mem_range.2 hr)]
        · rw [if_pos hor, hval t f List.mem_cons_self r hr]
          rfl
        · intro s hs hsr
          rw [if_neg (fun h => hsr (hu s (List.mem_range.1 hs) h))]
      · rw [if_neg hd, if_neg hd, ih last own hown hloc' hval']

/-- **C45**, consequence. If every search finds the gauge on one process, and the value under the gauge does not depend on
where it is evaluated, then the file is the same for all numbers of processes, all distributions and all times of relocation: it
holds the samples due in the sequence of updates. -/
theorem C45_independent (c : Cfg) (hb : 0 < c.bufferLen) (P : Nat) (ops : List (Op V × List Nat)) (hp : Proper P ops)
    (lastOrder : List Nat) (hl : lastOrder.Perm (List.range P)) (w : World (ℚ × V))
    (hw : ∀ r, r < P → ∃ junk, w.procs r = initGauge c junk) (hf : w.file = []) (v : ℚ → V)
    (hfound : ∀ patchno, Op.locate patchno ∈ ops.map Prod.fst → ∃ r, r < P ∧ 0 ≤ patchno r)
    (hval : ∀ t f, Op.update t f ∈ ops.map Prod.fst → ∀ r, r < P → f r = v t) :
    ∃ w', run c ops lastOrder w = .ok w' ∧ w'.file = due c c.t1 (updates (ops.map Prod.fst) v) := by
  obtain ⟨w', h1, h2⟩ := C45 c hb P ops hp lastOrder hl w hw hf
  refine ⟨w', h1, ?_⟩
  rw [h2]
  have hloc : ∀ patchno, Op.locate patchno ∈ ops.map Prod.fst →
      ∃ r, r < P ∧ 0 ≤ patchno r ∧ ∀ s, s < P → 0 ≤ patchno s → s = r := by
    intro patchno hm
    obtain ⟨r, hr, h0⟩ := hfound patchno hm
    obtain ⟨o, ho, he⟩ := List.mem_map.1 hm
    exact ⟨r, hr, h0, fun s hs h => hp.unique o ho patchno he s r hs hr h h0⟩
  obtain ⟨patchno, order, rest, rfl⟩ := hp.first
  obtain ⟨r, hr, h0, hu⟩ := hloc patchno (by simp)
  have := taken_due c P (rest.map Prod.fst) v c.t1 (fun r => decide (patchno r ≥ 0))
    ⟨r, hr, by simpa using h0, fun s hs h => hu s hs (by simpa using h)⟩
    (fun p hp => hloc p (by simp [hp]))
    (fun t f hp => hval t f (by simp [hp]))
  exact this

theorem lastAfter_eq (c : Cfg) (ops : List (Op V)) (last : ℚ) :
    lastAfter c last ops = (dueTimes c last ops).getLastD last := by
  induction ops generalizing last with
  | nil => rfl
  | cons o ops ih =>
    cases o with
    | locate p => exact ih last
    | update t f =>
      simp only [lastAfter, dueTimes]
      by_cases hd : Due c last t
      · rw [if_pos hd, if_pos hd, ih, List.getLastD_cons]
      · rw [if_neg hd, if_neg hd, ih]

theorem taken_times (c : Cfg) (hc : 0 ≤ c.minIncrement) (P : Nat) (ops : List (Op V)) (last : ℚ) (own : Nat → Bool)
    (hown : ∀ r s, r < P → s < P → own r = true → own s = true → r = s)
    (hloc : ∀ patchno, Op.locate patchno ∈ ops → Unique P patchno) :
    (∀ s ∈ taken c P last own ops, c.t1 ≤ s.1 ∧ s.1 ≤ c.t2 ∧ last + c.minIncrement ≤ s.1) ∧
    (taken c P last own ops).Pairwise (fun s s' => s.1 + c.minIncrement ≤ s'.1) := by
  induction ops generalizing last own with
  | nil => simp [taken]
  | cons o ops ih =>
    have hloc' := fun p hp => hloc p (List.mem_cons_of_mem _ hp)
    cases o with
    | locate patchno =>
      refine ih last _ ?_ hloc'
      intro r s hr hs h1 h2
      exact hloc patchno List.mem_cons_self r s hr hs (by simpa using h1) (by simpa using h2)
    | update t f =>
      simp only [taken]
      by_cases hd : Due c last t
      · rw [if_pos hd]
        obtain ⟨i1, i2⟩ := ih t own hown hloc'
        have hlen : ∀ s ∈ ((List.range P).filter own).map (fun r => (t, f r)), s.1 = t := by
          intro s hs
          obtain ⟨r, -, rfl⟩ := List.mem_map.1 hs
          rfl
        obtain ⟨d1, d2, d3⟩ := hd
        constructor
        · intro s hs
          rcases List.mem_append.1 hs with h | h
          · rw [hlen s h]
            exact ⟨d1, d2, by linarith⟩
          · obtain ⟨h1, h2, h3⟩ := i1 s h
            exact ⟨h1, h2, by linarith⟩
        · rw [List.pairwise_append]
          refine ⟨?_, i2, ?_⟩
          · have hone : ((List.range P).filter own).Pairwise (fun _ _ => False) := by
              have hnd : ((List.range P).filter own).Nodup := List.nodup_range.filter _
              refine hnd.imp_of_mem ?_
              intro a b ha hb hab
              rw [List.mem_filter, List.mem_range] at ha hb
              exact hab (hown a b ha.1 hb.1 ha.2 hb.2)
            rw [List.pairwise_map]
            exact hone.imp (fun h => h.elim)
          · intro a ha b hb
            rw [hlen a ha]
            exact (i1 b hb).2.2
      · rw [if_neg hd]
        exact ih last own hown hloc'

/-- **C46.** After any history all processes agree on when the gauge was last sampled: the last time at which a sample was
due. And every sample in the file was taken within the window of the gauge, at least the increment after its
beginning, and two samples are at least the increment apart, the earlier one coming first. -/
theorem C46 (c : Cfg) (hb : 0 < c.bufferLen) (P : Nat) (ops : List (Op V × List Nat)) (hp : Proper P ops)
    (lastOrder : List Nat) (hl : lastOrder.Perm (List.range P)) (w : World (ℚ × V))
    (hw : ∀ r, r < P → ∃ junk, w.procs r = initGauge c junk) (hf : w.file = []) :
    (∃ w', steps c ops w = .ok w' ∧ ∀ r, r < P → (w'.procs r).lastTime = lastDue c (ops.map Prod.fst)) ∧
    (0 ≤ c.minIncrement → ∃ w', run c ops lastOrder w = .ok w' ∧
      (∀ s ∈ w'.file, c.t1 ≤ s.1 ∧ s.1 ≤ c.t2 ∧ c.t1 + c.minIncrement ≤ s.1) ∧
      w'.file.Pairwise (fun s s' => s.1 + c.minIncrement ≤ s'.1)) := by
  constructor
  · obtain ⟨w1, pend, h1, i1, -⟩ := steps_of_proper c hb P ops hp w hw (fun _ => false)
    exact ⟨w1, h1, fun r hr => by rw [i1.lastTime r hr, lastAfter_eq]; rfl⟩
  · intro hc
    obtain ⟨w', h1, h2⟩ := C45 c hb P ops hp lastOrder hl w hw hf
    refine ⟨w', h1, ?_⟩
    rw [h2]
    exact taken_times c hc P _ c.t1 _ (fun _ _ _ _ h => by simp at h) (fun p hp' => by
      obtain ⟨o, ho, he⟩ := List.mem_map.1 hp'
      exact hp.unique o ho p he)

/-- A gauge with room for two samples, moving from process 0 to process 1. -/
def exCfg : Cfg := ⟨0, 10, 1, 2⟩
def exOps : List (Op Nat × List Nat) :=
  [(.locate (fun r => if r = 0 then 3 else -1), [0, 1]), (.update 1 (fun r => 10 + r), [1, 0]), (.update (3/2) (fun r => 20 + r), [0, 1]),
   (.update 2 (fun r => 30 + r), [0, 1]), (.update 3 (fun r => 40 + r), [0, 1]),
   (.locate (fun r => if r = 1 then 7 else -1), [1, 0]), (.update 4 (fun r => 50 + r), [1, 0]), (.update 12 (fun r => 60 + r), [1, 0])]

example : Proper 2 exOps := by
  constructor
  · exact ⟨_, _, _, rfl⟩
  · intro o ho
    simp only [exOps, List.mem_cons, List.not_mem_nil, or_false] at ho
    rcases ho with rfl | rfl | rfl | rfl | rfl | rfl | rfl | rfl <;> decide
  · intro o ho p hp
    simp only [exOps, List.mem_cons, List.not_mem_nil, or_false] at ho
    rcases ho with rfl | rfl | rfl | rfl | rfl | rfl | rfl | rfl <;> simp only [Op.locate.injEq, reduceCtorEq] at hp <;> subst hp <;>
      intro r s hr hs h1 h2 <;> interval_cases r <;> interval_cases s <;> simp at h1 h2 <;> first | rfl | omega

/-- The file: times 1, 2, 3 from process 0 and time 4 from process 1; 3/2 is too early and 12 is too late. -/
example : (run exCfg exOps [1, 0] { procs := fun r => initGauge exCfg (decide (r = 1)), file := [] }).map (·.file) =
    .ok [(1, 10), (2, 30), (3, 40), (4, 51)] := by
  decide +kernel

/-- The length of the buffer is an option and is not checked: with length 0 the first sample is written behind
the buffer. -/
theorem C45_zero_buffer_counterexample (c : Cfg) (h0 : c.bufferLen = 0) (t : ℚ) (ht : Due c c.t1 t) (v : V) :
    run c [(.locate (fun _ => 0), [0]), (.update t (fun _ => v), [0])] [0]
      { procs := fun _ => initGauge c false, file := [] } = .error .overflow := by
  have ht' : t ≥ c.t1 ∧ t ≤ c.t2 ∧ t - c.t1 ≥ c.minIncrement := ht
  simp [run, step, sweep, locateLocal, initGauge, updateLocal, setEntry, h0, ht'.1, ht'.2.1, ht'.2.2]

end Fclaw.Gauge

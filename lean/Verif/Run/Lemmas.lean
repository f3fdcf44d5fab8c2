/-
Helpers for C28-C30 and C61.
-/
import Verif.Run.Spec
import Mathlib.Tactic.Linarith
import Mathlib.Tactic.FieldSimp
import Mathlib.Tactic.Ring
import Mathlib.Tactic.Positivity
import Mathlib.Tactic.NormNum
import Mathlib.Algebra.Order.Archimedean.Basic

set_option autoImplicit false
set_option linter.unusedSimpArgs false
set_option linter.unusedVariables false
namespace Fclaw.Run

variable {Q A : Type}

theorem always_snoc (P : List Ev → Ev → Prop) (log : List Ev) (e : Ev) (h : Always P log)
    (he : P log e) : Always P (log ++ [e]) := by
  intro pre ev post hpe
  rcases List.eq_nil_or_concat post with rfl | ⟨post', x, rfl⟩
  · have := List.append_inj' hpe (by simp)
    obtain ⟨h1, h2⟩ := this
    simp at h2
    subst h1; subst h2
    exact he
  · have h3 : log ++ [e] = (pre ++ ev :: post') ++ [x] := by rw [hpe]; simp
    have := List.append_inj' h3 (by simp)
    exact h pre ev post' this.1

theorem always_nil (P : List Ev → Ev → Prop) : Always P [] := by
  intro pre ev post h; simp at h

theorem timeOf_append (a b : List Ev) : timeOf (a ++ b) = timeOf a + timeOf b := by
  simp [timeOf]

theorem frames_append (a b : List Ev) : frames (a ++ b) = frames a ++ frames b := by
  simp [frames]

theorem accepted_append (a b : List Ev) : accepted (a ++ b) = accepted a + accepted b := by
  simp [accepted]

theorem regrids_append (a b : List Ev) : regrids (a ++ b) = regrids a ++ regrids b := by
  simp [regrids]

/-! ### Output style 1 -/

/-- The part of the invariant of output style 1 that the output times need. -/
structure Inv1 (o : Opts) (s : St Q A) : Prop where
  frames : frames s.log = (List.range (s.n + 1)).map fun (i : Nat) => (i, (i : ℚ) * (o.tfinal / o.nout))
  iframe : s.iframe = s.n
  tend : s.tend = ((s.n : ℚ) + 1) * (o.tfinal / o.nout)
  lo : (s.n : ℚ) * (o.tfinal / o.nout) ≤ s.t
  hi : s.t ≤ s.tend
  time : timeOf s.log = s.t
  dt : 0 < s.dtMin
  timely : Always (Timely o) s.log
  le : s.n ≤ o.nout
  fin : s.n = o.nout → s.t = s.n * (o.tfinal / o.nout)

/-- The options C28 is about. -/
structure Good (o : Opts) : Prop where
  tfinal : 0 < o.tfinal
  nout : 0 < o.nout
  initialDt : 0 < o.initialDt
  factor : 0 < o.levelFactor

theorem Good.outer {o : Opts} (h : Good o) : 0 < o.tfinal / o.nout := by
  have h1 := h.tfinal
  have h2 : (0 : ℚ) < o.nout := by exact_mod_cast h.nout
  positivity

theorem inv1_start (o : Opts) (ho : Good o) (data : List (Patch Q A)) : Inv1 o (start1 o data) := by
  have hp := ho.outer
  constructor
  · simp [start1, frames]
  · rfl
  · simp [start1]
  · simp [start1]
  · simp only [start1]; simp only [sub_zero, zero_add]; exact le_of_lt hp
  · simp [start1, timeOf]
  · exact ho.initialDt
  · have h := always_snoc (Timely o) _ (.frame 0 0)
      (always_snoc (Timely o) [] (.diagnostics true) (always_nil _) trivial) trivial
    exact h
  · simp [start1]
  · intro h; have := ho.nout; simp [start1] at h; omega

/-- The length of the step that the options ask for. -/
def want (o : Opts) (s : St Q A) : ℚ :=
  if o.advanceOneStep then s.dtMin / (o.levelFactor : ℚ) else s.dtMin

theorem want_pos (o : Opts) (ho : Good o) (s : St Q A) (h : 0 < s.dtMin) : 0 < want o s := by
  have h2 : (0 : ℚ) < o.levelFactor := by exact_mod_cast ho.factor
  unfold want
  split
  · positivity
  · exact h

theorem chooseStep_var (o : Opts) (ho : Good o) (hf : o.fixedDt = false) (s : St Q A)
    (hd : 0 < s.dtMin) (hlt : s.t < s.tend) :
    0 < (chooseStep o s).1 ∧ s.t + (chooseStep o s).1 ≤ s.tend ∧
    (chooseStep o s).1 ≤ 101 / 100 * want o s ∧
    ((chooseStep o s).2 = false → want o s ≤ (chooseStep o s).1) ∧
    ((chooseStep o s).1 = want o s ∨ s.t + (chooseStep o s).1 = s.tend) := by
  have hw := want_pos o ho s hd
  have key : chooseStep o s =
      if s.tend - (s.t + want o s) < 1 / 100 * want o s then
        (s.tend - s.t, decide (s.tend - (s.t + want o s) < 0)) else (want o s, false) := by
    unfold chooseStep want
    simp [hf]
  rw [key]
  split
  · rename_i h
    refine ⟨by dsimp only; linarith, by dsimp only; linarith, by dsimp only; linarith, ?_, Or.inr (by dsimp only; ring)⟩
    intro h2
    simp only [decide_eq_false_iff_not, not_lt] at h2
    dsimp only
    linarith
  · rename_i h
    refine ⟨hw, by dsimp only; linarith, by dsimp only; linarith, fun _ => le_refl _, Or.inl rfl⟩

/-- The regridding after step `n`. -/
def regridEv (o : Opts) (n : Nat) : List Ev :=
  if 0 < o.regridInterval ∧ o.regridInterval ∣ n then [.regrid n] else []

theorem regridEv_cases (o : Opts) (n : Nat) : regridEv o n = [] ∨ regridEv o n = [.regrid n] := by
  unfold regridEv; split
  · exact Or.inr rfl
  · exact Or.inl rfl

theorem regridStep_fields (o : Opts) (sv : Solver Q A) (n : Nat) (s : St Q A) :
    (regridStep o sv n s).n = s.n ∧ (regridStep o sv n s).nInner = s.nInner ∧
    (regridStep o sv n s).iframe = s.iframe ∧ (regridStep o sv n s).t = s.t ∧
    (regridStep o sv n s).tend = s.tend ∧ (regridStep o sv n s).dtMin = s.dtMin ∧
    (regridStep o sv n s).currTime = s.currTime ∧
    (regridStep o sv n s).log = s.log ++ regridEv o n := by
  unfold regridStep regridEv
  by_cases h1 : 0 < o.regridInterval
  · by_cases h2 : o.regridInterval ∣ n
    · have h3 : n % o.regridInterval = 0 := Nat.mod_eq_zero_of_dvd h2
      rw [if_pos h1, if_pos h3, if_pos ⟨h1, h2⟩]
      exact ⟨rfl, rfl, rfl, rfl, rfl, rfl, rfl, rfl⟩
    · have h3 : ¬ n % o.regridInterval = 0 := fun h => h2 (Nat.dvd_of_mod_eq_zero h)
      rw [if_pos h1, if_neg h3, if_neg (fun h => h2 h.2)]
      exact ⟨rfl, rfl, rfl, rfl, rfl, rfl, rfl, by simp⟩
  · rw [if_neg h1, if_neg (fun h => h1 h.1)]
    exact ⟨rfl, rfl, rfl, rfl, rfl, rfl, rfl, by simp⟩

/-- What a pass through the inner loop does, apart from the patches. -/
theorem inner1_cases (o : Opts) (sv : Solver Q A) (s : St Q A) :
    ∃ c data0, c = sv.cfl s.log data0 s.t (chooseStep o s).1 ∧
    ((c > o.maxCfl ∧ o.reduceCfl = true ∧ o.fixedDt = false ∧
        (inner1 o sv s).n = s.n ∧ (inner1 o sv s).nInner = s.nInner ∧
        (inner1 o sv s).iframe = s.iframe ∧
        (inner1 o sv s).t = s.t ∧ (inner1 o sv s).tend = s.tend ∧
        (inner1 o sv s).currTime = s.currTime ∧
        (inner1 o sv s).dtMin = s.dtMin * o.desiredCfl / c ∧
        (inner1 o sv s).log = s.log ++ [.reject s.t (chooseStep o s).1 c]) ∨
      ((inner1 o sv s).n = s.n ∧ (inner1 o sv s).nInner = s.nInner + 1 ∧
        (inner1 o sv s).iframe = s.iframe ∧
        (inner1 o sv s).t = s.t + (chooseStep o s).1 ∧ (inner1 o sv s).tend = s.tend ∧
        (inner1 o sv s).currTime = s.t + (chooseStep o s).1 ∧
        (inner1 o sv s).dtMin =
          (if !o.fixedDt && !(chooseStep o s).2 then s.dtMin * o.desiredCfl / c else s.dtMin) ∧
        ∃ d r, (inner1 o sv s).log = s.log ++ [.accept s.t (chooseStep o s).1 c] ++ d ++ r ∧
          (d = [] ∨ d = [.diagnostics false]) ∧ r = regridEv o (s.nInner + 1))) := by
  refine ⟨_, (if o.fixedDt then s.data else s.data.map (savePatch o.saveAux)), rfl, ?_⟩
  by_cases hrej : (decide (sv.cfl s.log (if o.fixedDt then s.data else s.data.map (savePatch o.saveAux))
      s.t (chooseStep o s).1 > o.maxCfl) && o.reduceCfl && !o.fixedDt) = true
  · left
    have h2 := hrej
    simp only [Bool.and_eq_true, decide_eq_true_eq, Bool.not_eq_true'] at h2
    refine ⟨h2.1.1, h2.1.2, h2.2, ?_⟩
    unfold inner1
    simp only [hrej, if_true]
    refine ⟨trivial, trivial, trivial, trivial, trivial, trivial, trivial, trivial⟩
  · right
    unfold inner1
    simp only [hrej, Bool.false_eq_true, if_false]
    obtain ⟨h1, h2, h3, h4, h5, h6, h7, h8⟩ := regridStep_fields o sv (s.nInner + 1)
      ({ s with
        data := advanceData sv s.log (if o.fixedDt then s.data else s.data.map (savePatch o.saveAux))
          s.t (chooseStep o s).1
        nInner := s.nInner + 1
        t := s.t + (chooseStep o s).1
        currTime := s.t + (chooseStep o s).1
        dtMin := if !o.fixedDt && !(chooseStep o s).2 then s.dtMin * o.desiredCfl /
          (sv.cfl s.log (if o.fixedDt then s.data else s.data.map (savePatch o.saveAux))
            s.t (chooseStep o s).1) else s.dtMin
        log := s.log ++ [.accept s.t (chooseStep o s).1 (sv.cfl s.log
          (if o.fixedDt then s.data else s.data.map (savePatch o.saveAux))
            s.t (chooseStep o s).1)] ++
          (if o.advanceOneStep then [.diagnostics false] else []) })
    refine ⟨h1, h2, h3, h4, h5, h7, h6, if o.advanceOneStep then [.diagnostics false] else [], ?_⟩
    have hd : (if o.advanceOneStep then [Ev.diagnostics false] else []) = [] ∨
        (if o.advanceOneStep then [Ev.diagnostics false] else []) = [.diagnostics false] := by
      split
      · exact Or.inr rfl
      · exact Or.inl rfl
    exact ⟨regridEv o (s.nInner + 1), h8, hd, rfl⟩

/-- The events after an accepted step have no influence on time and frames. -/
theorem tail_facts (P : List Ev → Ev → Prop) (log : List Ev) (d r : List Ev) (n : Nat)
    (hd : d = [] ∨ d = [.diagnostics false]) (hr : r = [] ∨ r = [.regrid n])
    (hP : Always P log) (h1 : P log (.diagnostics false)) (h2 : P (log ++ d) (.regrid n)) :
    frames (log ++ d ++ r) = frames log ∧ timeOf (log ++ d ++ r) = timeOf log ∧
    Always P (log ++ d ++ r) := by
  have a : frames (log ++ d) = frames log ∧ timeOf (log ++ d) = timeOf log ∧ Always P (log ++ d) := by
    rcases hd with rfl | rfl
    · simp [hP]
    · refine ⟨by simp [frames_append, frames], by simp [timeOf], always_snoc _ _ _ hP h1⟩
  rcases hr with rfl | rfl
  · simpa using a
  · refine ⟨?_, ?_, always_snoc _ _ _ a.2.2 h2⟩
    · rw [frames_append, a.1]; simp [frames]
    · rw [timeOf_append, a.2.1]; simp [timeOf]

theorem inv1_inner (o : Opts) (ho : Good o) (hf : o.fixedDt = false) (hdes : 0 < o.desiredCfl)
    (sv : Solver Q A) (hsv : ∀ log data t dt, 0 < sv.cfl log data t dt)
    (s : St Q A) (h : Inv1 o s) (hn : s.n < o.nout) (hlt : s.t < s.tend) :
    Inv1 o (inner1 o sv s) := by
  obtain ⟨hs1, hs2, hs3, hs4, hs5⟩ := chooseStep_var o ho hf s h.dt hlt
  obtain ⟨c, data0, hc, hcase⟩ := inner1_cases o sv s
  have hcpos : 0 < c := by rw [hc]; exact hsv _ _ _ _
  have hdpos : 0 < s.dtMin * o.desiredCfl / c := by have := h.dt; positivity
  rcases hcase with ⟨_, _, _, e1, e2, e3, e4, e5, e6, e7, e8⟩ | ⟨e1, e2, e3, e4, e5, e6, e7, d, r, e8, hd, hr'⟩
  · constructor
    · rw [e8, e1, frames_append, h.frames]; simp [frames]
    · rw [e1, e3]; exact h.iframe
    · rw [e1, e5]; exact h.tend
    · rw [e1, e4]; exact h.lo
    · rw [e4, e5]; exact h.hi
    · rw [e8, e4, timeOf_append, h.time]; simp [timeOf]
    · rw [e7]; exact hdpos
    · rw [e8]; exact always_snoc _ _ _ h.timely trivial
    · rw [e1]; exact h.le
    · rw [e1]; intro h2; omega
  · have hlen : (frames s.log).length = s.n + 1 := by rw [h.frames]; simp
    have hT : Always (Timely o) (s.log ++ [.accept s.t (chooseStep o s).1 c]) := by
      refine always_snoc _ _ _ h.timely ⟨h.time.symm, hs1, ?_⟩
      rw [hlen]
      have := h.tend
      push_cast
      linarith
    obtain ⟨f1, f2, f3⟩ := tail_facts (Timely o) _ d r (s.nInner + 1) hd
        (by rw [hr']; exact regridEv_cases o _) hT trivial trivial
    constructor
    · rw [e8, e1, f1, frames_append, h.frames]; simp [frames]
    · rw [e1, e3]; exact h.iframe
    · rw [e1, e5]; exact h.tend
    · rw [e1, e4]; have := h.lo; linarith
    · rw [e4, e5]; exact hs2
    · rw [e8, e4, f2, timeOf_append, h.time]; simp [timeOf]
    · rw [e7]; split
      · exact hdpos
      · exact h.dt
    · rw [e8]; exact f3
    · rw [e1]; exact h.le
    · rw [e1]; intro h2; omega

/-- The end of a pass through the outer loop. -/
theorem inv1_frame (o : Opts) (ho : Good o) (sv : Solver Q A)
    (s : St Q A) (h : Inv1 o s) (hn : s.n < o.nout) (hlt : ¬ s.t < s.tend) :
    Inv1 o (next1 o sv s) := by
  have ht : s.t = s.tend := le_antisymm h.hi (not_lt.mp hlt)
  have hp := ho.outer
  unfold next1
  rw [if_neg hlt]
  constructor
  · dsimp only
    rw [frames_append, h.frames]
    simp only [frames, List.filterMap_cons, List.filterMap_nil]
    rw [h.iframe, List.range_succ (n := s.n + 1), List.map_append, ht, h.tend]
    simp
  · dsimp only; rw [h.iframe]
  · dsimp only; rw [ht, h.tend]; push_cast; ring
  · dsimp only; rw [ht, h.tend]; push_cast; linarith
  · dsimp only; simp only [sub_zero]; linarith
  · dsimp only; rw [timeOf_append, h.time]; simp [timeOf]
  · exact h.dt
  · dsimp only
    rw [show s.log ++ [Ev.diagnostics false, Ev.frame (s.iframe + 1) s.t] =
      (s.log ++ [Ev.diagnostics false]) ++ [Ev.frame (s.iframe + 1) s.t] by simp]
    exact always_snoc _ _ _ (always_snoc _ _ _ h.timely trivial) trivial
  · dsimp only; omega
  · intro _; dsimp only; rw [ht, h.tend]; push_cast; ring

theorem inv1_next (o : Opts) (ho : Good o) (hf : o.fixedDt = false) (hdes : 0 < o.desiredCfl)
    (sv : Solver Q A) (hsv : ∀ log data t dt, 0 < sv.cfl log data t dt)
    (s : St Q A) (h : Inv1 o s) (hn : s.n < o.nout) : Inv1 o (next1 o sv s) := by
  by_cases hlt : s.t < s.tend
  · unfold next1; rw [if_pos hlt]; exact inv1_inner o ho hf hdes sv hsv s h hn hlt
  · exact inv1_frame o ho sv s h hn hlt

theorem inv1_run (o : Opts) (ho : Good o) (hf : o.fixedDt = false) (hdes : 0 < o.desiredCfl)
    (sv : Solver Q A) (hsv : ∀ log data t dt, 0 < sv.cfl log data t dt) (k : Nat) :
    ∀ s : St Q A, Inv1 o s → Inv1 o (run1 o sv k s) := by
  induction k with
  | zero => intro s h; exact h
  | succ k ih =>
    intro s h
    unfold run1
    split
    · rename_i hn
      exact ih _ (inv1_next o ho hf hdes sv hsv s h hn)
    · exact h

/-! ### Fixed steps -/

/-- With fixed steps the time is a whole number of steps after the last frame. -/
structure InvF (o : Opts) (m : Nat) (h0 : ℚ) (s : St Q A) : Prop where
  inv : Inv1 o s
  dtEq : s.dtMin = o.initialDt
  grid : ∃ j : Nat, j ≤ m ∧ s.t = (s.n : ℚ) * (o.tfinal / o.nout) + j * h0

theorem invF_next (o : Opts) (ho : Good o) (hf : o.fixedDt = true) (m : Nat) (h0 : ℚ)
    (hh : h0 = if o.advanceOneStep then o.initialDt / (o.levelFactor : ℚ) else o.initialDt)
    (hm : (m : ℚ) * h0 = o.tfinal / o.nout)
    (sv : Solver Q A) (s : St Q A) (h : InvF o m h0 s) (hn : s.n < o.nout) :
    InvF o m h0 (next1 o sv s) := by
  obtain ⟨hi, hdt, j, hj, hg⟩ := h
  have hstep : chooseStep o s = (h0, false) := by
    unfold chooseStep; simp [hf, hdt, hh]
  have hpos : 0 < h0 := by
    have := want_pos o ho s hi.dt
    unfold want at this; rw [hdt, ← hh] at this; exact this
  by_cases hlt : s.t < s.tend
  · have hjm : j < m := by
      rcases Nat.lt_or_ge j m with hh | hh
      · exact hh
      · have : j = m := by omega
        subst this
        rw [hm] at hg
        have := hi.tend
        exfalso; linarith
    have hj1 : ((j : ℚ) + 1) ≤ m := by exact_mod_cast hjm
    have hj2 : ((j : ℚ) + 1) * h0 ≤ o.tfinal / o.nout := by
      rw [← hm]; exact mul_le_mul_of_nonneg_right hj1 (le_of_lt hpos)
    unfold next1; rw [if_pos hlt]
    obtain ⟨c, data0, hc, hcase⟩ := inner1_cases o sv s
    rcases hcase with ⟨_, _, e0, _⟩ | ⟨e1, e2, e3, e4, e5, e6, e7, d, r, e8, hd, hr'⟩
    · rw [hf] at e0; cases e0
    · rw [hstep] at e4 e6 e7 e8
      dsimp only at e4 e6 e7 e8
      simp only [hf, Bool.not_true, Bool.false_and, if_false, Bool.false_eq_true] at e7
      have hend := hi.tend
      have hle : s.t + h0 ≤ s.tend := by linarith
      have hlen : (frames s.log).length = s.n + 1 := by rw [hi.frames]; simp
      have hT : Always (Timely o) (s.log ++ [.accept s.t h0 c]) := by
        refine always_snoc _ _ _ hi.timely ⟨hi.time.symm, hpos, ?_⟩
        rw [hlen]
        push_cast
        linarith
      obtain ⟨f1, f2, f3⟩ := tail_facts (Timely o) _ d r (s.nInner + 1) hd
        (by rw [hr']; exact regridEv_cases o _) hT trivial trivial
      refine ⟨⟨?_, ?_, ?_, ?_, ?_, ?_, ?_, ?_, ?_, ?_⟩, ?_, ?_⟩
      · rw [e8, e1, f1, frames_append, hi.frames]; simp [frames]
      · rw [e1, e3]; exact hi.iframe
      · rw [e1, e5]; exact hi.tend
      · rw [e1, e4]; have := hi.lo; linarith
      · rw [e4, e5]; exact hle
      · rw [e8, e4, f2, timeOf_append, hi.time]; simp [timeOf]
      · rw [e7]; exact hi.dt
      · rw [e8]; exact f3
      · rw [e1]; exact hi.le
      · rw [e1]; intro h2; omega
      · rw [e7]; exact hdt
      · exact ⟨j + 1, by omega, by rw [e1, e4, hg]; push_cast; ring⟩
  · refine ⟨inv1_frame o ho sv s hi hn hlt, ?_, 0, by omega, ?_⟩
    · unfold next1; rw [if_neg hlt]; exact hdt
    · have ht : s.t = s.tend := le_antisymm hi.hi (not_lt.mp hlt)
      have := hi.tend
      unfold next1; rw [if_neg hlt]; dsimp only; push_cast; rw [ht]; linarith

theorem invF_run (o : Opts) (ho : Good o) (hf : o.fixedDt = true) (m : Nat) (h0 : ℚ)
    (hh : h0 = if o.advanceOneStep then o.initialDt / (o.levelFactor : ℚ) else o.initialDt)
    (hm : (m : ℚ) * h0 = o.tfinal / o.nout) (sv : Solver Q A) (k : Nat) :
    ∀ s : St Q A, InvF o m h0 s → InvF o m h0 (run1 o sv k s) := by
  induction k with
  | zero => intro s h; exact h
  | succ k ih =>
    intro s h
    unfold run1
    split
    · rename_i hn
      exact ih _ (invF_next o ho hf m h0 hh hm sv s h hn)
    · exact h

/-! ### Rejected steps -/

theorem restore_advance (sv : Solver Q A) (b : Bool) (log : List Ev) (data : List (Patch Q A))
    (t dt : ℚ) :
    grids ((advanceData sv log (data.map (savePatch b)) t dt).map (restorePatch b)) = grids data ∧
    (b = true →
      auxs ((advanceData sv log (data.map (savePatch b)) t dt).map (restorePatch b)) =
        auxs data) := by
  constructor
  · apply List.ext_getElem
    · simp [grids, advanceData]
    · intro i h1 h2
      simp [grids, advanceData, savePatch, restorePatch]
  · intro hb
    subst hb
    apply List.ext_getElem
    · simp [auxs, advanceData]
    · intro i h1 h2
      simp [auxs, advanceData, savePatch, restorePatch]

/-- What must not change in a rejected step. -/
def Same (b : Bool) (s s' : St Q A) : Prop :=
  grids s'.data = grids s.data ∧ (b = true → auxs s'.data = auxs s.data) ∧
  s'.n = s.n ∧ s'.nInner = s.nInner ∧ s'.iframe = s.iframe ∧ s'.t = s.t ∧ s'.tend = s.tend ∧
  s'.currTime = s.currTime

theorem Same.trans {b : Bool} {s1 s2 s3 : St Q A} (h : Same b s1 s2) (h' : Same b s2 s3) :
    Same b s1 s3 := by
  obtain ⟨a1, a2, a3, a4, a5, a6, a7, a8⟩ := h
  obtain ⟨b1, b2, b3, b4, b5, b6, b7, b8⟩ := h'
  exact ⟨b1.trans a1, fun hb => (b2 hb).trans (a2 hb), b3.trans a3, b4.trans a4, b5.trans a5,
    b6.trans a6, b7.trans a7, b8.trans a8⟩

/-- A pass either is rejected and changes nothing but the step size, or logs an accepted step. -/
theorem inner1_rej (o : Opts) (sv : Solver Q A) (s : St Q A) :
    (Same o.saveAux s (inner1 o sv s) ∧
      ∃ t dt c, (inner1 o sv s).log = s.log ++ [.reject t dt c]) ∨
    ∃ t dt c x, (inner1 o sv s).log = s.log ++ .accept t dt c :: x := by
  by_cases hrej : (decide (sv.cfl s.log (if o.fixedDt then s.data else s.data.map (savePatch o.saveAux))
      s.t (chooseStep o s).1 > o.maxCfl) && o.reduceCfl && !o.fixedDt) = true
  · left
    have h2 := hrej
    simp only [Bool.and_eq_true, decide_eq_true_eq, Bool.not_eq_true'] at h2
    have hf := h2.2
    unfold inner1
    simp only [hrej, if_true]
    refine ⟨⟨?_, ?_, rfl, rfl, rfl, rfl, rfl, rfl⟩, _, _, _, rfl⟩
    · simp only [hf, Bool.false_eq_true, if_false]
      exact (restore_advance sv o.saveAux s.log s.data s.t _).1
    · simp only [hf, Bool.false_eq_true, if_false]
      exact (restore_advance sv o.saveAux s.log s.data s.t _).2
  · right
    obtain ⟨c, data0, hc, hcase⟩ := inner1_cases o sv s
    rcases hcase with ⟨_, _, _, _, _, _, _, _, _, _, e8⟩ | ⟨_, _, _, _, _, _, _, d, r, e8, _, _⟩
    · exfalso
      unfold inner1 at e8
      simp only [hrej, Bool.false_eq_true, if_false] at e8
      have h8 := (regridStep_fields o sv (s.nInner + 1)
        { s with
          data := advanceData sv s.log (if o.fixedDt then s.data else s.data.map (savePatch o.saveAux))
            s.t (chooseStep o s).1
          nInner := s.nInner + 1
          t := s.t + (chooseStep o s).1
          currTime := s.t + (chooseStep o s).1
          dtMin := if !o.fixedDt && !(chooseStep o s).2 then s.dtMin * o.desiredCfl /
            (sv.cfl s.log (if o.fixedDt then s.data else s.data.map (savePatch o.saveAux))
              s.t (chooseStep o s).1) else s.dtMin
          log := s.log ++ [.accept s.t (chooseStep o s).1 (sv.cfl s.log
            (if o.fixedDt then s.data else s.data.map (savePatch o.saveAux))
              s.t (chooseStep o s).1)] ++
            (if o.advanceOneStep then [.diagnostics false] else []) }).2.2.2.2.2.2.2
      have := h8.symm.trans e8
      simp at this
    · exact ⟨s.t, (chooseStep o s).1, c, d ++ r, by rw [e8]; simp⟩

theorem iter_prefix (f : St Q A → St Q A) (hf : ∀ s, ∃ x, (f s).log = s.log ++ x) (k : Nat) :
    ∀ s, ∃ x, (f^[k] s).log = s.log ++ x := by
  induction k with
  | zero => intro s; exact ⟨[], by simp⟩
  | succ k ih =>
    intro s
    obtain ⟨x, hx⟩ := hf s
    obtain ⟨y, hy⟩ := ih (f s)
    exact ⟨x ++ y, by rw [Function.iterate_succ_apply, hy, hx]; simp⟩

theorem rejections (b : Bool) (f : St Q A → St Q A)
    (hf : ∀ s, (Same b s (f s) ∧ ∃ t dt c, (f s).log = s.log ++ [.reject t dt c]) ∨
      ∃ t dt c x, (f s).log = s.log ++ .accept t dt c :: x) (k : Nat) :
    ∀ s, accepted (f^[k] s).log = accepted s.log → Same b s (f^[k] s) := by
  have hp : ∀ s, ∃ x, (f s).log = s.log ++ x := by
    intro s
    rcases hf s with ⟨_, t, dt, c, h⟩ | ⟨t, dt, c, x, h⟩
    · exact ⟨_, h⟩
    · exact ⟨_, h⟩
  induction k with
  | zero => intro s _; exact ⟨rfl, fun _ => rfl, rfl, rfl, rfl, rfl, rfl, rfl⟩
  | succ k ih =>
    intro s h
    rw [Function.iterate_succ_apply] at h ⊢
    rcases hf s with ⟨hs, t, dt, c, he⟩ | ⟨t, dt, c, x, he⟩
    · refine hs.trans (ih _ ?_)
      rw [h, he, accepted_append]
      simp [accepted]
    · exfalso
      obtain ⟨y, hy⟩ := iter_prefix f hp k (f s)
      rw [hy, he, accepted_append, accepted_append] at h
      have : 0 < accepted (Ev.accept t dt c :: x) := by simp [accepted]
      omega

/-! ### Output styles 3 and 4 -/

/-- Multiples of the regrid interval up to `n`. -/
def regridAt (o : Opts) (n : Nat) : List Nat :=
  (List.range (n + 1)).filter fun i => decide (0 < i ∧ 0 < o.regridInterval ∧ o.regridInterval ∣ i)

structure Inv3 (o : Opts) (every total : Nat) (s : St Q A) : Prop where
  acc : accepted s.log = s.n
  le : s.n ≤ total
  iframe : s.iframe = s.n / every
  nums : (frames s.log).map Prod.fst = List.range (s.n / every + 1)
  regrid : regrids s.log = regridAt o s.n
  time : timeOf s.log = s.t
  regular : Always (Regular every) s.log

theorem regridAt_succ (o : Opts) (n : Nat) :
    regridAt o (n + 1) = regridAt o n ++
      (if 0 < o.regridInterval ∧ o.regridInterval ∣ (n + 1) then [n + 1] else []) := by
  unfold regridAt
  rw [List.range_succ (n := n + 1), List.filter_append]
  congr 1
  by_cases h : 0 < o.regridInterval ∧ o.regridInterval ∣ (n + 1)
  · simp [List.filter_cons, h]
  · rw [if_neg h]
    simp only [List.filter_cons, List.filter_nil]
    rw [if_neg]
    simp only [decide_eq_true_eq]
    intro h2; exact h h2.2

/-- An accepted step followed by regridding and output. -/
theorem inv3_accept (o : Opts) (every total : Nat) (he : 0 < every) (sv : Solver Q A)
    (s : St Q A) (h : Inv3 o every total s) (hn : s.n < total) (data : List (Patch Q A))
    (dt dtm c : ℚ) :
    ∃ s', outputStep every (regridStep o sv (s.n + 1)
      { s with
        data := data
        n := s.n + 1
        t := s.t + dt
        currTime := s.t + dt
        dtMin := dtm
        log := s.log ++ [.accept s.t dt c] }) = some s' ∧ Inv3 o every total s' ∧
      s'.n = s.n + 1 ∧ s'.dtMin = dtm := by
  have hlog : ∃ data' : List (Patch Q A), regridStep o sv (s.n + 1)
      { s with
        data := data
        n := s.n + 1
        t := s.t + dt
        currTime := s.t + dt
        dtMin := dtm
        log := s.log ++ [.accept s.t dt c] } =
      { s with
        data := data'
        n := s.n + 1
        t := s.t + dt
        currTime := s.t + dt
        dtMin := dtm
        log := s.log ++ [.accept s.t dt c] ++
          (if 0 < o.regridInterval ∧ o.regridInterval ∣ (s.n + 1) then [.regrid (s.n + 1)] else []) } := by
    unfold regridStep
    by_cases h1 : 0 < o.regridInterval
    · by_cases h2 : o.regridInterval ∣ (s.n + 1)
      · have h3 : (s.n + 1) % o.regridInterval = 0 := Nat.mod_eq_zero_of_dvd h2
        rw [if_pos h1, if_pos h3, if_pos ⟨h1, h2⟩]
        exact ⟨_, rfl⟩
      · have h3 : ¬ (s.n + 1) % o.regridInterval = 0 := fun h => h2 (Nat.dvd_of_mod_eq_zero h)
        rw [if_pos h1, if_neg h3, if_neg (fun h => h2 h.2)]
        exact ⟨data, by simp⟩
    · rw [if_neg h1, if_neg (fun h => h1 h.1)]
      exact ⟨data, by simp⟩
  obtain ⟨data', hlog⟩ := hlog
  rw [hlog]
  -- the log before output
  have hA : Always (Regular every) (s.log ++ [.accept s.t dt c]) :=
    always_snoc _ _ _ h.regular h.time.symm
  have hacc : accepted (s.log ++ [.accept s.t dt c]) = s.n + 1 := by
    rw [accepted_append, h.acc]; simp [accepted]
  have htime : timeOf (s.log ++ [.accept s.t dt c]) = s.t + dt := by
    rw [timeOf_append, h.time]; simp [timeOf]
  generalize hx : (if 0 < o.regridInterval ∧ o.regridInterval ∣ (s.n + 1) then
    [Ev.regrid (s.n + 1)] else []) = x
  have hx2 : accepted x = 0 ∧ timeOf x = 0 ∧ frames x = [] ∧
      regrids x = (if 0 < o.regridInterval ∧ o.regridInterval ∣ (s.n + 1) then [s.n + 1] else []) ∧
      Always (Regular every) (s.log ++ [.accept s.t dt c] ++ x) := by
    subst hx
    split
    · refine ⟨by simp [accepted], by simp [timeOf], by simp [frames], by simp [regrids],
        always_snoc _ _ _ hA ?_⟩
      exact hacc
    · refine ⟨by simp [accepted], by simp [timeOf], by simp [frames], by simp [regrids], ?_⟩
      simpa using hA
  obtain ⟨x1, x2, x3, x4, x5⟩ := hx2
  have lacc : accepted (s.log ++ [.accept s.t dt c] ++ x) = s.n + 1 := by
    rw [accepted_append, hacc, x1]
  have ltime : timeOf (s.log ++ [.accept s.t dt c] ++ x) = s.t + dt := by
    rw [timeOf_append, htime, x2]; ring
  have lfr : frames (s.log ++ [.accept s.t dt c] ++ x) = frames s.log := by
    rw [frames_append, frames_append, x3]; simp [frames]
  have lrg : regrids (s.log ++ [.accept s.t dt c] ++ x) = regridAt o (s.n + 1) := by
    rw [regrids_append, regrids_append, x4, regridAt_succ, h.regrid]; simp [regrids]
  unfold outputStep
  rw [if_neg (by omega)]
  dsimp only
  by_cases hm : (s.n + 1) % every = 0
  · rw [if_pos hm]
    refine ⟨_, rfl, ?_, rfl, rfl⟩
    have hdiv : (s.n + 1) / every = s.n / every + 1 := by
      rw [Nat.succ_div, if_pos (Nat.dvd_of_mod_eq_zero hm)]
    have hmul : (s.n / every + 1) * every = s.n + 1 := by
      rw [← hdiv]; exact Nat.div_mul_cancel (Nat.dvd_of_mod_eq_zero hm)
    constructor
    · dsimp only; rw [accepted_append, lacc]; simp [accepted]
    · dsimp only; omega
    · dsimp only; rw [hdiv, h.iframe]
    · dsimp only
      rw [frames_append, lfr, List.map_append, h.nums, hdiv, List.range_succ (n := s.n / every + 1)]
      simp [frames, h.iframe]
    · dsimp only; rw [regrids_append, lrg]; simp [regrids]
    · dsimp only; rw [timeOf_append, ltime]; simp [timeOf]
    · dsimp only
      rw [show s.log ++ [Ev.accept s.t dt c] ++ x ++ [Ev.diagnostics false, Ev.frame (s.iframe + 1) (s.t + dt)] =
        (s.log ++ [Ev.accept s.t dt c] ++ x ++ [Ev.diagnostics false]) ++ [Ev.frame (s.iframe + 1) (s.t + dt)] by simp]
      refine always_snoc _ _ _ (always_snoc _ _ _ x5 trivial) ⟨?_, ?_⟩
      · rw [accepted_append, lacc, h.iframe, hmul]; simp [accepted]
      · rw [timeOf_append, ltime]; simp [timeOf]
  · rw [if_neg hm]
    refine ⟨_, rfl, ?_, rfl, rfl⟩
    have hdiv : (s.n + 1) / every = s.n / every := by
      rw [Nat.succ_div, if_neg (fun h => hm (Nat.mod_eq_zero_of_dvd h))]; omega
    exact ⟨lacc, hn, by dsimp only; rw [hdiv]; exact h.iframe,
      by dsimp only; rw [lfr, hdiv]; exact h.nums, lrg, ltime, x5⟩

theorem inv3_body (o : Opts) (he : 0 < (counts3 o).2) (sv : Solver Q A)
    (s : St Q A) (h : Inv3 o (counts3 o).2 (counts3 o).1 s) (hn : s.n < (counts3 o).1) :
    ∃ s', body3 o sv s = some s' ∧ Inv3 o (counts3 o).2 (counts3 o).1 s' ∧
      ∃ data0 dt c, dt = (if !o.subcycle && o.advanceOneStep then s.dtMin / (o.levelFactor : ℚ) else s.dtMin) ∧
        c = sv.cfl s.log data0 s.t dt ∧
        ((c > o.maxCfl ∧ o.fixedDt = false ∧ o.reduceCfl = true ∧ s'.n = s.n ∧
            s'.dtMin = s.dtMin * o.desiredCfl / c) ∨
          (s'.n = s.n + 1 ∧
            s'.dtMin = if !o.fixedDt then s.dtMin * o.desiredCfl / c else s.dtMin)) := by
  unfold body3
  dsimp only
  generalize (if o.fixedDt then s.data else s.data.map (savePatch o.saveAux)) = data0
  generalize hdt : (if !o.subcycle && o.advanceOneStep then s.dtMin / (o.levelFactor : ℚ)
    else s.dtMin) = dt
  split
  · rename_i hrej
    simp only [Bool.and_eq_true, decide_eq_true_eq, Bool.not_eq_true'] at hrej
    refine ⟨_, rfl, ?_, _, _, _, rfl, rfl, Or.inl ⟨hrej.1.2, hrej.2, hrej.1.1, rfl, rfl⟩⟩
    exact ⟨by dsimp only; rw [accepted_append, h.acc]; simp [accepted], h.le, h.iframe,
      by dsimp only; rw [frames_append, ← h.nums]; simp [frames],
      by dsimp only; rw [regrids_append, h.regrid]; simp [regrids],
      by dsimp only; rw [timeOf_append, h.time]; simp [timeOf],
      always_snoc _ _ _ h.regular trivial⟩
  · obtain ⟨s', h1, h2, h3, h4⟩ := inv3_accept o (counts3 o).2 (counts3 o).1 he sv s h hn _ _ _ _
    exact ⟨s', h1, h2, _, _, _, rfl, rfl, Or.inr ⟨h3, h4⟩⟩

theorem inv3_run (o : Opts) (he : 0 < (counts3 o).2) (sv : Solver Q A) (k : Nat) :
    ∀ s : St Q A, Inv3 o (counts3 o).2 (counts3 o).1 s →
      ∃ s', run3 o sv k s = some s' ∧ Inv3 o (counts3 o).2 (counts3 o).1 s' := by
  induction k with
  | zero => intro s h; exact ⟨s, rfl, h⟩
  | succ k ih =>
    intro s h
    unfold run3
    by_cases hn : s.n < (counts3 o).1
    · rw [if_pos hn]
      obtain ⟨s', h1, h2, _⟩ := inv3_body o he sv s h hn
      rw [h1]
      exact ih s' h2
    · rw [if_neg hn]; exact ⟨s, rfl, h⟩

theorem inv3_start (o : Opts) (every total : Nat) (he : 0 < every) (data : List (Patch Q A)) :
    Inv3 o every total (start3 o data) := by
  constructor
  · simp [start3, accepted]
  · simp [start3]
  · simp [start3]
  · simp [start3, frames]
  · simp [start3, regrids, regridAt]
  · simp [start3, timeOf]
  · exact always_snoc (Regular every) _ (.frame 0 0)
      (always_snoc _ [] (.diagnostics true) (always_nil _) trivial)
      ⟨by simp [accepted], by simp [timeOf]⟩

theorem inv4_start (o : Opts) (every total : Nat) (he : 0 < every) (data : List (Patch Q A)) :
    Inv3 o every total (start4 o data) := by
  constructor
  · simp [start4, accepted]
  · simp [start4]
  · simp [start4]
  · simp [start4, frames]
  · simp [start4, regrids, regridAt]
  · simp [start4, timeOf]
  · exact always_snoc (Regular every) [.frame 0 0] (.diagnostics true)
      (always_snoc _ [] (.frame 0 0) (always_nil _) ⟨by simp [accepted], by simp [timeOf]⟩) trivial

theorem inv4_run (o : Opts) (he : 0 < o.nstep) (sv : Solver Q A) (k : Nat) :
    ∀ s : St Q A, Inv3 o o.nstep o.nout s →
      ∃ s', run4 o sv k s = some s' ∧ Inv3 o o.nstep o.nout s' ∧ s'.n = min (s.n + k) o.nout := by
  induction k with
  | zero => intro s h; exact ⟨s, rfl, h, by have := h.le; omega⟩
  | succ k ih =>
    intro s h
    unfold run4
    by_cases hn : s.n < o.nout
    · rw [if_pos hn]
      obtain ⟨s', h1, h2, h3, h4⟩ := inv3_accept o o.nstep o.nout he sv s h hn
        (advanceData sv s.log s.data s.t s.dtMin) s.dtMin s.dtMin
        (sv.cfl s.log s.data s.t s.dtMin)
      have hb : body4 o sv s = some s' := h1
      rw [hb]
      obtain ⟨s'', h5, h6, h7⟩ := ih s' h2
      exact ⟨s'', h5, h6, by rw [h7, h3]; congr 1; omega⟩
    · rw [if_neg hn]; exact ⟨s, rfl, h, by have := h.le; omega⟩

theorem counts3_eq (o : Opts) : counts3 o = (o.nout * unit3 o, o.nstep * unit3 o) := by
  unfold counts3 unit3
  cases o.subcycle <;> cases o.advanceOneStep <;> cases o.outstyleUsesMaxlevel <;> simp

theorem run3_succ (o : Opts) (sv : Solver Q A) (k : Nat) :
    ∀ (s s' : St Q A), run3 o sv k s = some s' →
      run3 o sv (k + 1) s = if s'.n < (counts3 o).1 then body3 o sv s' else some s' := by
  induction k with
  | zero =>
    intro s s' h
    simp only [run3, Option.some.injEq] at h
    subst h
    unfold run3
    split
    · cases hb : body3 o sv s with
      | none => rfl
      | some x => simp [run3]
    · rfl
  | succ k ih =>
    intro s s' h
    unfold run3 at h ⊢
    by_cases hn : s.n < (counts3 o).1
    · rw [if_pos hn] at h ⊢
      cases hb : body3 o sv s with
      | none => rw [hb] at h; cases h
      | some x => rw [hb] at h; exact ih x s' h
    · rw [if_neg hn] at h ⊢
      simp only [Option.some.injEq] at h
      subst h
      rw [if_neg hn]

theorem body3_ne (o : Opts) (sv : Solver Q A) (s : St Q A) : body3 o sv s ≠ some s := by
  intro h
  have key : ∀ (e n : Nat) (s1 s2 : St Q A), outputStep e (regridStep o sv n s1) = some s2 →
      s1.log.length ≤ s2.log.length := by
    intro e n s1 s2 h12
    have h8 := (regridStep_fields o sv n s1).2.2.2.2.2.2.2
    have h9 : s1.log.length ≤ (regridStep o sv n s1).log.length := by rw [h8]; simp
    unfold outputStep at h12
    split at h12
    · cases h12
    · split at h12
      · simp only [Option.some.injEq] at h12
        subst h12
        dsimp only
        rw [List.length_append]; omega
      · simp only [Option.some.injEq] at h12
        subst h12
        exact h9
  unfold body3 at h
  dsimp only at h
  generalize (if o.fixedDt then s.data else s.data.map (savePatch o.saveAux)) = data0 at h
  generalize (if !o.subcycle && o.advanceOneStep then s.dtMin / (o.levelFactor : ℚ)
    else s.dtMin) = dt at h
  split at h
  · simp only [Option.some.injEq] at h
    have := congrArg (fun x => x.log.length) h
    simp at this
  · have := key _ _ _ _ h
    simp at this

/-! ### Regridding in output style 1 -/

structure InvR (o : Opts) (s : St Q A) : Prop where
  acc : accepted s.log = s.nInner
  regrid : regrids s.log = regridAt o s.nInner
  at_ : Always (fun pre ev => ∀ n, ev = .regrid n → accepted pre = n) s.log

theorem invR_next (o : Opts) (sv : Solver Q A) (s : St Q A) (h : InvR o s) :
    InvR o (next1 o sv s) := by
  unfold next1
  split
  · obtain ⟨c, data0, _, hcase⟩ := inner1_cases o sv s
    rcases hcase with ⟨_, _, _, e1, e2, e3, e4, e5, e6, e7, e8⟩ |
        ⟨e1, e2, e3, e4, e5, e6, e7, d, r, e8, hd, hr⟩
    · refine ⟨?_, ?_, ?_⟩
      · rw [e8, e2, accepted_append, h.acc]; simp [accepted]
      · rw [e8, e2, regrids_append, h.regrid]; simp [regrids]
      · rw [e8]; exact always_snoc _ _ _ h.at_ (fun n hn => by cases hn)
    · have h1 : Always (fun pre ev => ∀ n, ev = .regrid n → accepted pre = n)
          (s.log ++ [.accept s.t (chooseStep o s).1 c] ++ d) := by
        have h2 : Always (fun pre ev => ∀ n, ev = .regrid n → accepted pre = n)
            (s.log ++ [.accept s.t (chooseStep o s).1 c]) :=
          always_snoc _ _ _ h.at_ (fun n hn => by cases hn)
        rcases hd with rfl | rfl
        · simpa using h2
        · exact always_snoc _ _ _ h2 (fun n hn => by cases hn)
      have h3 : accepted (s.log ++ [.accept s.t (chooseStep o s).1 c] ++ d) = s.nInner + 1 := by
        rw [accepted_append, accepted_append, h.acc]
        rcases hd with rfl | rfl <;> simp [accepted]
      have h4 : regrids (s.log ++ [.accept s.t (chooseStep o s).1 c] ++ d) = regridAt o s.nInner := by
        rw [regrids_append, regrids_append, h.regrid]
        rcases hd with rfl | rfl <;> simp [regrids]
      refine ⟨?_, ?_, ?_⟩
      · rw [e8, e2, accepted_append, h3, hr]; unfold regridEv; split <;> simp [accepted]
      · rw [e8, e2, regrids_append, h4, regridAt_succ, hr]
        unfold regridEv; split <;> simp [regrids]
      · rw [e8, hr]
        rcases regridEv_cases o (s.nInner + 1) with h5 | h5
        · rw [h5]; simpa using h1
        · rw [h5]
          refine always_snoc _ _ _ h1 (fun n hn => ?_)
          simp only [Ev.regrid.injEq] at hn
          rw [h3, hn]
  · refine ⟨?_, ?_, ?_⟩
    · dsimp only; rw [accepted_append, h.acc]; simp [accepted]
    · dsimp only; rw [regrids_append, h.regrid]; simp [regrids]
    · dsimp only
      rw [show s.log ++ [Ev.diagnostics false, Ev.frame (s.iframe + 1) s.t] =
        (s.log ++ [Ev.diagnostics false]) ++ [Ev.frame (s.iframe + 1) s.t] by simp]
      exact always_snoc _ _ _ (always_snoc _ _ _ h.at_ (fun n hn => by cases hn))
        (fun n hn => by cases hn)

theorem invR_run (o : Opts) (sv : Solver Q A) (k : Nat) :
    ∀ s : St Q A, InvR o s → InvR o (run1 o sv k s) := by
  induction k with
  | zero => intro s h; exact h
  | succ k ih =>
    intro s h
    unfold run1
    split
    · exact ih _ (invR_next o sv s h)
    · exact h

theorem invR_start (o : Opts) (data : List (Patch Q A)) : InvR o (start1 o data) := by
  refine ⟨by simp [start1, accepted], by simp [start1, regrids, regridAt], ?_⟩
  exact always_snoc _ [.diagnostics true] (.frame 0 0)
    (always_snoc _ [] _ (always_nil _) (fun n hn => by cases hn)) (fun n hn => by cases hn)

/-! ### Termination -/

theorem run1_mono (o : Opts) (sv : Solver Q A) (s : St Q A) (hn : s.n < o.nout)
    (h : ∃ k, (run1 o sv k (next1 o sv s)).n = o.nout) : ∃ k, (run1 o sv k s).n = o.nout := by
  obtain ⟨k, hk⟩ := h
  exact ⟨k + 1, by unfold run1; rw [if_pos hn]; exact hk⟩

theorem want_scale (o : Opts) (ho : Good o) (s s' : St Q A) (r : ℚ) (h : s'.dtMin = s.dtMin * r) :
    want o s' = want o s * r := by
  unfold want; rw [h]; split
  · ring
  · rfl

/-- The data C61 needs: the reported CFL number is at most `lam * dt`. -/
structure Control (o : Opts) (sv : Solver Q A) (lam : ℚ) : Prop where
  var : o.fixedDt = false
  des : 0 < o.desiredCfl
  lt : o.desiredCfl < o.maxCfl
  lamPos : 0 < lam
  cpos : ∀ log data t dt, 0 < sv.cfl log data t dt
  cle : ∀ log data t dt, 0 < dt → sv.cfl log data t dt ≤ lam * dt

theorem finish1 (o : Opts) (ho : Good o) (sv : Solver Q A) (lam : ℚ) (hc : Control o sv lam)
    (L : ℚ) (hL : 0 < L) (hL2 : L * (101 / 100 * lam) ≤ o.desiredCfl) (w : Nat) :
    ∀ s : St Q A, Inv1 o s → L ≤ want o s →
      (o.tfinal - s.t) + (o.nout - s.n) * L ≤ w * L → ∃ k, (run1 o sv k s).n = o.nout := by
  have hnq : (0 : ℚ) < o.nout := by exact_mod_cast ho.nout
  have hTq : (o.nout : ℚ) * (o.tfinal / o.nout) = o.tfinal := by field_simp
  have hmax : 0 < o.maxCfl := lt_trans hc.des hc.lt
  have hend : ∀ s : St Q A, Inv1 o s → s.n < o.nout → s.tend ≤ o.tfinal := by
    intro s h hn
    rw [h.tend]
    have h1 : (s.n : ℚ) + 1 ≤ o.nout := by exact_mod_cast hn
    have h2 := mul_le_mul_of_nonneg_right h1 (le_of_lt ho.outer)
    linarith
  induction w with
  | zero =>
    intro s h _ hw
    refine ⟨0, ?_⟩
    by_contra hne
    have hn : s.n < o.nout := lt_of_le_of_ne h.le hne
    have h1 := hend s h hn
    have h2 := h.hi
    have h3 : (1 : ℚ) ≤ o.nout - s.n := by
      have : (s.n : ℚ) + 1 ≤ o.nout := by exact_mod_cast hn
      linarith
    have h4 : L ≤ (o.nout - s.n) * L := by
      have := mul_le_mul_of_nonneg_right h3 (le_of_lt hL); linarith
    push_cast at hw
    linarith
  | succ w ih =>
    have hframe : ∀ s : St Q A, Inv1 o s → L ≤ want o s → s.n < o.nout → ¬ s.t < s.tend →
        (o.tfinal - s.t) + (o.nout - s.n) * L ≤ ((w : ℚ) + 1) * L →
        ∃ k, (run1 o sv k s).n = o.nout := by
      intro s h hw hn hlt hm
      refine run1_mono o sv s hn (ih _ (inv1_frame o ho sv s h hn hlt) ?_ ?_)
      · unfold next1 want; rw [if_neg hlt]; exact hw
      · unfold next1; rw [if_neg hlt]; push_cast; linarith
    have inner : ∀ (b : Nat) (s : St Q A), Inv1 o s → L ≤ want o s →
        want o s * (o.desiredCfl / o.maxCfl) ^ b < L →
        (o.tfinal - s.t) + (o.nout - s.n) * L ≤ ((w : ℚ) + 1) * L →
        ∃ k, (run1 o sv k s).n = o.nout := by
      intro b
      induction b with
      | zero => intro s h hw hb; simp at hb; exfalso; linarith
      | succ b ihb =>
        intro s h hw hb hm
        by_cases hn : s.n < o.nout
        swap
        · exact ⟨0, le_antisymm h.le (not_lt.mp hn)⟩
        by_cases hlt : s.t < s.tend
        swap
        · exact hframe s h hw hn hlt hm
        have hinv := inv1_inner o ho hc.var hc.des sv hc.cpos s h hn hlt
        have hnext : next1 o sv s = inner1 o sv s := by unfold next1; rw [if_pos hlt]
        obtain ⟨hs1, hs2, hs3, hs4, hs5⟩ := chooseStep_var o ho hc.var s h.dt hlt
        have hwp := want_pos o ho s h.dt
        obtain ⟨c, data0, hcc, hcase⟩ := inner1_cases o sv s
        have hcpos : 0 < c := by rw [hcc]; exact hc.cpos _ _ _ _
        have hcle : c ≤ lam * (chooseStep o s).1 := by rw [hcc]; exact hc.cle _ _ _ _ hs1
        have hcle2 : c ≤ lam * (101 / 100 * want o s) :=
          le_trans hcle (mul_le_mul_of_nonneg_left hs3 (le_of_lt hc.lamPos))
        -- the new step size is not too small
        have hnew : L ≤ want o s * (o.desiredCfl / c) := by
          rw [← mul_div_assoc, le_div_iff₀ hcpos]
          calc L * c ≤ L * (lam * (101 / 100 * want o s)) :=
                mul_le_mul_of_nonneg_left hcle2 (le_of_lt hL)
            _ = (L * (101 / 100 * lam)) * want o s := by ring
            _ ≤ o.desiredCfl * want o s := mul_le_mul_of_nonneg_right hL2 (le_of_lt hwp)
            _ = want o s * o.desiredCfl := by ring
        rcases hcase with ⟨hcm, _, _, e1, e2, e3, e4, e5, e6, e7, e8⟩ |
            ⟨e1, e2, e3, e4, e5, e6, e7, d, r, e8, hd, hr⟩
        · -- rejected
          have hsc : want o (inner1 o sv s) = want o s * (o.desiredCfl / c) :=
            want_scale o ho s _ _ (by rw [e7]; ring)
          refine run1_mono o sv s hn ?_
          rw [hnext]
          refine ihb _ hinv (by rw [hsc]; exact hnew) ?_ (by rw [e4, e1]; exact hm)
          rw [hsc]
          refine lt_of_le_of_lt ?_ hb
          rw [pow_succ]
          have h5 : o.desiredCfl / c ≤ o.desiredCfl / o.maxCfl :=
            div_le_div_of_nonneg_left (le_of_lt hc.des) hmax (le_of_lt hcm)
          have h6 : 0 ≤ (o.desiredCfl / o.maxCfl) ^ b := by have := hc.des; positivity
          calc want o s * (o.desiredCfl / c) * (o.desiredCfl / o.maxCfl) ^ b
              ≤ want o s * (o.desiredCfl / o.maxCfl) * (o.desiredCfl / o.maxCfl) ^ b :=
                mul_le_mul_of_nonneg_right
                  (mul_le_mul_of_nonneg_left h5 (le_of_lt hwp)) h6
            _ = want o s * ((o.desiredCfl / o.maxCfl) ^ b * (o.desiredCfl / o.maxCfl)) := by ring
        · -- accepted
          have hw' : L ≤ want o (inner1 o sv s) := by
            by_cases hb2 : (chooseStep o s).2 = true
            · have : want o (inner1 o sv s) = want o s := by
                rw [want_scale o ho s _ 1 (by rw [e7, hb2]; simp)]; ring
              rw [this]; exact hw
            · have : want o (inner1 o sv s) = want o s * (o.desiredCfl / c) :=
                want_scale o ho s _ _ (by rw [e7]; simp [hb2, hc.var]; ring)
              rw [this]; exact hnew
          refine run1_mono o sv s hn ?_
          rw [hnext]
          by_cases hfull : L ≤ (chooseStep o s).1
          · refine ih _ hinv hw' ?_
            rw [e4, e1]; push_cast; linarith
          · have hte : s.t + (chooseStep o s).1 = s.tend := by
              rcases hs5 with h5 | h5
              · exfalso; rw [h5] at hfull; exact hfull hw
              · exact h5
            refine hframe _ hinv hw' (by rw [e1]; exact hn) ?_ ?_
            · rw [e4, e5, hte]; exact lt_irrefl _
            · rw [e4, e1]; linarith
    intro s h hw hm
    have hrho : o.desiredCfl / o.maxCfl < 1 := (div_lt_one hmax).mpr hc.lt
    have hwp := want_pos o ho s h.dt
    obtain ⟨b, hb⟩ := exists_pow_lt_of_lt_one (div_pos hL hwp) hrho
    refine inner b s h hw ?_ (by push_cast at hm; exact hm)
    rw [lt_div_iff₀ hwp] at hb
    linarith

/-- Length of the step of output style 3. -/
def want3 (o : Opts) (s : St Q A) : ℚ :=
  if !o.subcycle && o.advanceOneStep then s.dtMin / (o.levelFactor : ℚ) else s.dtMin

theorem run3_mono (o : Opts) (sv : Solver Q A) (s s' : St Q A) (hn : s.n < (counts3 o).1)
    (hb : body3 o sv s = some s')
    (h : ∃ k s'', run3 o sv k s' = some s'' ∧ s''.n = (counts3 o).1) :
    ∃ k s'', run3 o sv k s = some s'' ∧ s''.n = (counts3 o).1 := by
  obtain ⟨k, s'', hk⟩ := h
  exact ⟨k + 1, s'', by unfold run3; rw [if_pos hn, hb]; exact hk⟩

theorem finish3 (o : Opts) (hfac : 0 < o.levelFactor) (sv : Solver Q A) (lam : ℚ)
    (hc : Control o sv lam) (he : 0 < (counts3 o).2)
    (L : ℚ) (hL : 0 < L) (hL2 : L * lam ≤ o.desiredCfl) (w : Nat) :
    ∀ s : St Q A, Inv3 o (counts3 o).2 (counts3 o).1 s → L ≤ want3 o s →
      (counts3 o).1 - s.n ≤ w → ∃ k s', run3 o sv k s = some s' ∧ s'.n = (counts3 o).1 := by
  have hmax : 0 < o.maxCfl := lt_trans hc.des hc.lt
  have hscale : ∀ (s s' : St Q A) (r : ℚ), s'.dtMin = s.dtMin * r → want3 o s' = want3 o s * r := by
    intro s s' r h
    unfold want3; rw [h]; split
    · ring
    · rfl
  induction w with
  | zero =>
    intro s h _ hw
    exact ⟨0, s, rfl, by have := h.le; omega⟩
  | succ w ih =>
    have inner : ∀ (b : Nat) (s : St Q A), Inv3 o (counts3 o).2 (counts3 o).1 s → L ≤ want3 o s →
        want3 o s * (o.desiredCfl / o.maxCfl) ^ b < L → (counts3 o).1 - s.n ≤ w + 1 →
        ∃ k s', run3 o sv k s = some s' ∧ s'.n = (counts3 o).1 := by
      intro b
      induction b with
      | zero => intro s h hw hb; simp at hb; exfalso; linarith
      | succ b ihb =>
        intro s h hw hb hm
        by_cases hn : s.n < (counts3 o).1
        swap
        · exact ⟨0, s, rfl, by have := h.le; omega⟩
        obtain ⟨s', hbody, hinv, data0, dt, c, hdt, hcc, hcase⟩ := inv3_body o he sv s h hn
        have hdt : dt = want3 o s := hdt
        have hwp : 0 < want3 o s := lt_of_lt_of_le hL hw
        have hcpos : 0 < c := by rw [hcc]; exact hc.cpos _ _ _ _
        have hcle : c ≤ lam * want3 o s := by
          rw [hcc, hdt]; exact hc.cle _ _ _ _ hwp
        have hnew : L ≤ want3 o s * (o.desiredCfl / c) := by
          rw [← mul_div_assoc, le_div_iff₀ hcpos]
          calc L * c ≤ L * (lam * want3 o s) :=
                mul_le_mul_of_nonneg_left hcle (le_of_lt hL)
            _ = (L * lam) * want3 o s := by ring
            _ ≤ o.desiredCfl * want3 o s := mul_le_mul_of_nonneg_right hL2 (le_of_lt hwp)
            _ = want3 o s * o.desiredCfl := by ring
        refine run3_mono o sv s s' hn hbody ?_
        rcases hcase with ⟨hcm, _, _, e1, e2⟩ | ⟨e1, e2⟩
        · have hsc : want3 o s' = want3 o s * (o.desiredCfl / c) :=
            hscale s _ _ (by rw [e2]; ring)
          refine ihb _ hinv (by rw [hsc]; exact hnew) ?_ (by rw [e1]; exact hm)
          rw [hsc]
          refine lt_of_le_of_lt ?_ hb
          rw [pow_succ]
          have h5 : o.desiredCfl / c ≤ o.desiredCfl / o.maxCfl :=
            div_le_div_of_nonneg_left (le_of_lt hc.des) hmax (le_of_lt hcm)
          have h6 : 0 ≤ (o.desiredCfl / o.maxCfl) ^ b := by have := hc.des; positivity
          calc want3 o s * (o.desiredCfl / c) * (o.desiredCfl / o.maxCfl) ^ b
              ≤ want3 o s * (o.desiredCfl / o.maxCfl) * (o.desiredCfl / o.maxCfl) ^ b :=
                mul_le_mul_of_nonneg_right
                  (mul_le_mul_of_nonneg_left h5 (le_of_lt hwp)) h6
            _ = want3 o s * ((o.desiredCfl / o.maxCfl) ^ b * (o.desiredCfl / o.maxCfl)) := by ring
        · have hsc : want3 o s' = want3 o s * (o.desiredCfl / c) :=
            hscale s _ _ (by rw [e2]; simp [hc.var]; ring)
          exact ih _ hinv (by rw [hsc]; exact hnew) (by omega)
    intro s h hw hm
    have hrho : o.desiredCfl / o.maxCfl < 1 := (div_lt_one hmax).mpr hc.lt
    have hwp : 0 < want3 o s := lt_of_lt_of_le hL hw
    obtain ⟨b, hb⟩ := exists_pow_lt_of_lt_one (div_pos hL hwp) hrho
    refine inner b s h hw ?_ hm
    rw [lt_div_iff₀ hwp] at hb
    linarith

end Fclaw.Run

/-
C76: complete runs do not depend on the number of processes and on how patches are distributed.

Not covered (see C47, C72, C74): time synchronisation at coarse-fine interfaces, patches that are not square, and what p4est does with the tags.
-/
import Verif.Invariance.Example
import Verif.Tag.Props

set_option autoImplicit false
set_option linter.unusedSimpArgs false
set_option linter.unusedVariables false
namespace Fclaw.Invariance

open Fort CopyGhost Transfer Adapt Metric Repopulate
open Fclaw.Domain (Path)

variable {K P : Type} [Field K] [CharZero K] {σ : Type}

theorem run_ready {S : Setting K P} (hS : S.Ok) {okay : Places → Prop} {R : Rules σ} (hR : R.Ok S okay) {np : Nat} (n : Nat) :
    ∀ {qs qs' : Places} {a b : σ} {D D' : Repopulate.World}, okay qs → Ready S qs D → Run R S np n qs a D qs' b D' → okay qs' ∧ Ready S qs' D' := by
  induction n with
  | zero =>
    intro qs qs' a b D D' hq h hr
    cases hr
    exact ⟨hq, h⟩
  | succ n ih =>
    intro qs qs' a b D D' hq h hr
    cases hr with
    | more _ _ qs1 _ _ a1 _ _ D1 _ h1 h2 =>
      obtain ⟨q1, r1⟩ := ih hq h h1
      exact turn_ready hS hR q1 r1 h2

/-- **C76.** Two runs of `n` turns of the main loop, with time steps that may be taken back, regridding and repartitioning, with the same rules and
the same solution at the beginning, on any numbers of processes, with patches distributed in any way at any time, processes running at any
relative speed, and any contents of new memory: the meshes, the times and time steps, and the solutions are the same. -/
theorem C76_same_partial (S : Setting K P) (hS : S.Ok) (okay : Places → Prop) (R : Rules σ) (hR : R.Ok S okay) (np np' : Nat) (h0 : 0 < np) (h0' : 0 < np')
    (n : Nat) (qs : Places) (hq : okay qs) (a : σ) (D D' : Repopulate.World) (hr : Ready S qs D) (hr' : Ready S qs D') (h : Alike R qs D D')
    (qs1 qs2 : Places) (a1 a2 : σ) (D1 D2 : Repopulate.World) (h1 : Run R S np n qs a D qs1 a1 D1) (h2 : Run R S np' n qs a D' qs2 a2 D2) :
    qs1 = qs2 ∧ a1 = a2 ∧ Alike R qs1 D1 D2 := by
  induction n generalizing qs1 qs2 a1 a2 D1 D2 with
  | zero =>
    cases h1
    cases h2
    exact ⟨rfl, rfl, h⟩
  | succ n ih =>
    cases h1 with
    | more _ _ q1 _ _ b1 _ _ E1 _ g1 t1 =>
      cases h2 with
      | more _ _ q2 _ _ b2 _ _ E2 _ g2 t2 =>
        obtain ⟨e1, e2, e3⟩ := ih _ _ _ _ _ _ g1 g2
        subst e1 e2
        obtain ⟨k1, r1⟩ := run_ready hS hR n hq hr g1
        obtain ⟨_, r2⟩ := run_ready hS hR n hq hr' g2
        exact turn_same hS hR h0 h0' k1 r1 r2 e3 t1 t2

/-- **C76**, and there always is a next turn: no step, regridding or repartitioning fails, wherever a run has got to. -/
theorem C76_progress_partial (S : Setting K P) (hS : S.Ok) (okay : Places → Prop) (R : Rules σ) (hR : R.Ok S okay) (np : Nat) (h0 : 0 < np) (n : Nat)
    (qs : Places) (hq : okay qs) (a : σ) (D : Repopulate.World) (hr : Ready S qs D) (qs1 : Places) (a1 : σ) (D1 : Repopulate.World)
    (h1 : Run R S np n qs a D qs1 a1 D1) (hm : Nonempty P) : ∃ qs2 a2 D2, Turn R S np qs1 a1 D1 qs2 a2 D2 := by
  obtain ⟨k1, r1⟩ := run_ready hS hR n hq hr h1
  obtain ⟨bes, hb⟩ := distribution_exists h0 (R.events qs1 D1)
  obtain ⟨cut, hc⟩ := cuts_exists h0 ((R.events qs1 D1).map newPatches)
  obtain ⟨z⟩ := hm
  exact turn_exists hS hR k1 r1 (fun _ => 0) (fun _ _ => h0) bes hb cut cut hc hc (fun _ => 0) (fun _ _ => h0)
    (fun _ _ _ => ⟨fun _ => 0, fun _ => 0, fun _ => z⟩) (fun _ _ => ⟨fun _ => 0, fun _ => 0, fun _ => z⟩)

/-- **C76**, the tagging routines of the library: they read only cells that have been filled, unless three blocks meet in a corner of the patch. -/
theorem C76_refine_partial (sc : Scene) (G : Parallel.Good sc.B sc.M sc.sched) (x : Nat) (hx : x ∈ sc.M.patches)
    (hc : ∀ k : Nat, k < 4 → sc.B.count x k ≠ 3) (g g' : Grid ℚ) (h : sc.Same x g g') (env : Tag.Env) (sh : Tag.Shared) (hd : sh.dims = sc.B.d) (xl yl : ℚ) :
    Tag.tag4refinement env sh ⟨g, xl, yl⟩ = Tag.tag4refinement env sh ⟨g', xl, yl⟩ :=
  refine_same _ _ _ _ (by rw [hd]; exact rd_same G hx hc h) rfl rfl

theorem C76_coarsen_partial (sc : Scene) (G : Parallel.Good sc.B sc.M sc.sched) (x : Nat → Nat) (hx : ∀ n, n < 4 → x n ∈ sc.M.patches)
    (hc : ∀ n, n < 4 → ∀ k : Nat, k < 4 → sc.B.count (x n) k ≠ 3) (g g' : Nat → Grid ℚ) (h : ∀ n, n < 4 → sc.Same (x n) (g n) (g' n)) (env : Tag.Env)
    (sh : Tag.Shared) (hd : sh.dims = sc.B.d) (xl yl : Nat → ℚ) :
    Tag.tag4coarsening env sh ⟨g 0, xl 0, yl 0⟩ ⟨g 1, xl 1, yl 1⟩ ⟨g 2, xl 2, yl 2⟩ ⟨g 3, xl 3, yl 3⟩ =
    Tag.tag4coarsening env sh ⟨g' 0, xl 0, yl 0⟩ ⟨g' 1, xl 1, yl 1⟩ ⟨g' 2, xl 2, yl 2⟩ ⟨g' 3, xl 3, yl 3⟩ :=
  coarsen_same env sh (fun n => ⟨g n, xl n, yl n⟩) (fun n => ⟨g' n, xl n, yl n⟩)
    (fun n hn => ⟨by rw [hd]; exact rd_same G (hx n hn) (hc n hn) (h n hn), rfl, rfl⟩)

/-- Where three blocks meet in a corner, the routines read ghost cells that nothing fills: whether a patch is tagged depends on what happens to be
there. Here all cells that are filled have the value 0; in the corner is a larger value or not. -/
theorem C76_tags_counterexample : ∃ (sc : Scene) (x : Nat) (g g' : Grid ℚ) (env : Tag.Env) (sh : Tag.Shared),
    Parallel.Good sc.B sc.M sc.sched ∧ x ∈ sc.M.patches ∧ sh.dims = sc.B.d ∧ sc.Same x g g' ∧ env.criterion = .value ∧ 0 < sh.threshold ∧
    Tag.tag4refinement env sh ⟨g, 0, 0⟩ = some 0 ∧ Tag.tag4refinement env sh ⟨g', 0, 0⟩ = some 1 := by
  refine ⟨⟨tMesh, fun x => (x, []), tProblem, tSched⟩, 0, fun _ => 0, fun c => if c = (5, 5, 1) then 2 else 0, ⟨.value, 1, none⟩,
    ⟨tDims, 0, 1 / 4, 1 / 4, 1, 0⟩, tGood, by decide, rfl, ?_, rfl, by norm_num, ?_, ?_⟩
  · intro i j m hf hm
    have : ¬ (i = 5 ∧ j = 5) := by
      rintro ⟨rfl, rfl⟩
      rcases hf with h | ⟨f, hf, h, _⟩ | ⟨k, hk, h, hd⟩
      · exact absurd h (by unfold CopyGhost.interior; decide)
      · interval_cases f <;> revert h <;> simp only [inStrip] <;> decide
      · have : k = 3 := by
          interval_cases k <;> first | rfl | (revert h; unfold inCorner; decide)
        subst this
        simp only [GhostFill.DueCorner] at hd
        obtain ⟨f, y, rf, g, hf, h, _⟩ := hd
        interval_cases f <;> cases h
    beta_reduce
    rw [if_neg (fun e => this ⟨congrArg Prod.fst e, congrArg (fun c : Cell => c.2.1) e⟩)]
  · obtain ⟨t, e, h1, h2⟩ := Tag.C52_refine ⟨.value, 1, none⟩ ⟨tDims, 0, 1 / 4, 1 / 4, 1, 0⟩ ⟨fun _ => 0, 0, 0⟩
      ⟨by decide, by decide, by decide, by decide, by decide⟩ trivial
    rw [e]
    rcases h1 with h | h
    · rw [h]
    · exfalso
      rcases h2.1 h with h | ⟨p, hp, i, j, _, hm⟩
      · norm_num at h
      · rw [List.mem_singleton] at hp
        subst hp
        have hm' : (1 : ℚ) < 0 := hm
        norm_num at hm'
  · obtain ⟨t, e, h1, h2⟩ := Tag.C52_refine ⟨.value, 1, none⟩ ⟨tDims, 0, 1 / 4, 1 / 4, 1, 0⟩ ⟨fun c => if c = (5, 5, 1) then 2 else 0, 0, 0⟩
      ⟨by decide, by decide, by decide, by decide, by decide⟩ trivial
    rw [e, h2.2 (Or.inr ⟨_, List.mem_singleton.2 rfl, 5, 5, by unfold Tag.IsCell; decide, ?_⟩)]
    show (1 : ℚ) < if ((5 : ℤ), (5 : ℤ), (1 : ℤ)) = (5, 5, 1) then 2 else 0
    norm_num

/-- The hypotheses: four patches, of which the last is refined in the first turn. There are runs of any length, on one and on three processes. -/
example : rRules.Ok rSetting rOkay ∧ rSetting.Ok ∧ rOkay uPlaces ∧ Ready rSetting uPlaces (rWorld 0) ∧ Ready rSetting uPlaces (rWorld 7) ∧
    Alike rRules uPlaces (rWorld 0) (rWorld 7) ∧ rWorld 0 ≠ rWorld 7 ∧
    rRules.adaptNow (0, 0) = some (0, 1) ∧ (rRules.events uPlaces (rWorld 0)).map newPatches = Lifetime.exMesh ∧ ¬ NoChange (rRules.events uPlaces (rWorld 0)) ∧
    ∀ n, (∃ qs a D, Run rRules rSetting 1 n uPlaces (0, 0) (rWorld 0) qs a D) ∧ ∃ qs a D, Run rRules rSetting 3 n uPlaces (0, 0) (rWorld 7) qs a D := by
  have tag : Tag.tag4refinement rTags (rShared 1) ⟨(rWorld 0 0 [3]).q, 0, 0⟩ = some 1 := by
    obtain ⟨t, e, h1, h2⟩ := Tag.C52_refine rTags (rShared 1) ⟨(rWorld 0 0 [3]).q, 0, 0⟩ ⟨by decide, by decide, by decide, by decide, by decide⟩ trivial
    rw [e, h2.2 (Or.inr ⟨_, List.mem_singleton.2 rfl, 5, 5, by unfold Tag.IsCell; decide, ?_⟩)]
    show (1 : ℚ) < if inBox rSetting.d (5, 5, 1) = true then ((5 : ℤ) : ℚ) else 0
    rw [if_pos (by decide)]
    norm_num
  have ev : rRules.events uPlaces (rWorld 0) = [[.keep [0], .keep [1], .keep [2], .refine [3]]] := by
    have hm : decide (([3] : Path 4) ∈ uPlaces[0]?.getD []) = true := by decide
    simp only [Rules.events, rRules, if_true, hm, tag, decide_true, Bool.and_true]
  have al : Alike rRules uPlaces (rWorld 0) (rWorld 7) := by
    intro x hx i j m hf hm
    have hu : rRules.scene uPlaces = uScene := by simp only [rRules, if_true]
    rw [hu] at hf hm hx ⊢
    have hb : inBox rSetting.d (i, j, m) = true := by
      have hd : uScene.B.d = rSetting.d := rfl
      rw [hd] at hm
      have e : rSetting.d = ⟨8, 8, 2, 3⟩ := rfl
      rw [e] at hm ⊢
      obtain ⟨m1, m2⟩ := hm
      have hm2 : m ≤ 3 := m2
      simp only [inBox, Bool.and_eq_true, decide_eq_true_eq]
      rcases hf with h | ⟨f, hf, h, _⟩ | ⟨k, hk, h, _⟩
      · have h' : 1 ≤ i ∧ i ≤ 8 ∧ 1 ≤ j ∧ j ≤ 8 := h
        norm_num
        omega
      · have h' : inStrip ⟨8, 8, 2, 3⟩ f i j := h
        norm_num
        interval_cases f <;> simp only [inStrip] at h' <;> norm_num at h' <;> omega
      · have h' : inCorner ⟨8, 8, 2, 3⟩ k i j := h
        norm_num
        interval_cases k <;> simp [inCorner] at h' <;> omega
    simp only [rWorld, hb, if_true]
  have runs : ∀ np, 0 < np → ∀ junk n, ∃ qs a D, Run rRules rSetting np n uPlaces (0, 0) (rWorld junk) qs a D := by
    intro np h0 junk n
    induction n with
    | zero => exact ⟨_, _, _, .zero _ _ _⟩
    | succ n ih =>
      obtain ⟨qs, a, D, h⟩ := ih
      obtain ⟨qs2, a2, D2, t⟩ := C76_progress_partial rSetting rSetting_ok rOkay rRules rRules_ok np h0 n uPlaces (Or.inl rfl) _ _ (rReady _ _) _ _ _ h ⟨(0, 0)⟩
      exact ⟨qs2, a2, D2, .more n _ _ _ _ _ _ _ _ _ h t⟩
  refine ⟨rRules_ok, rSetting_ok, Or.inl rfl, rReady _ _, rReady _ _, al, ?_, rfl, ?_, ?_, fun n => ⟨runs 1 (by omega) 0 n, runs 3 (by omega) 7 n⟩⟩
  · intro h
    have := congrFun (congrArg Repopulate.Patch.q (congrFun (congrFun h 0) [])) (100, 0, 0)
    simp only [rWorld] at this
    rw [if_neg (by decide), if_neg (by decide)] at this
    norm_num at this
  · rw [ev]; decide
  · rw [ev]
    intro h
    obtain ⟨q, e⟩ := h _ (List.mem_singleton.2 rfl) (.refine [3]) (by simp)
    cases e

end Fclaw.Invariance

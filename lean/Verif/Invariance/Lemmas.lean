/-
Lemmas for C76.
-/
import Verif.Invariance.Spec
import Verif.Lifetime.Props
import Verif.Repopulate.Props
import Verif.Parallel.Props

set_option autoImplicit false
set_option linter.unusedSimpArgs false
set_option linter.unusedVariables false
set_option linter.unusedSectionVars false
namespace Fclaw.Invariance

open Fort CopyGhost Transfer Adapt Metric Repopulate
open Fclaw.Domain (Path)

variable {K P : Type} [Field K] [CharZero K] {σ : Type}

theorem map_getD (f : List (Event 4) → List (Path 4)) (hf : f [] = []) (E : List (List (Event 4))) (i : Nat) :
    (E.map f)[i]?.getD [] = f (E[i]?.getD []) := by
  rw [List.getElem?_map]; cases E[i]? <;> simp [hf]

theorem fresh_with {S : Setting K P} {i : Nat} {q : Path 4} {p : Patch} (g : Grid ℚ) (h : Valid S i q p ∧ FreshReg S i q p) :
    Valid S i q { p with q := g } ∧ FreshReg S i q { p with q := g } := h

theorem takes_ready {S : Setting K P} {sc : Scene} {qs : Places} (hF : sc.Fits S qs) {o : Nat → Nat} {D D' : Repopulate.World}
    {w : Nat → Parallel.Proc} (hT : Takes sc o D D' w) (h : Ready S qs D) : Ready S qs D' := by
  intro i q hq
  obtain ⟨x, hx, e⟩ := (hF.all i q).1 hq
  have := hT x hx
  rw [e] at this
  dsimp only at this
  rw [this]
  exact fresh_with _ (h i q hq)

theorem legal_of {S : Setting K P} {okay : Places → Prop} {R : Rules σ} (hR : R.Ok S okay) {qs : Places} (hq : okay qs)
    {D D1 : Repopulate.World} (h : Ready S qs D) : Legal S (R.events qs D1) D := by
  have eo : (R.events qs D1).map oldPatches = qs := hR.old qs hq _ _
  have en : okay ((R.events qs D1).map newPatches) := hR.new qs hq _ _
  have go : ∀ i : Nat, oldPatches ((R.events qs D1)[i]?.getD []) = qs[i]?.getD [] := by
    intro i
    rw [← map_getD oldPatches rfl, eo]
  refine ⟨fun i => ?_, fun i q hi => ?_, fun i q hi => ?_, fun i q hi => ?_⟩
  · rw [← map_getD newPatches rfl]; exact hR.once _ en i
  · rw [go] at hi; exact (h i q hi).1
  · rw [go] at hi; exact hR.level qs hq i q hi
  · rw [← map_getD newPatches rfl] at hi; exact hR.level _ en i q hi

/-- Regridding leaves patches in order. -/
theorem regridded_ready {S : Setting K P} (hS : S.Ok) {okay : Places → Prop} {R : Rules σ} (hR : R.Ok S okay) {qs : Places} (hq : okay qs)
    {D N : Repopulate.World} (h : Ready S qs D) {np : Nat} {bes : Nat → List (List (Event 4))} {mem : Nat → Nat → Nat → Memory P}
    (hd : Distribution np (R.events qs D) bes) (hr : Regridded S false np bes mem D N) : Ready S ((R.events qs D).map newPatches) N := by
  intro i q hi
  have hL := legal_of hR hq (D1 := D) h
  rw [map_getD newPatches rfl] at hi
  refine ⟨C74_valid_partial S hS false np _ bes hd mem D N hL hr i q hi, ?_⟩
  obtain ⟨e, he, hqe⟩ := List.mem_flatMap.1 hi
  have hb := C74_events_partial S hS np _ bes hd mem D N hL hr i e he
  cases e with
  | keep r =>
    simp only [Event.new, List.mem_singleton] at hqe
    subst hqe
    have hb' : N i q = D i q := hb
    rw [hb']
    refine (h i q ?_).2
    have eo : (R.events qs D).map oldPatches = qs := hR.old qs hq _ _
    rw [← eo, map_getD oldPatches rfl]
    exact List.mem_flatMap.2 ⟨_, he, by simp [Event.old]⟩
  | refine r =>
    simp only [Event.new, children_eq, List.mem_cons, List.not_mem_nil, or_false] at hqe
    rcases hqe with rfl | rfl | rfl | rfl
    · exact (hb.1 0 (by omega) (by omega)).2
    · exact (hb.1 1 (by omega) (by omega)).2
    · exact (hb.1 2 (by omega) (by omega)).2
    · exact (hb.1 3 (by omega) (by omega)).2
  | coarsen r =>
    simp only [Event.new, List.mem_singleton] at hqe
    subst hqe
    exact hb.1.2

theorem repartitioned_ready {S : Setting K P} (hS : S.Ok) {qs : Places} (hl : ∀ i : Nat, ∀ q ∈ qs[i]?.getD [], q.length ≤ S.maxlevel)
    {N N' : Repopulate.World} (h : Ready S qs N) {np : Nat} {cut cut' : Nat → Nat} {mem : Nat → Path 4 → Memory P}
    (hc : Lifetime.Cuts np qs cut) (hc' : Lifetime.Cuts np qs cut') (hr : Lifetime.Repartitioned S mem np cut cut' qs N N') :
    Ready S qs N' ∧ ∀ i : Nat, ∀ q ∈ qs[i]?.getD [], (N' i q).q = (N i q).q := by
  have mv := Lifetime.moved S hS mem hc hc' hl N N' hr
  refine ⟨fun i q hq => ?_, fun i q hq => ?_⟩
  · rcases mv i q hq with e | e
    · rw [e]; exact h i q hq
    · exact e.2
  · rcases mv i q hq with e | e
    · rw [e]
    · exact e.1

/-- What is in order stays so. -/
theorem turn_ready {S : Setting K P} (hS : S.Ok) {okay : Places → Prop} {R : Rules σ} (hR : R.Ok S okay) {np : Nat} {qs qs' : Places}
    {a b : σ} {D D' : Repopulate.World} (hq : okay qs) (h : Ready S qs D) (ht : Turn R S np qs a D qs' b D') : okay qs' ∧ Ready S qs' D' := by
  cases ht with
  | accept _ _ _ _ o w w' mc c _ _ _ _ _ _ hT => exact ⟨hq, takes_ready (hR.fits qs hq) hT h⟩
  | reject => exact ⟨hq, h⟩
  | unchanged => exact ⟨hq, h⟩
  | regrid _ _ _ _ N N' _ bes mem cut cut' mem' o w w' _ _ e hd hr hc hc' hp _ _ _ hT =>
    have en : okay qs' := by rw [e]; exact hR.new qs hq _ _
    have r1 := regridded_ready hS hR hq h hd hr
    rw [← e] at r1
    exact ⟨en, takes_ready (hR.fits _ en) hT (repartitioned_ready hS (hR.level _ en) r1 hc hc' hp).1⟩

/-- The tags are the same. -/
theorem events_same {S : Setting K P} {okay : Places → Prop} {R : Rules σ} (hR : R.Ok S okay) {qs : Places} (hq : okay qs)
    {D D' : Repopulate.World} (h : Alike R qs D D') : R.events qs D = R.events qs D' := by
  have hF := hR.fits qs hq
  unfold Rules.events
  congr 1
  · funext i q
    by_cases hi : q ∈ qs[i]?.getD []
    · obtain ⟨x, hx, e⟩ := (hF.all i q).1 hi
      have := hR.refineReads qs hq x hx _ _ (h x hx)
      rw [e] at this
      dsimp only at this
      rw [this]
    · simp [hi]
  · funext i q
    by_cases hi : isFamily qs i q = true
    · have hm : ∀ n, ∃ x, n < 4 → x ∈ (R.scene qs).M.patches ∧ (R.scene qs).place x = (i, child q n) := by
        intro n
        by_cases hn : n < 4
        · unfold isFamily at hi
          rw [List.all_eq_true] at hi
          have := hi n (List.mem_range.2 hn)
          rw [decide_eq_true_eq] at this
          obtain ⟨x, hx, e⟩ := (hF.all i _).1 this
          exact ⟨x, fun _ => ⟨hx, e⟩⟩
        · exact ⟨0, fun h => absurd h hn⟩
      choose x hx using hm
      have := hR.coarsenReads qs hq i q x hx (fun n => (D i (child q n)).q) (fun n => (D' i (child q n)).q) (fun n hn => by
        have := h (x n) (hx n hn).1
        rw [(hx n hn).2] at this
        exact this)
      rw [this]
    · simp [hi]

theorem near_filled {S : Setting K P} (hS : S.Ok) {sc : Scene} {qs : Places} (hF : sc.Fits S qs) {x : Nat} (hx : x ∈ sc.M.patches) {i j : ℤ}
    (h : nearby S.d i j) : sc.filled x i j := by
  have hm := hS.mbc
  rw [← hF.dims] at h hm
  unfold nearby at h
  by_cases hi : interior sc.B.d i j
  · exact Or.inl hi
  · right
    left
    unfold CopyGhost.interior at hi
    have due : ∀ f, f < 4 → GhostFill.DueStrip sc.M sc.sched.globalMinlevel false x f := fun f hf => Parallel.strip_due hF.good hx hf
    by_cases h0 : i = 0
    · exact ⟨0, by omega, by simp only [inStrip]; omega, due 0 (by omega)⟩
    by_cases h1 : i = sc.B.d.mx + 1
    · exact ⟨1, by omega, by simp only [inStrip]; omega, due 1 (by omega)⟩
    by_cases h2 : j = 0
    · exact ⟨2, by omega, by simp only [inStrip]; omega, due 2 (by omega)⟩
    · exact ⟨3, by omega, by simp only [inStrip]; omega, due 3 (by omega)⟩

theorem ghost_filled {S : Setting K P} {sc : Scene} {qs : Places} (hF : sc.Fits S qs) {np : Nat} {o : Nat → Nat}
    (ho : ∀ x ∈ sc.M.patches, o x < np) {t : ℚ} {w w' : Nat → Parallel.Proc}
    (h : Parallel.Together sc.B (sc.on o) np (.ghost sc.sched.globalMinlevel sc.sched.globalMaxlevel t false) w w') :
    Parallel.Filled sc.B sc.M sc.sched.globalMinlevel false (Parallel.view (sc.on o) w) (Parallel.view (sc.on o) w') := by
  have F := Parallel.together_filled (M := sc.on o) hF.good.sizes (GhostAll.owner_ok hF.good.mesh o) (GhostAll.owner_fits hF.good.fits o) ho
    hF.good.options.2.1 (fun x hx => (hF.good.levels x hx).2) h
  exact ⟨F.last, F.cfl, F.cur, F.int, fun x hx hl i j mq hd hm =>
    GhostAll.expected_owner (M := sc.on o) sc.M.owner (F.ghost x hx hl i j mq hd hm)⟩

/-- After the ghost update, patches are alike if their interiors were. -/
theorem ghost_same {S : Setting K P} {sc : Scene} {qs : Places} (hF : sc.Fits S qs) {np np' : Nat} {o o' : Nat → Nat}
    (ho : ∀ x ∈ sc.M.patches, o x < np) (ho' : ∀ x ∈ sc.M.patches, o' x < np') {t t' : ℚ} {w w' u u' : Nat → Parallel.Proc}
    (h : Parallel.Together sc.B (sc.on o) np (.ghost sc.sched.globalMinlevel sc.sched.globalMaxlevel t false) w w')
    (h' : Parallel.Together sc.B (sc.on o') np' (.ghost sc.sched.globalMinlevel sc.sched.globalMaxlevel t' false) u u')
    (hs : ∀ x ∈ sc.M.patches, ∀ i j m, interior sc.B.d i j → comp sc.B.d m → (w (o x)).g x false (i, j, m) = (u (o' x)).g x false (i, j, m)) :
    ∀ x ∈ sc.M.patches, sc.Same x ((w' (o x)).g x false) ((u' (o' x)).g x false) := by
  have F := ghost_filled hF ho h
  have F' := ghost_filled hF ho' h'
  intro x hx i j m hfil hm
  have G := hF.good
  rcases hfil with hi | hd
  · have e1 := F.cur x hx i j m hi hm
    have e2 := F'.cur x hx i j m hi hm
    have e3 := hs x hx i j m hi hm
    exact e1.trans (e3.trans e2.symm)
  · have hl := (G.levels x hx).1
    have E := F.ghost x hx hl i j m hd hm
    have E' := F'.ghost x hx hl i j m hd hm
    refine GhostAll.expected_unique G.sizes G.mesh G.fits (Parallel.expected_depends
      (I' := Parallel.stateOf (Parallel.view (sc.on o') u)) G.sizes G.mesh G.fits ?_ (fun h => by cases h) hx rfl E) _ E'
    intro y hy a b hin
    exact hs y hy a b m hin hm

/-- Two turns from the same solution. -/
theorem turn_same {S : Setting K P} (hS : S.Ok) {okay : Places → Prop} {R : Rules σ} (hR : R.Ok S okay) {np np' : Nat} (h0 : 0 < np) (h0' : 0 < np')
    {qs qs1 qs2 : Places} {a b b' : σ} {D D' D1 D1' : Repopulate.World} (hq : okay qs) (hr : Ready S qs D) (hr' : Ready S qs D')
    (h : Alike R qs D D') (ht : Turn R S np qs a D qs1 b D1) (ht' : Turn R S np' qs a D' qs2 b' D1') :
    qs1 = qs2 ∧ b = b' ∧ Alike R qs1 D1 D1' := by
  have hF := hR.fits qs hq
  have step : ∀ (o o' : Nat → Nat) (w w1 w' w1' : Nat → Parallel.Proc) (mc mc' : Nat → ℚ) (c c' : ℚ),
      (∀ x ∈ (R.scene qs).M.patches, o x < np) → (∀ x ∈ (R.scene qs).M.patches, o' x < np') → Holds (R.scene qs) o D w → Holds (R.scene qs) o' D' w' →
      Parallel.GlobalStep (R.scene qs).B ((R.scene qs).on o) np (R.scene qs).sched (R.control.time a) (R.control.dt a) w w1 mc →
      Parallel.GlobalStep (R.scene qs).B ((R.scene qs).on o') np' (R.scene qs).sched (R.control.time a) (R.control.dt a) w' w1' mc' →
      Parallel.Largest np mc c → Parallel.Largest np' mc' c' →
      c = c' ∧ ∀ x ∈ (R.scene qs).M.patches, (R.scene qs).Same x ((w1 (o x)).g x false) ((w1' (o' x)).g x false) := by
    intro o o' w w1 w' w1' mc mc' c c' ho ho' hh hh' g g' hc hc'
    have hw : Parallel.SameSolution (R.scene qs).B (R.scene qs).M (R.scene qs).sched o o' w w' := by
      intro x hx i j mq hd hm
      rw [hh x hx, hh' x hx]
      exact h x hx i j mq hd hm
    obtain ⟨s1, s2⟩ := Parallel.C72_same hF.good h0 h0' o o' ho ho' _ _ (hR.dt a) w w1 w' w1' mc mc' hw g g'
    exact ⟨s2 c c' hc hc', fun x hx i j m hd hm => s1 x hx i j m hd hm⟩
  cases ht with
  | accept _ _ _ _ o w w1 mc c a1 a2 a3 a4 a5 a6 a7 =>
    cases ht' with
    | accept _ _ _ _ o' w' w1' mc' c' b1 b2 b3 b4 b5 b6 b7 =>
      obtain ⟨e, s⟩ := step o o' w w1 w' w1' mc mc' c c' a2 b2 a3 b3 a4 b4 a5 b5
      subst e
      rw [a6] at b6
      refine ⟨rfl, (Prod.mk.inj b6).2, fun x hx => ?_⟩
      rw [a7 x hx, b7 x hx]
      exact s x hx
    | reject _ _ _ o' w' w1' mc' c' b1 b2 b3 b4 b5 b6 =>
      obtain ⟨e, s⟩ := step o o' w w1 w' w1' mc mc' c c' a2 b2 a3 b3 a4 b4 a5 b5
      subst e
      rw [a6] at b6
      cases b6
    | unchanged _ _ _ b1 => rw [a1] at b1; cases b1
    | regrid _ _ _ _ N N' _ bes mem cut cut' mem' o' w' w1' b1 => rw [a1] at b1; cases b1
  | reject _ _ _ o w w1 mc c a1 a2 a3 a4 a5 a6 =>
    cases ht' with
    | accept _ _ _ _ o' w' w1' mc' c' b1 b2 b3 b4 b5 b6 b7 =>
      obtain ⟨e, s⟩ := step o o' w w1 w' w1' mc mc' c c' a2 b2 a3 b3 a4 b4 a5 b5
      subst e
      rw [a6] at b6
      cases b6
    | reject _ _ _ o' w' w1' mc' c' b1 b2 b3 b4 b5 b6 =>
      obtain ⟨e, s⟩ := step o o' w w1 w' w1' mc mc' c c' a2 b2 a3 b3 a4 b4 a5 b5
      subst e
      rw [a6] at b6
      exact ⟨rfl, (Prod.mk.inj b6).2, h⟩
    | unchanged _ _ _ b1 => rw [a1] at b1; cases b1
    | regrid _ _ _ _ N N' _ bes mem cut cut' mem' o' w' w1' b1 => rw [a1] at b1; cases b1
  | unchanged _ _ _ a1 a2 =>
    have ee := events_same hR hq h
    cases ht' with
    | accept _ _ _ _ o' w' w1' mc' c' b1 => rw [a1] at b1; cases b1
    | reject _ _ _ o' w' w1' mc' c' b1 => rw [a1] at b1; cases b1
    | unchanged _ _ _ b1 b2 =>
      rw [a1] at b1
      exact ⟨rfl, Option.some.inj b1, h⟩
    | regrid _ _ _ _ N N' _ bes mem cut cut' mem' o' w' w1' b1 b2 => rw [← ee] at b2; exact absurd a2 b2
  | regrid _ _ _ _ N N1 _ bes mem cut cut1 mem1 o w w1 a1 a2 a3 a4 a5 a6 a7 a8 a9 a10 a11 a12 =>
    have ee := events_same hR hq h
    cases ht' with
    | accept _ _ _ _ o' w' w1' mc' c' b1 => rw [a1] at b1; cases b1
    | reject _ _ _ o' w' w1' mc' c' b1 => rw [a1] at b1; cases b1
    | unchanged _ _ _ b1 b2 => rw [← ee] at b2; exact absurd b2 a2
    | regrid _ _ _ _ N' N1' _ bes' mem' cut' cut1' mem1' o' w' w1' b1 b2 b3 b4 b5 b6 b7 b8 b9 b10 b11 b12 =>
      rw [a1] at b1
      rw [← ee, ← a3] at b3
      subst b3
      have en : okay qs2 := by rw [a3]; exact hR.new qs hq _ _
      have hF1 := hR.fits _ en
      refine ⟨rfl, Option.some.inj b1, ?_⟩
      have r1 := regridded_ready hS hR hq hr a4 a5
      have r1' := regridded_ready hS hR hq hr' b4 b5
      rw [← a3] at r1
      rw [← ee, ← a3] at r1'
      obtain ⟨_, p1⟩ := repartitioned_ready hS (hR.level _ en) r1 a6 a7 a8
      obtain ⟨_, p1'⟩ := repartitioned_ready hS (hR.level _ en) r1' b6 b7 b8
      have hL := legal_of hR hq (D1 := D) hr
      have hL' := legal_of hR hq (D1 := D) hr'
      rw [← ee] at b4
      have eo : (R.events qs D).map oldPatches = qs := hR.old qs hq _ _
      have around : ∀ i : Nat, ∀ q ∈ oldPatches ((R.events qs D)[i]?.getD []), SameAround S (D i q) (D' i q) := by
        intro i q hi
        rw [← map_getD oldPatches rfl, eo] at hi
        obtain ⟨x, hx, e⟩ := (hF.all i q).1 hi
        refine ⟨fun s t m hm hn => ?_, fresh_same hS (hr i q hi) (hr' i q hi)⟩
        have := h x hx s t m (near_filled hS hF hx hn) (by rw [hF.dims]; exact hm)
        rw [e] at this
        exact this
      have same := C74_same_partial S hS false _ np np' bes bes' a4 b4 mem mem' D D' N N' hL hL' around a5 b5
      intro x hx
      rw [a12 x hx, b12 x hx]
      refine ghost_same hF1 a9 b9 a11 b11 (fun y hy s t m hin hm => ?_) x hx
      rw [a10 y hy, b10 y hy]
      have hy' := (hF1.all (((R.scene qs2).place y).1) (((R.scene qs2).place y).2)).2 ⟨y, hy, rfl⟩
      rw [p1 _ _ hy', p1' _ _ hy']
      have hz : ∀ (i : Nat) (q : Path 4), q ∈ qs2[i]?.getD [] → q ∈ newPatches ((R.events qs D)[i]?.getD []) := by
        intro i q hi
        rw [a3, map_getD newPatches rfl] at hi
        exact hi
      rw [hF1.dims] at hin hm
      exact (same _ _ (hz _ _ hy')).q s t m hm hin

/-! ### Turns can be carried out -/

/-- The world with the solution of the owners. -/
theorem takes_exists {S : Setting K P} {sc : Scene} {qs : Places} (hF : sc.Fits S qs) (o : Nat → Nat) (D : Repopulate.World) (w : Nat → Parallel.Proc) :
    ∃ D', Takes sc o D D' w := by
  classical
  refine ⟨fun i q => if h : ∃ x ∈ sc.M.patches, sc.place x = (i, q) then { D i q with q := (w (o h.choose)).g h.choose false } else D i q, ?_⟩
  intro x hx
  have h : ∃ y ∈ sc.M.patches, sc.place y = ((sc.place x).1, (sc.place x).2) := ⟨x, hx, rfl⟩
  have e : h.choose = x := hF.inj _ h.choose_spec.1 x hx h.choose_spec.2
  beta_reduce
  rw [dif_pos h, e]

/-- What the owners have. -/
def procs (sc : Scene) (D : Repopulate.World) : Nat → Parallel.Proc := fun _ => ⟨fun x _ => (D (sc.place x).1 (sc.place x).2).q, fun _ _ => 0, fun _ => 0⟩

theorem procs_holds (sc : Scene) (o : Nat → Nat) (D : Repopulate.World) : Holds sc o D (procs sc D) := fun _ _ => rfl

theorem largest_exists (np : Nat) (mc : Nat → ℚ) : ∃ c, Parallel.Largest np mc c := by
  obtain ⟨c, h⟩ := Parallel.isMax_exists (List.range np) (fun _ => True) mc
  exact ⟨c, Wave.IsMax.congr h (fun v => by simp)⟩

theorem good_owner {B : Parallel.Problem} {M : GhostFill.Mesh} {S : Advance.Setup} (G : Parallel.Good B M S) (o : Nat → Nat) :
    Parallel.Good B { M with owner := o } S :=
  ⟨G.sizes, G.room, GhostAll.owner_ok G.mesh _, GhostAll.owner_fits G.fits _, G.levels, G.options, G.nosync, G.usable, G.setting, G.dx, G.capa, G.corners⟩

theorem ghost_exists {S : Setting K P} {sc : Scene} {qs : Places} (hF : sc.Fits S qs) (np : Nat) (o : Nat → Nat) (t : ℚ) (w : Nat → Parallel.Proc) :
    ∃ w', Parallel.Together sc.B (sc.on o) np (.ghost sc.sched.globalMinlevel sc.sched.globalMaxlevel t false) w w' := by
  have G := hF.good
  have H : ∀ p, ∃ fin, GhostAll.Update sc.B.d (sc.on o) sc.B.S (fun q => q) sc.sched.globalMinlevel sc.sched.globalMaxlevel false p (fun q => (w q).g) fin :=
    fun p => (GhostAll.C69_values sc.B.d G.sizes (sc.on o) (GhostAll.owner_ok G.mesh o) sc.B.S (GhostAll.owner_fits G.fits o) (fun q => q)
      (fun _ _ _ _ _ _ => rfl) _ _ (by exact_mod_cast G.options.2.1) (fun x hx => (G.levels x hx).2) false p _).1
  choose fin hfin using H
  exact ⟨fun p => ⟨fin p, (w p).last, (w p).cfl⟩, fun p _ => ⟨⟨fun q => q, fun _ _ _ _ _ _ => rfl, hfin p⟩, rfl, rfl⟩⟩

theorem turn_exists {S : Setting K P} (hS : S.Ok) {okay : Places → Prop} {R : Rules σ} (hR : R.Ok S okay) {np : Nat} {qs : Places}
    {a : σ} {D : Repopulate.World} (hq : okay qs) (h : Ready S qs D) (o : Nat → Nat) (ho : ∀ x ∈ (R.scene qs).M.patches, o x < np)
    (bes : Nat → List (List (Event 4))) (hd : Distribution np (R.events qs D) bes) (cut cut' : Nat → Nat)
    (hc : Lifetime.Cuts np ((R.events qs D).map newPatches) cut) (hc' : Lifetime.Cuts np ((R.events qs D).map newPatches) cut')
    (o' : Nat → Nat) (ho' : ∀ x ∈ (R.scene ((R.events qs D).map newPatches)).M.patches, o' x < np)
    (mem : Nat → Nat → Nat → Memory P) (mem' : Nat → Path 4 → Memory P) :
    ∃ qs' b D', Turn R S np qs a D qs' b D' := by
  have hF := hR.fits qs hq
  cases e : R.adaptNow a with
  | none =>
    have hlm : Parallel.Coarsest ((R.scene qs).on o) (R.scene qs).sched np (fun _ => (R.scene qs).sched.globalMinlevel) :=
      fun p _ => ⟨le_refl _, fun x hx _ => (hF.good.levels x hx).1⟩
    obtain ⟨w', mc, hst⟩ := Parallel.C72_exists (good_owner hF.good o) _ hlm (R.control.time a) (R.control.dt a) (hR.dt a) (procs (R.scene qs) D)
    obtain ⟨c, hcl⟩ := largest_exists np mc
    obtain ⟨D', hT⟩ := takes_exists hF o D w'
    cases en : R.control.next a c with
    | mk r b =>
      cases r with
      | false => exact ⟨qs, b, D', .accept qs a b D D' o _ w' mc c e ho (procs_holds _ _ _) ⟨_, hlm, hst⟩ hcl en hT⟩
      | true => exact ⟨qs, b, D, .reject qs a b D o _ w' mc c e ho (procs_holds _ _ _) ⟨_, hlm, hst⟩ hcl en⟩
  | some b =>
    by_cases hn : NoChange (R.events qs D)
    · exact ⟨qs, b, D, .unchanged qs a b D e hn⟩
    · have en : okay ((R.events qs D).map newPatches) := hR.new qs hq _ _
      obtain ⟨N, hN⟩ := C74_progress_partial S hS false np _ bes hd mem D (legal_of hR hq h)
      obtain ⟨⟨N', hN'⟩, _⟩ := Lifetime.C75_partition_partial S hS mem' np _ (hR.once _ en) (hR.level _ en) cut cut' hc hc' N
      have hF' := hR.fits _ en
      obtain ⟨w', hw⟩ := ghost_exists hF' np o' (R.control.time a) (procs (R.scene ((R.events qs D).map newPatches)) N')
      obtain ⟨D', hT⟩ := takes_exists hF' o' N' w'
      exact ⟨_, b, D', .regrid qs _ a b D N N' D' bes mem cut cut' mem' o' _ w' e hn rfl hd hN hc hc' hN' ho' (procs_holds _ _ _) hw hT⟩

/-- Some distribution. -/
theorem distribution_exists {np : Nat} (h0 : 0 < np) (E : List (List (Event 4))) : ∃ bes, Distribution np E bes := by
  refine ⟨fun p => if p = 0 then E else E.map fun _ => [], fun p _ => by split <;> simp, fun i => ?_⟩
  obtain ⟨n, rfl⟩ : ∃ n, np = n + 1 := ⟨np - 1, by omega⟩
  rw [List.range_succ_eq_map, List.flatMap_cons, List.flatMap_map]
  have : ((List.range n).flatMap fun p => (if p + 1 = 0 then E else E.map fun _ => [])[i]?.getD []) = [] := by
    rw [List.flatMap_eq_nil_iff]
    intro p _
    rw [if_neg (by omega), List.getElem?_map]
    cases E[i]? <;> rfl
  simp only [Nat.succ_eq_add_one, if_pos, this, List.append_nil]

theorem cuts_exists {np : Nat} (h0 : 0 < np) (qs : Places) : ∃ cut, Lifetime.Cuts np qs cut :=
  ⟨fun p => if p = 0 then 0 else qs.flatten.length, fun p => by split <;> simp, rfl, by rw [if_neg (by omega)]⟩

/-! ### Tags -/

theorem box_filled {sc : Scene} (G : Parallel.Good sc.B sc.M sc.sched) {x : Nat} (hx : x ∈ sc.M.patches) (hc : ∀ k : Nat, k < 4 → sc.B.count x k ≠ 3) {i j m : ℤ}
    (h : inBox sc.B.d (i, j, m) = true) : sc.filled x i j ∧ comp sc.B.d m := by
  have b := h
  simp only [inBox, Bool.and_eq_true, decide_eq_true_eq] at b
  obtain ⟨⟨⟨⟨⟨b1, b2⟩, b3⟩, b4⟩, b5⟩, b6⟩ := b
  refine ⟨?_, ?_⟩
  swap
  · exact ⟨b5, b6⟩
  by_cases hi : interior sc.B.d i j
  · exact Or.inl hi
  right
  unfold CopyGhost.interior at hi
  have due : ∀ f, f < 4 → GhostFill.DueStrip sc.M sc.sched.globalMinlevel false x f := fun f hf => Parallel.strip_due G hx hf
  have dc : ∀ k, k < 4 → GhostFill.DueCorner sc.M sc.sched.globalMinlevel false x k := fun k hk =>
    (Parallel.corner_due G hx hk).resolve_right (hc k hk)
  by_cases u : i < 1 <;> by_cases u' : i > sc.B.d.mx <;> by_cases v : j < 1 <;> by_cases v' : j > sc.B.d.my
  all_goals first
    | (exfalso; omega)
    | exact Or.inl ⟨0, by omega, by simp only [inStrip]; omega, due 0 (by omega)⟩
    | exact Or.inl ⟨1, by omega, by simp only [inStrip]; omega, due 1 (by omega)⟩
    | exact Or.inl ⟨2, by omega, by simp only [inStrip]; omega, due 2 (by omega)⟩
    | exact Or.inl ⟨3, by omega, by simp only [inStrip]; omega, due 3 (by omega)⟩
    | exact Or.inr ⟨0, by omega, by simp [inCorner]; omega, dc 0 (by omega)⟩
    | exact Or.inr ⟨1, by omega, by simp [inCorner]; omega, dc 1 (by omega)⟩
    | exact Or.inr ⟨2, by omega, by simp [inCorner]; omega, dc 2 (by omega)⟩
    | exact Or.inr ⟨3, by omega, by simp [inCorner]; omega, dc 3 (by omega)⟩

theorem rd_same {sc : Scene} (G : Parallel.Good sc.B sc.M sc.sched) {x : Nat} (hx : x ∈ sc.M.patches) (hc : ∀ k : Nat, k < 4 → sc.B.count x k ≠ 3) {g g' : Grid ℚ}
    (h : sc.Same x g g') : rd sc.B.d g = rd sc.B.d g' := by
  funext ⟨i, j, m⟩
  unfold rd
  split
  · rename_i hb
    obtain ⟨h1, h2⟩ := box_filled G hx hc hb
    rw [h i j m h1 h2]
  · rfl

theorem cellStep_same (env : Tag.Env) (sh : Tag.Shared) (p p' : Tag.Patch) (h : rd sh.dims p.q = rd sh.dims p'.q) (hx : p.xlower = p'.xlower) (hy : p.ylower = p'.ylower) :
    Tag.cellStep env sh p Tag.fillQuad = Tag.cellStep env sh p' Tag.fillQuad ∧ Tag.cellStep env sh p Tag.fillQuad' = Tag.cellStep env sh p' Tag.fillQuad' := by
  have h1 : Tag.componentStep sh.dims p.q = Tag.componentStep sh.dims p'.q := by
    funext i j mq s; simp only [Tag.componentStep, h]
  have h2 : Tag.quadStep sh.dims p.q = Tag.quadStep sh.dims p'.q := by
    funext i j ii jj mq s; simp only [Tag.quadStep, h]
  constructor <;> funext i j s <;> simp only [Tag.cellStep, Tag.fillQuad, Tag.fillQuad', h1, h2, hx, hy]

theorem refine_same (env : Tag.Env) (sh : Tag.Shared) (p p' : Tag.Patch) (h : rd sh.dims p.q = rd sh.dims p'.q) (hx : p.xlower = p'.xlower) (hy : p.ylower = p'.ylower) :
    Tag.tag4refinement env sh p = Tag.tag4refinement env sh p' := by
  have hf : Tag.firstStep sh.dims p.q = Tag.firstStep sh.dims p'.q := by
    funext mq s; simp only [Tag.firstStep, h]
  simp only [Tag.tag4refinement, Tag.fortTag4refinement, hf, (cellStep_same env sh p p' h hx hy).1]

theorem coarsen_same (env : Tag.Env) (sh : Tag.Shared) (p p' : Nat → Tag.Patch)
    (h : ∀ n < 4, rd sh.dims (p n).q = rd sh.dims (p' n).q ∧ (p n).xlower = (p' n).xlower ∧ (p n).ylower = (p' n).ylower) :
    Tag.tag4coarsening env sh (p 0) (p 1) (p 2) (p 3) = Tag.tag4coarsening env sh (p' 0) (p' 1) (p' 2) (p' 3) := by
  have hf : Tag.firstStep sh.dims (p 0).q = Tag.firstStep sh.dims (p' 0).q := by
    funext mq s; simp only [Tag.firstStep, (h 0 (by omega)).1]
  have ht : ∀ n < 4, Tag.testRefine env sh (p n) = Tag.testRefine env sh (p' n) := by
    intro n hn
    obtain ⟨h1, h2, h3⟩ := h n hn
    funext s
    simp only [Tag.testRefine, (cellStep_same env sh _ _ h1 h2 h3).2]
  simp only [Tag.tag4coarsening, Tag.fortTag4coarsening, Tag.testAll, hf, ht 0 (by omega), ht 1 (by omega), ht 2 (by omega), ht 3 (by omega)]

end Fclaw.Invariance

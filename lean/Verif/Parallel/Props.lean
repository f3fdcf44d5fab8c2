import Verif.Parallel.Exist
import Verif.GhostAll.Props
import Mathlib.Tactic.NormNum
import Mathlib.Tactic.Linarith
import Mathlib.Tactic.Positivity
/-
C72: a global time step gives the same solution and CFL number however the patches are distributed among processes,
whatever the processes do at the same time, and no process waits for ever.
-/
set_option autoImplicit false
set_option linter.unusedSimpArgs false
set_option linter.unusedVariables false
namespace Fclaw.Parallel

open Fort Transform GhostFill CopyGhost Advance

variable {B : Problem} {M : Mesh} {S : Advance.Setup}

/-! ### Helpers -/

theorem serial_owner (o : Nat → Nat) (L : List Ev) : ∀ (v v' : Nat → Pst), Serial B { M with owner := o } L v v' → Serial B M L v v' := by
  induction L with
  | nil => intro v v' h; exact h
  | cons e L ih =>
    rintro v v' ⟨v1, h1, h2⟩
    refine ⟨v1, ?_, ih v1 v' h2⟩
    cases e with
    | update l t dt c => exact h1
    | interp l α => exact h1
    | sync lo hi => exact h1
    | ghost lo hi t ti =>
      have F : Filled B { M with owner := o } lo ti v v1 := h1
      exact ⟨F.last, F.cfl, F.cur, F.int, fun x hx hl i j mq hd hm =>
        GhostAll.expected_owner (M := { M with owner := o }) M.owner (F.ghost x hx hl i j mq hd hm)⟩

/-- A run on several processes is one through the reference schedule. -/
theorem step_serial (G : Good B M S) (o : Nat → Nat) {P : Nat} (h0 : 0 < P) (hP : ∀ x ∈ M.patches, o x < P) {t dt : ℚ} (hdt : 0 < dt)
    {w w' : Nat → Proc} {mc : Nat → ℚ} (h : GlobalStep B { M with owner := o } P S t dt w w' mc) {L : List Ev} (hL : Ref M S t dt L) :
    Serial B M L (fun x => ⟨(w (o x)).g x false, (w (o x)).g x true, (w (o x)).last x, 0⟩) (view { M with owner := o } w') ∧
    ∀ c, Largest P mc c → Wave.IsMax (fun v => ∃ x ∈ M.patches, v = (view { M with owner := o } w' x).cfl) c := by
  obtain ⟨lm, hlm, cfl, logs, h1, h2⟩ := h
  have R := exec_rounds h2
  have hmesh := GhostAll.owner_ok G.mesh o
  refine ⟨?_, ?_⟩
  · have := rounds_serial (M := { M with owner := o }) (lm := lm) (m := S.globalMaxlevel) G.sizes hmesh
      (GhostAll.owner_fits G.fits o) hP h0 (fun x hx => (hlm _ (hP x hx)).2 x hx rfl) R L
      (fun p hp => hL.filter (lm p) (hlm p hp).1 _ _ _ (h1 p hp)) hL.fit
    exact serial_owner o L _ _ this
  · intro c hc
    have := largest_patch (M := { M with owner := o }) hP R (fun _ _ _ => rfl) (c := c) (by
      have he : ∀ p, p < P → mc p = maxCfl (logs p) := fun p hp =>
        C59_cfl { S with localMinlevel := lm p } ⟨G.options.1, G.options.2.1, G.options.2.2, (hlm p hp).1⟩ t dt hdt _ _ _ (h1 p hp)
      obtain ⟨c0, c1, c2⟩ := hc
      refine ⟨c0, ?_, ?_⟩
      · rintro v ⟨p, hp, rfl⟩; rw [← he p hp]; exact c1 _ ⟨p, hp, rfl⟩
      · rcases c2 with c2 | ⟨p, hp, h⟩
        · exact Or.inl c2
        · exact Or.inr ⟨p, hp, by rw [← he p hp]; exact h⟩)
    exact this

/-! ### Theorems -/

/-- **C72.** Two global steps of the same size, with patches distributed in any way among any numbers of processes, and
processes running at any relative speed: if they start with the same solution, they end with the same solution, and
the largest CFL number is the same. -/
theorem C72_same (G : Good B M S) {P P' : Nat} (h0 : 0 < P) (h0' : 0 < P') (o o' : Nat → Nat)
    (ho : ∀ x ∈ M.patches, o x < P) (ho' : ∀ x ∈ M.patches, o' x < P') (t dt : ℚ) (hdt : 0 < dt)
    (w w1 w' w1' : Nat → Proc) (mc mc' : Nat → ℚ) (hw : SameSolution B M S o o' w w')
    (h : GlobalStep B { M with owner := o } P S t dt w w1 mc) (h' : GlobalStep B { M with owner := o' } P' S t dt w' w1' mc') :
    SameSolution B M S o o' w1 w1' ∧ ∀ c c', Largest P mc c → Largest P' mc' c' → c = c' := by
  obtain ⟨L, hL⟩ := ref_exists G t dt hdt
  obtain ⟨s1, m1⟩ := step_serial G o h0 ho hdt h hL
  obtain ⟨s2, m2⟩ := step_serial G o' h0' ho' hdt h' hL
  have sim0 : Sim B M S (fun l => trackOf l []) (fun x => ⟨(w (o x)).g x false, (w (o x)).g x true, (w (o x)).last x, 0⟩)
      (fun x => ⟨(w' (o' x)).g x false, (w' (o' x)).g x true, (w' (o' x)).last x, 0⟩) := by
    intro x hx l hl
    refine ⟨fun i j mq hi hm => hw x hx i j mq (Or.inl hi) hm, fun _ i j mq hd hm => hw x hx i j mq (Or.inr hd) hm, ?_, ?_, rfl⟩
    · intro h; exact absurd (show false = true from h) (by decide)
    · intro h; exact absurd (show false = true from h) (by decide)
  have htrack : Always (TrackOk { S with localMinlevel := S.globalMinlevel }) L := hL.track
  have G0 : Good B M { S with localMinlevel := S.globalMinlevel } := { G with }
  have sim0' : Sim B M { S with localMinlevel := S.globalMinlevel } (fun l => trackOf l [])
      (fun x => ⟨(w (o x)).g x false, (w (o x)).g x true, (w (o x)).last x, 0⟩)
      (fun x => ⟨(w' (o' x)).g x false, (w' (o' x)).g x true, (w' (o' x)).last x, 0⟩) := fun x hx l hl =>
    ⟨(sim0 x hx l hl).cur, (sim0 x hx l hl).due, (sim0 x hx l hl).last, (sim0 x hx l hl).int, (sim0 x hx l hl).cfl⟩
  have sim := sim_serial G0 rfl L [] _ _ _ _ htrack sim0' s1 s2
  rw [List.nil_append] at sim
  have lev : ∀ x ∈ M.patches, ∃ l : Nat, M.level x = (l : Int) := fun x hx =>
    Int.eq_ofNat_of_zero_le (by have := (G.levels x hx).1; omega)
  refine ⟨?_, ?_⟩
  · intro x hx i j mq hd hm
    obtain ⟨l, hl⟩ := lev x hx
    have s := sim x hx l hl
    rcases hd with hd | hd
    · exact s.cur i j mq hd hm
    · refine s.due ?_ i j mq hd hm
      obtain ⟨L', t', rfl⟩ := hL.ends
      beta_reduce
      rw [trackOf_snoc]
      simp only [Track.step, decide_eq_true_eq]
      have := (G.levels x hx).1
      omega
  · intro c c' hc hc'
    refine isMax_unique (B := B) (M := M) (S := S) G (fun v => ?_) (m1 c hc) (m2 c' hc')
    refine exists_congr fun x => and_congr_right fun hx => ?_
    obtain ⟨l, hl⟩ := lev x hx
    rw [(sim x hx l hl).cfl]

/-- **C72**, no deadlock: however far the processes have come, they can complete the step. What each has done so far
is the beginning of what `fclaw2d_advance_all_levels` makes it do. -/
theorem C72_progress (G : Good B M S) {P : Nat} (lm : Nat → Nat) (hlm : Coarsest M S P lm) (t dt : ℚ) (hdt : 0 < dt)
    (w w1 : Nat → Proc) (done : Nat → List Ev) (hr : Reach B M P done w w1)
    (hd : ∀ p, p < P → ∃ cfl log mc, advanceAllLevels { S with localMinlevel := lm p } cfl t dt = some (log, mc) ∧ done p <+: log) :
    ∃ (rest : Nat → List Ev) (w' : Nat → Proc) (cfl : Nat → List Ev → ℚ) (mc : Nat → ℚ), Exec B M P rest w1 w' ∧
      Exec B M P (fun p => done p ++ rest p) w w' ∧
      ∀ p, p < P → advanceAllLevels { S with localMinlevel := lm p } (cfl p) t dt = some (done p ++ rest p, mc p) := by
  obtain ⟨L, hL⟩ := ref_exists G t dt hdt
  have hT : ∀ p, ∃ T, p < P → (done p).map bare ++ T = L.filter (keep (lm p) S.globalMaxlevel) := by
    intro p
    by_cases hp : p < P
    · obtain ⟨cfl, log, mc, h1, r, h2⟩ := hd p hp
      refine ⟨r.map bare, fun _ => ?_⟩
      rw [← hL.filter (lm p) (hlm p hp).1 cfl log mc h1, ← h2, List.map_append]
    · exact ⟨[], fun h => absurd h hp⟩
  choose T hT using hT
  have hfilter : ∀ l : List Ev, (l.map bare).filter (fun e => !isLocal e) = l.filter (fun e => !isLocal e) := by
    intro l
    induction l with
    | nil => rfl
    | cons e l ih => cases e <;> rw [List.map_cons, List.filter_cons, List.filter_cons, ih] <;> rfl
  have hkeep : ∀ p, (L.filter (keep (lm p) S.globalMaxlevel)).filter (fun e => !isLocal e) = L.filter (fun e => !isLocal e) := by
    intro p
    rw [List.filter_filter]
    refine List.filter_congr fun e _ => ?_
    cases hl : isLocal e with
    | true => rfl
    | false => rw [keep_collective hl]; rfl
  have hC : ∀ p, p < P → (T p).filter (fun e => !isLocal e) = (T 0).filter (fun e => !isLocal e) := by
    intro p hp
    have e1 := congrArg (List.filter fun e => !isLocal e) (hT p hp)
    have e2 := congrArg (List.filter fun e => !isLocal e) (hT 0 (by omega))
    rw [List.filter_append, hkeep, hfilter] at e1 e2
    rw [reach_same hr p 0, ← e2] at e1
    exact List.append_cancel_left e1
  have hsub : ∀ p, p < P → ∀ e ∈ T p, e ∈ L := by
    intro p hp e he
    have : e ∈ L.filter (keep (lm p) S.globalMaxlevel) := by rw [← hT p hp]; simp [he]
    exact List.mem_of_mem_filter this
  rcases Nat.eq_zero_or_pos P with hP0 | hP0
  · subst hP0
    exact ⟨fun _ => [], w1, fun _ _ => 0, fun _ => 0, .done _ _ fun _ _ => rfl, reach_exec hr (.done _ _ fun _ _ => rfl), fun p hp => by omega⟩
  have hm0 : ∀ e ∈ (T 0).filter (fun e => !isLocal e), e ∈ L := fun e he => hsub 0 hP0 e (List.mem_of_mem_filter he)
  obtain ⟨rest, w', h1, h2⟩ := complete (P := P) G ((T 0).filter fun e => !isLocal e) (fun lo hi h => hL.nosync lo hi (hm0 _ h))
    (fun lo hi t ti h => hL.fit lo hi t ti (hm0 _ h)) T (fun p hp e he => hL.bare e (hsub p hp e he)) hC w1
  have hlog : ∀ p, ∃ cfl mc, p < P → advanceAllLevels { S with localMinlevel := lm p } cfl t dt = some (done p ++ rest p, mc) := by
    intro p
    by_cases hp : p < P
    · obtain ⟨cfl, mc, h⟩ := log_exists G hdt hL (lm p) (hlm p hp).1 (done p ++ rest p) (by
        rw [List.map_append, h2 p hp, hT p hp])
      exact ⟨cfl, mc, fun _ => h⟩
    · exact ⟨fun _ => 0, 0, fun h => absurd h hp⟩
  choose cfl mc hlog using hlog
  exact ⟨rest, w', cfl, mc, h1, reach_exec hr h1, fun p hp => hlog p hp⟩

/-- **C72**, in particular: there is such a step from every state. -/
theorem C72_exists (G : Good B M S) {P : Nat} (lm : Nat → Nat) (hlm : Coarsest M S P lm) (t dt : ℚ) (hdt : 0 < dt) (w : Nat → Proc) :
    ∃ w' mc, StepFrom B M P S lm t dt w w' mc := by
  obtain ⟨rest, w', cfl, mc, h1, _, h3⟩ := C72_progress G lm hlm t dt hdt _ _ _ (.start (fun p => ⟨(w p).g, (w p).last, fun _ => 0⟩))
    (fun p hp => by
      obtain ⟨log, mc, h⟩ := succeeds G (lm p) (hlm p hp).1 t dt hdt (fun _ => 0)
      exact ⟨_, log, mc, h, List.nil_prefix⟩)
  exact ⟨w', mc, cfl, rest, h3, h1⟩

/-- **C72** for a run of `n` steps, some of which may be taken back, where the size of the next step depends on the CFL
number: time, step size and solution are the same. -/
theorem C72_run (G : Good B M S) {P P' : Nat} (h0 : 0 < P) (h0' : 0 < P') (o o' : Nat → Nat)
    (ho : ∀ x ∈ M.patches, o x < P) (ho' : ∀ x ∈ M.patches, o' x < P') {σ : Type} (K : Control σ) (hK : ∀ a, 0 < K.dt a) (n : Nat) :
    ∀ (a b b' : σ) (w w1 w' w1' : Nat → Proc), SameSolution B M S o o' w w' →
      Steps B { M with owner := o } P S K n a w b w1 → Steps B { M with owner := o' } P' S K n a w' b' w1' →
      b = b' ∧ SameSolution B M S o o' w1 w1' := by
  induction n with
  | zero =>
    intro a b b' w w1 w' w1' hw h h'
    cases h; cases h'
    exact ⟨rfl, hw⟩
  | succ n ih =>
    intro a b b' w w1 w' w1' hw h h'
    cases h with
    | accept _ _ b1 _ _ u1 _ mc c g1 g2 g3 g4 =>
      cases h' with
      | accept _ _ b1' _ _ u1' _ mc' c' g1' g2' g3' g4' =>
        obtain ⟨e1, e2⟩ := C72_same G h0 h0' o o' ho ho' _ _ (hK a) _ _ _ _ _ _ hw g1 g1'
        have := e2 c c' g2 g2'
        subst this
        rw [g3] at g3'
        cases g3'
        exact ih _ _ _ _ _ _ _ e1 g4 g4'
      | reject _ _ b1' _ _ u1' v1' _ mc' c' g1' g2' g3' g4' g5' =>
        obtain ⟨e1, e2⟩ := C72_same G h0 h0' o o' ho ho' _ _ (hK a) _ _ _ _ _ _ hw g1 g1'
        have := e2 c c' g2 g2'
        subst this
        rw [g3] at g3'
        cases g3'
    | reject _ _ b1 _ _ u1 v1 _ mc c g1 g2 g3 g4 g5 =>
      cases h' with
      | accept _ _ b1' _ _ u1' _ mc' c' g1' g2' g3' g4' =>
        obtain ⟨e1, e2⟩ := C72_same G h0 h0' o o' ho ho' _ _ (hK a) _ _ _ _ _ _ hw g1 g1'
        have := e2 c c' g2 g2'
        subst this
        rw [g3] at g3'
        cases g3'
      | reject _ _ b1' _ _ u1' v1' _ mc' c' g1' g2' g3' g4' g5' =>
        obtain ⟨e1, e2⟩ := C72_same G h0 h0' o o' ho ho' _ _ (hK a) _ _ _ _ _ _ hw g1 g1'
        have := e2 c c' g2 g2'
        subst this
        rw [g3] at g3'
        cases g3'
        refine ih _ _ _ _ _ _ _ ?_ g5 g5'
        intro x hx i j mq hd hm
        have k1 : (v1 (o x)).g x false = (w (o x)).g x false := g4 x hx
        have k2 : (v1' (o' x)).g x false = (w' (o' x)).g x false := g4' x hx
        rw [k1, k2]
        exact hw x hx i j mq hd hm

/-! ### The hypotheses can be met -/

open GhostAll (exSetup)

def exCheck (x k : Nat) : Bool :=
  !(!isBoundary (lMesh.face x (faceX k)) && !isBoundary (lMesh.face x (faceY k)) && decide (lMesh.corner x k = .none)) ||
  [0, 1, 2, 3].any fun f => match lMesh.face x f with
    | .double _ _ _ h => decide (h = k)
    | _ => false

/-- Seven patches of two sizes, advection, second order with transverse waves, limiter, and capacities. -/
def exProblem : Problem where
  z := { mx := 8, my := 8, mbc := 2, meqn := 3, maux := 1, mwaves := 1 }
  o := { order := 2, trans := 2, lim := fun _ => 4, mcapa := 1 }
  R := fun _ => Wave.advection 1 1
  fw := false
  count := fun _ _ => 4
  dx := fun x => if x ≤ 2 then 1 / 16 else 1 / 32
  dy := fun x => if x ≤ 2 then 1 / 16 else 1 / 32
  aux := fun x t dt i j k => 1 + t * t
  width := 3
  S := exSetup

def exSched : Advance.Setup := ⟨true, false, false, 1, 3, 1, 2, 1⟩

theorem exGood : Good exProblem lMesh exSched := by
  have hc : ∀ x ∈ lMesh.patches, ∀ k < 4, exCheck x k = true := by decide
  constructor
  · exact GhostAll.exS_sizes
  · decide
  · exact lMesh_ok
  · exact GhostAll.exS_fits
  · decide
  · decide
  · rfl
  · exact ⟨Or.inr rfl, ⟨by decide, by decide⟩, fun w _ _ => ⟨by simp [exProblem], by simp [exProblem]⟩⟩
  · exact ⟨by decide, Or.inr ⟨by decide, by decide⟩⟩
  · intro x _
    simp only [exProblem]
    split <;> norm_num
  · intro x _ t dt i j _ _
    simp only [exProblem]
    have := mul_self_nonneg t
    intro h
    linarith
  · intro x hx k hk h1 h2 h3
    left
    have := hc x hx k hk
    simp only [exCheck, h1, h2, h3, Bool.not_false, Bool.true_and, decide_true, Bool.and_true, Bool.not_true, Bool.false_or,
      List.any_eq_true] at this
    obtain ⟨f, hf, h⟩ := this
    have hf4 : f < 4 := by simp at hf; omega
    cases e : lMesh.face x f with
    | double y rf g h' =>
      rw [e] at h
      have : h' = k := by simpa using h
      exact ⟨f, y, rf, g, hf4, by rw [e, this]⟩
    | boundary => rw [e] at h; simp at h
    | same => rw [e] at h; simp at h
    | half => rw [e] at h; simp at h

/-- The hypotheses of the theorems: on three processes, as in `lMesh`, and on two, with what the processes do not own
being different; the coarsest level of the third process is level 2. There are steps on three and on two processes. -/
example : Good exProblem lMesh exSched ∧ (∀ x ∈ lMesh.patches, lMesh.owner x < 3) ∧ (∀ x ∈ lMesh.patches, x % 2 < 2) ∧
    Coarsest lMesh exSched 3 (fun p => if p = 2 then 2 else 1) ∧ Coarsest { lMesh with owner := fun x => x % 2 } exSched 2 (fun _ => 1) ∧
    ∃ w w' w1 w1' mc mc', SameSolution exProblem lMesh exSched lMesh.owner (fun x => x % 2) w w' ∧ w 0 ≠ w' 0 ∧
      GlobalStep exProblem { lMesh with owner := lMesh.owner } 3 exSched 0 (1 / 16) w w1 mc ∧
      GlobalStep exProblem { lMesh with owner := fun x => x % 2 } 2 exSched 0 (1 / 16) w' w1' mc' := by
  have c1 : Coarsest lMesh exSched 3 (fun p => if p = 2 then 2 else 1) := by
    unfold Coarsest
    decide
  have c2 : Coarsest { lMesh with owner := fun x => x % 2 } exSched 2 (fun _ => 1) := by
    unfold Coarsest
    decide
  let g : Nat → Grid ℚ := fun x c => x + c.1 * c.2.1
  let w : Nat → Proc := fun p => ⟨fun x _ => if lMesh.owner x = p then g x else fun _ => 7, fun _ _ => 0, fun _ => 0⟩
  let w' : Nat → Proc := fun p => ⟨fun x _ => if x % 2 = p then g x else fun _ => 8, fun _ _ => 1, fun _ => 0⟩
  have g2 : Good exProblem { lMesh with owner := fun x => x % 2 } exSched :=
    ⟨exGood.sizes, exGood.room, GhostAll.owner_ok exGood.mesh _, GhostAll.owner_fits exGood.fits _, exGood.levels, exGood.options, exGood.nosync,
      exGood.usable, exGood.setting, exGood.dx, exGood.capa, exGood.corners⟩
  obtain ⟨w1, mc, h1⟩ := C72_exists exGood _ c1 0 (1 / 16) (by norm_num) w
  obtain ⟨w1', mc', h2⟩ := C72_exists g2 _ c2 0 (1 / 16) (by norm_num) w'
  refine ⟨exGood, by decide, by decide, c1, c2, w, w', w1, w1', mc, mc', ?_, ?_, ⟨_, c1, h1⟩, ⟨_, c2, h2⟩⟩
  · intro x _ i j mq _ _
    simp [w, w']
  · intro h
    have := congrFun (congrFun (congrArg Proc.last h) 0) (0, 0, 0)
    simp [w, w'] at this

/-- A control of the step size. -/
example : ∃ K : Control (ℚ × ℕ), (∀ a, 0 < K.dt a) ∧ (K.next (0, 0) 2).1 = true ∧ (K.next (0, 0) (1 / 2)).1 = false :=
  ⟨⟨fun a => a.1, fun a => 1 / 2 ^ a.2, fun a c => if 1 < c then (true, (a.1, a.2 + 1)) else (false, (a.1 + 1 / 2 ^ a.2, a.2))⟩,
    fun a => by positivity, by norm_num, by norm_num⟩

end Fclaw.Parallel

import Verif.Tag.Spec
import Verif.Fort.Loops
import Mathlib.Tactic.Ring
import Mathlib.Tactic.Linarith
import Mathlib.Tactic.FieldSimp
import Mathlib.Tactic.LinearCombination

set_option autoImplicit false
set_option linter.unusedSimpArgs false
set_option linter.unusedVariables false

namespace Fclaw.Tag

open Fclaw.Fort

/-! ### The loops over components -/

theorem first_loop (d : Dims) (q : Grid ℚ) (h : IsCell d 1 1) (ks : List ℤ)
    (hks : ∀ k ∈ ks, 1 ≤ k ∧ k ≤ d.meqn) : ∀ s : Scan,
    loop ks (firstStep d q) s = some { s with
      qmin := fun mq => if mq ∈ ks then some (q (1, 1, mq)) else s.qmin mq
      qmax := fun mq => if mq ∈ ks then some (q (1, 1, mq)) else s.qmax mq } := by
  induction ks with
  | nil => intro s; simp [loop]
  | cons k ks ih =>
    intro s
    have hb : inBox d (1, 1, k) = true := (inBox_iff d 1 1 k).2 ⟨h.1, h.2, hks k (by simp)⟩
    simp only [loop, firstStep, rd, hb, if_true, Option.bind_some]
    rw [ih (fun x hx => hks x (List.mem_cons_of_mem _ hx))]
    congr 1
    simp only [Scan.mk.injEq, true_and, and_true]
    constructor <;>
    · funext mq
      by_cases h1 : mq ∈ ks
      · simp [h1]
      · by_cases h2 : mq = k
        · subst h2; simp [h1, setAt]
        · simp [h1, h2, setAt]

theorem component_loop (d : Dims) (q : Grid ℚ) (i j : ℤ) (h : IsCell d i j) (ks : List ℤ)
    (hks : ∀ k ∈ ks, 1 ≤ k ∧ k ≤ d.meqn) : ∀ (s : Scan) (lo hi : ℤ → ℚ),
    (∀ k ∈ ks, s.qmin k = some (lo k)) → (∀ k ∈ ks, s.qmax k = some (hi k)) →
    loop ks (componentStep d q i j) s = some { s with
      qval := fun mq => if mq ∈ ks then some (q (i, j, mq)) else s.qval mq
      qmin := fun mq => if mq ∈ ks then some (min (lo mq) (q (i, j, mq))) else s.qmin mq
      qmax := fun mq => if mq ∈ ks then some (max (hi mq) (q (i, j, mq))) else s.qmax mq } := by
  induction ks with
  | nil => intro s lo hi _ _; simp [loop]
  | cons k ks ih =>
    intro s lo hi hlo hhi
    have hb : inBox d (i, j, k) = true := (inBox_iff d i j k).2 ⟨h.1, h.2, hks k (by simp)⟩
    simp only [loop, componentStep, rd, hb, if_true, hlo k (by simp), hhi k (by simp),
      Option.bind_some]
    rw [ih (fun x hx => hks x (List.mem_cons_of_mem _ hx)) _
      (fun x => if x = k then min (lo k) (q (i, j, k)) else lo x)
      (fun x => if x = k then max (hi k) (q (i, j, k)) else hi x)
      (by
        intro x hx
        dsimp only [setAt]
        by_cases hxk : x = k
        · subst hxk; simp
        · rw [if_neg hxk, if_neg hxk]; exact hlo x (List.mem_cons_of_mem _ hx))
      (by
        intro x hx
        dsimp only [setAt]
        by_cases hxk : x = k
        · subst hxk; simp
        · rw [if_neg hxk, if_neg hxk]; exact hhi x (List.mem_cons_of_mem _ hx))]
    congr 1
    simp only [Scan.mk.injEq, true_and, and_true]
    refine ⟨?_, ?_, ?_⟩ <;>
    · funext mq
      by_cases h1 : mq ∈ ks
      · by_cases h2 : mq = k
        · subst h2; simp [h1, setAt]
        · simp [h1, h2, setAt]
      · by_cases h2 : mq = k
        · subst h2; simp [h1, setAt]
        · simp [h1, h2, setAt]

theorem component_loop' (d : Dims) (q : Grid ℚ) (i j : ℤ) (h : IsCell d i j) (s : Scan)
    (lo hi : ℤ → ℚ) (hlo : ∀ k, 1 ≤ k → k ≤ (d.meqn : ℤ) → s.qmin k = some (lo k))
    (hhi : ∀ k, 1 ≤ k → k ≤ (d.meqn : ℤ) → s.qmax k = some (hi k)) :
    ∃ s1, doLoop 1 d.meqn (fun mq => componentStep d q i j mq) s = some s1 ∧
      s1.quad = s.quad ∧ s1.found = s.found ∧
      ∀ mq, 1 ≤ mq → mq ≤ (d.meqn : ℤ) → s1.qval mq = some (q (i, j, mq)) ∧
        s1.qmin mq = some (min (lo mq) (q (i, j, mq))) ∧
        s1.qmax mq = some (max (hi mq) (q (i, j, mq))) := by
  have hr : ∀ k, k ∈ range 1 (d.meqn : ℤ) → 1 ≤ k ∧ k ≤ (d.meqn : ℤ) :=
    fun k hk => (mem_range _ _ _).1 hk
  refine ⟨_, component_loop d q i j h (range 1 d.meqn) hr s lo hi
    (fun k hk => hlo k (hr k hk).1 (hr k hk).2) (fun k hk => hhi k (hr k hk).1 (hr k hk).2),
    rfl, rfl, ?_⟩
  intro mq h1 h2
  have hm := (mem_range 1 (d.meqn : ℤ) mq).2 ⟨h1, h2⟩
  dsimp only
  rw [if_pos hm, if_pos hm, if_pos hm]
  exact ⟨rfl, rfl, rfl⟩

theorem quad_loop (d : Dims) (q : Grid ℚ) (i j : ℤ) (L : List (ℤ × ℤ × ℤ))
    (hL : ∀ x ∈ L, inBox d (i + x.1, j + x.2.1, x.2.2) = true) : ∀ s : Scan,
    loop L (fun x => quadStep d q i j x.1 x.2.1 x.2.2) s = some { s with
      quad := fun a b c => if (a, b, c) ∈ L then some (q (i + a, j + b, c))
        else s.quad a b c } := by
  induction L with
  | nil => intro s; simp [loop]
  | cons x L ih =>
    intro s
    have hb := hL x (by simp)
    simp only [loop, quadStep, rd, hb, if_true, Option.bind_some]
    rw [ih (fun y hy => hL y (List.mem_cons_of_mem _ hy))]
    congr 1
    simp only [Scan.mk.injEq, true_and, and_true]
    funext a b c
    by_cases h1 : (a, b, c) ∈ L
    · simp [h1]
    · by_cases h2 : (a, b, c) = x
      · subst h2; simp [h1]
      · have h3 : ¬ (a = x.1 ∧ b = x.2.1 ∧ c = x.2.2) := by
          rintro ⟨e1, e2, e3⟩
          exact h2 (by rw [e1, e2, e3])
        simp [h1, h2, h3]

/-- The neighbourhood of a cell. -/
def Near (d : Dims) (a b c : ℤ) : Prop :=
  (-1 ≤ a ∧ a ≤ 1) ∧ (-1 ≤ b ∧ b ≤ 1) ∧ 1 ≤ c ∧ c ≤ (d.meqn : ℤ)

theorem near_inBox (d : Dims) (hmbc : 1 ≤ d.mbc) (i j : ℤ) (h : Interior d i j) (a b c : ℤ)
    (hn : Near d a b c) : inBox d (i + a, j + b, c) = true := by
  obtain ⟨⟨h1, h2⟩, h3, h4⟩ := h
  obtain ⟨⟨n1, n2⟩, ⟨n3, n4⟩, n5, n6⟩ := hn
  rw [inBox_iff]
  refine ⟨⟨?_, ?_⟩, ⟨?_, ?_⟩, n5, n6⟩ <;> omega

/-- Either way of filling `quad` sets all of it. -/
def FillOk (fill : Dims → Grid ℚ → ℤ → ℤ → Scan → Option Scan) : Prop :=
  ∀ (d : Dims) (q : Grid ℚ) (i j : ℤ) (s : Scan), 1 ≤ d.mbc → Interior d i j →
    ∃ quad', fill d q i j s = some { s with quad := quad' } ∧
      ∀ a b c, Near d a b c → quad' a b c = some (q (i + a, j + b, c))

theorem fillQuad_ok : FillOk fillQuad := by
  intro d q i j s hmbc hin
  have e : fillQuad d q i j s = loop (((range (-1) 1).flatMap fun jj =>
      ((range (-1) 1).flatMap fun ii => (range 1 d.meqn).map fun mq => (ii, mq)).map
        fun b => (jj, b)).map fun x => (x.2.1, x.1, x.2.2))
      (fun x => quadStep d q i j x.1 x.2.1 x.2.2) s := by
    rw [loop_map]
    dsimp only
    rw [← loop_flat (range (-1) 1) _ (fun (jj : ℤ) (b : ℤ × ℤ) => quadStep d q i j b.1 jj b.2)]
    unfold fillQuad doLoop
    congr 1
    funext jj s
    rw [loop_flat (range (-1) 1) (range 1 d.meqn) (fun ii mq => quadStep d q i j ii jj mq)]
  have hm : ∀ a b c, (a, b, c) ∈ (((range (-1) 1).flatMap fun jj =>
      ((range (-1) 1).flatMap fun ii => (range 1 (d.meqn : ℤ)).map fun mq => (ii, mq)).map
        fun b => (jj, b)).map fun x => (x.2.1, x.1, x.2.2)) ↔ Near d a b c := by
    intro a b c
    rw [List.mem_map]
    constructor
    · rintro ⟨⟨x, y, z⟩, hx, hxe⟩
      rw [mem_flat, mem_flat, mem_range, mem_range, mem_range] at hx
      simp only [Prod.mk.injEq] at hxe
      obtain ⟨rfl, rfl, rfl⟩ := hxe
      exact ⟨hx.2.1, hx.1, hx.2.2⟩
    · intro hn
      refine ⟨(b, a, c), ?_, rfl⟩
      rw [mem_flat, mem_flat, mem_range, mem_range, mem_range]
      exact ⟨hn.2.1, hn.1, hn.2.2⟩
  rw [e, quad_loop d q i j _ (fun x hx => near_inBox d hmbc i j hin _ _ _ ((hm _ _ _).1 hx))]
  refine ⟨_, rfl, fun a b c hn => ?_⟩
  show (if _ then _ else _) = _
  rw [if_pos ((hm a b c).2 hn)]

theorem fillQuad'_ok : FillOk fillQuad' := by
  intro d q i j s hmbc hin
  have e : fillQuad' d q i j s = loop ((range (-1) 1).flatMap fun ii =>
      ((range (-1) 1).flatMap fun jj => (range 1 d.meqn).map fun mq => (jj, mq)).map
        fun b => (ii, b))
      (fun x => quadStep d q i j x.1 x.2.1 x.2.2) s := by
    rw [← loop_flat (range (-1) 1) _ (fun (ii : ℤ) (b : ℤ × ℤ) => quadStep d q i j ii b.1 b.2)]
    unfold fillQuad' doLoop
    congr 1
    funext ii s
    rw [loop_flat (range (-1) 1) (range 1 d.meqn) (fun jj mq => quadStep d q i j ii jj mq)]
  have hm : ∀ a b c, (a, b, c) ∈ ((range (-1) 1).flatMap fun ii =>
      ((range (-1) 1).flatMap fun jj => (range 1 (d.meqn : ℤ)).map fun mq => (jj, mq)).map
        fun b => (ii, b)) ↔ Near d a b c := by
    intro a b c
    rw [mem_flat, mem_flat, mem_range, mem_range, mem_range]
    rfl
  rw [e, quad_loop d q i j _ (fun x hx => near_inBox d hmbc i j hin _ _ _ ((hm _ _ _).1 hx))]
  refine ⟨_, rfl, fun a b c hn => ?_⟩
  show (if _ then _ else _) = _
  rw [if_pos ((hm a b c).2 hn)]

/-! ### Criteria -/

theorem isGhost_false (d : Dims) (i j : ℤ) : isGhost d i j = false ↔ Interior d i j := by
  unfold isGhost Interior
  split
  · simp; omega
  · split
    · simp; omega
    · simp; omega

theorem isGhost_true (d : Dims) (i j : ℤ) : isGhost d i j = true ↔ ¬ Interior d i j := by
  rw [← isGhost_false, Bool.not_eq_false]

/-- What is asked in a cell, once the running minimum and maximum are known. -/
def Asked (env : Env) (sh : Shared) (p : Patch) (i j : ℤ) (lo hi : ℚ) : Prop :=
  match env.criterion with
  | .minmax => sh.threshold < hi - lo
  | _ => Meets env sh p i j

theorem pos_ite (P : Prop) [Decidable P] : (0 : ℤ) < (if P then 1 else 0) ↔ P := by
  split <;> simp_all

theorem lengthExceeds_iff (g : Vec) (th : ℚ) :
    lengthExceeds g th = true ↔ th < 0 ∨ th ^ 2 < dot g g := by
  unfold lengthExceeds
  rw [Bool.or_eq_true, decide_eq_true_eq, decide_eq_true_eq, pow_two]

/-- The vector computed by the gradient criterion. -/
def gradVec (t1 t2 : Vec) (dqx dqy : ℚ) : Vec :=
  comb dqx dqy
    (comb (dot t2 t2 / (dot t1 t1 * dot t2 t2 - dot t1 t2 * dot t1 t2))
      (-dot t1 t2 / (dot t1 t1 * dot t2 t2 - dot t1 t2 * dot t1 t2)) t1 t2)
    (comb (-dot t1 t2 / (dot t1 t1 * dot t2 t2 - dot t1 t2 * dot t1 t2))
      (dot t1 t1 / (dot t1 t1 * dot t2 t2 - dot t1 t2 * dot t1 t2)) t1 t2)

theorem dot_comb (a b : ℚ) (u v w : Vec) : dot (comb a b u v) w = a * dot u w + b * dot v w := by
  unfold dot comb
  ring

theorem dot_comm (u v : Vec) : dot u v = dot v u := by unfold dot; ring

theorem comb_comb (x y a b c e : ℚ) (u v : Vec) :
    comb x y (comb a b u v) (comb c e u v) = comb (x * a + y * c) (x * b + y * e) u v := by
  unfold comb
  simp only [Prod.mk.injEq]
  refine ⟨by ring, by ring, by ring⟩

theorem gradVec_unique (t1 t2 : Vec) (dqx dqy : ℚ)
    (hd : dot t1 t1 * dot t2 t2 - dot t1 t2 * dot t1 t2 ≠ 0) (g : Vec) :
    ((∃ a b, g = comb a b t1 t2) ∧ dot g t1 = dqx ∧ dot g t2 = dqy)
      ↔ g = gradVec t1 t2 dqx dqy := by
  unfold gradVec
  rw [comb_comb]
  have h21 := dot_comm t2 t1
  generalize hA : dot t1 t1 = A at *
  generalize hC : dot t2 t2 = C at *
  constructor
  · rintro ⟨⟨a, b, rfl⟩, h1, h2⟩
    rw [dot_comb] at h1 h2
    rw [hA, h21] at h1
    rw [hC] at h2
    generalize dot t1 t2 = B at *
    rw [← h1, ← h2]
    generalize hD : A * C - B * B = D at *
    congr 1
    · field_simp; rw [← hD]; ring
    · field_simp; rw [← hD]; ring
  · rintro rfl
    refine ⟨⟨_, _, rfl⟩, ?_, ?_⟩
    · rw [dot_comb, hA, h21]
      generalize dot t1 t2 = B at *
      generalize hD : A * C - B * B = D at *
      field_simp; rw [← hD]; ring
    · rw [dot_comb, hC]
      generalize dot t1 t2 = B at *
      generalize hD : A * C - B * B = D at *
      field_simp; rw [← hD]; ring

theorem map_gradient (c2m : ℤ → ℚ → ℚ → Vec) (sh : Shared) (p : Patch) (mq i j : ℤ)
    (hd : dot (tangent1 c2m sh p i j) (tangent1 c2m sh p i j)
      * dot (tangent2 c2m sh p i j) (tangent2 c2m sh p i j)
      - dot (tangent1 c2m sh p i j) (tangent2 c2m sh p i j)
        * dot (tangent1 c2m sh p i j) (tangent2 c2m sh p i j) ≠ 0) (g : Vec) :
    IsGradient (some c2m) sh p mq i j g ↔
      g = gradVec (tangent1 c2m sh p i j) (tangent2 c2m sh p i j)
        ((p.q (i + 1, j, mq) - p.q (i - 1, j, mq)) / (2 * sh.dx))
        ((p.q (i, j + 1, mq) - p.q (i, j - 1, mq)) / (2 * sh.dy)) :=
  gradVec_unique _ _ _ _ hd g

/-- The arguments of the criterion in a cell. -/
def argsIn (env : Env) (sh : Shared) (p : Patch) (i j : ℤ) (s : Scan) : Args :=
  { blockno := sh.blockno, meqn := sh.dims.meqn, qval := s.qval, qmin := s.qmin,
    qmax := s.qmax, quad := s.quad, dx := sh.dx, dy := sh.dy,
    xc := p.xlower + (i - 1 / 2) * sh.dx, yc := p.ylower + (j - 1 / 2) * sh.dy,
    ivar := env.ivar, threshold := sh.threshold, initFlag := sh.initFlag,
    isGhost := isGhost sh.dims i j }

theorem criteria (env : Env) (sh : Shared) (p : Patch) (i j : ℤ) (s : Scan) (lo hi : ℚ)
    (hok : sh.Ok env.ivar) (ps : List Patch) (hp : p ∈ ps) (hf : Fits env sh ps)
    (hval : ∀ mq, 1 ≤ mq → mq ≤ (sh.dims.meqn : ℤ) → s.qval mq = some (p.q (i, j, mq)))
    (hlo : s.qmin env.ivar = some lo) (hhi : s.qmax env.ivar = some hi)
    (hquad : Interior sh.dims i j → ∀ a b c, Near sh.dims a b c →
      s.quad a b c = some (p.q (i + a, j + b, c))) :
    ∃ r, tagCriteria env (argsIn env sh p i j s) = some r ∧
      (r > 0 ↔ Asked env sh p i j lo hi) := by
  have hiv := hok.lower
  have hiv' := hok.upper
  unfold tagCriteria Asked Meets
  unfold Fits at hf
  cases hc : env.criterion with
  | value =>
    refine ⟨_, by simp only [valueExceeds, argsIn, hval _ hiv hiv']; rfl, ?_⟩
    exact pos_ite _
  | minmax =>
    refine ⟨_, by simp only [minmaxExceeds, argsIn, hlo, hhi]; rfl, ?_⟩
    exact pos_ite _
  | other => rw [hc] at hf; exact hf.elim
  | difference =>
    dsimp only
    by_cases hin : Interior sh.dims i j
    · have hg := (isGhost_false _ _ _).2 hin
      have e1 := hquad hin 1 0 env.ivar ⟨⟨by omega, by omega⟩, ⟨by omega, by omega⟩, hiv, hiv'⟩
      have e2 := hquad hin (-1) 0 env.ivar
        ⟨⟨by omega, by omega⟩, ⟨by omega, by omega⟩, hiv, hiv'⟩
      have e3 := hquad hin 0 1 env.ivar ⟨⟨by omega, by omega⟩, ⟨by omega, by omega⟩, hiv, hiv'⟩
      have e4 := hquad hin 0 (-1) env.ivar
        ⟨⟨by omega, by omega⟩, ⟨by omega, by omega⟩, hiv, hiv'⟩
      simp only [add_zero, ← sub_eq_add_neg] at e1 e2 e3 e4
      refine ⟨_, by
        simp only [differenceExceeds, argsIn, hg, Bool.false_eq_true, if_false, e1, e2, e3, e4];
          rfl, ?_⟩
      rw [gt_iff_lt, pos_ite, gt_iff_lt, lt_max_iff]
      exact ⟨fun h => ⟨hin, h⟩, fun h => h.2⟩
    · refine ⟨-1, by simp only [differenceExceeds, argsIn, (isGhost_true _ _ _).2 hin, if_true], ?_⟩
      constructor
      · intro h; omega
      · intro h; exact absurd h.1 hin
  | user f =>
    rw [hc] at hf
    cases f with
    | none => exact hf.elim
    | some f =>
      refine ⟨_, rfl, ?_⟩
      have h := hf (argsOf env.ivar sh p i j) s.qmin s.qmax s.qval s.quad
        (fun mq h1 h2 => hval mq h1 h2)
        (fun hg a b c h1 h2 h3 h4 h5 h6 => hquad ((isGhost_false _ _ _).1 hg) a b c
          ⟨⟨h1, h2⟩, ⟨h3, h4⟩, h5, h6⟩)
      dsimp only
      rw [← h]
      rfl
  | gradient =>
    rw [hc] at hf
    obtain ⟨hdx, hdy, hnd⟩ := hf p hp
    dsimp only
    by_cases hin : Interior sh.dims i j
    · have hg := (isGhost_false _ _ _).2 hin
      have e1 := hquad hin 1 0 env.ivar ⟨⟨by omega, by omega⟩, ⟨by omega, by omega⟩, hiv, hiv'⟩
      have e2 := hquad hin (-1) 0 env.ivar
        ⟨⟨by omega, by omega⟩, ⟨by omega, by omega⟩, hiv, hiv'⟩
      have e3 := hquad hin 0 1 env.ivar ⟨⟨by omega, by omega⟩, ⟨by omega, by omega⟩, hiv, hiv'⟩
      have e4 := hquad hin 0 (-1) env.ivar
        ⟨⟨by omega, by omega⟩, ⟨by omega, by omega⟩, hiv, hiv'⟩
      simp only [add_zero, ← sub_eq_add_neg] at e1 e2 e3 e4
      have hxy : ¬ (sh.dx = 0 ∨ sh.dy = 0) := by
        rintro (h | h)
        · exact hdx h
        · exact hdy h
      cases hm : env.map with
      | none =>
        refine ⟨_, by
          simp only [gradientExceeds, argsIn, hg, Bool.false_eq_true, if_false, e1, e2, e3, e4,
            hm, if_neg hxy]; rfl, ?_⟩
        rw [gt_iff_lt, pos_ite, lengthExceeds_iff]
        constructor
        · intro h; exact ⟨hin, _, rfl, h⟩
        · rintro ⟨_, g, hgr, h⟩
          have : g = _ := hgr
          rw [this] at h
          exact h
      | some c2m =>
        have hd := hnd c2m hm i j hin
        refine ⟨if lengthExceeds (gradVec (tangent1 c2m sh p i j) (tangent2 c2m sh p i j)
          ((p.q (i + 1, j, env.ivar) - p.q (i - 1, j, env.ivar)) / (2 * sh.dx))
          ((p.q (i, j + 1, env.ivar) - p.q (i, j - 1, env.ivar)) / (2 * sh.dy))) sh.threshold
          then 1 else 0, ?_, ?_⟩
        · simp only [gradientExceeds, argsIn, hg, Bool.false_eq_true, if_false, e1, e2, e3, e4,
            hm, if_neg hxy]
          exact if_neg hd
        · rw [gt_iff_lt, pos_ite, lengthExceeds_iff]
          constructor
          · intro h; exact ⟨hin, _, (map_gradient c2m sh p env.ivar i j hd _).2 rfl, h⟩
          · rintro ⟨_, g, hgr, h⟩
            rw [(map_gradient c2m sh p env.ivar i j hd g).1 hgr] at h
            exact h
    · refine ⟨-1, by simp only [gradientExceeds, argsIn, (isGhost_true _ _ _).2 hin, if_true], ?_⟩
      constructor
      · intro h; omega
      · intro h; exact absurd h.1 hin

/-! ### The scan -/

/-- A cell of one of the patches. -/
abbrev Site := Patch × ℤ × ℤ

def val (c : Site) (mq : ℤ) : ℚ := c.1.q (c.2.1, c.2.2, mq)

/-- Something has been found among the tested cells `T`; `V` are the cells that
went into the minimum and maximum. -/
def FoundIn (env : Env) (sh : Shared) (V T : Site → Prop) : Prop :=
  match env.criterion with
  | .minmax => ∃ c, V c ∧ ∃ c', V c' ∧ sh.threshold < val c env.ivar - val c' env.ivar
  | _ => ∃ c, T c ∧ Meets env sh c.1 c.2.1 c.2.2

/-- The invariant of the scan. -/
def Inv (env : Env) (sh : Shared) (V T : Site → Prop) (s : Scan) : Prop :=
  (s.found = true ↔ FoundIn env sh V T) ∧ (s.found = false →
    ∃ lo hi : ℤ → ℚ, ∀ mq, 1 ≤ mq → mq ≤ (sh.dims.meqn : ℤ) →
      s.qmin mq = some (lo mq) ∧ s.qmax mq = some (hi mq) ∧
      (∀ c, V c → lo mq ≤ val c mq ∧ val c mq ≤ hi mq) ∧
      (∃ c, V c ∧ lo mq = val c mq) ∧ ∃ c, V c ∧ hi mq = val c mq)

theorem FoundIn.mono {env : Env} {sh : Shared} {V T V' T' : Site → Prop} (hV : ∀ c, V c → V' c)
    (hT : ∀ c, T c → T' c) (h : FoundIn env sh V T) : FoundIn env sh V' T' := by
  unfold FoundIn at h ⊢
  split at h
  · obtain ⟨c, hc, c', hc', hlt⟩ := h
    exact ⟨c, hV c hc, c', hV c' hc', hlt⟩
  · obtain ⟨c, hc, h⟩ := h
    exact ⟨c, hT c hc, h⟩

theorem cellStep_inv (env : Env) (sh : Shared) (p : Patch)
    (fill : Dims → Grid ℚ → ℤ → ℤ → Scan → Option Scan) (hfill : FillOk fill)
    (hok : sh.Ok env.ivar) (ps : List Patch) (hp : p ∈ ps) (hf : Fits env sh ps)
    (i j : ℤ) (hc : IsCell sh.dims i j) (V T : Site → Prop) (s : Scan)
    (h : Inv env sh V T s) :
    ∃ s', cellStep env sh p fill i j s = some s' ∧
      Inv env sh (fun c => V c ∨ c = (p, i, j)) (fun c => T c ∨ c = (p, i, j)) s' := by
  unfold cellStep
  by_cases hfd : s.found = true
  · rw [if_pos hfd]
    refine ⟨s, rfl, ⟨fun _ => (h.1.1 hfd).mono (fun _ => Or.inl) (fun _ => Or.inl),
      fun _ => hfd⟩, fun h' => ?_⟩
    rw [hfd] at h'; cases h'
  · rw [if_neg hfd]
    have hfd' : s.found = false := by simpa using hfd
    obtain ⟨lo, hi, hlh⟩ := h.2 hfd'
    obtain ⟨s1, e1, _, f1, v1⟩ := component_loop' sh.dims p.q i j hc s lo hi
      (fun k h1 h2 => (hlh k h1 h2).1) (fun k h1 h2 => (hlh k h1 h2).2.1)
    rw [e1]
    dsimp only
    have hq2 : ∃ quad', (if isGhost sh.dims i j = true then some s1
        else fill sh.dims p.q i j s1) = some { s1 with quad := quad' } ∧
        (Interior sh.dims i j → ∀ a b c, Near sh.dims a b c →
          quad' a b c = some (p.q (i + a, j + b, c))) := by
      by_cases hin : Interior sh.dims i j
      · rw [if_neg (by rw [(isGhost_false _ _ _).2 hin]; simp)]
        obtain ⟨quad', e, hq⟩ := hfill sh.dims p.q i j s1 hok.mbc hin
        exact ⟨quad', e, fun _ => hq⟩
      · rw [if_pos ((isGhost_true _ _ _).2 hin)]
        exact ⟨s1.quad, rfl, fun h => absurd h hin⟩
    obtain ⟨quad', e2, hq⟩ := hq2
    rw [e2]
    dsimp only
    have hv := v1 env.ivar hok.lower hok.upper
    obtain ⟨r, er, hr⟩ := criteria env sh p i j { s1 with quad := quad' }
      (min (lo env.ivar) (p.q (i, j, env.ivar))) (max (hi env.ivar) (p.q (i, j, env.ivar)))
      hok ps hp hf (fun mq h1 h2 => (v1 mq h1 h2).1) hv.2.1 hv.2.2 hq
    unfold argsIn at er
    dsimp only at er
    rw [er]
    refine ⟨_, rfl, ?_, ?_⟩
    · dsimp only
      rw [decide_eq_true_eq, hr]
      have hnf : ¬ FoundIn env sh V T := fun h' => hfd (h.1.2 h')
      obtain ⟨_, _, hb, ⟨cl, hcl, hlo⟩, ch, hch, hhi⟩ := hlh env.ivar hok.lower hok.upper
      unfold Asked
      unfold FoundIn at hnf ⊢
      have hval : val (p, i, j) env.ivar = p.q (i, j, env.ivar) := rfl
      split
      · rename_i hcr
        rw [hcr] at hnf
        dsimp only at hnf
        constructor
        · intro hlt
          refine ⟨if hi env.ivar ≤ p.q (i, j, env.ivar) then (p, i, j) else ch, ?_,
            if p.q (i, j, env.ivar) ≤ lo env.ivar then (p, i, j) else cl, ?_, ?_⟩
          · split
            · exact Or.inr rfl
            · exact Or.inl hch
          · split
            · exact Or.inr rfl
            · exact Or.inl hcl
          · have a1 : val (if hi env.ivar ≤ p.q (i, j, env.ivar) then (p, i, j) else ch) env.ivar
                = max (hi env.ivar) (p.q (i, j, env.ivar)) := by
              split
              · rename_i h'; rw [max_eq_right h', hval]
              · rename_i h'; rw [max_eq_left (le_of_not_ge h'), hhi]
            have a2 : val (if p.q (i, j, env.ivar) ≤ lo env.ivar then (p, i, j) else cl) env.ivar
                = min (lo env.ivar) (p.q (i, j, env.ivar)) := by
              split
              · rename_i h'; rw [min_eq_right h', hval]
              · rename_i h'; rw [min_eq_left (le_of_not_ge h'), hlo]
            rw [a1, a2]
            exact hlt
        · rintro ⟨c, hc, c', hc', hlt⟩
          have up : ∀ c, (V c ∨ c = (p, i, j)) →
              min (lo env.ivar) (p.q (i, j, env.ivar)) ≤ val c env.ivar ∧
              val c env.ivar ≤ max (hi env.ivar) (p.q (i, j, env.ivar)) := by
            rintro c (hc | rfl)
            · exact ⟨(min_le_left _ _).trans (hb c hc).1, (hb c hc).2.trans (le_max_left _ _)⟩
            · exact ⟨min_le_right _ _, le_max_right _ _⟩
          have u1 := (up c hc).2
          have u2 := (up c' hc').1
          linarith
      · rename_i hcr
        constructor
        · intro hm; exact ⟨(p, i, j), Or.inr rfl, hm⟩
        · rintro ⟨c, hc | rfl, hm⟩
          · exfalso
            apply hnf
            split
            · rename_i h'; exact absurd h' hcr
            · exact ⟨c, hc, hm⟩
          · exact hm
    · intro _
      refine ⟨fun mq => min (lo mq) (p.q (i, j, mq)), fun mq => max (hi mq) (p.q (i, j, mq)),
        fun mq h1 h2 => ⟨(v1 mq h1 h2).2.1, (v1 mq h1 h2).2.2, ?_, ?_, ?_⟩⟩
      · obtain ⟨_, _, hb, _⟩ := hlh mq h1 h2
        rintro c (hc | rfl)
        · exact ⟨(min_le_left _ _).trans (hb c hc).1, (hb c hc).2.trans (le_max_left _ _)⟩
        · exact ⟨min_le_right _ _, le_max_right _ _⟩
      · obtain ⟨_, _, _, ⟨c, hc, he⟩, _⟩ := hlh mq h1 h2
        rcases le_total (lo mq) (p.q (i, j, mq)) with hle | hle
        · exact ⟨c, Or.inl hc, by dsimp only; rw [min_eq_left hle, he]⟩
        · exact ⟨(p, i, j), Or.inr rfl, by dsimp only; rw [min_eq_right hle]; rfl⟩
      · obtain ⟨_, _, _, _, c, hc, he⟩ := hlh mq h1 h2
        rcases le_total (hi mq) (p.q (i, j, mq)) with hle | hle
        · exact ⟨(p, i, j), Or.inr rfl, by dsimp only; rw [max_eq_right hle]; rfl⟩
        · exact ⟨c, Or.inl hc, by dsimp only; rw [max_eq_left hle, he]⟩

theorem Inv.congr {env : Env} {sh : Shared} {V T V' T' : Site → Prop} {s : Scan}
    (hV : ∀ c, V c ↔ V' c) (hT : ∀ c, T c ↔ T' c) (h : Inv env sh V T s) :
    Inv env sh V' T' s := by
  have e1 : V = V' := funext fun c => propext (hV c)
  have e2 : T = T' := funext fun c => propext (hT c)
  rw [← e1, ← e2]; exact h

theorem cells_inv (env : Env) (sh : Shared) (p : Patch)
    (fill : Dims → Grid ℚ → ℤ → ℤ → Scan → Option Scan) (hfill : FillOk fill)
    (hok : sh.Ok env.ivar) (ps : List Patch) (hp : p ∈ ps) (hf : Fits env sh ps)
    (L : List (ℤ × ℤ)) : ∀ (V T : Site → Prop) (s : Scan),
    (∀ x ∈ L, IsCell sh.dims x.1 x.2) → Inv env sh V T s →
    ∃ s', loop L (fun x => cellStep env sh p fill x.1 x.2) s = some s' ∧
      Inv env sh (fun c => V c ∨ (c.1 = p ∧ c.2 ∈ L)) (fun c => T c ∨ (c.1 = p ∧ c.2 ∈ L)) s' := by
  induction L with
  | nil =>
    intro V T s _ h
    exact ⟨s, rfl, h.congr (by simp) (by simp)⟩
  | cons x L ih =>
    intro V T s hL h
    obtain ⟨s1, e1, h1⟩ := cellStep_inv env sh p fill hfill hok ps hp hf x.1 x.2 (hL x (by simp))
      V T s h
    obtain ⟨s2, e2, h2⟩ := ih _ _ s1 (fun y hy => hL y (List.mem_cons_of_mem _ hy)) h1
    refine ⟨s2, by simp only [loop, e1, Option.bind_some, e2], h2.congr ?_ ?_⟩ <;>
    · rintro ⟨c, y⟩
      simp only [List.mem_cons, Prod.mk.injEq, Prod.mk.eta]
      constructor
      · rintro ((h | ⟨rfl, h⟩) | ⟨rfl, h⟩)
        · exact Or.inl h
        · exact Or.inr ⟨rfl, Or.inl h⟩
        · exact Or.inr ⟨rfl, Or.inr h⟩
      · rintro (h | ⟨rfl, h | h⟩)
        · exact Or.inl (Or.inl h)
        · exact Or.inl (Or.inr ⟨rfl, h⟩)
        · exact Or.inr ⟨rfl, h⟩

/-- All cells of a patch. -/
def On (sh : Shared) (p : Patch) (c : Site) : Prop := c.1 = p ∧ IsCell sh.dims c.2.1 c.2.2

theorem start_inv (env : Env) (sh : Shared) (p : Patch) (hok : sh.Ok env.ivar)
    (hth : 0 ≤ sh.threshold) :
    ∃ s, doLoop 1 sh.dims.meqn (firstStep sh.dims p.q) Scan.unset = some s ∧
      Inv env sh (fun c => c = (p, 1, 1)) (fun _ => False) s := by
  have h1 := hok.mx
  have h2 := hok.my
  have hc : IsCell sh.dims 1 1 := by
    unfold IsCell; omega
  have e := first_loop sh.dims p.q hc (range 1 sh.dims.meqn)
    (fun k hk => (mem_range _ _ _).1 hk) Scan.unset
  refine ⟨_, e, ⟨?_, ?_⟩, ?_⟩
  · intro h; cases h
  · unfold FoundIn
    split
    · rintro ⟨c, rfl, c', rfl, h⟩
      rw [sub_self] at h
      exact absurd h (not_lt.2 hth)
    · rintro ⟨c, hF, _⟩; exact hF.elim
  · intro _
    refine ⟨fun mq => p.q (1, 1, mq), fun mq => p.q (1, 1, mq), fun mq m1 m2 => ?_⟩
    have hm := (mem_range 1 (sh.dims.meqn : ℤ) mq).2 ⟨m1, m2⟩
    dsimp only
    rw [if_pos hm, if_pos hm]
    refine ⟨rfl, rfl, ?_, ⟨_, rfl, rfl⟩, _, rfl, rfl⟩
    rintro c rfl
    exact ⟨le_refl _, le_refl _⟩

theorem foundIn_iff (env : Env) (sh : Shared) (ps : List Patch) :
    FoundIn env sh (fun c => c.1 ∈ ps ∧ IsCell sh.dims c.2.1 c.2.2)
      (fun c => c.1 ∈ ps ∧ IsCell sh.dims c.2.1 c.2.2) ↔ Found env sh ps := by
  unfold FoundIn Found
  cases env.criterion <;> dsimp only
  case minmax =>
    constructor
    · rintro ⟨⟨p, i, j⟩, ⟨h1, h2⟩, ⟨p', i', j'⟩, ⟨h3, h4⟩, h5⟩
      exact ⟨p, h1, i, j, h2, p', h3, i', j', h4, h5⟩
    · rintro ⟨p, h1, i, j, h2, p', h3, i', j', h4, h5⟩
      exact ⟨(p, i, j), ⟨h1, h2⟩, (p', i', j'), ⟨h3, h4⟩, h5⟩
  all_goals
    constructor
    · rintro ⟨⟨p, i, j⟩, ⟨h1, h2⟩, h3⟩
      exact ⟨p, h1, i, j, h2, h3⟩
    · rintro ⟨p, h1, i, j, h2, h3⟩
      exact ⟨(p, i, j), ⟨h1, h2⟩, h3⟩

theorem fortTag4refinement_eq (env : Env) (sh : Shared) (p : Patch) (hok : sh.Ok env.ivar)
    (hf : Fits env sh [p]) (hth : 0 ≤ sh.threshold) :
    ∃ b : Bool, fortTag4refinement env sh p = some (if b then 1 else 0) ∧
      (b = true ↔ Found env sh [p]) := by
  have hm := hok.mx
  have hm2 := hok.my
  obtain ⟨s, es, hs⟩ := start_inv env sh p hok hth
  unfold fortTag4refinement
  dsimp only
  rw [es]
  dsimp only
  have e : doLoop (1 - (sh.dims.mbc : ℤ)) (sh.dims.my + sh.dims.mbc) (fun j =>
      doLoop (1 - (sh.dims.mbc : ℤ)) (sh.dims.mx + sh.dims.mbc)
        fun i => cellStep env sh p fillQuad i j) s
      = loop (((range (1 - (sh.dims.mbc : ℤ)) (sh.dims.my + sh.dims.mbc)).flatMap fun j =>
        (range (1 - (sh.dims.mbc : ℤ)) (sh.dims.mx + sh.dims.mbc)).map fun i => (j, i)).map
          fun x => (x.2, x.1)) (fun x => cellStep env sh p fillQuad x.1 x.2) s := by
    rw [loop_map]
    exact loop_flat _ _ (fun j i => cellStep env sh p fillQuad i j) s
  rw [e]
  have hmem : ∀ x : ℤ × ℤ, x ∈ (((range (1 - (sh.dims.mbc : ℤ)) (sh.dims.my + sh.dims.mbc)).flatMap
      fun j => (range (1 - (sh.dims.mbc : ℤ)) (sh.dims.mx + sh.dims.mbc)).map fun i => (j, i)).map
          fun x => (x.2, x.1)) ↔ IsCell sh.dims x.1 x.2 := by
    intro x
    rw [List.mem_map]
    constructor
    · rintro ⟨y, hy, rfl⟩
      rw [mem_flat, mem_range, mem_range] at hy
      exact ⟨hy.2, hy.1⟩
    · intro h
      refine ⟨(x.2, x.1), ?_, rfl⟩
      rw [mem_flat, mem_range, mem_range]
      exact ⟨h.2, h.1⟩
  obtain ⟨s', e', h'⟩ := cells_inv env sh p fillQuad fillQuad_ok hok [p] (by simp) hf _ _ _ s
    (fun x hx => (hmem x).1 hx) hs
  rw [e']
  refine ⟨s'.found, rfl, ?_⟩
  rw [← foundIn_iff]
  refine (h'.congr (fun c => ?_) (fun c => ?_)).1
  · rw [hmem, List.mem_singleton]
    constructor
    · rintro (rfl | h)
      · refine ⟨rfl, ?_⟩
        unfold IsCell
        dsimp only
        omega
      · exact h
    · exact Or.inr
  · rw [hmem, List.mem_singleton, false_or]

theorem testRefine_inv (env : Env) (sh : Shared) (p : Patch) (hok : sh.Ok env.ivar)
    (ps : List Patch) (hp : p ∈ ps) (hf : Fits env sh ps) (V T : Site → Prop) (s : Scan)
    (h : Inv env sh V T s) :
    ∃ s', testRefine env sh p s = some s' ∧
      Inv env sh (fun c => V c ∨ On sh p c) (fun c => T c ∨ On sh p c) s' := by
  unfold testRefine
  dsimp only
  have e : ∀ s, doLoop (1 - (sh.dims.mbc : ℤ)) (sh.dims.mx + sh.dims.mbc) (fun i =>
      doLoop (1 - (sh.dims.mbc : ℤ)) (sh.dims.my + sh.dims.mbc)
        fun j => cellStep env sh p fillQuad' i j) s
      = loop ((range (1 - (sh.dims.mbc : ℤ)) (sh.dims.mx + sh.dims.mbc)).flatMap fun i =>
        (range (1 - (sh.dims.mbc : ℤ)) (sh.dims.my + sh.dims.mbc)).map fun j => (i, j))
          (fun x => cellStep env sh p fillQuad' x.1 x.2) s :=
    loop_flat _ _ (fun i j => cellStep env sh p fillQuad' i j)
  rw [e]
  have hmem : ∀ x : ℤ × ℤ, x ∈ ((range (1 - (sh.dims.mbc : ℤ)) (sh.dims.mx + sh.dims.mbc)).flatMap
      fun i => (range (1 - (sh.dims.mbc : ℤ)) (sh.dims.my + sh.dims.mbc)).map fun j => (i, j))
      ↔ IsCell sh.dims x.1 x.2 := by
    intro x
    rw [mem_flat, mem_range, mem_range]
    rfl
  obtain ⟨s', e', h'⟩ := cells_inv env sh p fillQuad' fillQuad'_ok hok ps hp hf _ V T
    { s with qval := fun _ => none, quad := fun _ _ _ => none }
    (fun x hx => (hmem x).1 hx) h
  exact ⟨s', e', h'.congr (fun c => by rw [hmem]; rfl) (fun c => by rw [hmem]; rfl)⟩

theorem testAll_inv (env : Env) (sh : Shared) (hok : sh.Ok env.ivar) (ps : List Patch)
    (hf : Fits env sh ps) : ∀ (qs : List Patch), (∀ p ∈ qs, p ∈ ps) →
    ∀ (V T : Site → Prop) (s : Scan), Inv env sh V T s → s.found = false →
    ∃ s', testAll env sh qs s = some s' ∧
      (s'.found = true ↔ FoundIn env sh (fun c => V c ∨ ∃ p ∈ qs, On sh p c)
        (fun c => T c ∨ ∃ p ∈ qs, On sh p c)) := by
  intro qs
  induction qs with
  | nil =>
    intro _ V T s h hfd
    refine ⟨s, rfl, ?_⟩
    have h' : Inv env sh (fun c => V c ∨ ∃ p ∈ ([] : List Patch), On sh p c)
      (fun c => T c ∨ ∃ p ∈ ([] : List Patch), On sh p c) s := h.congr (by simp) (by simp)
    exact h'.1
  | cons p qs ih =>
    intro hps V T s h hfd
    obtain ⟨s1, e1, h1⟩ := testRefine_inv env sh p hok ps (hps p (by simp)) hf V T s h
    simp only [testAll, e1]
    by_cases hf1 : s1.found = true
    · rw [if_pos hf1]
      refine ⟨s1, rfl, fun _ => (h1.1.1 hf1).mono ?_ ?_, fun _ => hf1⟩
      · rintro c (h | h)
        · exact Or.inl h
        · exact Or.inr ⟨p, by simp, h⟩
      · rintro c (h | h)
        · exact Or.inl h
        · exact Or.inr ⟨p, by simp, h⟩
    · rw [if_neg hf1]
      obtain ⟨s2, e2, h2⟩ := ih (fun x hx => hps x (List.mem_cons_of_mem _ hx)) _ _ s1 h1
        (by simpa using hf1)
      refine ⟨s2, e2, ?_⟩
      rw [h2]
      have : ∀ W : Site → Prop, (fun c => (W c ∨ On sh p c) ∨ ∃ x ∈ qs, On sh x c)
          = fun c => W c ∨ ∃ x ∈ p :: qs, On sh x c := by
        intro W
        funext c
        apply propext
        simp only [List.mem_cons, exists_eq_or_imp, or_assoc]
      rw [this V, this T]

theorem fortTag4coarsening_eq (env : Env) (sh : Shared) (p0 p1 p2 p3 : Patch)
    (hok : sh.Ok env.ivar) (hf : Fits env sh [p0, p1, p2, p3]) (hth : 0 ≤ sh.threshold)
    (hi : sh.initFlag = 0) :
    ∃ b : Bool, fortTag4coarsening env sh p0 p1 p2 p3 = some (if b then 0 else 1) ∧
      (b = true ↔ Found env sh [p0, p1, p2, p3]) := by
  have hm := hok.mx
  have hm2 := hok.my
  unfold fortTag4coarsening
  dsimp only
  rw [if_neg (by rw [hi]; simp)]
  obtain ⟨s, es, hs⟩ := start_inv env sh p0 hok hth
  have hsf : s.found = false := by
    by_contra hcon
    have hcon' : s.found = true := by simpa using hcon
    have hF := hs.1.1 hcon'
    unfold FoundIn at hF
    split at hF
    · obtain ⟨c, rfl, c', rfl, h⟩ := hF
      rw [sub_self] at h
      exact absurd h (not_lt.2 hth)
    · obtain ⟨c, hF, _⟩ := hF
      exact hF
  obtain ⟨s', e', h'⟩ := testAll_inv env sh hok [p0, p1, p2, p3] hf [p0, p1, p2, p3]
    (fun _ h => h) _ _ s hs hsf
  rw [es]
  dsimp only
  rw [e']
  refine ⟨s'.found, rfl, ?_⟩
  rw [h', ← foundIn_iff]
  have hon : ∀ c : Site, (∃ p ∈ [p0, p1, p2, p3], On sh p c) ↔
      c.1 ∈ [p0, p1, p2, p3] ∧ IsCell sh.dims c.2.1 c.2.2 := by
    intro c
    constructor
    · rintro ⟨p, hp, h1, h2⟩
      exact ⟨h1 ▸ hp, h2⟩
    · rintro ⟨h1, h2⟩
      exact ⟨c.1, h1, rfl, h2⟩
  have e1 : (fun c : Site => c = (p0, 1, 1) ∨ ∃ p ∈ [p0, p1, p2, p3], On sh p c) = fun c : Site =>
      c.1 ∈ [p0, p1, p2, p3] ∧ IsCell sh.dims c.2.1 c.2.2 := by
    funext c
    apply propext
    rw [hon]
    constructor
    · rintro (rfl | h)
      · refine ⟨by simp, ?_⟩
        unfold IsCell
        dsimp only
        omega
      · exact h
    · exact Or.inr
  have e2 : (fun c : Site => False ∨ ∃ p ∈ [p0, p1, p2, p3], On sh p c) = fun c : Site =>
      c.1 ∈ [p0, p1, p2, p3] ∧ IsCell sh.dims c.2.1 c.2.2 := by
    funext c
    apply propext
    rw [hon, false_or]
  rw [e1, e2]

end Fclaw.Tag

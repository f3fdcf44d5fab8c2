import Verif.Tag3.Spec
import Verif.Fort.Loops
import Verif.Extrude.Lens
import Mathlib.Tactic.Ring
import Mathlib.Tactic.Linarith

set_option autoImplicit false
set_option linter.unusedSimpArgs false
set_option linter.unusedVariables false

namespace Fclaw.Tag3

open Fclaw.Fort Fclaw.Extrude

theorem inBox3_iff (D : Dims3) (i j k mq : ℤ) : inBox3 D (i, j, k, mq) = true ↔
    (1 - (D.mbc : ℤ) ≤ i ∧ i ≤ D.mx + D.mbc) ∧ (1 - (D.mbc : ℤ) ≤ j ∧ j ≤ D.my + D.mbc) ∧
    (1 - (D.mbc : ℤ) ≤ k ∧ k ≤ D.mz + D.mbc) ∧ 1 ≤ mq ∧ mq ≤ D.meqn := by
  unfold inBox3
  simp only [Bool.and_eq_true, decide_eq_true_eq]
  tauto

/-- Any cell in any layer. -/
abbrev Any (D : Dims3) (c : Pos) : Prop := IsCell D (AllLayers D) c

theorem any_inBox (D : Dims3) (c : Pos) (h : Any D c) (mq : ℤ) (h1 : 1 ≤ mq) (h2 : mq ≤ D.meqn) :
    inBox3 D (c.1, c.2.1, c.2.2, mq) = true := (inBox3_iff D _ _ _ mq).2 ⟨h.1, h.2.1, h.2.2, h1, h2⟩

theorem layers_all (D : Dims3) (k : ℤ) (h : Layers D k) : AllLayers D k := by
  unfold Layers at h
  unfold AllLayers
  omega

theorem cell_any (D : Dims3) (K : ℤ → Prop) (hK : ∀ k, K k → AllLayers D k) (c : Pos) (h : IsCell D K c) : Any D c :=
  ⟨h.1, h.2.1, hK _ h.2.2⟩

/-! ### The loops over components -/

theorem first_loop (D : Dims3) (q : Grid3 ℚ) (h : Any D (1, 1, 1)) (ks : List ℤ)
    (hks : ∀ k ∈ ks, 1 ≤ k ∧ k ≤ D.meqn) : ∀ s : Scan,
    loop ks (firstStep D q) s = some { s with
      qmin := fun mq => if mq ∈ ks then some (q (1, 1, 1, mq)) else s.qmin mq
      qmax := fun mq => if mq ∈ ks then some (q (1, 1, 1, mq)) else s.qmax mq } := by
  induction ks with
  | nil => intro s; simp [loop]
  | cons k ks ih =>
    intro s
    have hb : inBox3 D (1, 1, 1, k) = true := any_inBox D _ h k (hks k (by simp)).1 (hks k (by simp)).2
    simp only [loop, firstStep, rd3, hb, if_true, Option.bind_some]
    rw [ih (fun x hx => hks x (List.mem_cons_of_mem _ hx))]
    congr 1
    simp only [Scan.mk.injEq, true_and, and_true]
    constructor <;>
    · funext mq
      by_cases h1 : mq ∈ ks
      · simp [h1]
      · by_cases h2 : mq = k
        · subst h2; simp [h1, setAt]
        · simp [h1, h2, setAt]

theorem component_loop (D : Dims3) (q : Grid3 ℚ) (c : Pos) (h : Any D c) (ks : List ℤ)
    (hks : ∀ k ∈ ks, 1 ≤ k ∧ k ≤ D.meqn) : ∀ (s : Scan) (lo hi : ℤ → ℚ),
    (∀ k ∈ ks, s.qmin k = some (lo k)) → (∀ k ∈ ks, s.qmax k = some (hi k)) →
    loop ks (componentStep D q c) s = some { s with
      qval := fun mq => if mq ∈ ks then some (q (c.1, c.2.1, c.2.2, mq)) else s.qval mq
      qmin := fun mq => if mq ∈ ks then some (min (lo mq) (q (c.1, c.2.1, c.2.2, mq))) else s.qmin mq
      qmax := fun mq => if mq ∈ ks then some (max (hi mq) (q (c.1, c.2.1, c.2.2, mq))) else s.qmax mq } := by
  induction ks with
  | nil => intro s lo hi _ _; simp [loop]
  | cons k ks ih =>
    intro s lo hi hlo hhi
    have hb : inBox3 D (c.1, c.2.1, c.2.2, k) = true := any_inBox D _ h k (hks k (by simp)).1 (hks k (by simp)).2
    simp only [loop, componentStep, rd3, hb, if_true, hlo k (by simp), hhi k (by simp),
      Option.bind_some]
    rw [ih (fun x hx => hks x (List.mem_cons_of_mem _ hx)) _
      (fun x => if x = k then min (lo k) (q (c.1, c.2.1, c.2.2, k)) else lo x)
      (fun x => if x = k then max (hi k) (q (c.1, c.2.1, c.2.2, k)) else hi x)
      (by
        intro x hx
        dsimp only [setAt]
        by_cases hxk : x = k
        · subst hxk; simp
        · rw [if_neg hxk, if_neg hxk]; exact hlo x (List.mem_cons_of_mem _ hx))
      (by
        intro x hx
        dsimp only [setAt]
        by_cases hxk : x = k
        · subst hxk; simp
        · rw [if_neg hxk, if_neg hxk]; exact hhi x (List.mem_cons_of_mem _ hx))]
    congr 1
    simp only [Scan.mk.injEq, true_and, and_true]
    refine ⟨?_, ?_, ?_⟩ <;>
    · funext mq
      by_cases h1 : mq ∈ ks
      · by_cases h2 : mq = k
        · subst h2; simp [h1, setAt]
        · simp [h1, h2, setAt]
      · by_cases h2 : mq = k
        · subst h2; simp [h1, setAt]
        · simp [h1, h2, setAt]

theorem component_loop' (D : Dims3) (p : Patch) (c : Pos) (h : Any D c) (s : Scan)
    (lo hi : ℤ → ℚ) (hlo : ∀ k, 1 ≤ k → k ≤ (D.meqn : ℤ) → s.qmin k = some (lo k))
    (hhi : ∀ k, 1 ≤ k → k ≤ (D.meqn : ℤ) → s.qmax k = some (hi k)) :
    ∃ s1, doLoop 1 D.meqn (fun mq => componentStep D p.q c mq) s = some s1 ∧
      s1.quad = s.quad ∧ s1.found = s.found ∧
      ∀ mq, 1 ≤ mq → mq ≤ (D.meqn : ℤ) → s1.qval mq = some (p.at c mq) ∧
        s1.qmin mq = some (min (lo mq) (p.at c mq)) ∧
        s1.qmax mq = some (max (hi mq) (p.at c mq)) := by
  have hr : ∀ k, k ∈ range 1 (D.meqn : ℤ) → 1 ≤ k ∧ k ≤ (D.meqn : ℤ) :=
    fun k hk => (mem_range _ _ _).1 hk
  refine ⟨_, component_loop D p.q c h (range 1 D.meqn) hr s lo hi
    (fun k hk => hlo k (hr k hk).1 (hr k hk).2) (fun k hk => hhi k (hr k hk).1 (hr k hk).2),
    rfl, rfl, ?_⟩
  intro mq h1 h2
  have hm := (mem_range 1 (D.meqn : ℤ) mq).2 ⟨h1, h2⟩
  dsimp only
  rw [if_pos hm, if_pos hm, if_pos hm]
  exact ⟨rfl, rfl, rfl⟩

theorem quad_loop (D : Dims3) (q : Grid3 ℚ) (c : Pos) (L : List (Pos × ℤ))
    (hL : ∀ x ∈ L, inBox3 D (c.1 + x.1.1, c.2.1 + x.1.2.1, c.2.2 + x.1.2.2, x.2) = true) : ∀ s : Scan,
    loop L (fun x => quadStep D q c x.1.1 x.1.2.1 x.1.2.2 x.2) s = some { s with
      quad := fun o m => if (o, m) ∈ L then some (q (c.1 + o.1, c.2.1 + o.2.1, c.2.2 + o.2.2, m))
        else s.quad o m } := by
  induction L with
  | nil => intro s; simp [loop]
  | cons x L ih =>
    intro s
    have hb := hL x (by simp)
    simp only [loop, quadStep, rd3, hb, if_true, Option.bind_some]
    rw [ih (fun y hy => hL y (List.mem_cons_of_mem _ hy))]
    congr 1
    simp only [Scan.mk.injEq, true_and, and_true]
    funext o m
    by_cases h1 : (o, m) ∈ L
    · simp [h1]
    · by_cases h2 : (o, m) = x
      · subst h2; simp [h1]
      · have h3 : ¬ (o = (x.1.1, x.1.2.1, x.1.2.2) ∧ m = x.2) := by
          rintro ⟨e1, e2⟩
          exact h2 (by rw [e1, e2])
        rw [if_neg h1, if_neg h3, if_neg (by rw [List.mem_cons]; rintro (h | h) <;> [exact h2 h; exact h1 h])]

/-- The neighbourhood of a cell. -/
def Near (D : Dims3) (o : Pos) (mq : ℤ) : Prop :=
  (-1 ≤ o.1 ∧ o.1 ≤ 1) ∧ (-1 ≤ o.2.1 ∧ o.2.1 ≤ 1) ∧ (-1 ≤ o.2.2 ∧ o.2.2 ≤ 1) ∧ 1 ≤ mq ∧ mq ≤ (D.meqn : ℤ)

theorem near_inBox (D : Dims3) (hmbc : 1 ≤ D.mbc) (c : Pos) (h : Interior D c) (o : Pos) (mq : ℤ)
    (hn : Near D o mq) : inBox3 D (c.1 + o.1, c.2.1 + o.2.1, c.2.2 + o.2.2, mq) = true := by
  obtain ⟨⟨h1, h2⟩, ⟨h3, h4⟩, h5, h6⟩ := h
  obtain ⟨⟨n1, n2⟩, ⟨n3, n4⟩, ⟨n5, n6⟩, n7, n8⟩ := hn
  rw [inBox3_iff]
  refine ⟨⟨?_, ?_⟩, ⟨?_, ?_⟩, ⟨?_, ?_⟩, n7, n8⟩ <;> omega

/-- Either way of filling `quad` sets all of it. -/
def FillOk (fill : Dims3 → Grid3 ℚ → Pos → Scan → Option Scan) : Prop :=
  ∀ (D : Dims3) (p : Patch) (c : Pos) (s : Scan), 1 ≤ D.mbc → Interior D c →
    ∃ quad', fill D p.q c s = some { s with quad := quad' } ∧
      ∀ o m, Near D o m → quad' o m = some (p.at (c + o) m)

/-- Four nested loops as one. -/
theorem loop_four {σ : Type} (A B C E : List ℤ) (f : ℤ → ℤ → ℤ → ℤ → σ → Option σ) (s : σ) :
    loop A (fun a => loop B fun b => loop C fun c => loop E fun e => f a b c e) s =
      loop (A.flatMap fun a => (B.flatMap fun b => (C.flatMap fun c => E.map fun e => (c, e)).map fun x => (b, x)).map
        fun x => (a, x)) (fun x => f x.1 x.2.1 x.2.2.1 x.2.2.2) s := by
  rw [← loop_flat A _ (fun (a : ℤ) (x : ℤ × ℤ × ℤ) => f a x.1 x.2.1 x.2.2)]
  congr 1
  funext a s
  rw [← loop_flat B _ (fun (b : ℤ) (x : ℤ × ℤ) => f a b x.1 x.2)]
  congr 1
  funext b s
  rw [loop_flat C E (fun c e => f a b c e)]

theorem mem_four (A B C E : List ℤ) (x : ℤ × ℤ × ℤ × ℤ) :
    x ∈ (A.flatMap fun a => (B.flatMap fun b => (C.flatMap fun c => E.map fun e => (c, e)).map fun x => (b, x)).map
        fun x => (a, x)) ↔ x.1 ∈ A ∧ x.2.1 ∈ B ∧ x.2.2.1 ∈ C ∧ x.2.2.2 ∈ E := by
  obtain ⟨a, b, c, e⟩ := x
  rw [mem_flat, mem_flat, mem_flat]

theorem fillQuad_ok : FillOk fillQuad := by
  intro D p c s hmbc hin
  have e : fillQuad D p.q c s = _ :=
    loop_four (range (-1) 1) (range (-1) 1) (range (-1) 1) (range 1 D.meqn)
      (fun jj ii kk mq => quadStep D p.q c ii jj kk mq) s
  have e2 : ∀ L : List (ℤ × ℤ × ℤ × ℤ), loop L (fun x => quadStep D p.q c x.2.1 x.1 x.2.2.1 x.2.2.2) s =
      loop (L.map fun x => (((x.2.1, x.1, x.2.2.1) : Pos), x.2.2.2))
        (fun x => quadStep D p.q c x.1.1 x.1.2.1 x.1.2.2 x.2) s := fun L => by rw [loop_map]
  have hm : ∀ o m, (o, m) ∈ ((((range (-1) 1).flatMap fun a => ((range (-1) 1).flatMap fun b =>
      ((range (-1) 1).flatMap fun c => (range 1 D.meqn).map fun e => (c, e)).map fun x => (b, x)).map fun x => (a, x))).map
        fun x : ℤ × ℤ × ℤ × ℤ => (((x.2.1, x.1, x.2.2.1) : Pos), x.2.2.2)) ↔ Near D o m := by
    intro o m
    rw [List.mem_map]
    constructor
    · rintro ⟨x, hx, hxe⟩
      rw [mem_four, mem_range, mem_range, mem_range, mem_range] at hx
      rw [Prod.mk.injEq] at hxe
      obtain ⟨rfl, rfl⟩ := hxe
      exact ⟨hx.2.1, hx.1, hx.2.2⟩
    · intro hn
      refine ⟨(o.2.1, o.1, o.2.2, m), ?_, rfl⟩
      rw [mem_four, mem_range, mem_range, mem_range, mem_range]
      exact ⟨hn.2.1, hn.1, hn.2.2⟩
  rw [e, e2, quad_loop D p.q c _ (fun x hx => near_inBox D hmbc c hin _ _ ((hm _ _).1 hx))]
  refine ⟨_, rfl, fun o m hn => ?_⟩
  show (if _ then _ else _) = _
  rw [if_pos ((hm o m).2 hn)]
  rfl

theorem fillQuad'_ok : FillOk fillQuad' := by
  intro D p c s hmbc hin
  have e : fillQuad' D p.q c s = _ :=
    loop_four (range (-1) 1) (range (-1) 1) (range (-1) 1) (range 1 D.meqn)
      (fun ii jj kk mq => quadStep D p.q c ii jj kk mq) s
  have e2 : ∀ L : List (ℤ × ℤ × ℤ × ℤ), loop L (fun x => quadStep D p.q c x.1 x.2.1 x.2.2.1 x.2.2.2) s =
      loop (L.map fun x => (((x.1, x.2.1, x.2.2.1) : Pos), x.2.2.2))
        (fun x => quadStep D p.q c x.1.1 x.1.2.1 x.1.2.2 x.2) s := fun L => by rw [loop_map]
  have hm : ∀ o m, (o, m) ∈ ((((range (-1) 1).flatMap fun a => ((range (-1) 1).flatMap fun b =>
      ((range (-1) 1).flatMap fun c => (range 1 D.meqn).map fun e => (c, e)).map fun x => (b, x)).map fun x => (a, x))).map
        fun x : ℤ × ℤ × ℤ × ℤ => (((x.1, x.2.1, x.2.2.1) : Pos), x.2.2.2)) ↔ Near D o m := by
    intro o m
    rw [List.mem_map]
    constructor
    · rintro ⟨x, hx, hxe⟩
      rw [mem_four, mem_range, mem_range, mem_range, mem_range] at hx
      rw [Prod.mk.injEq] at hxe
      obtain ⟨rfl, rfl⟩ := hxe
      exact hx
    · intro hn
      refine ⟨(o.1, o.2.1, o.2.2, m), ?_, rfl⟩
      rw [mem_four, mem_range, mem_range, mem_range, mem_range]
      exact hn
  rw [e, e2, quad_loop D p.q c _ (fun x hx => near_inBox D hmbc c hin _ _ ((hm _ _).1 hx))]
  refine ⟨_, rfl, fun o m hn => ?_⟩
  show (if _ then _ else _) = _
  rw [if_pos ((hm o m).2 hn)]
  rfl

/-! ### Criteria -/

theorem isGhost_false (D : Dims3) (c : Pos) : isGhost D c = false ↔ Interior D c := by
  unfold isGhost Interior
  simp only [Bool.not_eq_false', Bool.and_eq_true, decide_eq_true_eq]
  tauto

theorem isGhost_true (D : Dims3) (c : Pos) : isGhost D c = true ↔ ¬ Interior D c := by
  rw [← isGhost_false, Bool.not_eq_false]

/-- What is asked in a cell, once the running minimum and maximum are known. -/
def Asked (env : Env) (sh : Shared) (p : Patch) (c : Pos) (lo hi : ℚ) : Prop :=
  match env.criterion with
  | .minmax => sh.threshold < hi - lo
  | _ => Meets env sh p c

theorem pos_ite (P : Prop) [Decidable P] : (0 : ℤ) < (if P then 1 else 0) ↔ P := by
  split <;> simp_all

/-- The arguments of the criterion in a cell. -/
def argsIn (env : Env) (sh : Shared) (p : Patch) (c : Pos) (s : Scan) : Args :=
  { blockno := sh.blockno, meqn := sh.dims.meqn, qval := s.qval, qmin := s.qmin, qmax := s.qmax,
    quad := s.quad, dx := sh.dx, dy := sh.dy, dz := sh.dz,
    xc := p.xlower + (c.1 - 1 / 2) * sh.dx, yc := p.ylower + (c.2.1 - 1 / 2) * sh.dy,
    zc := sh.zlower + (c.2.2 - 1 / 2) * sh.dz, ivar := env.ivar, threshold := sh.threshold,
    initFlag := sh.initFlag, isGhost := isGhost sh.dims c }

theorem six_eq (env : Env) (sh : Shared) (p : Patch) (c : Pos) (s : Scan) (hok : sh.Ok env.ivar)
    (hquad : ∀ o m, Near sh.dims o m → s.quad o m = some (p.at (c + o) m)) :
    six (argsIn env sh p c s) = some (p.at (c.1 + 1, c.2.1, c.2.2) env.ivar, p.at (c.1 - 1, c.2.1, c.2.2) env.ivar,
      p.at (c.1, c.2.1 + 1, c.2.2) env.ivar, p.at (c.1, c.2.1 - 1, c.2.2) env.ivar,
      p.at (c.1, c.2.1, c.2.2 + 1) env.ivar, p.at (c.1, c.2.1, c.2.2 - 1) env.ivar) := by
  have hiv := hok.lower
  have hiv' := hok.upper
  have n : ∀ a b e : ℤ, -1 ≤ a ∧ a ≤ 1 → -1 ≤ b ∧ b ≤ 1 → -1 ≤ e ∧ e ≤ 1 → s.quad (a, b, e) env.ivar =
      some (p.at (c + (a, b, e)) env.ivar) := fun a b e h1 h2 h3 => hquad _ _ ⟨h1, h2, h3, hiv, hiv'⟩
  unfold six argsIn
  dsimp only
  rw [n 1 0 0 (by omega) (by omega) (by omega), n (-1) 0 0 (by omega) (by omega) (by omega),
    n 0 1 0 (by omega) (by omega) (by omega), n 0 (-1) 0 (by omega) (by omega) (by omega),
    n 0 0 1 (by omega) (by omega) (by omega), n 0 0 (-1) (by omega) (by omega) (by omega)]
  obtain ⟨i, j, k⟩ := c
  simp only [Option.bind_some, Prod.mk_add_mk, add_zero, sub_eq_add_neg]

theorem criteria (env : Env) (sh : Shared) (p : Patch) (c : Pos) (s : Scan) (lo hi : ℚ)
    (hok : sh.Ok env.ivar) (hf : Fits env sh)
    (hval : ∀ mq, 1 ≤ mq → mq ≤ (sh.dims.meqn : ℤ) → s.qval mq = some (p.at c mq))
    (hlo : s.qmin env.ivar = some lo) (hhi : s.qmax env.ivar = some hi)
    (hquad : Interior sh.dims c → ∀ o m, Near sh.dims o m → s.quad o m = some (p.at (c + o) m)) :
    ∃ r, tagCriteria env (argsIn env sh p c s) = some r ∧ (r > 0 ↔ Asked env sh p c lo hi) := by
  have hiv := hok.lower
  have hiv' := hok.upper
  unfold tagCriteria Asked Meets
  unfold Fits at hf
  cases hc : env.criterion with
  | value =>
    refine ⟨_, by simp only [valueExceeds, argsIn, hval _ hiv hiv']; rfl, ?_⟩
    exact pos_ite _
  | minmax =>
    refine ⟨_, by simp only [minmaxExceeds, argsIn, hlo, hhi]; rfl, ?_⟩
    exact pos_ite _
  | other => rw [hc] at hf; exact hf.elim
  | difference =>
    dsimp only
    by_cases hin : Interior sh.dims c
    · have hg : (argsIn env sh p c s).isGhost = false := (isGhost_false _ _).2 hin
      refine ⟨_, by
        rw [differenceExceeds, hg, if_neg (by decide), six_eq env sh p c s hok (hquad hin)]; rfl, ?_⟩
      rw [gt_iff_lt, pos_ite, gt_iff_lt, lt_max_iff, lt_max_iff, or_assoc]
      exact ⟨fun h => ⟨hin, h⟩, fun h => h.2⟩
    · refine ⟨-1, by simp only [differenceExceeds, argsIn, (isGhost_true _ _).2 hin, if_true], ?_⟩
      constructor
      · intro h; omega
      · intro h; exact absurd h.1 hin
  | user f =>
    rw [hc] at hf
    cases f with
    | none => exact hf.elim
    | some f =>
      refine ⟨_, rfl, ?_⟩
      have h := hf (argsOf env.ivar sh p c) s.qmin s.qmax s.qval s.quad
        (fun mq h1 h2 => hval mq h1 h2)
        (fun hg o m h1 h2 h3 h5 h6 => hquad ((isGhost_false _ _).1 hg) o m ⟨h1, h2, h3, h5, h6⟩)
      dsimp only
      rw [← h]
      rfl
  | gradient =>
    rw [hc] at hf
    obtain ⟨hdx, hdy, hdz⟩ := hf
    dsimp only
    by_cases hin : Interior sh.dims c
    · have hg : (argsIn env sh p c s).isGhost = false := (isGhost_false _ _).2 hin
      have hxyz : ¬ ((argsIn env sh p c s).dx = 0 ∨ (argsIn env sh p c s).dy = 0 ∨ (argsIn env sh p c s).dz = 0) := by
        rintro (h | h | h)
        · exact hdx h
        · exact hdy h
        · exact hdz h
      refine ⟨_, by
        rw [gradientExceeds, hg, if_neg (by decide), six_eq env sh p c s hok (hquad hin), Option.bind_some]
        dsimp only
        rw [if_neg hxyz], ?_⟩
      rw [gt_iff_lt, pos_ite]
      have e : ∀ x : ℚ, x ^ 2 = x * x := fun x => pow_two x
      simp only [e]
      exact ⟨fun h => ⟨hin, h⟩, fun h => h.2⟩
    · refine ⟨-1, by simp only [gradientExceeds, argsIn, (isGhost_true _ _).2 hin, if_true], ?_⟩
      constructor
      · intro h; omega
      · intro h; exact absurd h.1 hin

/-! ### The scan -/

/-- A cell of one of the patches. -/
abbrev Site := Patch × Pos

def val (c : Site) (mq : ℤ) : ℚ := c.1.at c.2 mq

/-- Something has been found among the tested cells `T`; `V` are the cells that went into the minimum and maximum. -/
def FoundIn (env : Env) (sh : Shared) (V T : Site → Prop) : Prop :=
  match env.criterion with
  | .minmax => ∃ c, V c ∧ ∃ c', V c' ∧ sh.threshold < val c env.ivar - val c' env.ivar
  | _ => ∃ c, T c ∧ Meets env sh c.1 c.2

/-- The invariant of the scan. -/
def Inv (env : Env) (sh : Shared) (V T : Site → Prop) (s : Scan) : Prop :=
  (s.found = true ↔ FoundIn env sh V T) ∧ (s.found = false →
    ∃ lo hi : ℤ → ℚ, ∀ mq, 1 ≤ mq → mq ≤ (sh.dims.meqn : ℤ) →
      s.qmin mq = some (lo mq) ∧ s.qmax mq = some (hi mq) ∧
      (∀ c, V c → lo mq ≤ val c mq ∧ val c mq ≤ hi mq) ∧
      (∃ c, V c ∧ lo mq = val c mq) ∧ ∃ c, V c ∧ hi mq = val c mq)

theorem FoundIn.mono {env : Env} {sh : Shared} {V T V' T' : Site → Prop} (hV : ∀ c, V c → V' c)
    (hT : ∀ c, T c → T' c) (h : FoundIn env sh V T) : FoundIn env sh V' T' := by
  unfold FoundIn at h ⊢
  split at h
  · obtain ⟨c, hc, c', hc', hlt⟩ := h
    exact ⟨c, hV c hc, c', hV c' hc', hlt⟩
  · obtain ⟨c, hc, h⟩ := h
    exact ⟨c, hT c hc, h⟩

theorem cellStep_inv (env : Env) (sh : Shared) (p : Patch)
    (fill : Dims3 → Grid3 ℚ → Pos → Scan → Option Scan) (hfill : FillOk fill)
    (hok : sh.Ok env.ivar) (hf : Fits env sh)
    (x : Pos) (hc : Any sh.dims x) (V T : Site → Prop) (s : Scan) (h : Inv env sh V T s) :
    ∃ s', cellStep env sh p fill x s = some s' ∧
      Inv env sh (fun c => V c ∨ c = (p, x)) (fun c => T c ∨ c = (p, x)) s' := by
  unfold cellStep
  by_cases hfd : s.found = true
  · rw [if_pos hfd]
    refine ⟨s, rfl, ⟨fun _ => (h.1.1 hfd).mono (fun _ => Or.inl) (fun _ => Or.inl),
      fun _ => hfd⟩, fun h' => ?_⟩
    rw [hfd] at h'; cases h'
  · rw [if_neg hfd]
    have hfd' : s.found = false := by simpa using hfd
    obtain ⟨lo, hi, hlh⟩ := h.2 hfd'
    obtain ⟨s1, e1, _, f1, v1⟩ := component_loop' sh.dims p x hc s lo hi
      (fun k h1 h2 => (hlh k h1 h2).1) (fun k h1 h2 => (hlh k h1 h2).2.1)
    rw [e1]
    dsimp only
    have hq2 : ∃ quad', (if isGhost sh.dims x = true then some s1
        else fill sh.dims p.q x s1) = some { s1 with quad := quad' } ∧
        (Interior sh.dims x → ∀ o m, Near sh.dims o m → quad' o m = some (p.at (x + o) m)) := by
      by_cases hin : Interior sh.dims x
      · rw [if_neg (by rw [(isGhost_false _ _).2 hin]; simp)]
        obtain ⟨quad', e, hq⟩ := hfill sh.dims p x s1 hok.mbc hin
        exact ⟨quad', e, fun _ => hq⟩
      · rw [if_pos ((isGhost_true _ _).2 hin)]
        exact ⟨s1.quad, rfl, fun h => absurd h hin⟩
    obtain ⟨quad', e2, hq⟩ := hq2
    rw [e2]
    dsimp only
    have hv := v1 env.ivar hok.lower hok.upper
    obtain ⟨r, er, hr⟩ := criteria env sh p x { s1 with quad := quad' }
      (min (lo env.ivar) (p.at x env.ivar)) (max (hi env.ivar) (p.at x env.ivar))
      hok hf (fun mq h1 h2 => (v1 mq h1 h2).1) hv.2.1 hv.2.2 hq
    unfold argsIn at er
    dsimp only at er
    rw [er]
    refine ⟨_, rfl, ?_, ?_⟩
    · dsimp only
      rw [decide_eq_true_eq, hr]
      have hnf : ¬ FoundIn env sh V T := fun h' => hfd (h.1.2 h')
      obtain ⟨_, _, hb, ⟨cl, hcl, hlo⟩, ch, hch, hhi⟩ := hlh env.ivar hok.lower hok.upper
      unfold Asked
      unfold FoundIn at hnf ⊢
      have hval : val (p, x) env.ivar = p.at x env.ivar := rfl
      split
      · rename_i hcr
        rw [hcr] at hnf
        dsimp only at hnf
        constructor
        · intro hlt
          refine ⟨if hi env.ivar ≤ p.at x env.ivar then (p, x) else ch, ?_,
            if p.at x env.ivar ≤ lo env.ivar then (p, x) else cl, ?_, ?_⟩
          · split
            · exact Or.inr rfl
            · exact Or.inl hch
          · split
            · exact Or.inr rfl
            · exact Or.inl hcl
          · have a1 : val (if hi env.ivar ≤ p.at x env.ivar then (p, x) else ch) env.ivar
                = max (hi env.ivar) (p.at x env.ivar) := by
              split
              · rename_i h'; rw [max_eq_right h', hval]
              · rename_i h'; rw [max_eq_left (le_of_not_ge h'), hhi]
            have a2 : val (if p.at x env.ivar ≤ lo env.ivar then (p, x) else cl) env.ivar
                = min (lo env.ivar) (p.at x env.ivar) := by
              split
              · rename_i h'; rw [min_eq_right h', hval]
              · rename_i h'; rw [min_eq_left (le_of_not_ge h'), hlo]
            rw [a1, a2]
            exact hlt
        · rintro ⟨c, hc, c', hc', hlt⟩
          have up : ∀ c, (V c ∨ c = (p, x)) →
              min (lo env.ivar) (p.at x env.ivar) ≤ val c env.ivar ∧
              val c env.ivar ≤ max (hi env.ivar) (p.at x env.ivar) := by
            rintro c (hc | rfl)
            · exact ⟨(min_le_left _ _).trans (hb c hc).1, (hb c hc).2.trans (le_max_left _ _)⟩
            · exact ⟨min_le_right _ _, le_max_right _ _⟩
          have u1 := (up c hc).2
          have u2 := (up c' hc').1
          linarith
      · rename_i hcr
        constructor
        · intro hm; exact ⟨(p, x), Or.inr rfl, hm⟩
        · rintro ⟨c, hc | rfl, hm⟩
          · exfalso
            apply hnf
            split
            · rename_i h'; exact absurd h' hcr
            · exact ⟨c, hc, hm⟩
          · exact hm
    · intro _
      refine ⟨fun mq => min (lo mq) (p.at x mq), fun mq => max (hi mq) (p.at x mq),
        fun mq h1 h2 => ⟨(v1 mq h1 h2).2.1, (v1 mq h1 h2).2.2, ?_, ?_, ?_⟩⟩
      · obtain ⟨_, _, hb, _⟩ := hlh mq h1 h2
        rintro c (hc | rfl)
        · exact ⟨(min_le_left _ _).trans (hb c hc).1, (hb c hc).2.trans (le_max_left _ _)⟩
        · exact ⟨min_le_right _ _, le_max_right _ _⟩
      · obtain ⟨_, _, _, ⟨c, hc, he⟩, _⟩ := hlh mq h1 h2
        rcases le_total (lo mq) (p.at x mq) with hle | hle
        · exact ⟨c, Or.inl hc, by dsimp only; rw [min_eq_left hle, he]⟩
        · exact ⟨(p, x), Or.inr rfl, by dsimp only; rw [min_eq_right hle]; rfl⟩
      · obtain ⟨_, _, _, _, c, hc, he⟩ := hlh mq h1 h2
        rcases le_total (hi mq) (p.at x mq) with hle | hle
        · exact ⟨(p, x), Or.inr rfl, by dsimp only; rw [max_eq_right hle]; rfl⟩
        · exact ⟨c, Or.inl hc, by dsimp only; rw [max_eq_left hle, he]⟩

theorem Inv.congr {env : Env} {sh : Shared} {V T V' T' : Site → Prop} {s : Scan}
    (hV : ∀ c, V c ↔ V' c) (hT : ∀ c, T c ↔ T' c) (h : Inv env sh V T s) :
    Inv env sh V' T' s := by
  have e1 : V = V' := funext fun c => propext (hV c)
  have e2 : T = T' := funext fun c => propext (hT c)
  rw [← e1, ← e2]; exact h

theorem cells_inv (env : Env) (sh : Shared) (p : Patch)
    (fill : Dims3 → Grid3 ℚ → Pos → Scan → Option Scan) (hfill : FillOk fill)
    (hok : sh.Ok env.ivar) (hf : Fits env sh)
    (L : List Pos) : ∀ (V T : Site → Prop) (s : Scan),
    (∀ x ∈ L, Any sh.dims x) → Inv env sh V T s →
    ∃ s', loop L (fun x => cellStep env sh p fill x) s = some s' ∧
      Inv env sh (fun c => V c ∨ (c.1 = p ∧ c.2 ∈ L)) (fun c => T c ∨ (c.1 = p ∧ c.2 ∈ L)) s' := by
  induction L with
  | nil =>
    intro V T s _ h
    exact ⟨s, rfl, h.congr (by simp) (by simp)⟩
  | cons x L ih =>
    intro V T s hL h
    obtain ⟨s1, e1, h1⟩ := cellStep_inv env sh p fill hfill hok hf x (hL x (by simp)) V T s h
    obtain ⟨s2, e2, h2⟩ := ih _ _ s1 (fun y hy => hL y (List.mem_cons_of_mem _ hy)) h1
    refine ⟨s2, by simp only [loop, e1, Option.bind_some, e2], h2.congr ?_ ?_⟩ <;>
    · rintro ⟨c, y⟩
      simp only [List.mem_cons, Prod.mk.injEq]
      constructor
      · rintro ((h | ⟨rfl, h⟩) | ⟨rfl, h⟩)
        · exact Or.inl h
        · exact Or.inr ⟨rfl, Or.inl h⟩
        · exact Or.inr ⟨rfl, Or.inr h⟩
      · rintro (h | ⟨rfl, h | h⟩)
        · exact Or.inl (Or.inl h)
        · exact Or.inl (Or.inr ⟨rfl, h⟩)
        · exact Or.inr ⟨rfl, h⟩

/-- The cells of a patch in the layers `K`. -/
def On (sh : Shared) (K : ℤ → Prop) (p : Patch) (c : Site) : Prop := c.1 = p ∧ IsCell sh.dims K c.2

theorem start_inv (env : Env) (sh : Shared) (p : Patch) (hok : sh.Ok env.ivar)
    (hth : 0 ≤ sh.threshold) :
    ∃ s, doLoop 1 sh.dims.meqn (firstStep sh.dims p.q) Scan.unset = some s ∧
      Inv env sh (fun c => c = (p, 1, 1, 1)) (fun _ => False) s := by
  have h1 := hok.mx
  have h2 := hok.my
  have h3 := hok.mz
  have hc : Any sh.dims (1, 1, 1) := by
    unfold Any IsCell AllLayers
    dsimp only
    omega
  have e := first_loop sh.dims p.q hc (range 1 sh.dims.meqn)
    (fun k hk => (mem_range _ _ _).1 hk) Scan.unset
  refine ⟨_, e, ⟨?_, ?_⟩, ?_⟩
  · intro h; cases h
  · unfold FoundIn
    split
    · rintro ⟨c, rfl, c', rfl, h⟩
      rw [sub_self] at h
      exact absurd h (not_lt.2 hth)
    · rintro ⟨c, hF, _⟩; exact hF.elim
  · intro _
    refine ⟨fun mq => p.q (1, 1, 1, mq), fun mq => p.q (1, 1, 1, mq), fun mq m1 m2 => ?_⟩
    have hm := (mem_range 1 (sh.dims.meqn : ℤ) mq).2 ⟨m1, m2⟩
    dsimp only
    rw [if_pos hm, if_pos hm]
    refine ⟨rfl, rfl, ?_, ⟨_, rfl, rfl⟩, _, rfl, rfl⟩
    rintro c rfl
    exact ⟨le_refl _, le_refl _⟩

theorem foundIn_iff (env : Env) (sh : Shared) (K : ℤ → Prop) (ps : List Patch) :
    FoundIn env sh (fun c => c.1 ∈ ps ∧ IsCell sh.dims K c.2)
      (fun c => c.1 ∈ ps ∧ IsCell sh.dims K c.2) ↔ Found env sh K ps := by
  unfold FoundIn Found
  cases env.criterion <;> dsimp only
  case minmax =>
    constructor
    · rintro ⟨⟨p, c⟩, ⟨h1, h2⟩, ⟨p', c'⟩, ⟨h3, h4⟩, h5⟩
      exact ⟨p, h1, c, h2, p', h3, c', h4, h5⟩
    · rintro ⟨p, h1, c, h2, p', h3, c', h4, h5⟩
      exact ⟨(p, c), ⟨h1, h2⟩, (p', c'), ⟨h3, h4⟩, h5⟩
  all_goals
    constructor
    · rintro ⟨⟨p, c⟩, ⟨h1, h2⟩, h3⟩
      exact ⟨p, h1, c, h2, h3⟩
    · rintro ⟨p, h1, c, h2, h3⟩
      exact ⟨(p, c), ⟨h1, h2⟩, h3⟩

/-- Three nested loops as one. -/
theorem loop_three {σ : Type} (A B C : List ℤ) (f : ℤ → ℤ → ℤ → σ → Option σ) (s : σ) :
    loop A (fun a => loop B fun b => loop C fun c => f a b c) s =
      loop (A.flatMap fun a => (B.flatMap fun b => C.map fun c => (b, c)).map fun x => (a, x))
        (fun x => f x.1 x.2.1 x.2.2) s := by
  rw [← loop_flat A _ (fun (a : ℤ) (x : ℤ × ℤ) => f a x.1 x.2)]
  congr 1
  funext a s
  rw [loop_flat B C (fun b c => f a b c)]

theorem mem_three (A B C : List ℤ) (x : ℤ × ℤ × ℤ) :
    x ∈ (A.flatMap fun a => (B.flatMap fun b => C.map fun c => (b, c)).map fun x => (a, x)) ↔
      x.1 ∈ A ∧ x.2.1 ∈ B ∧ x.2.2 ∈ C := by
  obtain ⟨a, b, c⟩ := x
  rw [mem_flat, mem_flat]

theorem fortTag4refinement_eq (env : Env) (sh : Shared) (p : Patch) (hok : sh.Ok env.ivar)
    (hf : Fits env sh) (hth : 0 ≤ sh.threshold) :
    ∃ b : Bool, fortTag4refinement env sh p = some (if b then 1 else 0) ∧
      (b = true ↔ Found env sh (AllLayers sh.dims) [p]) := by
  have hm := hok.mx
  have hm2 := hok.my
  have hm3 := hok.mz
  obtain ⟨s, es, hs⟩ := start_inv env sh p hok hth
  unfold fortTag4refinement
  dsimp only
  rw [es]
  dsimp only
  have e := loop_three (range (1 - (sh.dims.mbc : ℤ)) (sh.dims.mz + sh.dims.mbc))
    (range (1 - (sh.dims.mbc : ℤ)) (sh.dims.my + sh.dims.mbc)) (range (1 - (sh.dims.mbc : ℤ)) (sh.dims.mx + sh.dims.mbc))
    (fun k j i => cellStep env sh p fillQuad (i, j, k)) s
  have e2 : ∀ L : List (ℤ × ℤ × ℤ), loop L (fun x => cellStep env sh p fillQuad (x.2.2, x.2.1, x.1)) s =
      loop (L.map fun x => ((x.2.2, x.2.1, x.1) : Pos)) (fun x => cellStep env sh p fillQuad x) s :=
    fun L => by rw [loop_map]
  unfold doLoop
  rw [e, e2]
  have hmem : ∀ x : Pos, x ∈ (((range (1 - (sh.dims.mbc : ℤ)) (sh.dims.mz + sh.dims.mbc)).flatMap fun a =>
      ((range (1 - (sh.dims.mbc : ℤ)) (sh.dims.my + sh.dims.mbc)).flatMap fun b =>
        (range (1 - (sh.dims.mbc : ℤ)) (sh.dims.mx + sh.dims.mbc)).map fun c => (b, c)).map fun x => (a, x)).map
          fun x : ℤ × ℤ × ℤ => ((x.2.2, x.2.1, x.1) : Pos)) ↔ Any sh.dims x := by
    intro x
    rw [List.mem_map]
    constructor
    · rintro ⟨y, hy, rfl⟩
      rw [mem_three, mem_range, mem_range, mem_range] at hy
      exact ⟨hy.2.2, hy.2.1, hy.1⟩
    · intro h
      refine ⟨(x.2.2, x.2.1, x.1), ?_, rfl⟩
      rw [mem_three, mem_range, mem_range, mem_range]
      exact ⟨h.2.2, h.2.1, h.1⟩
  obtain ⟨s', e', h'⟩ := cells_inv env sh p fillQuad fillQuad_ok hok hf _ _ _ s
    (fun x hx => (hmem x).1 hx) hs
  rw [e']
  refine ⟨s'.found, rfl, ?_⟩
  rw [← foundIn_iff]
  refine (h'.congr (fun c => ?_) (fun c => ?_)).1
  · rw [hmem, List.mem_singleton]
    constructor
    · rintro (rfl | h)
      · refine ⟨rfl, ?_⟩
        unfold IsCell AllLayers
        dsimp only
        omega
      · exact h
    · exact Or.inr
  · rw [hmem, List.mem_singleton, false_or]

theorem testRefine_inv (env : Env) (sh : Shared) (p : Patch) (hok : sh.Ok env.ivar)
    (hf : Fits env sh) (V T : Site → Prop) (s : Scan) (h : Inv env sh V T s) :
    ∃ s', testRefine env sh p s = some s' ∧
      Inv env sh (fun c => V c ∨ On sh (Layers sh.dims) p c) (fun c => T c ∨ On sh (Layers sh.dims) p c) s' := by
  unfold testRefine
  dsimp only
  have e := fun s => loop_three (range 1 (sh.dims.mz : ℤ))
    (range (1 - (sh.dims.mbc : ℤ)) (sh.dims.mx + sh.dims.mbc)) (range (1 - (sh.dims.mbc : ℤ)) (sh.dims.my + sh.dims.mbc))
    (fun k i j => cellStep env sh p fillQuad' (i, j, k)) s
  have e2 : ∀ (L : List (ℤ × ℤ × ℤ)) s, loop L (fun x => cellStep env sh p fillQuad' (x.2.1, x.2.2, x.1)) s =
      loop (L.map fun x => ((x.2.1, x.2.2, x.1) : Pos)) (fun x => cellStep env sh p fillQuad' x) s :=
    fun L s => by rw [loop_map]
  unfold doLoop
  rw [e, e2]
  have hmem : ∀ x : Pos, x ∈ (((range 1 (sh.dims.mz : ℤ)).flatMap fun a =>
      ((range (1 - (sh.dims.mbc : ℤ)) (sh.dims.mx + sh.dims.mbc)).flatMap fun b =>
        (range (1 - (sh.dims.mbc : ℤ)) (sh.dims.my + sh.dims.mbc)).map fun c => (b, c)).map fun x => (a, x)).map
          fun x : ℤ × ℤ × ℤ => ((x.2.1, x.2.2, x.1) : Pos)) ↔ IsCell sh.dims (Layers sh.dims) x := by
    intro x
    rw [List.mem_map]
    constructor
    · rintro ⟨y, hy, rfl⟩
      rw [mem_three, mem_range, mem_range, mem_range] at hy
      exact ⟨hy.2.1, hy.2.2, hy.1⟩
    · intro h
      refine ⟨(x.2.2, x.1, x.2.1), ?_, rfl⟩
      rw [mem_three, mem_range, mem_range, mem_range]
      exact ⟨h.2.2, h.1, h.2.1⟩
  obtain ⟨s', e', h'⟩ := cells_inv env sh p fillQuad' fillQuad'_ok hok hf _ V T
    { s with qval := fun _ => none, quad := fun _ _ => none }
    (fun x hx => cell_any _ _ (layers_all _) _ ((hmem x).1 hx)) h
  exact ⟨s', e', h'.congr (fun c => by rw [hmem]; rfl) (fun c => by rw [hmem]; rfl)⟩

theorem testAll_inv (env : Env) (sh : Shared) (hok : sh.Ok env.ivar)
    (hf : Fits env sh) : ∀ (qs : List Patch)
    (V T : Site → Prop) (s : Scan), Inv env sh V T s → s.found = false →
    ∃ s', testAll env sh qs s = some s' ∧
      (s'.found = true ↔ FoundIn env sh (fun c => V c ∨ ∃ p ∈ qs, On sh (Layers sh.dims) p c)
        (fun c => T c ∨ ∃ p ∈ qs, On sh (Layers sh.dims) p c)) := by
  intro qs
  induction qs with
  | nil =>
    intro V T s h hfd
    refine ⟨s, rfl, ?_⟩
    have h' : Inv env sh (fun c => V c ∨ ∃ p ∈ ([] : List Patch), On sh (Layers sh.dims) p c)
      (fun c => T c ∨ ∃ p ∈ ([] : List Patch), On sh (Layers sh.dims) p c) s := h.congr (by simp) (by simp)
    exact h'.1
  | cons p qs ih =>
    intro V T s h hfd
    obtain ⟨s1, e1, h1⟩ := testRefine_inv env sh p hok hf V T s h
    simp only [testAll, e1]
    by_cases hf1 : s1.found = true
    · rw [if_pos hf1]
      refine ⟨s1, rfl, fun _ => (h1.1.1 hf1).mono ?_ ?_, fun _ => hf1⟩
      · rintro c (h | h)
        · exact Or.inl h
        · exact Or.inr ⟨p, by simp, h⟩
      · rintro c (h | h)
        · exact Or.inl h
        · exact Or.inr ⟨p, by simp, h⟩
    · rw [if_neg hf1]
      obtain ⟨s2, e2, h2⟩ := ih _ _ s1 h1 (by simpa using hf1)
      refine ⟨s2, e2, ?_⟩
      rw [h2]
      have : ∀ W : Site → Prop, (fun c => (W c ∨ On sh (Layers sh.dims) p c) ∨ ∃ x ∈ qs, On sh (Layers sh.dims) x c)
          = fun c => W c ∨ ∃ x ∈ p :: qs, On sh (Layers sh.dims) x c := by
        intro W
        funext c
        apply propext
        simp only [List.mem_cons, exists_eq_or_imp, or_assoc]
      rw [this V, this T]

theorem fortTag4coarsening_eq (env : Env) (sh : Shared) (p0 p1 p2 p3 : Patch)
    (hok : sh.Ok env.ivar) (hf : Fits env sh) (hth : 0 ≤ sh.threshold) (hi : sh.initFlag = 0) :
    ∃ b : Bool, fortTag4coarsening env sh p0 p1 p2 p3 = some (if b then 0 else 1) ∧
      (b = true ↔ Found env sh (Layers sh.dims) [p0, p1, p2, p3]) := by
  have hm := hok.mx
  have hm2 := hok.my
  have hm3 := hok.mz
  unfold fortTag4coarsening
  dsimp only
  rw [if_neg (by rw [hi]; simp)]
  obtain ⟨s, es, hs⟩ := start_inv env sh p0 hok hth
  have hsf : s.found = false := by
    by_contra hcon
    have hcon' : s.found = true := by simpa using hcon
    have hF := hs.1.1 hcon'
    unfold FoundIn at hF
    split at hF
    · obtain ⟨c, rfl, c', rfl, h⟩ := hF
      rw [sub_self] at h
      exact absurd h (not_lt.2 hth)
    · obtain ⟨c, hF, _⟩ := hF
      exact hF
  obtain ⟨s', e', h'⟩ := testAll_inv env sh hok hf [p0, p1, p2, p3] _ _ s hs hsf
  rw [es]
  dsimp only
  rw [e']
  refine ⟨s'.found, rfl, ?_⟩
  rw [h', ← foundIn_iff]
  have hon : ∀ c : Site, (∃ p ∈ [p0, p1, p2, p3], On sh (Layers sh.dims) p c) ↔
      c.1 ∈ [p0, p1, p2, p3] ∧ IsCell sh.dims (Layers sh.dims) c.2 := by
    intro c
    constructor
    · rintro ⟨p, hp, h1, h2⟩
      exact ⟨h1 ▸ hp, h2⟩
    · rintro ⟨h1, h2⟩
      exact ⟨c.1, h1, rfl, h2⟩
  have e1 : (fun c : Site => c = (p0, 1, 1, 1) ∨ ∃ p ∈ [p0, p1, p2, p3], On sh (Layers sh.dims) p c) = fun c : Site =>
      c.1 ∈ [p0, p1, p2, p3] ∧ IsCell sh.dims (Layers sh.dims) c.2 := by
    funext c
    apply propext
    rw [hon]
    constructor
    · rintro (rfl | h)
      · refine ⟨by simp, ?_⟩
        unfold IsCell Layers
        dsimp only
        omega
      · exact h
    · exact Or.inr
  have e2 : (fun c : Site => False ∨ ∃ p ∈ [p0, p1, p2, p3], On sh (Layers sh.dims) p c) = fun c : Site =>
      c.1 ∈ [p0, p1, p2, p3] ∧ IsCell sh.dims (Layers sh.dims) c.2 := by
    funext c
    apply propext
    rw [hon, false_or]
  rw [e1, e2]

end Fclaw.Tag3

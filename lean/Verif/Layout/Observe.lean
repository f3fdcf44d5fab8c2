import Verif.Layout.Ops
import Verif.Tag.Lemmas
/-
Tags and diagnostics are the same in both layouts.
-/
set_option autoImplicit false
set_option linter.unusedSimpArgs false
namespace Fclaw.Layout

open Fort
open Tag (Env Shared Args tagCriteria isGhost IsCell Interior Near)

/-! ### Coarsening -/

theorem firstStep_eq {d : Dims} {m : Mem ℚ} {q : Grid ℚ} (h : Holds d m q) : firstStep5 d m = Tag.firstStep d q := by
  funext mq s
  unfold firstStep5 Tag.firstStep
  rw [rd5_eq h]
  rfl

theorem componentStep_eq {d : Dims} {m : Mem ℚ} {q : Grid ℚ} (h : Holds d m q) (i j : ℤ) :
    componentStep5 d m i j = Tag.componentStep d q i j := by
  funext mq s
  unfold componentStep5 Tag.componentStep
  rw [rd5_eq h]
  rfl

theorem quadStep_eq {d : Dims} {m : Mem ℚ} {q : Grid ℚ} (h : Holds d m q) (i j ii jj : ℤ) :
    quadStep5 d m i j ii jj = Tag.quadStep d q i j ii jj := by
  funext mq s
  unfold quadStep5 Tag.quadStep
  rw [rd5_eq h]
  rfl

theorem cellStep_eq {env : Env} {sh : Shared} {p : TagPatch5} {x : Tag.Patch} (h : SameTag sh.dims p x) (i j : ℤ)
    (s : Tag.Scan) : cellStep5 env sh p i j s = Tag.cellStep env sh x Tag.fillQuad' i j s := by
  unfold cellStep5 Tag.cellStep fillQuad5 Tag.fillQuad'
  simp only [componentStep_eq h.1, quadStep_eq h.1, h.2.1, h.2.2]
  rfl

theorem testRefine_eq {env : Env} {sh : Shared} {p : TagPatch5} {x : Tag.Patch} (h : SameTag sh.dims p x)
    (s : Tag.Scan) : testRefine5 env sh p s = Tag.testRefine env sh x s := by
  unfold testRefine5 Tag.testRefine
  have e : (fun i => doLoop (1 - (sh.dims.mbc : ℤ)) (sh.dims.my + sh.dims.mbc) fun j => cellStep5 env sh p i j) =
      fun i => doLoop (1 - (sh.dims.mbc : ℤ)) (sh.dims.my + sh.dims.mbc) fun j =>
        Tag.cellStep env sh x Tag.fillQuad' i j := by
    funext i
    congr 1
    funext j s
    exact cellStep_eq h i j s
  dsimp only
  rw [e]

theorem fortTag4coarsening_eq5 {env : Env} {sh : Shared} {p0 p1 p2 p3 : TagPatch5} {x0 x1 x2 x3 : Tag.Patch}
    (h0 : SameTag sh.dims p0 x0) (h1 : SameTag sh.dims p1 x1) (h2 : SameTag sh.dims p2 x2)
    (h3 : SameTag sh.dims p3 x3) :
    fortTag4coarsening5 env sh p0 p1 p2 p3 = Tag.fortTag4coarsening env sh x0 x1 x2 x3 := by
  unfold fortTag4coarsening5 Tag.fortTag4coarsening
  simp only [testAll5, Tag.testAll, firstStep_eq h0.1, testRefine_eq h0, testRefine_eq h1, testRefine_eq h2,
    testRefine_eq h3]
  rfl

/-! ### Refinement -/

/-- The criteria do not look at anything else. -/
theorem criteria_congr {env : Env} {d : Dims} (hc : HasData env d) (a b : Args) (hi : a.ivar = env.ivar)
    (h1 : a.ivar = b.ivar) (h2 : a.threshold = b.threshold) (h3 : a.isGhost = b.isGhost) (h4 : a.dx = b.dx)
    (h5 : a.dy = b.dy) (h6 : a.blockno = b.blockno) (h7 : a.xc = b.xc) (h8 : a.yc = b.yc)
    (hv : 1 ≤ env.ivar → env.ivar ≤ d.meqn → a.qval env.ivar = b.qval env.ivar)
    (hlo : a.qmin 1 = b.qmin 1) (hhi : a.qmax 1 = b.qmax 1)
    (hq : a.isGhost = false → ∀ x y, -1 ≤ x → x ≤ 1 → -1 ≤ y → y ≤ 1 → a.quad x y 1 = b.quad x y 1) :
    tagCriteria env a = tagCriteria env b := by
  unfold HasData at hc
  unfold tagCriteria
  cases hcr : env.criterion with
  | value =>
    rw [hcr] at hc
    dsimp only at hc ⊢
    unfold Tag.valueExceeds
    rw [← h1, ← h2, hi, hv hc.1 hc.2]
  | difference =>
    rw [hcr] at hc
    dsimp only at hc ⊢
    unfold Tag.differenceExceeds
    rw [← h1, ← h2, ← h3, hi, hc]
    by_cases hg : a.isGhost = true
    · rw [if_pos hg, if_pos hg]
    · have hg' : a.isGhost = false := by simpa using hg
      rw [if_neg hg, if_neg hg, hq hg' 1 0 (by decide) (by decide) (by decide) (by decide),
        hq hg' (-1) 0 (by decide) (by decide) (by decide) (by decide),
        hq hg' 0 1 (by decide) (by decide) (by decide) (by decide),
        hq hg' 0 (-1) (by decide) (by decide) (by decide) (by decide)]
  | minmax =>
    rw [hcr] at hc
    dsimp only at hc ⊢
    unfold Tag.minmaxExceeds
    rw [← h1, ← h2, hi, hc, hlo, hhi]
  | gradient =>
    rw [hcr] at hc
    dsimp only at hc ⊢
    unfold Tag.gradientExceeds
    rw [← h1, ← h2, ← h3, ← h4, ← h5, ← h6, ← h7, ← h8, hi, hc]
    by_cases hg : a.isGhost = true
    · rw [if_pos hg, if_pos hg]
    · have hg' : a.isGhost = false := by simpa using hg
      rw [if_neg hg, if_neg hg, hq hg' 1 0 (by decide) (by decide) (by decide) (by decide),
        hq hg' (-1) 0 (by decide) (by decide) (by decide) (by decide),
        hq hg' 0 1 (by decide) (by decide) (by decide) (by decide),
        hq hg' 0 (-1) (by decide) (by decide) (by decide) (by decide)]
  | user f =>
    rw [hcr] at hc
    cases f with
    | some f => exact hc.elim
    | none => rfl
  | other => rfl

/-- The states of the two scans. -/
def SimT (d : Dims) (s : RefScan) (t : Tag.Scan) : Prop :=
  s.found = t.found ∧ ∃ lo hi : ℤ → ℚ, (∀ k, 1 ≤ k → k ≤ (d.meqn : ℤ) → t.qmin k = some (lo k)) ∧
    (∀ k, 1 ≤ k → k ≤ (d.meqn : ℤ) → t.qmax k = some (hi k)) ∧ s.qmin = lo 1 ∧ s.qmax = hi 1

theorem rd5_some {d : Dims} {m : Mem ℚ} {q : Grid ℚ} (h : Holds d m q) {mq i j : ℤ} (hb : inBox d (i, j, mq) = true) :
    rd5 d m mq i j = some (q (i, j, mq)) := by
  rw [rd5_eq h]
  unfold rd
  rw [if_pos hb]

/-- Filling `quad` in Clawpack 5. -/
theorem fill5 {d : Dims} {m : Mem ℚ} {q : Grid ℚ} (h : Holds d m q) (hm : 1 ≤ d.meqn) (hb : 1 ≤ d.mbc) {i j : ℤ}
    (hin : Interior d i j) (quad0 : ℤ → ℤ → Option ℚ) :
    ∃ quad, doLoop (-1) 1 (fun ii => doLoop (-1) 1 fun jj => fun quad =>
        (rd5 d m 1 (i + ii) (j + jj)).map fun w =>
          fun a b => if a = ii ∧ b = jj then some w else quad a b) quad0 = some quad ∧
      ∀ a b, -1 ≤ a → a ≤ 1 → -1 ≤ b → b ≤ 1 → quad a b = some (q (i + a, j + b, 1)) := by
  have hr : ∀ a b : ℤ, -1 ≤ a → a ≤ 1 → -1 ≤ b → b ≤ 1 → rd5 d m 1 (i + a) (j + b) = some (q (i + a, j + b, 1)) :=
    fun a b h1 h2 h3 h4 => rd5_some h (Tag.near_inBox d hb i j hin a b 1 ⟨⟨h1, h2⟩, ⟨h3, h4⟩, by omega, by omega⟩)
  have e : ∀ f : ℤ → (ℤ → ℤ → Option ℚ) → Option (ℤ → ℤ → Option ℚ), ∀ s,
      doLoop (-1) 1 f s = (f (-1) s).bind fun s => (f 0 s).bind fun s => (f 1 s).bind some := fun f s => rfl
  simp only [e]
  rw [hr (-1) (-1) (by decide) (by decide) (by decide) (by decide), hr (-1) 0 (by decide) (by decide) (by decide) (by decide),
    hr (-1) 1 (by decide) (by decide) (by decide) (by decide), hr 0 (-1) (by decide) (by decide) (by decide) (by decide),
    hr 0 0 (by decide) (by decide) (by decide) (by decide), hr 0 1 (by decide) (by decide) (by decide) (by decide),
    hr 1 (-1) (by decide) (by decide) (by decide) (by decide), hr 1 0 (by decide) (by decide) (by decide) (by decide),
    hr 1 1 (by decide) (by decide) (by decide) (by decide)]
  refine ⟨_, rfl, ?_⟩
  intro a b h1 h2 h3 h4
  have ha : a = -1 ∨ a = 0 ∨ a = 1 := by omega
  have hb : b = -1 ∨ b = 0 ∨ b = 1 := by omega
  rcases ha with rfl | rfl | rfl <;> rcases hb with rfl | rfl | rfl <;> simp

theorem refStep_rel {env : Env} {sh : Shared} {p : TagPatch5} {x : Tag.Patch} (h : SameTag sh.dims p x)
    (hc : HasData env sh.dims) (hm : 1 ≤ sh.dims.meqn) (hb : 1 ≤ sh.dims.mbc) {i j : ℤ} (hij : IsCell sh.dims i j)
    (s : RefScan) (t : Tag.Scan) (hs : SimT sh.dims s t) :
    OptRel (SimT sh.dims) (refStep5 env sh p i j s) (Tag.cellStep env sh x Tag.fillQuad i j t) := by
  obtain ⟨hf, lo, hi, hlo, hhi, hl1, hh1⟩ := hs
  unfold refStep5 Tag.cellStep
  by_cases hft : t.found = true
  · rw [if_pos (hf.trans hft), if_pos hft]
    exact ⟨hf, lo, hi, hlo, hhi, hl1, hh1⟩
  rw [if_neg (by rw [hf]; exact hft), if_neg hft]
  have hbox : ∀ k, 1 ≤ k → k ≤ (sh.dims.meqn : ℤ) → inBox sh.dims (i, j, k) = true := by
    intro k h1 h2
    rw [inBox_iff]
    exact ⟨hij.1, hij.2, h1, h2⟩
  rw [rd5_some h.1 (hbox 1 (by omega) (by omega))]
  obtain ⟨s1, e1, eq1, ef1, hs1⟩ := Tag.component_loop' sh.dims x.q i j hij t lo hi hlo hhi
  rw [e1]
  dsimp only [Option.bind_some]
  have final : ∀ (quad : ℤ → ℤ → Option ℚ) (s2 : Tag.Scan), s2.qval = s1.qval → s2.qmin = s1.qmin → s2.qmax = s1.qmax →
      (isGhost sh.dims i j = false → ∀ a b, -1 ≤ a → a ≤ 1 → -1 ≤ b → b ≤ 1 → quad a b = s2.quad a b 1) →
      OptRel (SimT sh.dims)
        ((tagCriteria env
          { blockno := sh.blockno, meqn := sh.dims.meqn, qval := fun k => rd5 sh.dims p.q k i j,
            qmin := scalarArg (min (x.q (i, j, 1)) s.qmin), qmax := scalarArg (max (x.q (i, j, 1)) s.qmax),
            quad := fun a b c => if c = 1 then quad a b else none, dx := sh.dx, dy := sh.dy,
            xc := p.xlower + (i - 1 / 2) * sh.dx, yc := p.ylower + (j - 1 / 2) * sh.dy,
            ivar := env.ivar, threshold := sh.threshold, initFlag := sh.initFlag,
            isGhost := isGhost sh.dims i j }).bind fun r =>
          some ⟨min (x.q (i, j, 1)) s.qmin, max (x.q (i, j, 1)) s.qmax, quad, decide (r > 0)⟩)
        (match tagCriteria env
          { blockno := sh.blockno, meqn := sh.dims.meqn, qval := s2.qval, qmin := s2.qmin,
            qmax := s2.qmax, quad := s2.quad, dx := sh.dx, dy := sh.dy,
            xc := x.xlower + (i - 1 / 2) * sh.dx, yc := x.ylower + (j - 1 / 2) * sh.dy,
            ivar := env.ivar, threshold := sh.threshold, initFlag := sh.initFlag,
            isGhost := isGhost sh.dims i j } with
        | none => none
        | some r => some { s2 with found := decide (r > 0) }) := by
    intro quad s2 v1 v2 v3 v4
    have m1 := hs1 1 (by omega) (by omega)
    have ce := criteria_congr hc
      (Args.mk sh.blockno sh.dims.meqn (fun k => rd5 sh.dims p.q k i j) (scalarArg (min (x.q (i, j, 1)) s.qmin))
        (scalarArg (max (x.q (i, j, 1)) s.qmax)) (fun a b c => if c = 1 then quad a b else none) sh.dx sh.dy
        (p.xlower + (i - 1 / 2) * sh.dx) (p.ylower + (j - 1 / 2) * sh.dy) env.ivar sh.threshold sh.initFlag
        (isGhost sh.dims i j))
      (Args.mk sh.blockno sh.dims.meqn s2.qval s2.qmin s2.qmax s2.quad sh.dx sh.dy
        (x.xlower + (i - 1 / 2) * sh.dx) (x.ylower + (j - 1 / 2) * sh.dy) env.ivar sh.threshold sh.initFlag
        (isGhost sh.dims i j))
      rfl rfl rfl rfl rfl rfl rfl (by dsimp only; rw [h.2.1]) (by dsimp only; rw [h.2.2])
      (fun k1 k2 => by dsimp only; rw [rd5_some h.1 (hbox _ k1 k2), v1, (hs1 _ k1 k2).1])
      (by dsimp only; rw [v2, m1.2.1, hl1, min_comm]; rfl) (by dsimp only; rw [v3, m1.2.2, hh1, max_comm]; rfl)
      (fun hg a b k1 k2 k3 k4 => by dsimp only; rw [if_pos rfl, v4 hg a b k1 k2 k3 k4])
    rw [ce]
    cases tagCriteria env (Args.mk sh.blockno sh.dims.meqn s2.qval s2.qmin s2.qmax s2.quad sh.dx sh.dy
        (x.xlower + (i - 1 / 2) * sh.dx) (x.ylower + (j - 1 / 2) * sh.dy) env.ivar sh.threshold sh.initFlag
        (isGhost sh.dims i j)) with
    | none => trivial
    | some r =>
      refine ⟨rfl, fun k => min (lo k) (x.q (i, j, k)), fun k => max (hi k) (x.q (i, j, k)), ?_, ?_, ?_, ?_⟩
      · intro k k1 k2
        show s2.qmin k = _
        rw [v2, (hs1 k k1 k2).2.1]
      · intro k k1 k2
        show s2.qmax k = _
        rw [v3, (hs1 k k1 k2).2.2]
      · show min _ s.qmin = _
        rw [hl1, min_comm]
      · show max _ s.qmax = _
        rw [hh1, max_comm]
  by_cases hg : isGhost sh.dims i j = true
  · have h1 : (if isGhost sh.dims i j = true then some s1 else Tag.fillQuad sh.dims x.q i j s1) = some s1 := if_pos hg
    have h2 : (if isGhost sh.dims i j = true then some s.quad
      else doLoop (-1) 1 (fun ii => doLoop (-1) 1 fun jj => fun quad =>
        (rd5 sh.dims p.q 1 (i + ii) (j + jj)).map fun w =>
          fun a b => if a = ii ∧ b = jj then some w else quad a b) s.quad) = some s.quad := if_pos hg
    rw [h1, h2]
    exact final s.quad s1 rfl rfl rfl fun hg' => absurd hg (by rw [hg']; decide)
  · have hin : Interior sh.dims i j := (Tag.isGhost_false _ _ _).1 (by simpa using hg)
    obtain ⟨quad', e2, hq'⟩ := Tag.fillQuad_ok sh.dims x.q i j s1 hb hin
    obtain ⟨quad, e3, hq⟩ := fill5 h.1 hm hb hin s.quad
    have h1 : (if isGhost sh.dims i j = true then some s1 else Tag.fillQuad sh.dims x.q i j s1) =
      some { s1 with quad := quad' } := (if_neg hg).trans e2
    have h2 : (if isGhost sh.dims i j = true then some s.quad
      else doLoop (-1) 1 (fun ii => doLoop (-1) 1 fun jj => fun quad =>
        (rd5 sh.dims p.q 1 (i + ii) (j + jj)).map fun w =>
          fun a b => if a = ii ∧ b = jj then some w else quad a b) s.quad) = some quad := (if_neg hg).trans e3
    rw [h1, h2]
    refine final quad { s1 with quad := quad' } rfl rfl rfl fun _ a b k1 k2 k3 k4 => ?_
    dsimp only
    rw [hq a b k1 k2 k3 k4, hq' a b 1 ⟨⟨k1, k2⟩, ⟨k3, k4⟩, by omega, by omega⟩]

theorem tag4refinement_eq5 {env : Env} {sh : Shared} {p : TagPatch5} {x : Tag.Patch} (h : SameTag sh.dims p x)
    (hc : HasData env sh.dims) (hm : 1 ≤ sh.dims.meqn) (hb : 1 ≤ sh.dims.mbc) (h11 : IsCell sh.dims 1 1) :
    tag4refinement5 env sh p = Tag.tag4refinement env sh x := by
  unfold tag4refinement5 Tag.tag4refinement
  split
  · rfl
  unfold fortTag4refinement5 Tag.fortTag4refinement
  have e := Tag.first_loop sh.dims x.q h11 (range 1 sh.dims.meqn) (fun k hk => by rwa [mem_range] at hk) Tag.Scan.unset
  have e' : doLoop 1 (sh.dims.meqn : ℤ) (Tag.firstStep sh.dims x.q) Tag.Scan.unset = _ := e
  dsimp only
  rw [e', rd5_some h.1 (by rw [inBox_iff]; exact ⟨h11.1, h11.2, by omega, by omega⟩)]
  dsimp only [Option.bind_some]
  have start : SimT sh.dims ⟨x.q (1, 1, 1), x.q (1, 1, 1), fun _ _ => none, false⟩ { Tag.Scan.unset with
      qmin := fun mq => if mq ∈ range 1 sh.dims.meqn then some (x.q (1, 1, mq)) else Tag.Scan.unset.qmin mq
      qmax := fun mq => if mq ∈ range 1 sh.dims.meqn then some (x.q (1, 1, mq)) else Tag.Scan.unset.qmax mq } := by
    refine ⟨rfl, fun k => x.q (1, 1, k), fun k => x.q (1, 1, k), fun k k1 k2 => ?_, fun k k1 k2 => ?_, rfl, rfl⟩
    · exact if_pos ((mem_range _ _ _).2 ⟨k1, k2⟩)
    · exact if_pos ((mem_range _ _ _).2 ⟨k1, k2⟩)
  have key := doLoop_rel (R := SimT sh.dims) (lo := 1 - (sh.dims.mbc : ℤ)) (hi := sh.dims.my + sh.dims.mbc)
    (f := fun j => doLoop (1 - (sh.dims.mbc : ℤ)) (sh.dims.mx + sh.dims.mbc) fun i => refStep5 env sh p i j)
    (g := fun j => doLoop (1 - (sh.dims.mbc : ℤ)) (sh.dims.mx + sh.dims.mbc) fun i =>
      Tag.cellStep env sh x Tag.fillQuad i j)
    (fun j j1 j2 => doLoop_rel fun i i1 i2 => refStep_rel h hc hm hb ⟨⟨i1, i2⟩, j1, j2⟩) _ _ start
  revert key
  generalize doLoop (1 - (sh.dims.mbc : ℤ)) (sh.dims.my + sh.dims.mbc) (fun j =>
    doLoop (1 - (sh.dims.mbc : ℤ)) (sh.dims.mx + sh.dims.mbc) fun i => refStep5 env sh p i j) _ = a
  generalize doLoop (1 - (sh.dims.mbc : ℤ)) (sh.dims.my + sh.dims.mbc) (fun j =>
    doLoop (1 - (sh.dims.mbc : ℤ)) (sh.dims.mx + sh.dims.mbc) fun i => Tag.cellStep env sh x Tag.fillQuad i j) _ = b
  intro key
  cases a <;> cases b
  · rfl
  · exact key.elim
  · exact key.elim
  · show some _ = some _
    rw [key.1]

/-! ### Diagnostics -/

/-- Without rounding errors the compensation of Kahan's summation stays zero. -/
theorem consCheck_rel {o : Diag.Opts} {d : Dims} {p : DiagPatch5} {x : Diag.Patch} (h : SameDiag d p x)
    (mass : Nat → ℚ) (s : Diag.Acc) (hm : mass = s.mass) (hk : s.cKahan = fun _ => 0) :
    OptRel (fun (m : Nat → ℚ) (t : Diag.Acc) => m = t.mass ∧ t.cKahan = fun _ => 0)
      (consCheck5 o.mapped d p mass) (Diag.consCheck o d x s) := by
  obtain ⟨h1, _, h3, h4, h5⟩ := h
  unfold consCheck5 Diag.consCheck
  refine doLoop_rel (R := fun (m : Nat → ℚ) (t : Diag.Acc) => m = t.mass ∧ t.cKahan = fun _ => 0)
    (fun m _ _ => ?_) _ _ ⟨hm, hk⟩
  have key : ∀ (i j : ℤ) (a q : ℚ) (mm : Nat → ℚ) (t : Diag.Acc), (mm = t.mass ∧ t.cKahan = fun _ => 0) →
      (fun (m : Nat → ℚ) (t : Diag.Acc) => m = t.mass ∧ t.cKahan = fun _ => 0)
        (Diag.setAt mm (Diag.idx m) (mm (Diag.idx m) + q * a))
        { t with
          mass := Diag.setAt t.mass (Diag.idx m) (t.mass (Diag.idx m) + (q * a - t.cKahan (Diag.idx m)))
          cKahan := Diag.setAt t.cKahan (Diag.idx m)
            ((t.mass (Diag.idx m) + (q * a - t.cKahan (Diag.idx m)) - t.mass (Diag.idx m)) -
              (q * a - t.cKahan (Diag.idx m))) } := by
    intro i j a q mm t ht
    obtain ⟨e1, e2⟩ := ht
    subst e1
    refine ⟨?_, ?_⟩
    · dsimp only
      rw [e2, sub_zero]
    · funext k
      show (if k = Diag.idx m then _ else t.cKahan k) = 0
      rw [e2]
      split
      · ring
      · rfl
  cases hmap : o.mapped with
  | true =>
    simp only [if_true]
    refine doLoop_rel fun j _ _ => doLoop_rel fun i _ _ => ?_
    intro mm t ht
    unfold Diag.consCell Diag.areaOf
    rw [hmap, rd5_eq h1, h3]
    simp only [if_true]
    cases rd d x.q (i, j, m) with
    | none => cases x.area <;> trivial
    | some q =>
      cases x.area with
      | none => trivial
      | some a => exact key i j (a i j) q mm t ht
  | false =>
    simp only [Bool.false_eq_true, if_false]
    refine doLoop_rel fun j _ _ => doLoop_rel fun i _ _ => ?_
    intro mm t ht
    unfold Diag.consCell Diag.areaOf
    rw [hmap, rd5_eq h1, h4, h5]
    simp only [Bool.false_eq_true, if_false]
    cases rd d x.q (i, j, m) with
    | none => trivial
    | some q =>
      dsimp only [Option.bind_some]
      rw [mul_assoc]
      exact key i j (x.dx * x.dy) q mm t ht

theorem errorNorm_rel {o : Diag.Opts} {d : Dims} {p : DiagPatch5} {x : Diag.Patch} (h : SameDiag d p x)
    (norm : Nat → ℚ) (s : Diag.Acc) (hn : norm = s.localError) :
    OptRel (fun (m : Nat → ℚ) (t : Diag.Acc) => m = t.localError)
      (errorNorm5 o.mapped d p norm) (Diag.errorNorm o d x s) := by
  obtain ⟨_, h2, h3, h4, h5⟩ := h
  unfold errorNorm5 Diag.errorNorm
  refine doLoop_rel (R := fun (m : Nat → ℚ) (t : Diag.Acc) => m = t.localError)
    (fun m _ _ => doLoop_rel fun j _ _ => doLoop_rel fun i _ _ => ?_) _ _ hn
  intro mm t ht
  subst ht
  unfold Diag.errorCell Diag.areaOf
  beta_reduce
  rw [rd5_eq h2, h3, h4, h5]
  cases rd d x.error (i, j, m) with
  | none =>
    cases o.mapped with
    | true => cases x.area <;> trivial
    | false => trivial
  | some e =>
    cases o.mapped with
    | true => cases x.area <;> first | trivial | rfl
    | false => rfl

end Fclaw.Layout

import Verif.Tag3.Lemmas
import Verif.Tag.Props
import Mathlib.Tactic.NormNum
/-
C85: tagging in the version with layers follows the chosen criterion; but refinement looks at more layers than
coarsening does.
-/
set_option autoImplicit false
set_option linter.unusedSimpArgs false

namespace Fclaw.Tag3

open Fclaw.Fort Fclaw.Extrude

/-- C85, refinement.  With a negative threshold every patch is tagged.  Otherwise a patch is tagged exactly if one of
its cells meets the criterion, where for the criteria that use them the ghost cells count, also those above and below;
for `minmax` exactly if two cells differ by more than the threshold.  No array is left and no unset variable is used. -/
theorem C85_refine (env : Env) (sh : Shared) (p : Patch) (hok : sh.Ok env.ivar) (hf : Fits env sh) :
    ∃ t, tag4refinement env sh p = some t ∧ (t = 0 ∨ t = 1) ∧
      (t = 1 ↔ sh.threshold < 0 ∨ Found env sh (AllLayers sh.dims) [p]) := by
  unfold tag4refinement
  by_cases hth : sh.threshold < 0
  · rw [if_pos hth]
    exact ⟨1, rfl, Or.inr rfl, by simp [hth]⟩
  · rw [if_neg hth]
    obtain ⟨b, e, hb⟩ := fortTag4refinement_eq env sh p hok hf (not_lt.1 hth)
    refine ⟨_, e, ?_, ?_⟩
    · cases b <;> simp
    · rw [← hb]
      cases b <;> simp [hth]

/-- C85, coarsening.  A family is tagged exactly if the threshold is positive, the mesh is not being initialised, and no
cell of the four patches meets the criterion; here the ghost cells above and below do not count. -/
theorem C85_coarsen (env : Env) (sh : Shared) (p0 p1 p2 p3 : Patch) (hok : sh.Ok env.ivar) (hf : Fits env sh) :
    ∃ b, tag4coarsening env sh p0 p1 p2 p3 = some b ∧
      (b = true ↔ 0 < sh.threshold ∧ sh.initFlag = 0 ∧ ¬ Found env sh (Layers sh.dims) [p0, p1, p2, p3]) := by
  unfold tag4coarsening
  by_cases hth : sh.threshold > 0
  · rw [if_pos hth]
    by_cases hi : sh.initFlag = 0
    · obtain ⟨b, e, hb⟩ := fortTag4coarsening_eq env sh p0 p1 p2 p3 hok hf (le_of_lt hth) hi
      rw [e]
      refine ⟨_, rfl, ?_⟩
      rw [← hb]
      cases b <;> simp [hi, hth]
    · refine ⟨false, ?_, by simp [hi]⟩
      unfold fortTag4coarsening
      dsimp only
      rw [if_pos hi]
      rfl
  · rw [if_neg hth]
    exact ⟨false, rfl, by simp [hth]⟩

theorem interior_layers (D : Dims3) (c : Pos) (h : IsCell D (AllLayers D) c) (hi : Interior D c) :
    IsCell D (Layers D) c := ⟨h.1, h.2.1, hi.2.2⟩

/-- What is found in a patch in all layers at the higher threshold is found in the layers of the patch at the lower. -/
theorem found_lower (env : Env) (sh : Shared) (p : Patch) (qs : List Patch) (c : ℚ) (hc : 0 < c)
    (hle : c ≤ sh.threshold) (hu : ∀ f, env.criterion = .user (some f) → Antitone f) (hp : p ∈ qs)
    (hh : Harmless env sh p) (h : Found env sh (AllLayers sh.dims) [p]) :
    Found env { sh with threshold := c } (Layers sh.dims) qs := by
  unfold Found Meets at *
  unfold Harmless at hh
  cases hcr : env.criterion with
  | minmax =>
    rw [hcr] at h hh
    obtain ⟨x, hx, y, hy, x', hx', y', hy', hlt⟩ := h
    rw [List.mem_singleton] at hx hx'
    subst hx hx'
    obtain ⟨z, hz, ez⟩ := hh y hy
    obtain ⟨z', hz', ez'⟩ := hh y' hy'
    rw [ez, ez'] at hlt
    exact ⟨_, hp, z, hz, _, hp, z', hz', lt_of_le_of_lt hle hlt⟩
  | value =>
    rw [hcr] at h hh
    obtain ⟨x, hx, y, hy, hlt⟩ := h
    rw [List.mem_singleton] at hx
    subst hx
    obtain ⟨z, hz, ez⟩ := hh y hy
    dsimp only at hlt
    rw [ez] at hlt
    exact ⟨_, hp, z, hz, lt_of_le_of_lt hle hlt⟩
  | difference =>
    rw [hcr] at h
    obtain ⟨x, hx, y, hy, hin, hlt⟩ := h
    rw [List.mem_singleton] at hx
    subst hx
    exact ⟨_, hp, y, interior_layers _ _ hy hin, hin,
      hlt.imp (fun h => lt_of_le_of_lt hle h) (Or.imp (fun h => lt_of_le_of_lt hle h) (fun h => lt_of_le_of_lt hle h))⟩
  | gradient =>
    rw [hcr] at h
    obtain ⟨x, hx, y, hy, hin, hlt⟩ := h
    rw [List.mem_singleton] at hx
    subst hx
    refine ⟨_, hp, y, interior_layers _ _ hy hin, hin, ?_⟩
    rcases hlt with hlt | hlt
    · exfalso; linarith
    · right
      refine lt_of_le_of_lt ?_ hlt
      show c ^ 2 ≤ sh.threshold ^ 2
      nlinarith
  | user f =>
    rw [hcr] at h hh
    cases f with
    | none =>
      obtain ⟨x, hx, y, hy, hF⟩ := h
      exact hF.elim
    | some f =>
      obtain ⟨x, hx, y, hy, hlt⟩ := h
      rw [List.mem_singleton] at hx
      subst hx
      have hl : Layers sh.dims y.2.2 := by
        by_contra hno
        exact hh sh.threshold y hy hno hlt
      exact ⟨_, hp, y, ⟨hy.1, hy.2.1, hl⟩, hu f hcr (argsOf env.ivar sh _ y) c hle hlt⟩
  | other =>
    rw [hcr] at h
    obtain ⟨x, hx, y, hy, hF⟩ := h
    exact hF.elim

/-- C85, both, as far as it is true.  If the coarsening threshold does not exceed the refinement threshold and the ghost
cells above and below the patch cannot matter, no member of a family that is tagged for coarsening is tagged for
refinement.  For the criteria `difference` and `gradient` the last hypothesis holds always.  Without it the statement is
false, `C85_exclusive_counterexample`. -/
theorem C85_exclusive_partial (env : Env) (sh : Shared) (refine coarsen : ℚ) (hle : coarsen ≤ refine)
    (p0 p1 p2 p3 : Patch) (hok : sh.Ok env.ivar) (hf : Fits env sh)
    (hu : ∀ f, env.criterion = .user (some f) → Antitone f)
    (h : tag4coarsening env { sh with threshold := coarsen } p0 p1 p2 p3 = some true)
    (p : Patch) (hp : p ∈ [p0, p1, p2, p3]) (hh : Harmless env sh p) :
    tag4refinement env { sh with threshold := refine } p = some 0 := by
  have ok : ∀ th : ℚ, Shared.Ok { sh with threshold := th } env.ivar := fun th =>
    ⟨hok.mx, hok.my, hok.mz, hok.mbc, hok.lower, hok.upper⟩
  have hh' : Harmless env { sh with threshold := refine } p := by
    unfold Harmless at hh ⊢
    cases hcr : env.criterion with
    | user f => cases f <;> rw [hcr] at hh <;> exact hh
    | _ => rw [hcr] at hh; exact hh
  obtain ⟨b, e, hb⟩ := C85_coarsen env { sh with threshold := coarsen } p0 p1 p2 p3 (ok _) hf
  rw [h] at e
  obtain rfl := Option.some.inj e
  obtain ⟨hpos, _, hnf⟩ := hb.1 rfl
  obtain ⟨t, et, ht, htt⟩ := C85_refine env { sh with threshold := refine } p (ok _) hf
  rw [et]
  rcases ht with ht | ht
  · rw [ht]
  · exfalso
    rcases htt.1 ht with hneg | hfd
    · dsimp only at hneg hpos
      linarith
    · exact hnf (found_lower env { sh with threshold := refine } p [p0, p1, p2, p3] coarsen hpos hle hu hp hh' hfd)

/-! ### Solutions that do not depend on the layer -/

theorem found_flat (env : Env) (crit : Tag.Criterion) (hs : Same env.criterion crit) (sh : Shared) (hok : sh.Ok env.ivar)
    (K : ℤ → Prop) (hK : ∀ k, K k → AllLayers sh.dims k) (h1 : ∀ k, Layers sh.dims k → K k)
    (ps : List Patch) (hp : ∀ p ∈ ps, SameLayers sh p) :
    Found env sh K ps ↔ Tag.Found ⟨crit, env.ivar, none⟩ sh.flat (ps.map flat) := by
  have hmz := hok.mz
  have hmbc := hok.mbc
  have l1 : Layers sh.dims 1 := by unfold Layers; omega
  have at_ : ∀ p ∈ ps, ∀ (c : Pos) (mq : ℤ), AllLayers sh.dims c.2.2 → p.at c mq = (flat p).q (c.1, c.2.1, mq) :=
    fun p h c mq hc => hp p h _ _ _ _ hc
  have cell1 : ∀ c, IsCell sh.dims K c → Tag.IsCell sh.flat.dims c.1 c.2.1 := fun c h => ⟨h.1, h.2.1⟩
  have cell2 : ∀ i j, Tag.IsCell sh.flat.dims i j → IsCell sh.dims K (i, j, 1) := fun i j h => ⟨h.1, h.2, h1 1 l1⟩
  have near : ∀ c : Pos, Interior sh.dims c → AllLayers sh.dims c.2.2 ∧ AllLayers sh.dims (c.2.2 + 1) ∧
      AllLayers sh.dims (c.2.2 - 1) := by
    intro c h
    have := h.2.2
    unfold AllLayers
    omega
  have ex : ∀ p ∈ ps, ∀ c : Pos, Interior sh.dims c → ∀ mq : ℤ,
      dX p c mq = (flat p).q (c.1 + 1, c.2.1, mq) - (flat p).q (c.1 - 1, c.2.1, mq) := by
    intro p h c hc mq
    unfold dX
    rw [at_ p h (c.1 + 1, c.2.1, c.2.2) mq (near c hc).1, at_ p h (c.1 - 1, c.2.1, c.2.2) mq (near c hc).1]
  have ey : ∀ p ∈ ps, ∀ c : Pos, Interior sh.dims c → ∀ mq : ℤ,
      dY p c mq = (flat p).q (c.1, c.2.1 + 1, mq) - (flat p).q (c.1, c.2.1 - 1, mq) := by
    intro p h c hc mq
    unfold dY
    rw [at_ p h (c.1, c.2.1 + 1, c.2.2) mq (near c hc).1, at_ p h (c.1, c.2.1 - 1, c.2.2) mq (near c hc).1]
  have ez : ∀ p ∈ ps, ∀ c : Pos, Interior sh.dims c → ∀ mq : ℤ, dZ p c mq = 0 := by
    intro p h c hc mq
    unfold dZ
    rw [at_ p h (c.1, c.2.1, c.2.2 + 1) mq (near c hc).2.1, at_ p h (c.1, c.2.1, c.2.2 - 1) mq (near c hc).2.2, sub_self]
  have int2 : ∀ i j, Tag.Interior sh.flat.dims i j → Interior sh.dims (i, j, 1) := fun i j h => ⟨h.1, h.2, l1⟩
  unfold Found Tag.Found Meets Tag.Meets
  generalize hce : env.criterion = ce at hs
  cases hs with
  | value =>
    dsimp only
    constructor
    · rintro ⟨p, h, c, hc, hlt⟩
      rw [at_ p h c _ (hK _ hc.2.2)] at hlt
      exact ⟨flat p, List.mem_map_of_mem h, c.1, c.2.1, cell1 c hc, hlt⟩
    · rintro ⟨p', h', i, j, hc, hlt⟩
      obtain ⟨p, h, rfl⟩ := List.mem_map.1 h'
      exact ⟨p, h, (i, j, 1), cell2 i j hc, hlt⟩
  | minmax =>
    dsimp only
    constructor
    · rintro ⟨p, h, c, hc, p', h', c', hc', hlt⟩
      rw [at_ p h c _ (hK _ hc.2.2), at_ p' h' c' _ (hK _ hc'.2.2)] at hlt
      exact ⟨flat p, List.mem_map_of_mem h, c.1, c.2.1, cell1 c hc, flat p', List.mem_map_of_mem h', c'.1, c'.2.1,
        cell1 c' hc', hlt⟩
    · rintro ⟨x, h, i, j, hc, x', h', i', j', hc', hlt⟩
      obtain ⟨p, hm, rfl⟩ := List.mem_map.1 h
      obtain ⟨p', hm', rfl⟩ := List.mem_map.1 h'
      exact ⟨p, hm, (i, j, 1), cell2 i j hc, p', hm', (i', j', 1), cell2 i' j' hc', hlt⟩
  | difference =>
    dsimp only
    constructor
    · rintro ⟨p, h, c, hc, hin, hlt⟩
      rw [ex p h c hin, ey p h c hin, ez p h c hin] at hlt
      have hlt' : sh.threshold < |(flat p).q (c.1 + 1, c.2.1, env.ivar) - (flat p).q (c.1 - 1, c.2.1, env.ivar)| ∨
          sh.threshold < |(flat p).q (c.1, c.2.1 + 1, env.ivar) - (flat p).q (c.1, c.2.1 - 1, env.ivar)| := by
        rcases hlt with h1 | h1 | h1
        · exact Or.inl h1
        · exact Or.inr h1
        · rw [abs_zero] at h1
          exact Or.inl (lt_of_lt_of_le h1 (abs_nonneg _))
      exact ⟨flat p, List.mem_map_of_mem h, c.1, c.2.1, cell1 c hc, ⟨hin.1, hin.2.1⟩, hlt'⟩
    · rintro ⟨p', h', i, j, hc, hin, hlt⟩
      obtain ⟨p, h, rfl⟩ := List.mem_map.1 h'
      refine ⟨p, h, (i, j, 1), cell2 i j hc, int2 i j hin, ?_⟩
      rw [ex p h _ (int2 i j hin), ey p h _ (int2 i j hin)]
      exact hlt.imp_right Or.inl
  | gradient =>
    dsimp only
    unfold Tag.IsGradient
    dsimp only
    constructor
    · rintro ⟨p, h, c, hc, hin, hlt⟩
      rw [ex p h c hin, ey p h c hin, ez p h c hin] at hlt
      refine ⟨flat p, List.mem_map_of_mem h, c.1, c.2.1, cell1 c hc, ⟨hin.1, hin.2.1⟩, _, rfl, ?_⟩
      refine hlt.imp_right fun hl => ?_
      refine lt_of_lt_of_eq hl ?_
      unfold Tag.dot
      dsimp only [Shared.flat]
      ring
    · rintro ⟨p', h', i, j, hc, hin, g, rfl, hlt⟩
      obtain ⟨p, h, rfl⟩ := List.mem_map.1 h'
      refine ⟨p, h, (i, j, 1), cell2 i j hc, int2 i j hin, ?_⟩
      rw [ex p h _ (int2 i j hin), ey p h _ (int2 i j hin), ez p h _ (int2 i j hin)]
      refine hlt.imp_right fun hl => ?_
      refine lt_of_lt_of_eq hl ?_
      unfold Tag.dot
      dsimp only [Shared.flat]
      ring

theorem fits_flat (env : Env) (crit : Tag.Criterion) (hs : Same env.criterion crit) (sh : Shared) (hf : Fits env sh)
    (ps : List Tag.Patch) : Tag.Fits ⟨crit, env.ivar, none⟩ sh.flat ps := by
  unfold Fits at hf
  unfold Tag.Fits
  generalize hce : env.criterion = ce at hs hf
  cases hs with
  | gradient =>
    intro p _
    exact ⟨hf.1, hf.2.1, fun _ h => by cases h⟩
  | _ => trivial

/-- C85, solutions that do not depend on the layer.  For the built-in criteria a patch with layers is tagged for
refinement, and a family for coarsening, exactly as the patches without layers are in the two-dimensional version. -/
theorem C85_flat (env : Env) (crit : Tag.Criterion) (hs : Same env.criterion crit) (sh : Shared) (hok : sh.Ok env.ivar)
    (hf : Fits env sh) (p0 p1 p2 p3 : Patch) (hp : ∀ p ∈ [p0, p1, p2, p3], SameLayers sh p) :
    (∀ p ∈ [p0, p1, p2, p3],
      tag4refinement env sh p = Tag.tag4refinement ⟨crit, env.ivar, none⟩ sh.flat (flat p)) ∧
    tag4coarsening env sh p0 p1 p2 p3 =
      Tag.tag4coarsening ⟨crit, env.ivar, none⟩ sh.flat (flat p0) (flat p1) (flat p2) (flat p3) := by
  have hok' : sh.flat.Ok env.ivar := ⟨hok.mx, hok.my, hok.mbc, hok.lower, hok.upper⟩
  constructor
  · intro p hm
    obtain ⟨t, e, ht, htt⟩ := C85_refine env sh p hok hf
    obtain ⟨t', e', ht', htt'⟩ := Tag.C52_refine ⟨crit, env.ivar, none⟩ sh.flat (flat p) hok' (fits_flat env crit hs sh hf _)
    rw [e, e']
    congr 1
    have hi : t = 1 ↔ t' = 1 := by
      rw [htt, htt', found_flat env crit hs sh hok (AllLayers sh.dims) (fun _ h => h) (layers_all _) [p]
        (by intro x hx; rw [List.mem_singleton] at hx; rw [hx]; exact hp p hm)]
      rfl
    rcases ht with rfl | rfl <;> rcases ht' with rfl | rfl <;> simp_all
  · obtain ⟨b, e, hb⟩ := C85_coarsen env sh p0 p1 p2 p3 hok hf
    obtain ⟨b', e', hb'⟩ := Tag.C52_coarsen ⟨crit, env.ivar, none⟩ sh.flat (flat p0) (flat p1) (flat p2) (flat p3) hok'
      (fits_flat env crit hs sh hf _)
    rw [e, e']
    congr 1
    rw [Bool.eq_iff_iff, hb, hb', found_flat env crit hs sh hok (Layers sh.dims) (layers_all _) (fun _ h => h) _ hp]
    rfl

/-! ### The disagreement, and examples -/

def exShared : Shared :=
  { dims := { mx := 4, my := 4, mz := 2, mbc := 1, meqn := 2 }, blockno := 0, zlower := 0, dx := 1, dy := 1, dz := 1,
    threshold := 1, initFlag := 0 }

/-- Nothing but a large value in the ghost cells below the patch. -/
def exPatch : Patch := { q := fun c => if c.2.2.1 = 0 ∧ c.2.2.2 = 2 then 5 else 0, xlower := 0, ylower := 0 }

/-- A step from one cell to the next, in the upper layer and repeated above it. -/
def stepPatch : Patch :=
  { q := fun c => if 3 ≤ c.1 ∧ 2 ≤ c.2.2.1 ∧ c.2.2.2 = 2 then 4 else 0, xlower := 0, ylower := 0 }

/-- A step from one cell to the next, in all layers. -/
def wallPatch : Patch := { q := fun c => if 3 ≤ c.1 ∧ c.2.2.2 = 2 then 4 else 0, xlower := 0, ylower := 0 }

theorem exShared_ok : exShared.Ok 2 :=
  ⟨by decide, by decide, by decide, by decide, by decide, by decide⟩

theorem exPatch_layers (c : Pos) (h : Layers exShared.dims c.2.2) (mq : ℤ) : exPatch.at c mq = 0 := by
  have h1 : 1 ≤ c.2.2 := h.1
  show (if c.2.2 = 0 ∧ mq = 2 then (5 : ℚ) else 0) = 0
  rw [if_neg (by omega)]

/-- The code tests all layers of ghost cells for refinement, but for coarsening only the layers of the patch: with equal
thresholds and the criterion `value` or `minmax`, a family is tagged for coarsening although each of its members is
tagged for refinement, because of a value in the ghost cells below the patch. -/
theorem C85_exclusive_counterexample (crit : Criterion) (hcr : crit = .value ∨ crit = .minmax) :
    ∃ (sh : Shared) (p : Patch), sh.Ok 2 ∧ Fits ⟨crit, 2⟩ sh ∧ tag4coarsening ⟨crit, 2⟩ sh p p p p = some true ∧
      tag4refinement ⟨crit, 2⟩ sh p = some 1 := by
  have hfit : Fits ⟨crit, 2⟩ exShared := by rcases hcr with rfl | rfl <;> trivial
  have hA : IsCell exShared.dims (AllLayers exShared.dims) (1, 1, 0) := by
    unfold IsCell AllLayers; decide
  have hB : IsCell exShared.dims (AllLayers exShared.dims) (1, 1, 1) := by
    unfold IsCell AllLayers; decide
  refine ⟨exShared, exPatch, exShared_ok, hfit, ?_, ?_⟩
  · obtain ⟨b, e, hb⟩ := C85_coarsen ⟨crit, 2⟩ exShared exPatch exPatch exPatch exPatch exShared_ok hfit
    rw [e]
    congr 1
    rw [hb]
    refine ⟨by norm_num [exShared], rfl, ?_⟩
    rcases hcr with rfl | rfl
    · rintro ⟨p, hp, c, hc, hlt⟩
      have e1 : p = exPatch := by simpa using hp
      subst e1
      have hlt' : (1 : ℚ) < exPatch.at c 2 := hlt
      rw [exPatch_layers c hc.2.2] at hlt'
      norm_num at hlt'
    · rintro ⟨p, hp, c, hc, p', hp', c', hc', hlt⟩
      have e1 : p = exPatch := by simpa using hp
      have e2 : p' = exPatch := by simpa using hp'
      subst e1 e2
      have hlt' : (1 : ℚ) < exPatch.at c 2 - exPatch.at c' 2 := hlt
      rw [exPatch_layers c hc.2.2, exPatch_layers c' hc'.2.2] at hlt'
      norm_num at hlt'
  · obtain ⟨t, e, ht, htt⟩ := C85_refine ⟨crit, 2⟩ exShared exPatch exShared_ok hfit
    rw [e]
    congr 1
    rw [htt]
    right
    rcases hcr with rfl | rfl
    · exact ⟨exPatch, by simp, (1, 1, 0), hA, show (1 : ℚ) < 5 by norm_num⟩
    · exact ⟨exPatch, by simp, (1, 1, 0), hA, exPatch, by simp, (1, 1, 1), hB, show (1 : ℚ) < 5 - 0 by norm_num⟩

/-- Patches for which the ghost cells above and below are harmless, and a family of them that is tagged. -/
example : Harmless ⟨.minmax, 2⟩ exShared stepPatch ∧
    tag4coarsening ⟨.minmax, 2⟩ { exShared with threshold := 4 } stepPatch stepPatch stepPatch stepPatch = some true ∧
    tag4refinement ⟨.minmax, 2⟩ { exShared with threshold := 3 } stepPatch = some 1 := by
  refine ⟨?_, by decide +kernel, by decide +kernel⟩
  intro c hc
  have hc' := hc
  unfold IsCell AllLayers exShared at hc'
  dsimp only at hc'
  by_cases h : 2 ≤ c.2.2
  · refine ⟨(c.1, c.2.1, 2), ⟨hc.1, hc.2.1, show Layers exShared.dims 2 by constructor <;> decide⟩, ?_⟩
    show (if 3 ≤ c.1 ∧ 2 ≤ c.2.2 ∧ (2 : ℤ) = 2 then (4 : ℚ) else 0) = if 3 ≤ c.1 ∧ (2 : ℤ) ≤ 2 ∧ (2 : ℤ) = 2 then 4 else 0
    simp [h]
  · refine ⟨(c.1, c.2.1, 1), ⟨hc.1, hc.2.1, show Layers exShared.dims 1 by constructor <;> decide⟩, ?_⟩
    show (if 3 ≤ c.1 ∧ 2 ≤ c.2.2 ∧ (2 : ℤ) = 2 then (4 : ℚ) else 0) = if 3 ≤ c.1 ∧ (2 : ℤ) ≤ 1 ∧ (2 : ℤ) = 2 then 4 else 0
    simp [h]

/-- A jump between layers alone is noticed. -/
example : Fits ⟨.difference, 2⟩ exShared ∧ tag4refinement ⟨.difference, 2⟩ exShared exPatch = some 1 ∧
    tag4coarsening ⟨.difference, 2⟩ exShared exPatch exPatch exPatch exPatch = some false ∧
    tag4refinement ⟨.gradient, 2⟩ exShared exPatch = some 1 ∧
    tag4coarsening ⟨.gradient, 2⟩ { exShared with threshold := 3 } exPatch exPatch exPatch exPatch = some true :=
  ⟨trivial, by decide +kernel, by decide +kernel, by decide +kernel, by decide +kernel⟩

/-- A solution that does not depend on the layer. -/
example : SameLayers exShared wallPatch ∧ Same .gradient .gradient ∧ Fits ⟨.gradient, 2⟩ exShared ∧
    tag4refinement ⟨.gradient, 2⟩ exShared wallPatch = some 1 :=
  ⟨fun _ _ _ _ _ => rfl, .gradient, ⟨by norm_num [exShared], by norm_num [exShared], by norm_num [exShared]⟩,
    by decide +kernel⟩

/-- A user criterion on the values of the first variable, in the cells of the patch only. -/
def exUser (a : Args) : ℤ :=
  if a.isGhost = false ∧ 1 ≤ a.meqn ∧ ∃ v ∈ a.qval 1, a.threshold < v then 1 else 0

example : Local exUser ∧ Antitone exUser ∧ ∀ p, Harmless ⟨.user (some exUser), 2⟩ exShared p := by
  refine ⟨?_, ?_, ?_⟩
  · intro a lo hi val' quad' hv _
    unfold exUser
    dsimp only
    by_cases h : 1 ≤ a.meqn
    · simp only [hv 1 le_rfl h]
    · rw [if_neg (fun h' => h h'.2.1), if_neg (fun h' => h h'.2.1)]
  · intro a lower hl h
    unfold exUser at h ⊢
    rw [pos_ite] at h ⊢
    obtain ⟨h0, h1, v, hv, h2⟩ := h
    exact ⟨h0, h1, v, hv, lt_of_le_of_lt hl h2⟩
  · intro p th c _ hno h
    unfold exUser at h
    rw [pos_ite] at h
    exact hno ((isGhost_false _ _).1 h.1).2.2

end Fclaw.Tag3

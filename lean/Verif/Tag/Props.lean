/-
C52: default tagging follows the chosen criterion and never refines and coarsens
at once.
-/
import Verif.Tag.Lemmas
import Mathlib.Tactic.NormNum

set_option autoImplicit false
set_option linter.unusedSimpArgs false

namespace Fclaw.Tag

open Fclaw.Fort

/-- C52, refinement.  With a negative threshold every patch is tagged.
Otherwise a patch is tagged exactly if one of its cells, ghost cells included
for the criteria that use them, meets the criterion; for `minmax` exactly if two
cells differ by more than the threshold, whatever the order of the scan.  No
array is left and no unset variable is used. -/
theorem C52_refine (env : Env) (sh : Shared) (p : Patch) (hok : sh.Ok env.ivar)
    (hf : Fits env sh [p]) :
    ∃ t, tag4refinement env sh p = some t ∧ (t = 0 ∨ t = 1) ∧
      (t = 1 ↔ sh.threshold < 0 ∨ Found env sh [p]) := by
  unfold tag4refinement
  by_cases hth : sh.threshold < 0
  · rw [if_pos hth]
    exact ⟨1, rfl, Or.inr rfl, by simp [hth]⟩
  · rw [if_neg hth]
    obtain ⟨b, e, hb⟩ := fortTag4refinement_eq env sh p hok hf (not_lt.1 hth)
    refine ⟨_, e, ?_, ?_⟩
    · cases b <;> simp
    · rw [← hb]
      cases b <;> simp [hth]

/-- C52, coarsening.  A family is tagged exactly if the threshold is positive,
the mesh is not being initialised, and no cell of the four patches meets the
criterion; for `minmax`, if no two cells of the whole family differ by more than
the threshold. -/
theorem C52_coarsen (env : Env) (sh : Shared) (p0 p1 p2 p3 : Patch) (hok : sh.Ok env.ivar)
    (hf : Fits env sh [p0, p1, p2, p3]) :
    ∃ b, tag4coarsening env sh p0 p1 p2 p3 = some b ∧
      (b = true ↔ 0 < sh.threshold ∧ sh.initFlag = 0 ∧ ¬ Found env sh [p0, p1, p2, p3]) := by
  unfold tag4coarsening
  by_cases hth : sh.threshold > 0
  · rw [if_pos hth]
    by_cases hi : sh.initFlag = 0
    · obtain ⟨b, e, hb⟩ := fortTag4coarsening_eq env sh p0 p1 p2 p3 hok hf (le_of_lt hth) hi
      rw [e]
      refine ⟨_, rfl, ?_⟩
      rw [← hb]
      cases b <;> simp [hi, hth]
    · refine ⟨false, ?_, by simp [hi]⟩
      unfold fortTag4coarsening
      dsimp only
      rw [if_pos hi]
      rfl
  · rw [if_neg hth]
    exact ⟨false, rfl, by simp [hth]⟩

/-- A user criterion that is met at a lower threshold whenever it is met at a
higher one. -/
def Antitone (f : Args → ℤ) : Prop :=
  ∀ (a : Args) (lower : ℚ), lower ≤ a.threshold → 0 < f a → 0 < f { a with threshold := lower }

theorem found_lower (env : Env) (sh : Shared) (ps qs : List Patch) (c : ℚ) (hc : 0 < c)
    (hle : c ≤ sh.threshold) (hu : ∀ f, env.criterion = .user (some f) → Antitone f)
    (hps : ∀ p ∈ ps, p ∈ qs) (h : Found env sh ps) :
    Found env { sh with threshold := c } qs := by
  unfold Found Meets at *
  cases hcr : env.criterion with
  | minmax =>
    rw [hcr] at h
    obtain ⟨p, hp, i, j, hij, p', hp', i', j', hij', hlt⟩ := h
    exact ⟨p, hps p hp, i, j, hij, p', hps p' hp', i', j', hij', lt_of_le_of_lt hle hlt⟩
  | value =>
    rw [hcr] at h
    obtain ⟨p, hp, i, j, hij, hlt⟩ := h
    exact ⟨p, hps p hp, i, j, hij, lt_of_le_of_lt hle hlt⟩
  | difference =>
    rw [hcr] at h
    obtain ⟨p, hp, i, j, hij, hin, hlt⟩ := h
    exact ⟨p, hps p hp, i, j, hij, hin,
      hlt.imp (fun h => lt_of_le_of_lt hle h) (fun h => lt_of_le_of_lt hle h)⟩
  | gradient =>
    rw [hcr] at h
    obtain ⟨p, hp, i, j, hij, hin, g, hg, hlt⟩ := h
    refine ⟨p, hps p hp, i, j, hij, hin, g, hg, ?_⟩
    rcases hlt with hlt | hlt
    · exfalso; linarith
    · right
      refine lt_of_le_of_lt ?_ hlt
      show c ^ 2 ≤ sh.threshold ^ 2
      nlinarith
  | user f =>
    rw [hcr] at h
    cases f with
    | none =>
      obtain ⟨p, hp, i, j, hij, hF⟩ := h
      exact hF.elim
    | some f =>
      obtain ⟨p, hp, i, j, hij, hlt⟩ := h
      exact ⟨p, hps p hp, i, j, hij, hu f hcr (argsOf env.ivar sh p i j) c hle hlt⟩
  | other =>
    rw [hcr] at h
    obtain ⟨p, hp, i, j, hij, hF⟩ := h
    exact hF.elim

/-- C52, both.  If the coarsening threshold does not exceed the refinement
threshold, no member of a family that is tagged for coarsening is tagged for
refinement. -/
theorem C52_exclusive (env : Env) (sh : Shared) (refine coarsen : ℚ) (hle : coarsen ≤ refine)
    (p0 p1 p2 p3 : Patch) (hok : sh.Ok env.ivar) (hf : Fits env sh [p0, p1, p2, p3])
    (hu : ∀ f, env.criterion = .user (some f) → Antitone f)
    (h : tag4coarsening env { sh with threshold := coarsen } p0 p1 p2 p3 = some true)
    (p : Patch) (hp : p ∈ [p0, p1, p2, p3]) :
    tag4refinement env { sh with threshold := refine } p = some 0 := by
  have fit : ∀ (th : ℚ) (ps : List Patch), (∀ p ∈ ps, p ∈ [p0, p1, p2, p3]) →
      Fits env { sh with threshold := th } ps := by
    intro th ps hps
    unfold Fits at hf ⊢
    cases hcr : env.criterion with
    | gradient =>
      rw [hcr] at hf
      exact fun x hx => hf x (hps x hx)
    | user f =>
      rw [hcr] at hf
      cases f with
      | none => exact hf
      | some f => exact hf
    | other => rw [hcr] at hf; exact hf
    | _ => trivial
  have ok : ∀ th : ℚ, Shared.Ok { sh with threshold := th } env.ivar := fun th =>
    ⟨hok.mx, hok.my, hok.mbc, hok.lower, hok.upper⟩
  obtain ⟨b, e, hb⟩ := C52_coarsen env { sh with threshold := coarsen } p0 p1 p2 p3 (ok _)
    (fit _ _ (fun _ h => h))
  rw [h] at e
  obtain rfl := Option.some.inj e
  obtain ⟨hpos, _, hnf⟩ := hb.1 rfl
  obtain ⟨t, et, ht, htt⟩ := C52_refine env { sh with threshold := refine } p (ok _)
    (fit _ [p] (by intro x hx; rw [List.mem_singleton] at hx; rw [hx]; exact hp))
  rw [et]
  rcases ht with ht | ht
  · rw [ht]
  · exfalso
    rcases htt.1 ht with hneg | hfd
    · dsimp only at hneg hpos
      linarith
    · exact hnf (found_lower env { sh with threshold := refine } [p] [p0, p1, p2, p3] coarsen hpos
        hle hu (by intro x hx; rw [List.mem_singleton] at hx; rw [hx]; exact hp) hfd)

/-! ### Examples -/

def exShared : Shared :=
  { dims := { mx := 4, my := 4, mbc := 1, meqn := 2 }, blockno := 0, dx := 1, dy := 1,
    threshold := 1, initFlag := 0 }

/-- A step of height two in the ghost cells. -/
def exPatch : Patch :=
  { q := fun c => if c.1 = 5 ∧ c.2.2 = 2 then 2 else 0, xlower := 0, ylower := 0 }

def flatPatch : Patch := { q := fun _ => 0, xlower := 0, ylower := 0 }

theorem cell51 : IsCell exShared.dims 5 1 := ⟨by decide, by decide⟩
theorem cell11 : IsCell exShared.dims 1 1 := ⟨by decide, by decide⟩

theorem exShared_ok : exShared.Ok 2 := ⟨by decide, by decide, by decide, by decide, by decide⟩

example : Fits { criterion := .minmax, ivar := 2, map := none } exShared [exPatch] ∧
    Found { criterion := .minmax, ivar := 2, map := none } exShared [exPatch] := by
  refine ⟨trivial, exPatch, by simp, 5, 1, cell51, exPatch, by simp, 1, 1, cell11, ?_⟩
  norm_num [exShared, exPatch]

/-- A mapping for which the gradient criterion is defined. -/
example : Fits (Env.mk .gradient 2 (some fun _ x y => (2 * x, 3 * y, x + y))) exShared [exPatch] := by
  intro p _
  refine ⟨by norm_num [exShared], by norm_num [exShared], ?_⟩
  intro c2m hc i j _
  obtain rfl := Option.some.inj hc
  unfold tangent1 tangent2 quotient dot
  simp only [exShared]
  ring_nf
  norm_num

example : tag4coarsening { criterion := .difference, ivar := 2, map := none } exShared
    flatPatch flatPatch flatPatch flatPatch = some true := by
  obtain ⟨b, e, hb⟩ := C52_coarsen { criterion := .difference, ivar := 2, map := none } exShared
    flatPatch flatPatch flatPatch flatPatch exShared_ok trivial
  rw [e]
  congr 1
  rw [hb]
  refine ⟨by norm_num [exShared], rfl, ?_⟩
  rintro ⟨p, hp, i, j, _, _, h⟩
  have : p = flatPatch := by simpa using hp
  subst this
  norm_num [flatPatch, exShared] at h

/-- A user criterion on the values of the first variable. -/
def exUser (a : Args) : ℤ :=
  if 1 ≤ a.meqn ∧ ∃ v ∈ a.qval 1, a.threshold < v then 1 else 0

example : Local exUser ∧ Antitone exUser := by
  constructor
  · intro a lo hi val' quad' hv _
    unfold exUser
    dsimp only
    by_cases h : 1 ≤ a.meqn
    · simp only [hv 1 le_rfl h]
    · rw [if_neg (fun h' => h h'.1), if_neg (fun h' => h h'.1)]
  · intro a lower hl h
    unfold exUser at h ⊢
    rw [pos_ite] at h ⊢
    obtain ⟨h1, v, hv, h2⟩ := h
    exact ⟨h1, v, hv, lt_of_le_of_lt hl h2⟩

/-- Without the condition on the thresholds a family can be tagged for coarsening
and each of its members for refinement. -/
theorem C52_thresholds_counterexample :
    ∃ (env : Env) (sh : Shared) (refine coarsen : ℚ) (p : Patch), sh.Ok env.ivar ∧
      Fits env sh [p] ∧ 0 < refine ∧
      tag4coarsening env { sh with threshold := coarsen } p p p p = some true ∧
      tag4refinement env { sh with threshold := refine } p = some 1 := by
  refine ⟨{ criterion := .minmax, ivar := 2, map := none }, exShared, 1, 3, exPatch, exShared_ok,
    trivial, by norm_num, ?_, ?_⟩
  · obtain ⟨b, e, hb⟩ := C52_coarsen { criterion := .minmax, ivar := 2, map := none }
      { exShared with threshold := 3 } exPatch exPatch exPatch exPatch
      ⟨by decide, by decide, by decide, by decide, by decide⟩ trivial
    rw [e]
    congr 1
    rw [hb]
    refine ⟨by norm_num, rfl, ?_⟩
    rintro ⟨p, hp, i, j, _, p', hp', i', j', _, h⟩
    have e1 : p = exPatch := by simpa using hp
    have e2 : p' = exPatch := by simpa using hp'
    subst e1 e2
    simp only [exPatch] at h
    split at h <;> split at h <;> norm_num at h
  · obtain ⟨t, e, ht, htt⟩ := C52_refine { criterion := .minmax, ivar := 2, map := none }
      { exShared with threshold := 1 } exPatch
      ⟨by decide, by decide, by decide, by decide, by decide⟩ trivial
    rw [e]
    congr 1
    rw [htt]
    right
    refine ⟨exPatch, by simp, 5, 1, cell51, exPatch, by simp, 1, 1, cell11, ?_⟩
    norm_num [exPatch]

/-- The option `threshold-variable` is not checked: with a variable that does not
exist the criterion reads outside of its arrays. -/
theorem C52_variable_counterexample :
    ∃ (env : Env) (sh : Shared) (p : Patch), env.criterion = .value ∧ 0 < sh.threshold ∧
      1 ≤ sh.dims.mx ∧ 1 ≤ sh.dims.my ∧ 1 ≤ sh.dims.mbc ∧ 1 ≤ sh.dims.meqn ∧
      tag4refinement env sh p = none :=
  ⟨{ criterion := .value, ivar := 3, map := none }, exShared, flatPatch, rfl,
    by norm_num [exShared], by decide, by decide, by decide, by decide, by decide +kernel⟩

end Fclaw.Tag

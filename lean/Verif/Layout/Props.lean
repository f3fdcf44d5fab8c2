import Verif.Layout.Exchange
import Verif.Layout.Observe
/-
C80: the Clawpack 5 layout differs from the Clawpack 4.6 layout in the order of the elements only.
-/
set_option autoImplicit false
namespace Fclaw.Layout

open Fort Transform CopyGhost Transfer CoarseFine
open GhostPack (Loc Data Buf)
open Bc (Out)
open Tag (Env Shared IsCell)

/-- C80, the layouts: both put the elements of an array one after the other, without gaps or overlaps, into
the same amount of memory. -/
theorem C80_layout (d : Dims) :
    (∀ c, inBox d c = true → 0 ≤ pos46 d c ∧ pos46 d c < size d) ∧
    (∀ c, inBox d c = true → 0 ≤ pos5 d c ∧ pos5 d c < size d) ∧
    (∀ c c', inBox d c = true → inBox d c' = true → pos46 d c = pos46 d c' → c = c') ∧
    (∀ c c', inBox d c = true → inBox d c' = true → pos5 d c = pos5 d c' → c = c') ∧
    (∀ x, 0 ≤ x → x < size d → ∃ c, inBox d c = true ∧ pos46 d c = x) ∧
    ∀ x, 0 ≤ x → x < size d → ∃ c, inBox d c = true ∧ pos5 d c = x :=
  ⟨fun _ h => pos46_range h, fun _ h => pos5_range h, fun _ _ h h' e => pos46_inj h h' e,
    fun _ _ h h' e => pos5_inj h h' e, fun _ h h' => pos46_surj h h', fun _ h h' => pos5_surj h h'⟩

/-- C80: any history of operations that fit the number of ghost layers has the same outcome in both
layouts: the same solution in every cell of every patch, the same areas and registers, or the same failure.
Memory outside of the arrays is not touched. Partial: the number of layers; see the counterexamples. -/
theorem C80_history_partial (d : Dims) (ops : List Op) (hops : ∀ op ∈ ops, op.Fits d) (P : Nat → Patch5 ℚ)
    (X : Nat → Data ℚ) (h : SameState d P X) :
    OutRel (fun P' X' => SameState d P' X' ∧ Untouched d P P') (run (step5 d) ops P) (run (step46 d) ops X) := by
  have key := run_rel (d := d) (P0 := P) ops hops (P := P) (X := X) fun a => ⟨h a, fun _ _ => rfl⟩
  revert key
  generalize run (step5 d) ops P = a
  generalize run (step46 d) ops X = b
  intro key
  cases a <;> cases b <;> first
    | exact key.elim
    | exact ⟨fun a => (key a).1, fun a x hx => (key a).2 x hx⟩
    | trivial

/-- C80: every state in the 4.6 layout has a counterpart in the Clawpack 5 layout. -/
theorem C80_counterpart (d : Dims) (X : Nat → Data ℚ) : ∃ P, SameState d P X := by
  classical
  refine ⟨fun a => ⟨fun x => if h : ∃ c, inBox d c = true ∧ pos5 d c = x then gridOf (X a) h.choose else 0, X a⟩,
    fun a => ⟨fun c hc => ?_, fun _ _ => rfl⟩⟩
  have h : ∃ c', inBox d c' = true ∧ pos5 d c' = pos5 d c := ⟨c, hc, rfl⟩
  show (if h : ∃ c', inBox d c' = true ∧ pos5 d c' = pos5 d c then gridOf (X a) h.choose else 0) = gridOf (X a) c
  rw [dif_pos h, pos5_inj h.choose_spec.1 hc h.choose_spec.2]

/-- C80: with two layers of ghost cells, any history. -/
theorem C80_two_layers (d : Dims) (hb : d.mbc = 2) (ops : List Op) (P : Nat → Patch5 ℚ) (X : Nat → Data ℚ)
    (h : SameState d P X) :
    OutRel (fun P' X' => SameState d P' X' ∧ Untouched d P P') (run (step5 d) ops P) (run (step46 d) ops X) := by
  refine C80_history_partial d ops (fun op _ => ?_) P X h
  have : d.mbc / 2 = 1 := by omega
  cases op <;> first | trivial | exact hb | exact this

/-- C80, tags for coarsening: always the same. -/
theorem C80_coarsen_tags (env : Env) (sh : Shared) (p0 p1 p2 p3 : TagPatch5) (x0 x1 x2 x3 : Tag.Patch)
    (h0 : SameTag sh.dims p0 x0) (h1 : SameTag sh.dims p1 x1) (h2 : SameTag sh.dims p2 x2)
    (h3 : SameTag sh.dims p3 x3) :
    tag4coarsening5 env sh p0 p1 p2 p3 = Tag.tag4coarsening env sh x0 x1 x2 x3 := by
  unfold tag4coarsening5 Tag.tag4coarsening
  rw [fortTag4coarsening_eq5 h0 h1 h2 h3]

/-- C80, tags for refinement: the same for the first variable, and for any variable if values are compared
with the threshold. Partial: other variables, user criteria; see the counterexample. -/
theorem C80_refine_tags_partial (env : Env) (sh : Shared) (p : TagPatch5) (x : Tag.Patch)
    (h : SameTag sh.dims p x) (hc : HasData env sh.dims) (hm : 1 ≤ sh.dims.meqn) (hb : 1 ≤ sh.dims.mbc)
    (hx : 1 ≤ sh.dims.mx) (hy : 1 ≤ sh.dims.my) : tag4refinement5 env sh p = Tag.tag4refinement env sh x :=
  tag4refinement_eq5 h hc hm hb ⟨⟨by omega, by omega⟩, by omega, by omega⟩

/-- C80, diagnostics: the same masses, and the same error norms. The compensations of Kahan's summation, which
the 4.6 routine carries along, are zero at the start. -/
theorem C80_diagnostics (o : Diag.Opts) (d : Dims) (p : DiagPatch5) (x : Diag.Patch) (h : SameDiag d p x)
    (s : Diag.Acc) (hk : s.cKahan = fun _ => 0) :
    consCheck5 o.mapped d p s.mass = (Diag.consCheck o d x s).map Diag.Acc.mass ∧
    errorNorm5 o.mapped d p s.localError = (Diag.errorNorm o d x s).map Diag.Acc.localError ∧
    ∀ s', Diag.consCheck o d x s = some s' → s'.cKahan = fun _ => 0 := by
  have k1 := consCheck_rel (o := o) h s.mass s rfl hk
  have k2 := errorNorm_rel (o := o) h s.localError s rfl
  refine ⟨?_, ?_, ?_⟩
  · cases e : consCheck5 o.mapped d p s.mass <;> cases e' : Diag.consCheck o d x s <;> rw [e, e'] at k1
    · rfl
    · exact k1.elim
    · exact k1.elim
    · exact congrArg some k1.1
  · cases e : errorNorm5 o.mapped d p s.localError <;> cases e' : Diag.errorNorm o d x s <;> rw [e, e'] at k2
    · rfl
    · exact k2.elim
    · exact k2.elim
    · exact congrArg some k2
  · intro s' e'
    cases e : consCheck5 o.mapped d p s.mass <;> rw [e, e'] at k1
    · exact k1.elim
    · exact k1.2

/-! ### Cases that fail -/

/-- One patch per number, all with zeros, except for the solution of patch 0. -/
def ones (a : Nat) : Data ℚ := fun l => match l with
  | .q _ _ _ => if a = 0 then 1 else 0
  | _ => 0

def ones5 (a : Nat) : Patch5 ℚ := ⟨fun _ => if a = 0 then 1 else 0, fun _ => 0⟩

theorem ones_same (d : Dims) : SameState d ones5 ones := by
  intro a
  refine ⟨fun c _ => rfl, fun l hl => ?_⟩
  cases l <;> first | rfl | exact absurd hl (by simp [IsQ])

/-- What is stored for a cell. -/
def cellIn5 (d : Dims) (a : Nat) (c : Cell) : Out (Nat → Patch5 ℚ) → Option ℚ
  | .ok P => some ((P a).q (pos5 d c))
  | _ => none

def cellIn46 (a : Nat) (c : Cell) : Out (Nat → Data ℚ) → Option ℚ
  | .ok X => some (X a (.q c.1 c.2.1 c.2.2))
  | _ => none

theorem differ {d : Dims} (a : Nat) (c : Cell) (hc : inBox d c = true) {x : Out (Nat → Patch5 ℚ)}
    {y : Out (Nat → Data ℚ)} (h : cellIn5 d a c x ≠ cellIn46 a c y) : ¬ OutRel (SameState d) x y := by
  intro hr
  apply h
  cases x <;> cases y <;> first | exact hr.elim | rfl | skip
  exact congrArg some ((hr a).1 c hc)

/-- A patch and its neighbour of half the size, at the upper half of face 1. -/
def tdFace : TData :=
  ⟨⟨1, fun _ => 0⟩, ⟨2, fun a => if a = 0 then 1 / 2 else 1 / 4⟩, fun k => if k = 8 then 4 else 0, 0, false, -1,
    fun _ _ _ => 0⟩

/-- A patch and its neighbour of half the size, at corner 3. -/
def tdCorner : TData :=
  ⟨⟨1, fun _ => 0⟩, ⟨2, fun _ => 1 / 2⟩, fun k => if k = 8 then 4 else 0, 3, false, -1, fun _ _ _ => 0⟩

/-- C80, code that violates it: with four layers of ghost cells, only two are filled from a larger neighbour.
In the 4.6 layout ghost cell (-2,1) becomes 1, in the Clawpack 5 layout it stays 0. -/
theorem C80_interpolate_counterexample :
    SameState ⟨8, 8, 4, 1⟩ ones5 ones ∧
    cellIn46 1 (-2, 1, 1) (step46 ⟨8, 8, 4, 1⟩ (.interpFace 0 1 tdFace 1) ones) = some 1 ∧
    cellIn5 ⟨8, 8, 4, 1⟩ 1 (-2, 1, 1) (step5 ⟨8, 8, 4, 1⟩ (.interpFace 0 1 tdFace 1) ones5) = some 0 ∧
    ¬ OutRel (SameState ⟨8, 8, 4, 1⟩) (step5 ⟨8, 8, 4, 1⟩ (.interpFace 0 1 tdFace 1) ones5)
      (step46 ⟨8, 8, 4, 1⟩ (.interpFace 0 1 tdFace 1) ones) := by
  have h1 : cellIn46 1 (-2, 1, 1) (step46 ⟨8, 8, 4, 1⟩ (.interpFace 0 1 tdFace 1) ones) = some 1 := by decide +kernel
  have h2 : cellIn5 ⟨8, 8, 4, 1⟩ 1 (-2, 1, 1) (step5 ⟨8, 8, 4, 1⟩ (.interpFace 0 1 tdFace 1) ones5) = some 0 := by
    decide +kernel
  refine ⟨ones_same _, h1, h2, differ 1 (-2, 1, 1) (by decide) ?_⟩
  rw [h1, h2]
  decide

/-- C80, code that violates it: with one layer of ghost cells, filling a corner from a larger neighbour
writes outside of the array. -/
theorem C80_corner_counterexample :
    SameState ⟨8, 8, 1, 1⟩ ones5 ones ∧
    (∃ X', step46 ⟨8, 8, 1, 1⟩ (.interpCorner 0 1 tdCorner 3) ones = .ok X') ∧
    step5 ⟨8, 8, 1, 1⟩ (.interpCorner 0 1 tdCorner 3) ones5 = .bad := by
  refine ⟨ones_same _, ?_, ?_⟩
  · have : cellIn46 0 (1, 1, 1) (step46 ⟨8, 8, 1, 1⟩ (.interpCorner 0 1 tdCorner 3) ones) = some 1 := by decide +kernel
    cases h : step46 ⟨8, 8, 1, 1⟩ (.interpCorner 0 1 tdCorner 3) ones with
    | ok X => exact ⟨X, rfl⟩
    | stop => rw [h] at this; exact absurd this (by decide)
    | bad => rw [h] at this; exact absurd this (by decide)
  · have : (interpolateCorner5 ⟨8, 8, 1, 1⟩ tdCorner 3 (ones5 0).q (ones5 1).q).isSome = false := by decide +kernel
    simp only [step5]
    cases h : interpolateCorner5 ⟨8, 8, 1, 1⟩ tdCorner 3 (ones5 0).q (ones5 1).q with
    | none => rfl
    | some _ => rw [h] at this; exact absurd this (by simp)

/-- C80, code that violates it: with three layers of ghost cells, a patch cannot be sent to another
process. -/
theorem C80_exchange_counterexample :
    SameState ⟨12, 12, 3, 1⟩ ones5 ones ∧
    (∃ X', step46 ⟨12, 12, 3, 1⟩ (.exchange 0 1 ⟨2, false, false, false⟩ fun _ => 0) ones = .ok X') ∧
    step5 ⟨12, 12, 3, 1⟩ (.exchange 0 1 ⟨2, false, false, false⟩ fun _ => 0) ones5 = .bad := by
  refine ⟨ones_same _, ?_, ?_⟩
  · have : cellIn46 0 (1, 1, 1)
        (step46 ⟨12, 12, 3, 1⟩ (.exchange 0 1 ⟨2, false, false, false⟩ fun _ => 0) ones) = some 1 := by
      decide +kernel
    cases h : step46 ⟨12, 12, 3, 1⟩ (.exchange 0 1 ⟨2, false, false, false⟩ fun _ => 0) ones with
    | ok X => exact ⟨X, rfl⟩
    | stop => rw [h] at this; exact absurd this (by decide)
    | bad => rw [h] at this; exact absurd this (by decide)
  · have : (localPack5 ⟨12, 12, 3, 1⟩ ⟨2, false, false, false⟩ (ones5 0) fun _ => 0).isSome = false := by
      decide +kernel
    simp only [step5]
    cases h : localPack5 ⟨12, 12, 3, 1⟩ ⟨2, false, false, false⟩ (ones5 0) fun _ => 0 with
    | none => rfl
    | some _ => rw [h] at this; exact absurd this (by simp)

/-- C80, code that violates it: with three layers of ghost cells, interpolation in time leaves out the third
layer of cells. -/
theorem C80_time_counterexample :
    SameState ⟨8, 8, 3, 1⟩ ones5 ones ∧
    cellIn46 1 (3, 3, 1) (step46 ⟨8, 8, 3, 1⟩ (.timeInterp 0 0 1 (1 / 2) 3) ones) = some 1 ∧
    cellIn5 ⟨8, 8, 3, 1⟩ 1 (3, 3, 1) (step5 ⟨8, 8, 3, 1⟩ (.timeInterp 0 0 1 (1 / 2) 3) ones5) = some 0 := by
  refine ⟨ones_same _, ?_, ?_⟩ <;> decide +kernel

/-- C80, code that violates it: tags for refinement by the range of the second variable are not defined. -/
theorem C80_tag_counterexample :
    ∃ (env : Env) (sh : Shared) (p : TagPatch5) (x : Tag.Patch), SameTag sh.dims p x ∧ 1 ≤ sh.dims.meqn ∧
      1 ≤ sh.dims.mbc ∧ 1 ≤ env.ivar ∧ env.ivar ≤ sh.dims.meqn ∧ Tag.tag4refinement env sh x = some 0 ∧
      tag4refinement5 env sh p = none := by
  refine ⟨⟨.minmax, 2, none⟩, ⟨⟨2, 2, 2, 2⟩, 0, 1, 1, 1, 0⟩, ⟨fun _ => 0, 0, 0⟩, ⟨fun _ => 0, 0, 0⟩,
    ⟨fun _ _ => rfl, rfl, rfl⟩, by decide, by decide, by decide, by decide, ?_, ?_⟩ <;> decide +kernel

/-! ### Cases that meet the hypotheses -/

/-- A history with every kind of operation. -/
def exOps : List Op :=
  [.bc 0 (fun _ => 3), .interpFace 0 1 tdFace 1, .interpCorner 0 1 tdCorner 3, .averageFace 0 1 tdFace 1 false,
    .averageCorner 0 1 tdCorner 3 false, .refine 0 (fun g => (g + 2).toNat) 0,
    .coarsen 6 (fun g => (g + 2).toNat) 0, .timeInterp 0 6 7 (1 / 2) 3,
    .exchange 6 8 ⟨2, true, true, true⟩ fun _ => 0]

/-- Patches with a solution that is not constant, in two variables. -/
def exData (a : Nat) : Data ℚ := fun l => match l with
  | .q i j mq => a + 2 * i + 3 * j * j + mq
  | _ => 1

example : (⟨8, 8, 2, 3⟩ : Dims).mbc = 2 := rfl

/-- It completes in the 4.6 layout, and does something. -/
example : cellIn46 8 (1, 1, 2) (run (step46 ⟨8, 8, 2, 3⟩) exOps exData) = some 7 ∧ exData 8 (.q 1 1 2) ≠ 7 := by
  constructor <;> decide +kernel

example : ∀ op ∈ [Op.copyFace 0 1 tdFace 1, .bc 0 (fun _ => 1), .coarsen 0 (fun g => g.toNat) 0],
    op.Fits ⟨8, 8, 5, 1⟩ := by
  intro op h
  simp only [List.mem_cons, List.not_mem_nil, or_false] at h
  rcases h with rfl | rfl | rfl <;> trivial

example : HasData ⟨.gradient, 1, none⟩ ⟨8, 8, 2, 3⟩ ∧ HasData ⟨.value, 3, none⟩ ⟨8, 8, 2, 3⟩ :=
  ⟨rfl, by decide, by decide⟩

example : SameDiag ⟨8, 8, 2, 3⟩ ⟨fun _ => 2, fun _ => 1, none, 1, 1⟩ ⟨fun _ => 2, fun _ => 1, none, 1, 1⟩ ∧
    Diag.Acc.init.cKahan = fun _ => 0 :=
  ⟨⟨fun _ _ => rfl, fun _ _ => rfl, rfl, rfl, rfl⟩, rfl⟩

end Fclaw.Layout

import Verif.Advance.Model
import Verif.GhostAll.Spec
import Verif.TimeInterp.Model
import Verif.Wave.Props
/-
One global time step on all processes (C72): every process goes through its own schedule (Verif/Advance), advances
its patches with the solver (Verif/Wave), interpolates in time (Verif/TimeInterp) and takes part in the updates of
ghost cells (Verif/GhostAll). Between the latter, which are collective, processes run independently of each other, in
any order.

Simplifications, besides those of these parts: no time synchronisation (option `time_sync`, C63); no source terms
(`src2`, fc2d_clawpack46.cpp:432-439). What `b4step2` and `setaux` put into the auxiliary arrays depends on the patch,
the time and the time step. The Riemann solvers may depend on the patch (its block).
-/
set_option autoImplicit false
namespace Fclaw.Parallel

open Fort Transform GhostFill CopyGhost Advance

/-- What does not change during a step: sizes, options, solvers, where patches lie. -/
structure Problem where
  z : Wave.Shape
  o : Wave.Method
  /-- `rpn2` and `rpt2`, `use_fwaves` -/
  R : Nat → Wave.Solver
  fw : Bool
  /-- `block_corner_count` -/
  count : Nat → ℤ → ℤ
  dx : Nat → ℚ
  dy : Nat → ℚ
  /-- `aux` of a patch in a step from `t` by `dt` -/
  aux : Nat → ℚ → ℚ → ℤ → ℤ → ℤ → ℚ
  /-- option `interp_stencil_width` -/
  width : Nat
  S : GhostAll.Setup

def Problem.d (B : Problem) : Dims := B.z.dims

/-- What a process has: the grids of its patches and ghost patches (`griddata`, `griddata_time_interpolated`), the
solution before the last step (`griddata_last`), src/patches/clawpatch/fclaw2d_clawpatch.hpp; and, for the record
only, the largest Courant number of each of its patches in this global step. -/
structure Proc where
  g : State ℚ
  last : Nat → Grid ℚ
  cfl : Nat → ℚ

/-- Nothing happens to patch `x`. -/
def Same (x : Nat) (s s' : Proc) : Prop := s'.g x = s.g x ∧ s'.last x = s.last x ∧ s'.cfl x = s.cfl x

/-- The patches of process `p` on level `l`: `fclaw2d_global_iterate_level`. -/
def Mine (M : Mesh) (p l x : Nat) : Prop := x ∈ M.patches ∧ M.owner x = p ∧ M.level x = (l : Int)

/-- A step of a patch: `clawpack46_update` and `clawpack46_step2`, src/solvers/fc2d_clawpack4.6/fc2d_clawpack46.cpp:259-446,
with `fclaw2d_clawpatch_save_current_step`, fclaw2d_clawpatch.cpp:1546-1551. `c` is the value returned. What is in
`work`, `fm`, … at first is arbitrary. -/
def StepPatch (B : Problem) (x : Nat) (t dt : ℚ) (s s' : Proc) (c : ℚ) : Prop :=
  ∃ m n : Wave.Mem, (∀ i j k, m (.q i j k) = s.g x false (i, j, k)) ∧ (∀ i j k, m (.aux i j k) = B.aux x t dt i j k) ∧
    Wave.step2Wrap B.z B.o (Wave.fluxOf B.z B.o (B.R x) B.fw) (B.count x) (B.dx x) (B.dy x) dt m = some n ∧
    (∀ i j k, s'.g x false (i, j, k) = n (.q i j k)) ∧ s'.g x true = s.g x true ∧ s'.last x = s.g x false ∧
    c = n .cflgrid ∧ s'.cfl x = max (s.cfl x) c

/-- `fclaw2d_patch_has_finegrid_neighbors`, set in `fclaw2d_patch_neighbors_set`, src/fclaw2d_patch.c:976-1032. -/
def hasFine (M : Mesh) (x : Nat) : Prop :=
  (∃ f y0 y1 rf, f < 4 ∧ M.face x f = .half y0 y1 rf) ∨ ∃ k y rk, k < 4 ∧ cornerNbr M x k = .half y rk

/-- `fclaw2d_patch_setup_timeinterp` for a patch. -/
def InterpPatch (B : Problem) (x : Nat) (α : ℚ) (s s' : Proc) : Prop :=
  ∃ q ierror, TimeInterp.setupTimeinterp B.d B.width (s.g x false) (s.last x) α (s.g x true) = some (q, ierror) ∧
    s'.g x true = q ∧ s'.g x false = s.g x false ∧ s'.last x = s.last x ∧ s'.cfl x = s.cfl x

/-- What a process does by itself: `fclaw2d_update_single_step`, src/fclaw2d_update_single_step.c:42-103, where the
largest Courant number (0 if there are no patches) is returned; `fclaw2d_timeinterp`, src/fclaw2d_timeinterp.c:29-60. -/
def Local (B : Problem) (M : Mesh) (p : Nat) : Ev → Proc → Proc → Prop
  | .update l t dt c, s, s' =>
    (∃ κ : Nat → ℚ, (∀ x, Mine M p l x → StepPatch B x t dt s s' (κ x)) ∧
      Wave.IsMax (fun v => ∃ x, Mine M p l x ∧ v = κ x) c) ∧
    ∀ x, ¬ Mine M p l x → Same x s s'
  | .interp l α, s, s' =>
    (∀ x, Mine M p l x → hasFine M x → InterpPatch B x α s s') ∧
    ∀ x, ¬ (Mine M p l x ∧ hasFine M x) → Same x s s'
  | _, _, _ => False

/-- What all processes do together: `fclaw2d_ghost_update`. -/
def Together (B : Problem) (M : Mesh) (P : Nat) : Ev → (Nat → Proc) → (Nat → Proc) → Prop
  | .ghost lo hi _ ti, w, w' => ∀ p, p < P →
    (∃ recv, GhostAll.Received B.d recv ∧
      GhostAll.Update B.d M B.S recv lo hi ti p (fun q => (w q).g) (w' p).g) ∧
    (w' p).last = (w p).last ∧ (w' p).cfl = (w p).cfl
  | _, _, _ => False

/-- Replace the entry of `p`. -/
def upd {α : Type} (f : Nat → α) (p : Nat) (a : α) : Nat → α := fun q => if q = p then a else f q

/-- Processes `0` to `P - 1` carry out the events `logs`: from states `w` to `w'`. At any time any process can do
its next event, if it is one that it does by itself; or all processes do theirs together, if all have the same. -/
inductive Exec (B : Problem) (M : Mesh) (P : Nat) : (Nat → List Ev) → (Nat → Proc) → (Nat → Proc) → Prop
  | done (logs : Nat → List Ev) (w : Nat → Proc) : (∀ p, p < P → logs p = []) → Exec B M P logs w w
  | one (logs : Nat → List Ev) (w w' : Nat → Proc) (p : Nat) (e : Ev) (rest : List Ev) (s : Proc) : p < P →
      logs p = e :: rest → Local B M p e (w p) s → Exec B M P (upd logs p rest) (upd w p s) w' →
      Exec B M P logs w w'
  | all (logs rest : Nat → List Ev) (w w1 w' : Nat → Proc) (e : Ev) : (∀ p, p < P → logs p = e :: rest p) →
      Together B M P e w w1 → Exec B M P rest w1 w' → Exec B M P logs w w'

/-- The coarsest level on each process (`local_minlevel`; beyond the finest level if it has no patches). -/
def Coarsest (M : Mesh) (S : Advance.Setup) (P : Nat) (lm : Nat → Nat) : Prop :=
  ∀ p, p < P → S.globalMinlevel ≤ lm p ∧ ∀ x ∈ M.patches, M.owner x = p → (lm p : Int) ≤ M.level x

/-- The processes are on their way: `done` has happened so far, and `w'` is the state now. -/
inductive Reach (B : Problem) (M : Mesh) (P : Nat) : (Nat → List Ev) → (Nat → Proc) → (Nat → Proc) → Prop
  | start (w : Nat → Proc) : Reach B M P (fun _ => []) w w
  | one (done : Nat → List Ev) (w w1 : Nat → Proc) (p : Nat) (e : Ev) (s : Proc) : Reach B M P done w w1 → p < P →
      Local B M p e (w1 p) s → Reach B M P (upd done p (done p ++ [e])) w (upd w1 p s)
  | all (done : Nat → List Ev) (w w1 w2 : Nat → Proc) (e : Ev) : Reach B M P done w w1 → Together B M P e w1 w2 →
      Reach B M P (fun p => done p ++ [e]) w w2

/-- A global step from time `t` by `dt`, `fclaw2d_advance_all_levels` on all processes, where the coarsest level of
process `p` is `lm p`; `mc p` is what is returned on process `p`. -/
def StepFrom (B : Problem) (M : Mesh) (P : Nat) (S : Advance.Setup) (lm : Nat → Nat) (t dt : ℚ) (w w' : Nat → Proc) (mc : Nat → ℚ) : Prop :=
  ∃ (cfl : Nat → List Ev → ℚ) (logs : Nat → List Ev),
    (∀ p, p < P → advanceAllLevels { S with localMinlevel := lm p } (cfl p) t dt = some (logs p, mc p)) ∧
    Exec B M P logs (fun p => ⟨(w p).g, (w p).last, fun _ => 0⟩) w'

def GlobalStep (B : Problem) (M : Mesh) (P : Nat) (S : Advance.Setup) (t dt : ℚ) (w w' : Nat → Proc) (mc : Nat → ℚ) : Prop :=
  ∃ lm, Coarsest M S P lm ∧ StepFrom B M P S lm t dt w w' mc

/-- `c` is the largest CFL number that any process reports: `fclaw2d_domain_global_maximum`. -/
def Largest (P : Nat) (mc : Nat → ℚ) (c : ℚ) : Prop := Wave.IsMax (fun v => ∃ p, p < P ∧ v = mc p) c

/-- Time and time step, and what the main loop makes of them and the CFL number: whether the step is taken back, and
what comes next; src/fclaw2d_run.c:86-334. -/
structure Control (σ : Type) where
  time : σ → ℚ
  dt : σ → ℚ
  next : σ → ℚ → Bool × σ

/-- `n` global steps, taken back or not (`fclaw2d_restore_time_step`), without regridding. -/
inductive Steps (B : Problem) (M : Mesh) (P : Nat) (S : Advance.Setup) {σ : Type} (K : Control σ) :
    Nat → σ → (Nat → Proc) → σ → (Nat → Proc) → Prop
  | zero (a : σ) (w : Nat → Proc) : Steps B M P S K 0 a w a w
  | accept (n : Nat) (a b e : σ) (w w1 w2 : Nat → Proc) (mc : Nat → ℚ) (c : ℚ) : GlobalStep B M P S (K.time a) (K.dt a) w w1 mc →
      Largest P mc c → K.next a c = (false, b) → Steps B M P S K n b w1 e w2 → Steps B M P S K (n + 1) a w e w2
  | reject (n : Nat) (a b e : σ) (w w1 w1' w2 : Nat → Proc) (mc : Nat → ℚ) (c : ℚ) : GlobalStep B M P S (K.time a) (K.dt a) w w1 mc →
      Largest P mc c → K.next a c = (true, b) → (∀ x ∈ M.patches, (w1' (M.owner x)).g x false = (w (M.owner x)).g x false) →
      Steps B M P S K n b w1' e w2 → Steps B M P S K (n + 1) a w e w2

end Fclaw.Parallel

import Verif.Sync5.Model
import Verif.Conserve.Spec
import Verif.Layout.Spec
/-
What C86 claims: with the solver of Clawpack 5 the corrections are the same as with Clawpack 4.6, and the mesh conserves
mass through any history of steps and synchronisations.
-/
set_option autoImplicit false
namespace Fclaw.Sync5

open Fort CopyGhost Correction GhostFill TimeSync Conserve Layout

/-- The elements of the registers. -/
inductive Addr where
  | fp (side : Nat) (t m : ℤ)
  | fm (side : Nat) (t m : ℤ)
  | gp (side : Nat) (t m : ℤ)
  | gm (side : Nat) (t m : ℤ)
  | ef (face : Nat) (t m k : ℤ)
  deriving DecidableEq

/-- Their values. -/
def value (r : Regs) : Addr → ℚ
  | .fp s t m => r.fp s t m
  | .fm s t m => r.fm s t m
  | .gp s t m => r.gp s t m
  | .gm s t m => r.gm s t m
  | .ef f t m k => r.ef f t m k

/-- The elements that exist. -/
def Exists (d : Dims) : Addr → Prop
  | .fp s t m => s < 2 ∧ (1 ≤ t ∧ t ≤ d.my) ∧ comp d m
  | .fm s t m => s < 2 ∧ (1 ≤ t ∧ t ≤ d.my) ∧ comp d m
  | .gp s t m => s < 2 ∧ (1 ≤ t ∧ t ≤ d.mx) ∧ comp d m
  | .gm s t m => s < 2 ∧ (1 ≤ t ∧ t ≤ d.mx) ∧ comp d m
  | .ef f t m k => f < 4 ∧ (1 ≤ t ∧ t ≤ len d f) ∧ comp d m ∧ (k = 0 ∨ k = 1)

/-- The same registers. -/
structure SameRegs (d : Dims) (r r' : Regs) : Prop where
  area : r.area = r'.area
  el : r.el = r'.el
  value : ∀ x, Exists d x → value r x = value r' x

/-- The flux function of the user looks at no more components than there are. -/
def LocalRpn (d : Dims) (maux : Nat) (rpn : Rpn) : Prop :=
  ∀ (idir iface : Nat) (q q' a a' e e' : ℤ → ℚ) (m : ℤ), (∀ m, comp d m → q m = q' m) →
    (∀ m : ℤ, 1 ≤ m → m ≤ maux → a m = a' m) → (∀ m : ℤ, 1 ≤ m → m ≤ maux → e m = e' m) → comp d m →
    rpn idir iface q a e m = rpn idir iface q' a' e' m

/-- The memory of the fluctuations holds `w'`. -/
structure HoldsWaves (d : Dims) (w : Waves5) (w' : Waves) : Prop where
  fp : Holds d w.fp w'.fp
  fm : Holds d w.fm w'.fm
  gp : Holds d w.gp w'.gp
  gm : Holds d w.gm w'.gm

/-- What memory in the Clawpack 5 layout holds. -/
def view (d : Dims) (m : Mem ℚ) : Grid ℚ := fun c => m (pos5 d c)

def viewWaves (d : Dims) (w : Waves5) : Waves := ⟨view d w.fp, view d w.fm, view d w.gp, view d w.gm⟩

/-- The capacity is what `mcapa` says: 1, or component `mcapa` of the auxiliary variables. -/
def CapaIs (d : Dims) (maux mcapa : Nat) (aux : Grid ℚ) (capa : ℤ → ℤ → ℚ) : Prop :=
  mcapa ≤ maux ∧ ∀ i j, interior d i j → capa i j ≠ 0 ∧ capa i j = if mcapa = 0 then 1 else aux (i, j, mcapa)

/-! ### Histories with Clawpack 5 -/

/-- Solutions and registers of all patches, each on its owner. -/
structure World5 where
  q : Nat → Mem ℚ
  r : Nat → Regs

def World5.set (W : World5) (x : Nat) (q : Mem ℚ) (r : Regs) : World5 :=
  ⟨fun z => if z = x then q else W.q z, fun z => if z = x then r else W.r z⟩

/-- Steps of a patch: any number of them, of any lengths, with whatever ghost values before each of them, and with a
conservative Riemann solver. -/
inductive Evolves5 (d : Dims) (maux mcapa : Nat) (G : Geom d) (rpn : Rpn) (q0 : Mem ℚ) (r0 : Regs) : Mem ℚ → Regs → Prop
  | start : Evolves5 d maux mcapa G rpn q0 r0 q0 r0
  | step (q q' q'' : Mem ℚ) (r r'' : Regs) (dt : ℚ) (aux : Mem ℚ) (w : Waves5) (junk : ℤ → ℚ) :
      Evolves5 d maux mcapa G rpn q0 r0 q r →
      (∀ i j m, interior d i j → comp d m → q' (pos5 d (i, j, m)) = q (pos5 d (i, j, m))) →
      Conservative d G rpn (view d q') (view (auxDims d maux) aux) (viewWaves d w) r.el →
      CapaIs d maux mcapa (view (auxDims d maux) aux) G.capa →
      step5 d maux mcapa junk rpn G.dx G.dy dt aux w q' r = some (q'', r'') →
      Evolves5 d maux mcapa G rpn q0 r0 q'' r''

variable {d : Dims}

/-- Mass of component `m` in the whole domain. -/
def totalMass5 (M : Mesh) (G : Nat → Geom d) (W : World5) (m : ℤ) : ℚ :=
  ∑ x ∈ M.patches.toFinset, ∑ i ∈ upTo d.mx, ∑ j ∈ upTo d.my, (G x).area i j * W.q x (pos5 d (i, j, m))

/-- What the registers at faces between patches still hold. -/
def pending5 (d : Dims) (M : Mesh) (W : World5) (m : ℤ) : ℚ :=
  ∑ x ∈ M.patches.toFinset, ∑ f ∈ (Finset.range 4).filter (fun f => isBoundary (M.face x f) = false),
    gainFace d (W.r x) f m

/-- A synchronisation of the levels from `minl` on, as in C63. -/
structure Synced5 (d : Dims) (M : Mesh) (L : Links) (minl top : Int) (W W' : World5) : Prop where
  each : ∀ p, ∃ s s', (∀ x, Has M p x → s.reg x = W.r x) ∧
    (∀ x ∈ M.patches, M.owner x = p → s.q x = W.q x) ∧
    syncProcess5 d M L p minl top s = some s' ∧
    ∀ x ∈ M.patches, M.owner x = p → W'.q x = s'.q x ∧ W'.r x = s'.reg x

/-- Histories: patches make steps, in any order; and levels are synchronised. `B` is what entered through the physical
boundary. -/
inductive History5 (d : Dims) (maux mcapa : Nat) (M : Mesh) (L : Links) (G : Nat → Geom d) (rpn : Rpn) (top : Int)
    (W0 : World5) : World5 → (ℤ → ℚ) → Prop
  | start : History5 d maux mcapa M L G rpn top W0 W0 (fun _ => 0)
  | steps (W : World5) (B : ℤ → ℚ) (x : Nat) (q : Mem ℚ) (r : Regs) :
      History5 d maux mcapa M L G rpn top W0 W B → x ∈ M.patches →
      Evolves5 d maux mcapa (G x) rpn (W.q x) (W.r x) q r →
      History5 d maux mcapa M L G rpn top W0 (W.set x q r)
        (fun m => B m + (inflow (d := d) M x r m - inflow (d := d) M x (W.r x) m))
  | sync (W W' : World5) (B : ℤ → ℚ) (minl : Int) :
      History5 d maux mcapa M L G rpn top W0 W B → Synced5 d M L minl top W W' →
      History5 d maux mcapa M L G rpn top W0 W' B

/-- Before the first step: registers are empty and hold the areas of the cells along the faces. -/
def Fresh5 (d : Dims) (M : Mesh) (G : Nat → Geom d) (W : World5) : Prop :=
  ∀ x ∈ M.patches, ∃ area el, W.r x = Regs.empty area el ∧ HasAreas d (G x) (W.r x)

end Fclaw.Sync5
